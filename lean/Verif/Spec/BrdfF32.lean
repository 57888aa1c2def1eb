import Mathlib.Analysis.SpecialFunctions.Trigonometric.Basic
import Verif.Spec.ClosestF32

/-!
# Reflectance helpers in binary32
-/

namespace Verif.Spec

/-- `std::sin` and `std::cos` are accurate to `2^-23` on `[-7, 7]`. -/
def SinCosOk (sin cos : F32 → F32) : Prop :=
  ∀ x : F32, x.isFinite = true → |rv x| ≤ 7 → Near (sin x) (Real.sin (rv x)) (1 / 2 ^ 23) ∧ Near (cos x) (Real.cos (rv x)) (1 / 2 ^ 23)

/-- The Trowbridge-Reitz distribution at the cosine `h` for the roughness `r` is `r² / (π d²)` with this `d`. -/
def ggxDen (h r : ℝ) : ℝ := 1 - (1 - r ^ 2) * h ^ 2

/-- The squared cosine of the sampled angle for the random number `y` and the roughness `a`. -/
noncomputable def ggxCosSq (y a : ℝ) : ℝ := (1 - y) / (1 - (1 - a ^ 2) * y)

/-- The unit vector whose squared cosine to the z axis is `C`, with azimuth `φ`. -/
noncomputable def tilted (C φ : ℝ) : V3 ℝ := ⟨Real.sqrt (1 - C) * Real.cos φ, Real.sqrt (1 - C) * Real.sin φ, Real.sqrt C⟩

end Verif.Spec
