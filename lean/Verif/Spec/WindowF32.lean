import Verif.Spec.Accuracy
import Mathlib.Analysis.SpecialFunctions.Trigonometric.Basic

/-!
# Windowing of spherical harmonics in binary32
-/

namespace Verif.Spec

/-- The platform's `std::sin` is right up to four rounding units for arguments from 0 to 4. -/
def SinWideOk (f : F32 → F32) : Prop := ∀ x, x.isFinite = true → 0 ≤ rv x → rv x ≤ 4 →
  Near (f x) (Real.sin (rv x)) (1 / 2 ^ 22 * |Real.sin (rv x)| + 1 / 2 ^ 149)

/-- The factor by which band `l` is scaled at the cutoff `c`: one for the constant band, the fourth power of `sin x / x` at
`x = pi l / c` below the cutoff, and zero from the cutoff on. -/
noncomputable def bandFactor (l : ℕ) (c : ℝ) : ℝ :=
  if l = 0 then 1 else if c ≤ l then 0 else (Real.sin (Real.pi * l / c) / (Real.pi * l / c)) ^ 4

end Verif.Spec
