import Verif.Spec.Accuracy
import Mathlib.Analysis.SpecialFunctions.Pow.Real

/-!
# Smoothing over frames in binary32
-/

namespace Verif.Spec

/-- The platform's `std::pow` is right up to four rounding units for bases from 0 (excluded) to 1 and exponents that are
not negative. -/
def PowUnitOk (f : F32 → F32 → F32) : Prop := ∀ b x, b.isFinite = true → x.isFinite = true → 0 < rv b → rv b ≤ 1 → 0 ≤ rv x →
  Near (f b x) (rv b ^ rv x) (1 / 2 ^ 22 * rv b ^ rv x + 1 / 2 ^ 149)

/-- The value reached after the time `s` when the part `f` of the distance to the target `b` is left after each unit of
time. -/
noncomputable def smoothed (a b f s : ℝ) : ℝ := b + f ^ s * (a - b)

end Verif.Spec
