import Verif.Spec.SmoothF32

/-!
# The gain curve
-/

namespace Verif.Spec

/-- The gain curve with factor `k`: a power on the lower half of the unit interval, turned half a circle about the middle
for the upper half. -/
noncomputable def gainOf (x k : ℝ) : ℝ := if x < 1 / 2 then (2 * x) ^ k / 2 else 1 - (2 * (1 - x)) ^ k / 2

/-- What the C standard (annex F) asks of `pow` at the two ends of the unit interval, for positive exponents: zero to the
power is zero, one to the power is one. -/
def PowEnds (f : F32 → F32 → F32) : Prop := ∀ b x, b.isFinite = true → x.isFinite = true → 0 < rv x →
  (rv b = 0 → (f b x).isFinite = true ∧ rv (f b x) = 0) ∧ (rv b = 1 → (f b x).isFinite = true ∧ rv (f b x) = 1)

end Verif.Spec
