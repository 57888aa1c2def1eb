import Mathlib.Data.Real.Basic

/-!
# Rounding to double precision
-/

namespace Verif.Spec

/-- `rd` rounds to double precision: the relative error is at most `2^-53` (for numbers far from underflow and overflow). -/
def DoubleOk (rd : Rat → Rat) : Prop := ∀ q : Rat, 1 / 2 ^ 100 ≤ |q| → |q| ≤ 2 ^ 100 → |rd q - q| ≤ |q| / 2 ^ 53

end Verif.Spec
