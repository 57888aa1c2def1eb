import Mathlib.Analysis.SpecialFunctions.Pow.Real
import Verif.Spec.Accuracy
import Verif.Spec.Color

/-!
# What is asked of `std::pow` for colors to survive the conversion to linear values
-/

namespace Verif.Spec

/-- `std::pow` on `float` is within one part in 2^20 of the exact power (eight units in the last place; every C library in
use is better than two) for bases in [2^-10, 2] and exponents in [0, 3]. -/
def PowAccurate (pow : F32 → F32 → F32) : Prop :=
  ∀ b e : F32, b.isFinite = true → e.isFinite = true → 1 / 2 ^ 10 ≤ rv b → rv b ≤ 2 → 0 ≤ rv e → rv e ≤ 3 →
    (pow b e).isFinite = true ∧ |rv (pow b e) - rv b ^ rv e| ≤ rv b ^ rv e / 2 ^ 20

end Verif.Spec
