import Verif.Model.FloatOps
import Mathlib.Data.Real.Basic

/-!
# Correct rounding

What IEEE-754 asks of an operation whose exact result is the real number `ρ`.
-/

namespace Verif

/-- `r` is a finite value nearest to the real number `ρ`: no other binary32 value is closer. -/
def F32.IsNearest (r : F32) (ρ : ℝ) : Prop :=
  r.isFinite ∧ ∀ y : F32, y.isFinite → |(r.toRat : ℝ) - ρ| ≤ |(y.toRat : ℝ) - ρ|

/-- The largest finite binary32 value. -/
def Spec.maxFloat : Rat := (2 ^ 24 - 1) * 2 ^ 104

/-- The exact result of an operator. -/
def Spec.fExact : FOp → Rat → Rat → Rat
  | .add, a, b => a + b
  | .sub, a, b => a - b
  | .mul, a, b => a * b
  | .div, a, b => a / b

/-- `r` is an acceptable binary32 result of `a op b`: NaN when an operand is NaN; for finite operands (and a non-zero
divisor) whose exact result is in range, a nearest representable value. -/
def Spec.fOk (op : FOp) (a b r : F32) : Prop :=
  ((a.isNaN ∨ b.isNaN) → r.isNaN) ∧
  (a.isFinite → b.isFinite → (op = .div → b.toRat ≠ 0) → |Spec.fExact op a.toRat b.toRat| ≤ Spec.maxFloat →
    r.IsNearest (Spec.fExact op a.toRat b.toRat : Rat))

/-- Comparison of two binary32 values: any comparison with NaN is false except `!=`, and finite values compare as
numbers. -/
def Spec.fCmp (c : Cmp) (a b : F32) (holds : Prop) : Prop :=
  ((a.isNaN ∨ b.isNaN) → (holds ↔ c = .ne)) ∧
  (a.isFinite → b.isFinite → (holds ↔ match c with
    | .lt => a.toRat < b.toRat | .gt => a.toRat > b.toRat | .le => a.toRat ≤ b.toRat | .ge => a.toRat ≥ b.toRat
    | .eq => a.toRat = b.toRat | .ne => a.toRat ≠ b.toRat))

end Verif
