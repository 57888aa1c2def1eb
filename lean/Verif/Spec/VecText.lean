import Verif.Spec.Text
import Verif.Model.F32
import Mathlib.Algebra.Order.Field.Rat
import Mathlib.Algebra.Order.Group.Unbundled.Abs

/-!
# Reading numbers back from text
-/

namespace Verif.Spec

/-- Read a decimal integer with an optional minus sign. -/
def readInteger (s : List Char) : Option Int :=
  match s with
  | '-' :: t => (readDecimal t).map fun n : Nat => -(n : Int)
  | t => (readDecimal t).map fun n : Nat => (n : Int)

/-- Read a non-negative number with a decimal point: `12.034`. -/
def readPoint (s : List Char) : Option Rat :=
  match splitAt '.' s with
  | [a, b] => do return (← readDecimal a : Nat) + ((← readDecimal b : Nat) : Rat) / 10 ^ b.length
  | _ => none

/-- Read a number with an optional minus sign and a decimal point. -/
def readNumber (s : List Char) : Option Rat :=
  match s with
  | '-' :: t => (readPoint t).map fun q : Rat => -q
  | t => readPoint t

/-- The text reads as a number within half a millionth of the value of `x`. -/
def ReadsNear (s : List Char) (x : F32) : Prop := ∃ q, readNumber s = some q ∧ (2 : Rat) * 10 ^ 6 * |q - x.toRat| ≤ 1

end Verif.Spec
