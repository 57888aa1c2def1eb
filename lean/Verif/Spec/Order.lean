import Mathlib.Order.Defs.LinearOrder
import Verif.Model.IntVec

/-! Specification vocabulary for comparisons: what a comparison means on mathematical values. -/

namespace Verif.Spec

/-- The relation a comparison stands for, on integers or rationals. -/
def Holds {α : Type} [LinearOrder α] : Cmp → α → α → Prop
  | .lt, a, b => a < b
  | .gt, a, b => a > b
  | .le, a, b => a ≤ b
  | .ge, a, b => a ≥ b
  | .eq, a, b => a = b
  | .ne, a, b => a ≠ b

/-- A strict total order given as a Boolean function: what an ordered container needs. -/
structure StrictTotal {α : Type} (lt : α → α → Bool) : Prop where
  irrefl : ∀ a, lt a a = false
  trans : ∀ a b c, lt a b = true → lt b c = true → lt a c = true
  total : ∀ a b, a ≠ b → lt a b = true ∨ lt b a = true

end Verif.Spec
