import Verif.Model.Mat
import Mathlib.Data.Fin.VecNotation

/-! # The components of a vector, by number -/

namespace Verif.Spec
variable {α : Type}
/-- The components of a vector of two. -/
def comp2 (v : V2 α) : Fin 2 → α := ![v.x, v.y]
/-- The components of a vector of three. -/
def comp3 (v : V3 α) : Fin 3 → α := ![v.x, v.y, v.z]
/-- The components of a vector of four. -/
def comp4 (v : V4 α) : Fin 4 → α := ![v.x, v.y, v.z, v.w]
/-- The columns of a matrix. -/
def cols4 (m : M4 α) : Fin 4 → V4 α := ![m.c0, m.c1, m.c2, m.c3]

/-- `get` returns component `i` of `f` for `i` below `n` and fails for all other indices. -/
def Reads {n : ℕ} (f : Fin n → α) (get : ℕ → Option α) : Prop :=
  ∀ i, get i = if h : i < n then some (f ⟨i, h⟩) else none

/-- `set` changes component `i` and nothing else for `i` below `n`, and fails for all other indices. -/
def Writes {n : ℕ} {β : Type} (f : β → Fin n → α) (v : β) (set : ℕ → α → Option β) : Prop :=
  ∀ i a, (∀ h : i < n, ∃ w, set i a = some w ∧ f w ⟨i, h⟩ = a ∧ ∀ j : Fin n, (j : ℕ) ≠ i → f w j = f v j) ∧ (n ≤ i → set i a = none)
end Verif.Spec
