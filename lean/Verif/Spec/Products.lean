import Mathlib.Analysis.Quaternion
import Mathlib.Analysis.Matrix.Normed
import Verif.Spec.Quat
import Verif.Spec.Accuracy

/-!
# Products of many factors

A product of any number of factors with any placement of parentheses, as a binary tree. The same tree is evaluated by the
code (with rounding after each multiplication) and exactly.
-/

namespace Verif.Spec
open Quaternion

/-- A product with all its parentheses. -/
inductive Product (α : Type) where
  /-- A factor. -/
  | factor (a : α)
  /-- The product of two products. -/
  | times (l r : Product α)

/-- The value of a product, when factors are read by `f` and multiplied by `op`. -/
def Product.eval {α β : Type} (f : α → β) (op : β → β → β) : Product α → β
  | .factor a => f a
  | .times l r => op (l.eval f op) (r.eval f op)

/-- How many multiplications a product takes. -/
def Product.count {α : Type} : Product α → ℕ
  | .factor _ => 0
  | .times l r => l.count + r.count + 1

/-- All factors have the property `p`. -/
def Product.All {α : Type} (p : α → Prop) : Product α → Prop
  | .factor a => p a
  | .times l r => l.All p ∧ r.All p

/-- The sizes of the factors, multiplied, stay between `lo` and `hi` in the product and in every product it contains. -/
def Product.Between {α : Type} (size : α → ℝ) (lo hi : ℝ) : Product α → Prop
  | .factor a => lo ≤ size a ∧ size a ≤ hi
  | .times l r => l.Between size lo hi ∧ r.Between size lo hi ∧
      lo ≤ (Product.times l r).eval size (· * ·) ∧ (Product.times l r).eval size (· * ·) ≤ hi

/-- The factors from the first to the last, multiplied from left to right: `((q * a) * b) * c ...`, which is what a loop
with `q = q * a` computes. -/
def Product.fromLeft {α : Type} (q : α) (l : List α) : Product α := l.foldl (fun p a => .times p (.factor a)) (.factor q)

/-- The Hamilton quaternion with the real values of the lanes. -/
noncomputable def quatOf (q : V4 F32) : ℍ[ℝ] := toQ ⟨rv q.x, rv q.y, rv q.z, rv q.w⟩

/-- The real matrix with the values of the entries. -/
noncomputable def matOf (m : M4 F32) : Matrix (Fin 4) (Fin 4) ℝ :=
  mat4 ⟨⟨rv m.c0.x, rv m.c0.y, rv m.c0.z, rv m.c0.w⟩, ⟨rv m.c1.x, rv m.c1.y, rv m.c1.z, rv m.c1.w⟩,
        ⟨rv m.c2.x, rv m.c2.y, rv m.c2.z, rv m.c2.w⟩, ⟨rv m.c3.x, rv m.c3.y, rv m.c3.z, rv m.c3.w⟩⟩

/-- The largest sum of absolute values along a row: how much the matrix can enlarge the largest coordinate of a vector. -/
noncomputable def rowNorm (m : Matrix (Fin 4) (Fin 4) ℝ) : ℝ :=
  Finset.univ.sup' Finset.univ_nonempty (fun i => ∑ j, |m i j|)

end Verif.Spec
