import Mathlib.Data.Fin.VecNotation
import Mathlib.Tactic.FinCases
import Verif.Model.MatShape
import Verif.Model.RealFlt
import Verif.Model.F32
import Verif.Spec.Entry

/-!
# Matrix shapes (C72)

Conversions between matrix types keep every element at its row and column; columns are read back by index;
operators with a scalar act on every element. The statements hold for every component type, hence for the
`float` values themselves, NaN and infinities included.
-/

namespace Verif
open Spec
variable {α : Type}

/-- C72: narrowing keeps the upper-left block, from every shape to every smaller shape. -/
theorem matShape_narrow (m : M4 α) (n : M43 α) (k : M3 α) :
    (∀ r c, el43 m.to43 r c = el4 m r.castSucc c) ∧
    (∀ r c, el3 m.to3 r c = el4 m r.castSucc c.castSucc) ∧
    (∀ r c, el2 m.to2 r c = el4 m r.castSucc.castSucc c.castSucc.castSucc) ∧
    (∀ r c, el3 n.to3 r c = el43 n r c.castSucc) ∧
    (∀ r c, el2 n.to2 r c = el43 n r.castSucc c.castSucc.castSucc) ∧
    (∀ r c, el2 k.to2 r c = el3 k r.castSucc c.castSucc) := by
  refine ⟨?_, ?_, ?_, ?_, ?_, ?_⟩ <;> intro r c <;> fin_cases r <;> fin_cases c <;> rfl

/-- C72: widening puts the given matrix in the upper-left block; the new last row and column are the given
vectors. The corner of the three-by-three form comes from the column, not from the row. -/
theorem matShape_widen (n : M43 α) (k : M3 α) (c3 r3 : V4 α) :
    (∀ r c, el4 (M4.of43 n r3) (Fin.castSucc r) c = el43 n r c) ∧
    (∀ c, el4 (M4.of43 n r3) (Fin.last 3) c = co4 r3 c) ∧
    (∀ r c, el4 (M4.of3 k c3 r3) (Fin.castSucc r) (Fin.castSucc c) = el3 k r c) ∧
    (∀ c, el4 (M4.of3 k c3 r3) (Fin.last 3) (Fin.castSucc c) = co4 r3 (Fin.castSucc c)) ∧
    (∀ r, el4 (M4.of3 k c3 r3) r (Fin.last 3) = co4 c3 r) := by
  refine ⟨?_, ?_, ?_, ?_, ?_⟩
  · intro r c; fin_cases r <;> fin_cases c <;> rfl
  · intro c; fin_cases c <;> rfl
  · intro r c; fin_cases r <;> fin_cases c <;> rfl
  · intro c; fin_cases c <;> rfl
  · intro r; fin_cases r <;> rfl

/-- C72: widening and narrowing back returns the same matrix, and narrowing then widening with the removed row
and column does as well. -/
theorem matShape_roundtrip (n : M43 α) (k : M3 α) (m : M4 α) (c3 r3 : V4 α) :
    (M4.of43 n r3).to43 = n ∧ (M4.of3 k c3 r3).to3 = k ∧
    M4.of43 m.to43 ⟨m.c0.w, m.c1.w, m.c2.w, m.c3.w⟩ = m ∧
    M4.of3 m.to3 m.c3 ⟨m.c0.w, m.c1.w, m.c2.w, m.c3.w⟩ = m :=
  ⟨rfl, rfl, rfl, rfl⟩

/-- C72: the row-by-row constructors put the `i`-th argument of row `r` at column `i`. -/
theorem matShape_ofRows (f : Fin 4 → Fin 4 → α) :
    (∀ r c, el4 (M4.ofRows (f 0 0) (f 0 1) (f 0 2) (f 0 3) (f 1 0) (f 1 1) (f 1 2) (f 1 3)
      (f 2 0) (f 2 1) (f 2 2) (f 2 3) (f 3 0) (f 3 1) (f 3 2) (f 3 3)) r c = f r c) ∧
    (∀ r c, el43 (M43.ofRows (f 0 0) (f 0 1) (f 0 2) (f 0 3) (f 1 0) (f 1 1) (f 1 2) (f 1 3)
      (f 2 0) (f 2 1) (f 2 2) (f 2 3)) r c = f r.castSucc c) ∧
    (∀ r c, el3 (M3.ofRows (f 0 0) (f 0 1) (f 0 2) (f 1 0) (f 1 1) (f 1 2) (f 2 0) (f 2 1) (f 2 2)) r c =
      f r.castSucc c.castSucc) ∧
    (∀ r c, el2 (M2.ofRows (f 0 0) (f 0 1) (f 1 0) (f 1 1)) r c = f r.castSucc.castSucc c.castSucc.castSucc) := by
  refine ⟨?_, ?_, ?_, ?_⟩ <;> intro r c <;> fin_cases r <;> fin_cases c <;> rfl

/-- C72: `m[i]` is column `i` for every valid index of the square matrices, and an index past the end is a failed
assertion. -/
theorem matShape_columns (m : M4 α) (k : M3 α) (n : M2 α) (i : Nat) :
    (∀ (h : i < 4), ∃ v, m.get i = some v ∧ ∀ r, co4 v r = el4 m r ⟨i, h⟩) ∧ (4 ≤ i → m.get i = none) ∧
    (∀ (h : i < 3), ∃ v, k.get i = some v ∧ ∀ r, co3 v r = el3 k r ⟨i, h⟩) ∧ (3 ≤ i → k.get i = none) ∧
    (∀ (h : i < 2), ∃ v, n.get i = some v ∧ ∀ r, co2 v r = el2 n r ⟨i, h⟩) ∧ (2 ≤ i → n.get i = none) := by
  refine ⟨?_, ?_, ?_, ?_, ?_, ?_⟩
  · intro h; obtain rfl | rfl | rfl | rfl : i = 0 ∨ i = 1 ∨ i = 2 ∨ i = 3 := by omega
    all_goals exact ⟨_, rfl, fun r => by fin_cases r <;> rfl⟩
  · intro h; unfold M4.get; rw [if_neg (by omega)]
  · intro h; obtain rfl | rfl | rfl : i = 0 ∨ i = 1 ∨ i = 2 := by omega
    all_goals exact ⟨_, rfl, fun r => by fin_cases r <;> rfl⟩
  · intro h; unfold M3.get; rw [if_neg (by omega)]
  · intro h; obtain rfl | rfl : i = 0 ∨ i = 1 := by omega
    all_goals exact ⟨_, rfl, fun r => by fin_cases r <;> rfl⟩
  · intro h; unfold M2.get; rw [if_neg (by omega)]

/-- C72, what the code does for the four-column, three-row matrix: columns 0, 1 and 2 are readable, but the
assertion rejects the valid index 3, so "every column can be read by index" is false of `float4x3`. -/
theorem matShape_column3_rejected (m : M43 α) :
    (∀ (i : Nat) (h : i < 3), ∃ v, m.get i = some v ∧ ∀ r, co3 v r = el43 m r ⟨i, by omega⟩) ∧
    m.get 3 = none := by
  refine ⟨?_, rfl⟩
  intro i h
  obtain rfl | rfl | rfl : i = 0 ∨ i = 1 ∨ i = 2 := by omega
  all_goals exact ⟨_, rfl, fun r => by fin_cases r <;> rfl⟩

/-- C72: an operator with a scalar acts on every element. -/
theorem matShape_scalar (op : α → α → α) (s : α) (m : M4 α) (n : M43 α) (k : M3 α) (j : M2 α) :
    (∀ r c, el4 (m.scalarOp op s) r c = op (el4 m r c) s) ∧
    (∀ r c, el43 (n.scalarOp op s) r c = op (el43 n r c) s) ∧
    (∀ r c, el3 (k.scalarOp op s) r c = op (el3 k r c) s) ∧
    (∀ r c, el2 (j.scalarOp op s) r c = op (el2 j r c) s) := by
  refine ⟨?_, ?_, ?_, ?_⟩ <;> intro r c <;> fin_cases r <;> fin_cases c <;> rfl

/-- C72: the three-column SIMD constructor gives the three columns and repeats the third one. -/
theorem matShape_ofCols3 (c0 c1 c2 : V4 α) (r : Fin 4) :
    el4 (M4.ofCols3 c0 c1 c2) r 0 = co4 c0 r ∧ el4 (M4.ofCols3 c0 c1 c2) r 1 = co4 c1 r ∧
    el4 (M4.ofCols3 c0 c1 c2) r 2 = co4 c2 r ∧ el4 (M4.ofCols3 c0 c1 c2) r 3 = co4 c2 r := by
  fin_cases r <;> exact ⟨rfl, rfl, rfl, rfl⟩

/-- Concrete case: a matrix with all elements different. -/
example : M4.to43 (M4.of43 (M43.ofRows 1 2 3 4 5 6 7 8 9 10 11 12) (⟨13, 14, 15, 16⟩ : V4 Nat)) =
    M43.ofRows 1 2 3 4 5 6 7 8 9 10 11 12 ∧
    el4 (M4.of43 (M43.ofRows 1 2 3 4 5 6 7 8 9 10 11 12) (⟨13, 14, 15, 16⟩ : V4 Nat)) 3 2 = 15 := ⟨rfl, rfl⟩
example : (M4.ofRows 1 2 3 4 5 6 7 8 9 10 11 12 13 14 15 16 : M4 Nat).get 3 = some ⟨4, 8, 12, 16⟩ := rfl

end Verif
