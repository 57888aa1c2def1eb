import Mathlib.LinearAlgebra.Matrix.NonsingularInverse
import Verif.Spec.Accuracy

/-!
# What an inverse matrix in binary32 should be
-/

namespace Verif.Spec

/-- Row `i`, column `j` of a matrix stored by columns. -/
def at4 {α : Type} (m : M4 α) (i j : Fin 4) : α := (![m.c0, m.c1, m.c2, m.c3] j).get i

/-- The real matrix a matrix of finite floats stands for. -/
noncomputable def realM4 (m : M4 F32) : Matrix (Fin 4) (Fin 4) ℝ := Matrix.of fun i j => rv (at4 m i j)

/-- The sum of the absolute values of the terms of the determinant: its expansion along the first row with all signs
positive. -/
def absDet : {n : ℕ} → Matrix (Fin n) (Fin n) ℝ → ℝ
  | 0, _ => 1
  | _ + 1, A => ∑ j, |A 0 j| * absDet (A.submatrix Fin.succ j.succAbove)

/-- How much the terms of the determinant cancel. -/
noncomputable def cancel {n : ℕ} (A : Matrix (Fin n) (Fin n) ℝ) : ℝ := absDet A / |A.det|

/-- A matrix whose inverse can be computed: finite entries of at most `2^20`, a determinant of at least `2^-40` and a loss of
at most 16 bits to cancellation in the determinant. -/
def InvertibleOk (m : M4 F32) : Prop :=
  (∀ i j, (at4 m i j).isFinite = true ∧ |rv (at4 m i j)| ≤ 2 ^ 20) ∧ 1 / 2 ^ 40 ≤ |(realM4 m).det| ∧ cancel (realM4 m) ≤ 2 ^ 16

/-- `r` is the inverse of `m`: every entry is right up to eight half units in the last place of the terms of its cofactor,
divided by the determinant, and thirteen half units of the entry itself times the cancellation in the determinant. -/
def InverseNear (m r : M4 F32) : Prop :=
  ∀ i j, Near (at4 r i j) ((realM4 m)⁻¹ i j)
    (8 / 2 ^ 24 * (absDet ((realM4 m).submatrix j.succAbove i.succAbove) / |(realM4 m).det|) +
      13 / 2 ^ 24 * cancel (realM4 m) * |(realM4 m)⁻¹ i j| + 1 / 2 ^ 60)

end Verif.Spec
