import Mathlib.Analysis.Real.Sqrt
import Mathlib.Tactic.Linarith
import Mathlib.Tactic.Ring
import Mathlib.Tactic.FieldSimp
import Verif.Model.Vec

/-!
# Exact arithmetic

The instance of the scalar class in which every operation is the exact real operation. Theorems about
geometry and linear algebra are stated in it: they say what the formulas in the code compute when
rounding is ignored.
-/

namespace Verif

/-- Exact real arithmetic. Simplification: no rounding, no NaN, no infinities; division by zero is `0`
and the square root of a negative number is `0` (Mathlib's conventions), so theorems that divide or take
roots state the non-degeneracy they need. Models the built-in type `float` in
/repo/include/math. -/
noncomputable instance : Flt ℝ where
  add := (· + ·)
  sub := (· - ·)
  mul := (· * ·)
  div := (· / ·)
  neg := (- ·)
  lt a b := decide (a < b)
  le a b := decide (a ≤ b)
  eq a b := decide (a = b)
  lit q := (q : ℝ)
  fma a b c := a * b + c
  sqrt := Real.sqrt
  abs := fun a => |a|

namespace Flt
@[simp, vec] theorem real_add (a b : ℝ) : Flt.add a b = a + b := rfl
@[simp, vec] theorem real_sub (a b : ℝ) : Flt.sub a b = a - b := rfl
@[simp, vec] theorem real_mul (a b : ℝ) : Flt.mul a b = a * b := rfl
@[simp, vec] theorem real_div (a b : ℝ) : Flt.div a b = a / b := rfl
@[simp, vec] theorem real_neg (a : ℝ) : Flt.neg a = -a := rfl
@[simp, vec] theorem real_lt (a b : ℝ) : Flt.lt a b = decide (a < b) := rfl
@[simp, vec] theorem real_le (a b : ℝ) : Flt.le a b = decide (a ≤ b) := rfl
@[simp, vec] theorem real_eq (a b : ℝ) : Flt.eq a b = decide (a = b) := rfl
@[simp, vec] theorem real_lit (q : ℚ) : (Flt.lit q : ℝ) = (q : ℝ) := rfl
@[simp, vec] theorem real_fma (a b c : ℝ) : Flt.fma a b c = a * b + c := rfl
@[simp, vec] theorem real_sqrt (a : ℝ) : Flt.sqrt a = Real.sqrt a := rfl
@[simp, vec] theorem real_abs (a : ℝ) : Flt.abs a = |a| := rfl
@[simp, vec] theorem real_mmMin (a b : ℝ) : Flt.mmMin a b = min a b := by
  unfold mmMin; simp only [real_lt, decide_eq_true_eq, min_def]; split_ifs <;> linarith
@[simp, vec] theorem real_mmMax (a b : ℝ) : Flt.mmMax a b = max a b := by
  unfold mmMax; simp only [real_lt, decide_eq_true_eq, max_def]; split_ifs <;> linarith
@[simp, vec] theorem real_stdMin (a b : ℝ) : Flt.stdMin a b = min a b := by
  unfold stdMin; simp only [real_lt, decide_eq_true_eq, min_def]; split_ifs <;> linarith
@[simp, vec] theorem real_stdMax (a b : ℝ) : Flt.stdMax a b = max a b := by
  unfold stdMax; simp only [real_lt, decide_eq_true_eq, max_def]; split_ifs <;> linarith
@[simp, vec] theorem real_stdClamp (v lo hi : ℝ) (h : lo ≤ hi) : Flt.stdClamp v lo hi = max lo (min v hi) := by
  unfold stdClamp
  simp only [real_lt, decide_eq_true_eq, max_def, min_def]; split_ifs <;> linarith
end Flt

/-- Proof automation: unfold the vector model over the reals and close componentwise polynomial identities. -/
macro "vec_ring" : tactic =>
  `(tactic| (simp [vec] <;> (repeat' apply And.intro) <;> ring))

end Verif
