import Verif.Proofs.F32Sum
import Verif.Proofs.F32Div

/-!
# Relative errors
-/

namespace Verif.F32

/-- `r` is `x` up to the relative error `e` and the absolute error `a`. -/
def Rel (r x e a : ℝ) : Prop := |r - x| ≤ e * |x| + a

theorem Rel.refl (x : ℝ) : Rel x x 0 0 := by simp [Rel]

theorem Rel.mono {r x e a e' a' : ℝ} (h : Rel r x e a) (he : e ≤ e') (ha : a ≤ a') : Rel r x e' a' := by
  unfold Rel at *
  have := mul_le_mul_of_nonneg_right he (abs_nonneg x)
  linarith

theorem Rel.of_eq {r x y e a : ℝ} (h : Rel r x e a) (hy : x = y) : Rel r y e a := hy ▸ h

theorem Rel.neg {r x e a : ℝ} (h : Rel r x e a) : Rel (-r) (-x) e a := by
  unfold Rel at *
  rw [abs_neg, show -r - -x = -(r - x) by ring, abs_neg]; exact h

theorem Rel.abs_le {r x e a : ℝ} (h : Rel r x e a) : |r| ≤ (1 + e) * |x| + a := by
  have h1 := abs_add_le (r - x) x
  rw [sub_add_cancel] at h1
  unfold Rel at h; linarith

theorem Rel.le_abs {r x e a : ℝ} (h : Rel r x e a) : (1 - e) * |x| - a ≤ |r| := by
  have h1 := abs_sub_abs_le_abs_sub x r
  rw [abs_sub_comm] at h1
  unfold Rel at h; linarith

/-- One more rounding. -/
theorem Rel.round {r s x e a d b : ℝ} (h : Rel s x e a) (hr : |r - s| ≤ d * |s| + b) (hd : 0 ≤ d) :
    Rel r x (e + d + e * d) ((1 + d) * a + b) := by
  have h1 := abs_add_le (r - s) (s - x)
  rw [sub_add_sub_cancel] at h1
  have h2 := mul_le_mul_of_nonneg_left h.abs_le hd
  unfold Rel at *
  nlinarith

theorem Rel.mul {r s x y e a d b : ℝ} (h : Rel r x e a) (h' : Rel s y d b) :
    Rel (r * s) (x * y) (e + d + e * d) ((1 + e) * |x| * b + (1 + d) * |y| * a + a * b) := by
  have e1 : r * s - x * y = x * (s - y) + y * (r - x) + (r - x) * (s - y) := by ring
  unfold Rel at *
  have h1 : |x * (s - y)| ≤ |x| * (d * |y| + b) := by rw [abs_mul]; gcongr
  have h2 : |y * (r - x)| ≤ |y| * (e * |x| + a) := by rw [abs_mul]; gcongr
  have h3 : |(r - x) * (s - y)| ≤ (e * |x| + a) * (d * |y| + b) := by
    rw [abs_mul]
    exact mul_le_mul h h' (abs_nonneg _) ((abs_nonneg _).trans h)
  have h4 := abs_add_le (x * (s - y) + y * (r - x)) ((r - x) * (s - y))
  have h5 := abs_add_le (x * (s - y)) (y * (r - x))
  rw [e1, abs_mul]
  calc _ ≤ |x| * (d * |y| + b) + |y| * (e * |x| + a) + (e * |x| + a) * (d * |y| + b) := by linarith
    _ = _ := by ring

/-- Division by a number known up to a relative error. -/
theorem Rel.div {r s x y e a d : ℝ} (h : Rel r x e a) (h' : Rel s y d 0) (hd : d < 1) (hy : y ≠ 0) :
    Rel (r / s) (x / y) ((e + d) / (1 - d)) (a / ((1 - d) * |y|)) := by
  have hy' : 0 < |y| := abs_pos.2 hy
  have hd' : 0 < 1 - d := by linarith
  have hs : (1 - d) * |y| ≤ |s| := by have := h'.le_abs; linarith
  have hsp : 0 < |s| := lt_of_lt_of_le (by positivity) hs
  have hs0 : s ≠ 0 := abs_pos.1 hsp
  have e1 : r / s - x / y = ((r - x) * y - x * (s - y)) / (s * y) := by field_simp; ring
  unfold Rel at *
  rw [e1, abs_div, abs_mul]
  have h1 : |(r - x) * y - x * (s - y)| ≤ (e * |x| + a) * |y| + |x| * (d * |y|) := by
    refine (abs_sub _ _).trans ?_
    rw [abs_mul, abs_mul]
    rw [add_zero] at h'
    gcongr
  have h0 : 0 ≤ (e * |x| + a) * |y| + |x| * (d * |y|) := (abs_nonneg _).trans h1
  calc _ ≤ ((e * |x| + a) * |y| + |x| * (d * |y|)) / ((1 - d) * |y| * |y|) := by gcongr
    _ = _ := by rw [abs_div]; field_simp; ring

theorem fmul_rel {a b : F32} (ha : a.isFinite = true) (hb : b.isFinite = true) (h : |a.val * b.val| < 2 ^ 127) :
    (fmul a b).isFinite = true ∧ |(fmul a b).val - a.val * b.val| ≤ uro * |a.val * b.val| + 1 / 2 ^ 150 := by
  obtain ⟨h1, h2⟩ := fmul_approx ha hb le_rfl h
  refine ⟨h1, h2.trans ?_⟩
  unfold ulp uro; linarith

theorem fdiv_rel {a b : F32} (ha : a.isFinite = true) (hb : b.isFinite = true) (h0 : b.val ≠ 0) (h : |a.val / b.val| < 2 ^ 127) :
    (fdiv a b).isFinite = true ∧ |(fdiv a b).val - a.val / b.val| ≤ uro * |a.val / b.val| + 1 / 2 ^ 150 := by
  obtain ⟨h1, h2⟩ := fdiv_approx ha hb h0 le_rfl h
  refine ⟨h1, h2.trans ?_⟩
  unfold ulp uro; linarith

end Verif.F32
