import Mathlib.Tactic.Positivity
import Mathlib.Tactic.NormNum
import Mathlib.Tactic.Linarith
import Mathlib.Tactic.Ring
import Verif.Proofs.F32Real
import Verif.Proofs.F32Sum
import Verif.Proofs.SatF32

/-!
# Errors relative to a scale

`Sc S r x X c`: the binary32 value `r` is within `c` half units in the last place of the scale `S` of `x`, and `|x| ≤ X * S`.
-/

namespace Verif
open F32

/-- See the module description. -/
structure Sc (S : ℝ) (r : F32) (x X c : ℝ) : Prop where
  fin : r.isFinite = true
  err : |r.val - x| ≤ c * (uro * S)
  big : |x| ≤ X * S

/-- Scales at which neither overflow nor underflow matters. -/
structure ScOk (S : ℝ) : Prop where
  lo : 1 / 2 ^ 100 ≤ S
  hi : S ≤ 2 ^ 100

namespace Sc
variable {S T : ℝ} {r s : F32} {x y X Y c d : ℝ}

theorem _root_.Verif.ScOk.pos (o : ScOk S) : 0 < S := lt_of_lt_of_le (by positivity) o.lo

theorem c_nonneg (h : Sc S r x X c) (o : ScOk S) : 0 ≤ c := by
  by_contra hc
  have := mul_neg_of_neg_of_pos (not_le.1 hc) (mul_pos uro_pos o.pos)
  linarith [abs_nonneg (r.val - x), h.err]

theorem mono {X' c' : ℝ} (h : Sc S r x X c) (o : ScOk S) (hX : X ≤ X') (hc : c ≤ c') : Sc S r x X' c' :=
  ⟨h.fin, h.err.trans (mul_le_mul_of_nonneg_right hc (mul_pos uro_pos o.pos).le), h.big.trans (mul_le_mul_of_nonneg_right hX o.pos.le)⟩

theorem sharp {X' : ℝ} (h : Sc S r x X c) (hX : |x| ≤ X' * S) : Sc S r x X' c := ⟨h.fin, h.err, hX⟩

theorem of_eq (h : Sc S r x X c) (e : x = y) : Sc S r y X c := e ▸ h

/-- A larger scale. -/
theorem up (h : Sc S r x X c) (o : ScOk S) (hS : S ≤ T) (hX : 0 ≤ X) : Sc T r x X c := by
  have c0 := h.c_nonneg o
  have := uro_pos
  exact ⟨h.fin, h.err.trans (by gcongr), h.big.trans (by gcongr)⟩

/-- One more rounding of a value `y` close to `x`. -/
theorem round {t : F32} {y x X e c : ℝ} (o : ScOk S) (hy : |y - x| ≤ e * (uro * S)) (hx : |x| ≤ X * S)
    (e0 : 0 ≤ e) (he : e ≤ 2 ^ 20) (X0 : 0 ≤ X) (hX : X ≤ 2 ^ 20) (ht : ∀ M, |y| ≤ M → M < 2 ^ 127 → Approx t y (ulp M))
    (hc : e + X + (e + 1) / 1000 ≤ c) : Sc S t x X c := by
  have p := o.pos
  have hi := o.hi
  have lo := o.lo
  have h2 := abs_add_le (y - x) x
  rw [sub_add_cancel] at h2
  suffices |t.val - x| ≤ c * (uro * S) ∧ t.isFinite = true from ⟨this.2, this.1, hx⟩
  have u1 : uro = 1 / 2 ^ 24 := by unfold uro; norm_num
  have m1 : e * (uro * S) ≤ 2 ^ 20 * (1 / 2 ^ 24 * 2 ^ 100) := by
    rw [u1]; gcongr
  have m2 : X * S ≤ 2 ^ 20 * 2 ^ 100 := by gcongr
  have m3 : (2 : ℝ) ^ 20 * (1 / 2 ^ 24 * 2 ^ 100) + 2 ^ 20 * 2 ^ 100 < 2 ^ 127 := by norm_num
  have a := ht (e * (uro * S) + X * S) (by linarith) (by linarith)
  refine ⟨?_, a.1⟩
  have h1 := abs_add_le (t.val - y) (y - x)
  rw [sub_add_sub_cancel] at h1
  have h3 := a.2
  unfold ulp at h3
  rw [u1] at hy m1 h3 ⊢
  have h4 : e * (1 / 2 ^ 24 * S) / 2 ^ 24 ≤ e / 1000 * (1 / 2 ^ 24 * S) := by
    rw [show e * (1 / 2 ^ 24 * S) / 2 ^ 24 = e / 2 ^ 24 * (1 / 2 ^ 24 * S) by ring]
    gcongr
    norm_num
  have h5 : (1 : ℝ) / 2 ^ 150 ≤ 1 / 1000 * (1 / 2 ^ 24 * S) := by
    have : (1 : ℝ) / 2 ^ 150 ≤ 1 / 1000 * (1 / 2 ^ 24 * (1 / 2 ^ 100)) := by norm_num
    linarith
  have h6 := mul_le_mul_of_nonneg_right hc (show 0 ≤ 1 / 2 ^ 24 * S by positivity)
  have e1 : (e * (1 / 2 ^ 24 * S) + X * S) / 2 ^ 24 = e * (1 / 2 ^ 24 * S) / 2 ^ 24 + X * (1 / 2 ^ 24 * S) := by ring
  have e2 : (e + X + (e + 1) / 1000) * (1 / 2 ^ 24 * S) =
      e * (1 / 2 ^ 24 * S) + X * (1 / 2 ^ 24 * S) + e / 1000 * (1 / 2 ^ 24 * S) + 1 / 1000 * (1 / 2 ^ 24 * S) := by ring
  rw [e1] at h3
  rw [e2] at h6
  linarith

theorem add (ha : Sc S r x X c) (hb : Sc S s y Y d) (o : ScOk S) {Z C : ℝ} (hZ : |x + y| ≤ Z * S) (Z0 : 0 ≤ Z) (hZ' : Z ≤ 2 ^ 20)
    (hcd : c + d ≤ 2 ^ 20) (hC : c + d + Z + (c + d + 1) / 1000 ≤ C) : Sc S (fadd r s) (x + y) Z C := by
  refine round o (y := r.val + s.val) ?_ hZ (add_nonneg (ha.c_nonneg o) (hb.c_nonneg o)) hcd Z0 hZ'
    (fun M h1 h2 => fadd_approx ha.fin hb.fin h1 h2) hC
  rw [show r.val + s.val - (x + y) = (r.val - x) + (s.val - y) by ring, add_mul]
  exact (abs_add_le _ _).trans (add_le_add ha.err hb.err)

theorem sub (ha : Sc S r x X c) (hb : Sc S s y Y d) (o : ScOk S) {Z C : ℝ} (hZ : |x - y| ≤ Z * S) (Z0 : 0 ≤ Z) (hZ' : Z ≤ 2 ^ 20)
    (hcd : c + d ≤ 2 ^ 20) (hC : c + d + Z + (c + d + 1) / 1000 ≤ C) : Sc S (fsub r s) (x - y) Z C := by
  refine round o (y := r.val - s.val) ?_ hZ (add_nonneg (ha.c_nonneg o) (hb.c_nonneg o)) hcd Z0 hZ'
    (fun M h1 h2 => fsub_approx ha.fin hb.fin h1 h2) hC
  rw [show r.val - s.val - (x - y) = (r.val - x) - (s.val - y) by ring, add_mul]
  exact (abs_sub _ _).trans (add_le_add ha.err hb.err)

theorem mul (ha : Sc S r x X c) (hb : Sc T s y Y d) (o1 : ScOk S) (o2 : ScOk T) (o : ScOk (S * T)) {E C : ℝ} (X0 : 0 ≤ X) (Y0 : 0 ≤ Y)
    (hXY : X * Y ≤ 2 ^ 20) (hE : X * d + Y * c + c * d / 2 ^ 20 ≤ E) (hE' : E ≤ 2 ^ 20) (hC : E + X * Y + (E + 1) / 1000 ≤ C) :
    Sc (S * T) (fmul r s) (x * y) (X * Y) C := by
  have c0 := ha.c_nonneg o1
  have d0 := hb.c_nonneg o2
  have s0 := o1.pos
  have t0 := o2.pos
  have u0 := uro_pos
  have hE0 : 0 ≤ E := le_trans (by positivity) hE
  refine round o (y := r.val * s.val) ?_ ?_ hE0 hE' (mul_nonneg X0 Y0) hXY
    (fun M h1 h2 => fmul_approx ha.fin hb.fin h1 h2) hC
  · refine (mul_close ha.err hb.err ha.big hb.big).trans ?_
    have u1 : uro ≤ 1 / 2 ^ 20 := by unfold uro; norm_num
    have h3 := mul_le_mul_of_nonneg_right hE (show 0 ≤ uro * (S * T) by positivity)
    have h4 : c * d * uro * (uro * (S * T)) ≤ c * d * (1 / 2 ^ 20) * (uro * (S * T)) := by gcongr
    have e3 : (X * d + Y * c + c * d / 2 ^ 20) * (uro * (S * T)) =
        X * S * (d * (uro * T)) + Y * T * (c * (uro * S)) + c * d * (1 / 2 ^ 20) * (uro * (S * T)) := by ring
    have e4 : c * d * uro * (uro * (S * T)) = c * (uro * S) * (d * (uro * T)) := by ring
    rw [e3] at h3
    linarith
  · rw [abs_mul, show X * Y * (S * T) = (X * S) * (Y * T) by ring]
    exact mul_le_mul ha.big hb.big (abs_nonneg _) (by positivity)

/-- A difference of two given values. -/
theorem diff' {a b : F32} (ha : a.isFinite = true) (hb : b.isFinite = true) (h : |a.val - b.val| ≤ S) (o : ScOk S) :
    Sc S (fsub a b) (a.val - b.val) 1 1.01 :=
  round o (y := a.val - b.val) (e := 0) (by simp) (by simpa using h) le_rfl (by norm_num) (by norm_num) (by norm_num)
    (fun M h1 h2 => fsub_approx ha hb h1 h2) (by norm_num)
end Sc
end Verif
