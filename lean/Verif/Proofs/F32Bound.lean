import Mathlib.Tactic.Positivity
import Mathlib.Tactic.NormNum
import Mathlib.Tactic.Linarith
import Mathlib.Tactic.Ring
import Verif.Proofs.F32Real
import Verif.Proofs.SatF32

/-!
# Errors as multiples of the input error

`Bd δ B r x X c`: the binary32 value `r` is within `c * (B * δ + 2^-100)` of `x`, and `|x| ≤ X * B`. Here `δ` is the relative
error of the inputs, at least one rounding, and `B` their scale.
-/

namespace Verif
open F32

/-- See the module description. -/
structure Bd (δ B : ℝ) (r : F32) (x X c : ℝ) : Prop where
  fin : r.isFinite = true
  err : |r.val - x| ≤ c * (B * δ + 1 / 2 ^ 100)
  big : |x| ≤ X * B

/-- The admissible error levels. -/
structure BdOk (δ B : ℝ) : Prop where
  lo : 1 / 2 ^ 24 ≤ δ
  hi : δ ≤ 1 / 1024
  pos : 0 ≤ B
  big : B ≤ 2 ^ 100

namespace BdOk
variable {δ B : ℝ}
theorem dpos (o : BdOk δ B) : 0 < δ := lt_of_lt_of_le (by positivity) o.lo
theorem tpos (o : BdOk δ B) : 0 < B * δ + 1 / 2 ^ 100 := by
  have := mul_nonneg o.pos o.dpos.le
  positivity
/-- The scale itself times one rounding. -/
theorem scale (o : BdOk δ B) : B / 2 ^ 24 ≤ B * δ + 1 / 2 ^ 100 := by
  have h1 : B * (1 / 2 ^ 24) ≤ B * δ := mul_le_mul_of_nonneg_left o.lo o.pos
  have : (0 : ℝ) ≤ 1 / 2 ^ 100 := by positivity
  rw [div_eq_mul_one_div]; linarith
theorem tle (o : BdOk δ B) : B * δ + 1 / 2 ^ 100 ≤ 2 ^ 91 := by
  have h1 : B * δ ≤ 2 ^ 100 * (1 / 1024) := mul_le_mul o.big o.hi o.dpos.le (by positivity)
  have : (2 : ℝ) ^ 100 * (1 / 1024) + 1 / 2 ^ 100 ≤ 2 ^ 91 := by norm_num
  linarith
end BdOk

namespace Bd
variable {δ B : ℝ} {r s : F32} {x y X Y c d : ℝ}

theorem approx (h : Bd δ B r x X c) : Approx r x (c * (B * δ + 1 / 2 ^ 100)) := ⟨h.fin, h.err⟩

theorem c_nonneg (h : Bd δ B r x X c) (o : BdOk δ B) : 0 ≤ c := by
  by_contra hc
  have := mul_neg_of_neg_of_pos (not_le.1 hc) o.tpos
  linarith [abs_nonneg (r.val - x), h.err]

theorem mono {X' c' : ℝ} (h : Bd δ B r x X c) (o : BdOk δ B) (hX : X ≤ X') (hc : c ≤ c') : Bd δ B r x X' c' :=
  ⟨h.fin, h.err.trans (mul_le_mul_of_nonneg_right hc o.tpos.le), h.big.trans (mul_le_mul_of_nonneg_right hX o.pos)⟩

/-- A sharper bound on the exact value. -/
theorem sharp {X' : ℝ} (h : Bd δ B r x X c) (hX : |x| ≤ X' * B) : Bd δ B r x X' c := ⟨h.fin, h.err, hX⟩

theorem of_eq (h : Bd δ B r x X c) (e : x = y) : Bd δ B r y X c := e ▸ h

theorem neg (h : Bd δ B r x X c) : Bd δ B (fneg r) (-x) X c := by
  refine ⟨by rw [fneg_finite]; exact h.fin, ?_, by rw [abs_neg]; exact h.big⟩
  rw [SatF32.neg_val, show -r.val - -x = -(r.val - x) by ring, abs_neg]
  exact h.err

/-- One more rounding of a value `y` close to `x`. -/
private theorem round {t : F32} {y x X e c : ℝ} (o : BdOk δ B) (hy : |y - x| ≤ e * (B * δ + 1 / 2 ^ 100)) (hx : |x| ≤ X * B)
    (e0 : 0 ≤ e) (he : e ≤ 2 ^ 20) (X0 : 0 ≤ X) (hX : X ≤ 2 ^ 20) (ht : ∀ M, |y| ≤ M → M < 2 ^ 127 → Approx t y (ulp M))
    (hc : e + X + e / 1024 + 1 / 1024 ≤ c) : Bd δ B t x X c := by
  have t0 := o.tpos
  have tl := o.tle
  have sc := o.scale
  have p := o.pos
  have bb := o.big
  have tt : 1 / 2 ^ 100 ≤ B * δ + 1 / 2 ^ 100 := by linarith [mul_nonneg p o.dpos.le]
  have h2 := abs_add_le (y - x) x
  rw [sub_add_cancel] at h2
  suffices |t.val - x| ≤ c * (B * δ + 1 / 2 ^ 100) ∧ t.isFinite = true from ⟨this.2, this.1, hx⟩
  generalize B * δ + 1 / 2 ^ 100 = T at *
  have m1 : e * T ≤ 2 ^ 20 * 2 ^ 91 := mul_le_mul he tl t0.le (by positivity)
  have m2 : X * B ≤ 2 ^ 20 * 2 ^ 100 := mul_le_mul hX bb p (by positivity)
  have m3 : (2 : ℝ) ^ 20 * 2 ^ 91 + 2 ^ 20 * 2 ^ 100 < 2 ^ 127 := by norm_num
  have a := ht (e * T + X * B) (by linarith) (by linarith)
  refine ⟨?_, a.1⟩
  have h1 := abs_add_le (t.val - y) (y - x)
  rw [sub_add_sub_cancel] at h1
  have h3 := a.2
  unfold ulp at h3
  have h4 : X * (B / 2 ^ 24) ≤ X * T := mul_le_mul_of_nonneg_left sc X0
  have h5 : e * T / 2 ^ 24 ≤ e * T / 1024 :=
    div_le_div_of_nonneg_left (mul_nonneg e0 t0.le) (by norm_num) (by norm_num)
  have h6 : (1 : ℝ) / 2 ^ 150 ≤ T / 1024 := by
    have : (1 : ℝ) / 2 ^ 150 ≤ 1 / 2 ^ 100 / 1024 := by norm_num
    linarith
  have h7 := mul_le_mul_of_nonneg_right hc t0.le
  have e1 : (e * T + X * B) / 2 ^ 24 = e * T / 2 ^ 24 + X * (B / 2 ^ 24) := by ring
  have e2 : (e + X + e / 1024 + 1 / 1024) * T = e * T + X * T + e * T / 1024 + T / 1024 := by ring
  rw [e1] at h3
  rw [e2] at h7
  linarith

theorem add (ha : Bd δ B r x X c) (hb : Bd δ B s y Y d) (o : BdOk δ B) {C : ℝ} (X0 : 0 ≤ X + Y) (hX : X + Y ≤ 2 ^ 20)
    (hcd : c + d ≤ 2 ^ 20) (hC : c + d + (X + Y) + (c + d) / 1024 + 1 / 1024 ≤ C) : Bd δ B (fadd r s) (x + y) (X + Y) C := by
  refine round o (y := r.val + s.val) ?_ ?_ (add_nonneg (ha.c_nonneg o) (hb.c_nonneg o)) hcd X0 hX
    (fun M h1 h2 => fadd_approx ha.fin hb.fin h1 h2) hC
  · rw [show r.val + s.val - (x + y) = (r.val - x) + (s.val - y) by ring, add_mul]
    exact (abs_add_le _ _).trans (add_le_add ha.err hb.err)
  · rw [add_mul]; exact (abs_add_le _ _).trans (add_le_add ha.big hb.big)

theorem sub (ha : Bd δ B r x X c) (hb : Bd δ B s y Y d) (o : BdOk δ B) {C : ℝ} (X0 : 0 ≤ X + Y) (hX : X + Y ≤ 2 ^ 20)
    (hcd : c + d ≤ 2 ^ 20) (hC : c + d + (X + Y) + (c + d) / 1024 + 1 / 1024 ≤ C) : Bd δ B (fsub r s) (x - y) (X + Y) C := by
  refine round o (y := r.val - s.val) ?_ ?_ (add_nonneg (ha.c_nonneg o) (hb.c_nonneg o)) hcd X0 hX
    (fun M h1 h2 => fsub_approx ha.fin hb.fin h1 h2) hC
  · rw [show r.val - s.val - (x - y) = (r.val - x) - (s.val - y) by ring, add_mul]
    exact (abs_sub _ _).trans (add_le_add ha.err hb.err)
  · rw [add_mul]; exact (abs_sub _ _).trans (add_le_add ha.big hb.big)

/-- A factor of scale one. -/
theorem mul (ha : Bd δ 1 r x X c) (hb : Bd δ B s y Y d) (o : BdOk δ B) {E C : ℝ} (X0 : 0 ≤ X) (Y0 : 0 ≤ Y) (hXY : X * Y ≤ 2 ^ 20)
    (hE : X * d + Y * c + (Y + d) * (c / 1000) ≤ E) (hE' : E ≤ 2 ^ 20) (hC : E + X * Y + E / 1024 + 1 / 1024 ≤ C) :
    Bd δ B (fmul r s) (x * y) (X * Y) C := by
  have d0 := hb.c_nonneg o
  have o1 : BdOk δ 1 := ⟨o.lo, o.hi, by norm_num, by norm_num⟩
  have c0 := ha.c_nonneg o1
  have p := o.pos
  have t0 := o.tpos
  have hx := ha.big
  rw [mul_one] at hx
  have hE0 : 0 ≤ E := le_trans (by positivity) hE
  refine round o (y := r.val * s.val) ?_ ?_ hE0 hE' (mul_nonneg X0 Y0) hXY
    (fun M h1 h2 => fmul_approx ha.fin hb.fin h1 h2) hC
  · refine (mul_close ha.err hb.err hx hb.big).trans ?_
    have l := o.lo
    have u := o.hi
    have s1 : B * (1 * δ + 1 / 2 ^ 100) ≤ (1 + 1 / 1000) * (B * δ + 1 / 2 ^ 100) := by
      have q : B * (1 / 2 ^ 100) ≤ B * (δ / 1000) := by
        apply mul_le_mul_of_nonneg_left _ p
        have : (1 : ℝ) / 2 ^ 100 ≤ 1 / 2 ^ 24 / 1000 := by norm_num
        linarith
      have : (0 : ℝ) ≤ 1 / 2 ^ 100 := by positivity
      have e1 : B * (1 * δ + 1 / 2 ^ 100) = B * δ + B * (1 / 2 ^ 100) := by ring
      have e2 : B * (δ / 1000) = B * δ / 1000 := by ring
      rw [e1]
      linarith
    have s2 : (1 : ℝ) * δ + 1 / 2 ^ 100 ≤ 1 / 1000 := by
      have : (1 : ℝ) / 1024 + 1 / 2 ^ 100 ≤ 1 / 1000 := by norm_num
      linarith
    generalize (1 : ℝ) * δ + 1 / 2 ^ 100 = S at *
    generalize B * δ + 1 / 2 ^ 100 = T at *
    have h1 : Y * B * (c * S) ≤ Y * c * ((1 + 1 / 1000) * T) := by
      calc Y * B * (c * S) = Y * c * (B * S) := by ring
        _ ≤ _ := mul_le_mul_of_nonneg_left s1 (mul_nonneg Y0 c0)
    have h2 : c * S * (d * T) ≤ c * (1 / 1000) * (d * T) := by gcongr
    have h3 := mul_le_mul_of_nonneg_right hE t0.le
    have e3 : (X * d + Y * c + (Y + d) * (c / 1000)) * T =
        X * (d * T) + Y * c * ((1 + 1 / 1000) * T) + c * (1 / 1000) * (d * T) := by ring
    rw [e3] at h3
    linarith
  · rw [abs_mul, mul_assoc]
    exact mul_le_mul hx hb.big (abs_nonneg _) X0

/-- Division by an exactly represented number. -/
theorem quot (ha : Bd δ B r x X c) {k : ℝ} (hs : s.isFinite = true) (hk : s.val = k) (k1 : 1 ≤ k) (o : BdOk δ B) {C : ℝ}
    (X0 : 0 ≤ X) (hX : X ≤ 2 ^ 20) (hc : c ≤ 2 ^ 20) (hC : c / k + X / k + c / k / 1024 + 1 / 1024 ≤ C) :
    Bd δ B (fdiv r s) (x / k) (X / k) C := by
  have k0 : 0 < k := by linarith
  have c0 := ha.c_nonneg o
  have dl : ∀ t : ℝ, 0 ≤ t → t / k ≤ t := fun t ht => div_le_self ht k1
  refine round o (y := r.val / s.val) ?_ ?_ (div_nonneg c0 k0.le) ((dl c c0).trans hc) (div_nonneg X0 k0.le) ((dl X X0).trans hX)
    (fun M h1 h2 => fdiv_approx ha.fin hs (by rw [hk]; exact k0.ne') h1 h2) hC
  · rw [hk, ← sub_div, abs_div, abs_of_pos k0, div_mul_eq_mul_div]
    exact div_le_div_of_nonneg_right ha.err k0.le
  · rw [abs_div, abs_of_pos k0, div_mul_eq_mul_div]
    exact div_le_div_of_nonneg_right ha.big k0.le

/-- A closed constant. -/
theorem cst (o : BdOk δ 1) {U : Int} {q e : ℝ} (hf : r.isFinite = true) (hu : r.units = U) (he : |(U : ℝ) / 2 ^ 149 - q| ≤ e)
    (hc : e * 2 ^ 24 ≤ c) (hq : |q| ≤ X) : Bd δ 1 r q X c := by
  refine ⟨hf, ?_, by simpa using hq⟩
  rw [val_units, hu]
  have c0 : 0 ≤ c := le_trans (mul_nonneg ((abs_nonneg _).trans he) (by norm_num)) hc
  have h1 : c * (1 / 2 ^ 24) ≤ c * (1 * δ + 1 / 2 ^ 100) := by
    apply mul_le_mul_of_nonneg_left _ c0
    have := o.lo
    have : (0 : ℝ) ≤ 1 / 2 ^ 100 := by positivity
    linarith
  have h2 : e ≤ c * (1 / 2 ^ 24) := by
    rw [mul_one_div, le_div_iff₀ (by positivity)]; exact hc
  linarith
end Bd
end Verif
