import Verif.Spec.ShTables
import Verif.Spec.Accuracy
import Verif.Model.ShTables
import Verif.Props.ShShader
import Verif.Props.ShMin
import Verif.Props.BoxF32

/-!
# C139: the constant tables of spherical harmonics in binary32
-/

namespace Verif
open F32 Spec Sh

namespace ShTab

/-- `x` is `X` up to the relative error `ε`, and `X` is between `1/64` and `64`. -/
def R (x : Rat) (X ε : ℝ) : Prop := |(x : ℝ) - X| ≤ ε * |X| ∧ 1 / 64 ≤ |X| ∧ |X| ≤ 64

theorem R.bounds {x : Rat} {X ε : ℝ} (h : R x X ε) (hε : ε ≤ 1 / 2 ^ 40) : 1 / 128 ≤ |(x : ℝ)| ∧ |(x : ℝ)| ≤ 128 ∧ |(x : ℝ)| ≤ (1 + ε) * |X| := by
  obtain ⟨h1, h2, h3⟩ := h
  have a := abs_sub_abs_le_abs_sub (x : ℝ) X
  have b := abs_sub_abs_le_abs_sub X (x : ℝ)
  rw [abs_sub_comm X] at b
  have : ε * |X| ≤ 1 / 2 ^ 40 * |X| := mul_le_mul_of_nonneg_right hε (abs_nonneg _)
  norm_num at *
  refine ⟨by linarith, by linarith, by linarith⟩

theorem R.rd {rd : Rat → Rat} (hr : DoubleOk rd) {x : Rat} {X ε : ℝ} (h : R x X ε) (hε : ε ≤ 1 / 2 ^ 40) : R (rd x) X (ε + 1 / 2 ^ 52) := by
  obtain ⟨b1, b2, b3⟩ := h.bounds hε
  have g1 : 1 / 2 ^ 100 ≤ |x| := by
    have : ((1 / 2 ^ 100 : Rat) : ℝ) ≤ ((|x| : Rat) : ℝ) := by push_cast; norm_num at *; linarith
    exact_mod_cast this
  have g2 : |x| ≤ 2 ^ 100 := by
    have : ((|x| : Rat) : ℝ) ≤ ((2 ^ 100 : Rat) : ℝ) := by push_cast; norm_num at *; linarith
    exact_mod_cast this
  have g3 : |(rd x : ℝ) - x| ≤ |(x : ℝ)| / 2 ^ 53 := by
    have := hr x g1 g2
    exact_mod_cast this
  refine ⟨?_, h.2⟩
  have t := abs_add_le ((rd x : ℝ) - x) (x - X)
  rw [sub_add_sub_cancel] at t
  have := h.1
  have e : ε * |X| ≤ 1 / 2 ^ 40 * |X| := mul_le_mul_of_nonneg_right hε (abs_nonneg _)
  have := abs_nonneg X
  norm_num at *; linarith

theorem R.mul {x y : Rat} {X Y ε δ : ℝ} (hx : R x X ε) (hy : R y Y δ) (e0 : 0 ≤ ε) (hδ : δ ≤ 1)
    (lo : 1 / 64 ≤ |X * Y|) (hi : |X * Y| ≤ 64) : R (x * y) (X * Y) (2 * ε + δ) := by
  refine ⟨?_, lo, hi⟩
  push_cast
  have yb : |(y : ℝ)| ≤ 2 * |Y| := by
    have t := abs_add_le ((y : ℝ) - Y) Y
    rw [sub_add_cancel] at t
    have := mul_le_mul_of_nonneg_right hδ (abs_nonneg Y)
    linarith [hy.1]
  rw [show (x : ℝ) * y - X * Y = (x - X) * y + X * (y - Y) by ring]
  refine (abs_add_le _ _).trans ?_
  rw [abs_mul, abs_mul, abs_mul]
  have h1 := mul_le_mul hx.1 yb (abs_nonneg _) (by positivity)
  have h2 := mul_le_mul_of_nonneg_left hy.1 (abs_nonneg X)
  linarith

theorem R.div {x y : Rat} {X Y ε δ : ℝ} (hx : R x X ε) (hy : R y Y δ) (e0 : 0 ≤ ε) (d0 : 0 ≤ δ) (hδ : δ ≤ 1 / 2 ^ 40)
    (lo : 1 / 64 ≤ |X / Y|) (hi : |X / Y| ≤ 64) : R (x / y) (X / Y) (2 * (ε + δ)) := by
  refine ⟨?_, lo, hi⟩
  push_cast
  have Y0 : 0 < |Y| := lt_of_lt_of_le (by norm_num) hy.2.1
  have yb : |Y| / 2 ≤ |(y : ℝ)| := by
    have b := abs_sub_abs_le_abs_sub Y (y : ℝ)
    rw [abs_sub_comm Y] at b
    have := mul_le_mul_of_nonneg_right hδ Y0.le
    norm_num at this ⊢; linarith [hy.1]
  have y0 : 0 < |(y : ℝ)| := by linarith
  have yn : (y : ℝ) ≠ 0 := abs_pos.1 y0
  have Yn : Y ≠ 0 := abs_pos.1 Y0
  rw [show (x : ℝ) / y - X / Y = ((x - X) + X / Y * (Y - y)) / y by field_simp; ring, abs_div, div_le_iff₀ y0]
  refine (abs_add_le _ _).trans ?_
  rw [abs_mul, abs_sub_comm Y]
  have e : |X| = |X / Y| * |Y| := by rw [abs_div]; field_simp
  have h1 : |(x : ℝ) - X| ≤ ε * (|X / Y| * |Y|) := by rw [← e]; exact hx.1
  have h2 := mul_le_mul_of_nonneg_left hy.1 (abs_nonneg (X / Y))
  have h3 := mul_le_mul_of_nonneg_left yb (show 0 ≤ 2 * (ε + δ) * |X / Y| by positivity)
  linarith

/-- Conversion to `float`. -/
theorem R.single {x : Rat} {X ε : ℝ} (h : R x X ε) (hε : ε ≤ 1 / 2 ^ 40) : Near (ofRat x) X (1.01 / 2 ^ 24 * |X|) := by
  obtain ⟨b1, b2, b3⟩ := h.bounds hε
  obtain ⟨f, e⟩ := lit_approx x |(x : ℝ)| le_rfl (lt_of_le_of_lt b2 (by norm_num))
  refine ⟨f, ?_⟩
  change |(ofRat x).val - X| ≤ _
  have t := abs_add_le ((ofRat x).val - x) (x - X)
  rw [sub_add_sub_cancel] at t
  have h1 := h.1
  have h2 := h.2.1
  have e' : ε * |X| ≤ 1 / 2 ^ 40 * |X| := mul_le_mul_of_nonneg_right hε (abs_nonneg _)
  unfold ulp at e
  norm_num at *; linarith

theorem R.single' {x : Rat} {X ε : ℝ} (h : R x X ε) (hε : ε ≤ 1 / 2 ^ 40) : Near (ofRat x) X (1.01 / 2 ^ 24 * |X|) ∧ |X| ≤ 64 :=
  ⟨h.single hε, h.2.2⟩

theorem lit_R {q : Rat} {X : ℝ} (h : |(q : ℝ) - X| ≤ 1 / 2 ^ 60) (h1 : 1 / 64 ≤ |X|) (h2 : |X| ≤ 64) : R q X (1 / 2 ^ 54) :=
  ⟨by norm_num at *; linarith, h1, h2⟩

/-- A decimal square root. -/
theorem root {q : Rat} {n : ℝ} (q0 : (1 : ℝ) ≤ q) (lo : ((q : ℝ) - 1 / 2 ^ 61) ^ 2 ≤ n) (hi : n ≤ ((q : ℝ) + 1 / 2 ^ 61) ^ 2) :
    |(q : ℝ) - Real.sqrt n| ≤ 1 / 2 ^ 60 := by
  have a := Real.le_sqrt' (x := (q : ℝ) - 1 / 2 ^ 61) (y := n) (by norm_num at *; linarith) |>.2 lo
  have b := (Real.sqrt_le_left (show 0 ≤ (q : ℝ) + 1 / 2 ^ 61 by norm_num at *; linarith)).2 hi
  rw [abs_le]; constructor <;> norm_num at * <;> linarith

theorem sqrt_range {n : ℝ} (h1 : 1 ≤ n) (h2 : n ≤ 16) : 1 ≤ Real.sqrt n ∧ Real.sqrt n ≤ 4 := by
  constructor
  · exact Real.one_le_sqrt.2 h1
  · rw [Real.sqrt_le_left (by norm_num)]; linarith

theorem sqrt_R {q : Rat} {n : ℝ} (q0 : (1 : ℝ) ≤ q) (n1 : 1 ≤ n) (n2 : n ≤ 16) (lo : ((q : ℝ) - 1 / 2 ^ 61) ^ 2 ≤ n)
    (hi : n ≤ ((q : ℝ) + 1 / 2 ^ 61) ^ 2) : R q (Real.sqrt n) (1 / 2 ^ 54) := by
  obtain ⟨a, b⟩ := sqrt_range n1 n2
  refine lit_R (root q0 lo hi) ?_ ?_ <;> rw [abs_of_nonneg (by linarith)] <;> linarith

theorem R.neg {x : Rat} {X ε : ℝ} (h : R x X ε) : R (-x) (-X) ε := by
  unfold R at *
  push_cast
  rw [abs_neg, show -(x : ℝ) - -X = -(x - X) by ring, abs_neg]; exact h

theorem R.mono {x : Rat} {X ε δ : ℝ} (h : R x X ε) (hd : ε ≤ δ) : R x X δ :=
  ⟨h.1.trans (mul_le_mul_of_nonneg_right hd (abs_nonneg _)), h.2⟩

section
variable {rd : Rat → Rat} (hr : DoubleOk rd)
include hr

theorem sp_R : R (rd 1.77245385090551602729816748334114518) (Real.sqrt Real.pi) (1 / 2 ^ 51) := by
  have hp1 := Real.pi_gt_d20
  have hp2 := Real.pi_lt_d20
  refine (R.rd hr (sqrt_R (by norm_num) (by linarith) (by linarith) ?_ ?_) (by norm_num)).mono (by norm_num)
  · push_cast; norm_num at *; linarith
  · push_cast; norm_num at *; linarith

theorem ip_R : R (rd 0.31830988618379067154) (1 / Real.pi) (1 / 2 ^ 51) := by
  have hp1 := Real.pi_gt_d20
  have hp2 := Real.pi_lt_d20
  have p0 := Real.pi_pos
  have a : 0.3 ≤ 1 / Real.pi := by rw [le_div_iff₀ p0]; norm_num at *; linarith
  have b : 1 / Real.pi ≤ 1 := by rw [div_le_iff₀ p0]; linarith
  refine (R.rd hr (lit_R ?_ ?_ ?_) (by norm_num)).mono (by norm_num)
  · rw [abs_le]
    constructor
    · rw [neg_le_sub_iff_le_add, div_le_iff₀ p0]; push_cast; norm_num at *; linarith
    · rw [sub_le_iff_le_add, ← sub_le_iff_le_add', le_div_iff₀ p0]; push_cast; norm_num at *; linarith
  · rw [abs_of_nonneg (by linarith)]; norm_num at *; linarith
  · rw [abs_of_nonneg (by linarith)]; norm_num at *; linarith

theorem s3_R : R (rd 1.73205080756887729352744634150587237) (Real.sqrt 3) (1 / 2 ^ 51) :=
  (R.rd hr (sqrt_R (by norm_num) (by norm_num) (by norm_num) (by norm_num) (by norm_num)) (by norm_num)).mono (by norm_num)
theorem s5_R : R (rd 2.23606797749978969640917366873127624) (Real.sqrt 5) (1 / 2 ^ 51) :=
  (R.rd hr (sqrt_R (by norm_num) (by norm_num) (by norm_num) (by norm_num) (by norm_num)) (by norm_num)).mono (by norm_num)
theorem s15_R : R (rd 3.87298334620741688517926539978239961) (Real.sqrt 15) (1 / 2 ^ 51) :=
  (R.rd hr (sqrt_R (by norm_num) (by norm_num) (by norm_num) (by norm_num) (by norm_num)) (by norm_num)).mono (by norm_num)

theorem min_R {k q : Rat} {K : ℝ} (hk : R k K (1 / 2 ^ 51)) (k1 : 1 ≤ |K|) (k2 : |K| ≤ 4) (hq : q = 2 ∨ q = 4) :
    R (minEntry rd k q) (K / (q * Real.sqrt Real.pi)) (1 / 2 ^ 47) := by
  have hp1 := Real.pi_gt_d20
  have hp2 := Real.pi_lt_d20
  obtain ⟨r1, r2⟩ := sqrt_range (n := Real.pi) (by linarith) (by linarith)
  have q1 : (2 : ℝ) ≤ q := by rcases hq with rfl | rfl <;> norm_num
  have q2 : (q : ℝ) ≤ 4 := by rcases hq with rfl | rfl <;> norm_num
  have hqR : R q q 0 := ⟨by simp, by rw [abs_of_nonneg (by linarith)]; linarith, by rw [abs_of_nonneg (by linarith)]; linarith⟩
  have p1 : (2 : ℝ) ≤ q * Real.sqrt Real.pi := by nlinarith
  have p2 : (q : ℝ) * Real.sqrt Real.pi ≤ 16 := by nlinarith
  have m := R.mul hqR (sp_R hr) le_rfl (by norm_num) (by rw [abs_of_nonneg (by linarith)]; linarith)
    (by rw [abs_of_nonneg (by linarith)]; linarith)
  have m' := R.rd hr m (by norm_num)
  unfold minEntry
  refine (R.rd hr (R.div hk m' (by norm_num) (by norm_num) (by norm_num) ?_ ?_) (by norm_num)).mono (by norm_num)
  · rw [abs_div, abs_of_nonneg (show 0 ≤ (q : ℝ) * Real.sqrt Real.pi by linarith), le_div_iff₀ (by linarith)]; linarith
  · rw [abs_div, abs_of_nonneg (show 0 ≤ (q : ℝ) * Real.sqrt Real.pi by linarith), div_le_iff₀ (by linarith)]; linarith

theorem shader_R {k q : Rat} {K : ℝ} (hk : R k K (1 / 2 ^ 51)) (k1 : 1 ≤ |K|) (k2 : |K| ≤ 4) (hq : q = 2 ∨ q = 4) :
    R (shaderEntry rd k q) (K / (q * Real.sqrt Real.pi) * (1 / Real.pi)) (1 / 2 ^ 44) := by
  have hp1 := Real.pi_gt_d20
  have hp2 := Real.pi_lt_d20
  have p0 := Real.pi_pos
  obtain ⟨r1, r2⟩ := sqrt_range (n := Real.pi) (by linarith) (by linarith)
  have r3 : Real.sqrt Real.pi ≤ 2 := by rw [Real.sqrt_le_left (by norm_num)]; linarith
  have q1 : (2 : ℝ) ≤ q := by rcases hq with rfl | rfl <;> norm_num
  have q2 : (q : ℝ) ≤ 4 := by rcases hq with rfl | rfl <;> norm_num
  have p1 : (2 : ℝ) ≤ q * Real.sqrt Real.pi := by nlinarith
  have p2 : (q : ℝ) * Real.sqrt Real.pi ≤ 8 := by nlinarith
  unfold shaderEntry
  refine (R.rd hr (R.mul (min_R hr hk k1 k2 hq) (ip_R hr) (by norm_num) (by norm_num) ?_ ?_) (by norm_num)).mono (by norm_num)
  · rw [abs_mul, abs_div, abs_div, abs_of_pos p0, abs_one, abs_of_nonneg (show 0 ≤ (q : ℝ) * Real.sqrt Real.pi by linarith),
      div_mul_div_comm, mul_one, le_div_iff₀ (by positivity)]
    nlinarith
  · rw [abs_mul, abs_div, abs_div, abs_of_pos p0, abs_one, abs_of_nonneg (show 0 ≤ (q : ℝ) * Real.sqrt Real.pi by linarith),
      div_mul_div_comm, mul_one, div_le_iff₀ (by positivity)]
    nlinarith

end

theorem one_R : R 1 1 (1 / 2 ^ 51) := ⟨by norm_num, by norm_num, by norm_num⟩

end ShTab

open ShTab

/-- C139: every entry of the table of `shmin` is within 1.01 units of the exact value. -/
theorem minCa_f32 (rd : Rat → Rat) (hr : DoubleOk rd) (i : ℕ) (hi : i < 9) :
    ∃ k c, (minCa32 rd)[i]? = some k ∧ minTable[i]? = some c ∧ Near k c (1.01 / 2 ^ 24 * |c|) := by
  have g3 := sqrt_range (n := 3) (by norm_num) (by norm_num)
  have g5 := sqrt_range (n := 5) (by norm_num) (by norm_num)
  have g15 := sqrt_range (n := 15) (by norm_num) (by norm_num)
  have e1 := (min_R hr one_R (q := 2) (by norm_num) (by norm_num) (by norm_num)).single (by norm_num)
  have e2 := (min_R hr (s3_R hr).neg (q := 2) (by rw [abs_neg, abs_of_nonneg (by linarith)]; exact g3.1) (by rw [abs_neg, abs_of_nonneg (by linarith)]; exact g3.2) (by norm_num)).single (by norm_num)
  have e3 := (min_R hr (s3_R hr) (q := 2) (by rw [abs_of_nonneg (by linarith)]; exact g3.1) (by rw [abs_of_nonneg (by linarith)]; exact g3.2) (by norm_num)).single (by norm_num)
  have e4 := (min_R hr (s15_R hr) (q := 2) (by rw [abs_of_nonneg (by linarith)]; exact g15.1) (by rw [abs_of_nonneg (by linarith)]; exact g15.2) (by norm_num)).single (by norm_num)
  have e5 := (min_R hr (s15_R hr).neg (q := 2) (by rw [abs_neg, abs_of_nonneg (by linarith)]; exact g15.1) (by rw [abs_neg, abs_of_nonneg (by linarith)]; exact g15.2) (by norm_num)).single (by norm_num)
  have e6 := (min_R hr (s5_R hr) (q := 4) (by rw [abs_of_nonneg (by linarith)]; exact g5.1) (by rw [abs_of_nonneg (by linarith)]; exact g5.2) (by norm_num)).single (by norm_num)
  have e8 := (min_R hr (s15_R hr) (q := 4) (by rw [abs_of_nonneg (by linarith)]; exact g15.1) (by rw [abs_of_nonneg (by linarith)]; exact g15.2) (by norm_num)).single (by norm_num)
  have t : minTable = [1 / (((2 : ℚ) : ℝ) * Real.sqrt Real.pi), -Real.sqrt 3 / (((2 : ℚ) : ℝ) * Real.sqrt Real.pi), Real.sqrt 3 / (((2 : ℚ) : ℝ) * Real.sqrt Real.pi),
      -Real.sqrt 3 / (((2 : ℚ) : ℝ) * Real.sqrt Real.pi), Real.sqrt 15 / (((2 : ℚ) : ℝ) * Real.sqrt Real.pi), -Real.sqrt 15 / (((2 : ℚ) : ℝ) * Real.sqrt Real.pi),
      Real.sqrt 5 / (((4 : ℚ) : ℝ) * Real.sqrt Real.pi), -Real.sqrt 15 / (((2 : ℚ) : ℝ) * Real.sqrt Real.pi), Real.sqrt 15 / (((4 : ℚ) : ℝ) * Real.sqrt Real.pi)] := by
    simp only [minTable, minCa, Flt.real_lit, Flt.real_div, Flt.real_mul, Flt.real_neg]; norm_num
  rw [t]
  interval_cases i
  · exact ⟨_, _, rfl, rfl, e1⟩
  · exact ⟨_, _, rfl, rfl, e2⟩
  · exact ⟨_, _, rfl, rfl, e3⟩
  · exact ⟨_, _, rfl, rfl, e2⟩
  · exact ⟨_, _, rfl, rfl, e4⟩
  · exact ⟨_, _, rfl, rfl, e5⟩
  · exact ⟨_, _, rfl, rfl, e6⟩
  · exact ⟨_, _, rfl, rfl, e5⟩
  · exact ⟨_, _, rfl, rfl, e8⟩

theorem ShTab.shaderCa_bound (rd : Rat → Rat) (hr : DoubleOk rd) (i : ℕ) (hi : i < 9) :
    ∃ k c, (shaderCa32 rd)[i]? = some k ∧ shaderTable[i]? = some c ∧ Near k c (1.01 / 2 ^ 24 * |c|) ∧ |c| ≤ 64 := by
  have g3 := sqrt_range (n := 3) (by norm_num) (by norm_num)
  have g5 := sqrt_range (n := 5) (by norm_num) (by norm_num)
  have g15 := sqrt_range (n := 15) (by norm_num) (by norm_num)
  have e1 := (shader_R hr one_R (q := 2) (by norm_num) (by norm_num) (by norm_num)).single' (by norm_num)
  have e2 := (shader_R hr (s3_R hr).neg (q := 2) (by rw [abs_neg, abs_of_nonneg (by linarith)]; exact g3.1) (by rw [abs_neg, abs_of_nonneg (by linarith)]; exact g3.2) (by norm_num)).single' (by norm_num)
  have e3 := (shader_R hr (s3_R hr) (q := 2) (by rw [abs_of_nonneg (by linarith)]; exact g3.1) (by rw [abs_of_nonneg (by linarith)]; exact g3.2) (by norm_num)).single' (by norm_num)
  have e4 := (shader_R hr (s15_R hr) (q := 2) (by rw [abs_of_nonneg (by linarith)]; exact g15.1) (by rw [abs_of_nonneg (by linarith)]; exact g15.2) (by norm_num)).single' (by norm_num)
  have e5 := (shader_R hr (s15_R hr).neg (q := 2) (by rw [abs_neg, abs_of_nonneg (by linarith)]; exact g15.1) (by rw [abs_neg, abs_of_nonneg (by linarith)]; exact g15.2) (by norm_num)).single' (by norm_num)
  have e6 := (shader_R hr (s5_R hr) (q := 4) (by rw [abs_of_nonneg (by linarith)]; exact g5.1) (by rw [abs_of_nonneg (by linarith)]; exact g5.2) (by norm_num)).single' (by norm_num)
  have e8 := (shader_R hr (s15_R hr) (q := 4) (by rw [abs_of_nonneg (by linarith)]; exact g15.1) (by rw [abs_of_nonneg (by linarith)]; exact g15.2) (by norm_num)).single' (by norm_num)
  have t : shaderTable = [1 / (((2 : ℚ) : ℝ) * Real.sqrt Real.pi) * (1 / Real.pi), -Real.sqrt 3 / (((2 : ℚ) : ℝ) * Real.sqrt Real.pi) * (1 / Real.pi),
      Real.sqrt 3 / (((2 : ℚ) : ℝ) * Real.sqrt Real.pi) * (1 / Real.pi),
      -Real.sqrt 3 / (((2 : ℚ) : ℝ) * Real.sqrt Real.pi) * (1 / Real.pi), Real.sqrt 15 / (((2 : ℚ) : ℝ) * Real.sqrt Real.pi) * (1 / Real.pi),
      -Real.sqrt 15 / (((2 : ℚ) : ℝ) * Real.sqrt Real.pi) * (1 / Real.pi),
      Real.sqrt 5 / (((4 : ℚ) : ℝ) * Real.sqrt Real.pi) * (1 / Real.pi), -Real.sqrt 15 / (((2 : ℚ) : ℝ) * Real.sqrt Real.pi) * (1 / Real.pi),
      Real.sqrt 15 / (((4 : ℚ) : ℝ) * Real.sqrt Real.pi) * (1 / Real.pi)] := by
    simp only [shaderTable, shaderCa, Flt.real_lit, Flt.real_div, Flt.real_mul, Flt.real_neg]; norm_num
  rw [t]
  interval_cases i
  · exact ⟨_, _, rfl, rfl, e1⟩
  · exact ⟨_, _, rfl, rfl, e2⟩
  · exact ⟨_, _, rfl, rfl, e3⟩
  · exact ⟨_, _, rfl, rfl, e2⟩
  · exact ⟨_, _, rfl, rfl, e4⟩
  · exact ⟨_, _, rfl, rfl, e5⟩
  · exact ⟨_, _, rfl, rfl, e6⟩
  · exact ⟨_, _, rfl, rfl, e5⟩
  · exact ⟨_, _, rfl, rfl, e8⟩

/-- C139: every entry of the table of `shaderPreprocessSH` is within 1.01 units of the exact value. -/
theorem shaderCa_f32 (rd : Rat → Rat) (hr : DoubleOk rd) (i : ℕ) (hi : i < 9) :
    ∃ k c, (shaderCa32 rd)[i]? = some k ∧ shaderTable[i]? = some c ∧ Near k c (1.01 / 2 ^ 24 * |c|) := by
  obtain ⟨k, c, h1, h2, h3, -⟩ := shaderCa_bound rd hr i hi
  exact ⟨k, c, h1, h2, h3⟩

/-- C139: every `ki` constant is within 1.01 units of the normalisation constant of its harmonic times the coefficient of the
cosine lobe. -/
theorem ki_f32 (rd : Rat → Rat) (hr : DoubleOk rd) (l : ℕ) (m : ℤ) (hl : l < 3) (hm : |m| ≤ l) :
    ∃ k, (ki32 rd)[(shIndex m l).toNat]? = some k ∧
      Near k (Real.sqrt (shNormSq l m) * cosineLobe l) (1.01 / 2 ^ 24 * |Real.sqrt (shNormSq l m) * cosineLobe l|) := by
  obtain ⟨k, hk, e⟩ := shKi_exact l m hl hm
  have kb : (0.14 : ℝ) ≤ k ∧ (k : ℝ) ≤ 1.1 := by
    have : ∀ x ∈ ki, (0.14 : ℝ) ≤ (x : ℝ) ∧ (x : ℝ) ≤ 1.1 := by
      intro x hx
      simp only [ki, List.mem_cons, List.not_mem_nil, or_false] at hx
      rcases hx with rfl | rfl | rfl | rfl | rfl | rfl | rfl | rfl | rfl <;> norm_num
    exact this k (List.mem_of_getElem? hk)
  refine ⟨ofRat (rd k), by rw [ki32, List.getElem?_map, hk, Option.map_some], ?_⟩
  generalize Real.sqrt (shNormSq l m) * cosineLobe l = X at *
  obtain ⟨e1, e2⟩ := abs_le.1 e
  have X1 : 0.13 ≤ X := by norm_num at *; linarith
  have X2 : X ≤ 2 := by norm_num at *; linarith
  have aX : |X| = X := abs_of_nonneg (by norm_num at *; linarith)
  have r : R k X (1 / 2 ^ 43) := ⟨by rw [aX]; norm_num at *; linarith, by rw [aX]; norm_num at *; linarith, by rw [aX]; linarith⟩
  exact (R.rd hr r (by norm_num)).single (by norm_num)

/-- C139: `shaderPreprocessSH` in binary32 multiplies every lane of coefficient `i` by entry `i` of the exact table, up to 2.1 units. -/
theorem shaderPreprocess_f32 (rd : Rat → Rat) (hr : DoubleOk rd) (sh : List (V4 F32)) (h : sh.length = 9)
    (hf : ∀ v ∈ sh, ∀ x ∈ v.toList, x.isFinite = true ∧ |rv x| ≤ 2 ^ 120) :
    ∃ out, shaderPreprocessSH (shaderCa32 rd) sh = some out ∧ out.length = 9 ∧
      ∀ i : ℕ, i < 9 → ∃ c v r, shaderTable[i]? = some c ∧ sh[i]? = some v ∧ out[i]? = some r ∧
        ∀ j : Fin 4, Near (r.get j) (c * rv (v.get j)) (2.1 / 2 ^ 24 * |c * rv (v.get j)| + 1 / 2 ^ 149) := by
  obtain ⟨out, e, h9, hs⟩ := shaderPreprocess_scales (shaderCa32 rd) rfl sh h
  refine ⟨out, e, h9, fun i hi => ?_⟩
  obtain ⟨k, v, hk, hv, ho⟩ := hs i hi
  obtain ⟨k', c, hk', hc, ⟨fk, ek⟩, c1⟩ := shaderCa_bound rd hr i hi
  rw [hk] at hk'
  cases hk'
  refine ⟨c, v, _, hc, hv, ho, fun j => ?_⟩
  have vf := hf v (List.mem_of_getElem? hv)
  have lane : ∀ x : F32, x.isFinite = true ∧ |rv x| ≤ 2 ^ 120 → Near (fmul x k) (c * rv x) (2.1 / 2 ^ 24 * |c * rv x| + 1 / 2 ^ 149) := by
    intro x hx
    change |k.val - c| ≤ _ at ek
    change Near (fmul x k) (c * x.val) (2.1 / 2 ^ 24 * |c * x.val| + 1 / 2 ^ 149)
    have hxb : |x.val| ≤ 2 ^ 120 := hx.2
    have d : |x.val * k.val - c * x.val| ≤ 1.01 / 2 ^ 24 * |c * x.val| := by
      rw [show x.val * k.val - c * x.val = (k.val - c) * x.val by ring, abs_mul, abs_mul]
      have := mul_le_mul_of_nonneg_right ek (abs_nonneg x.val)
      linarith
    have cx : |c * x.val| ≤ 64 * 2 ^ 120 := by
      rw [abs_mul]; exact mul_le_mul c1 hxb (abs_nonneg _) (by norm_num)
    have t := abs_add_le (x.val * k.val - c * x.val) (c * x.val)
    rw [sub_add_cancel] at t
    have pr : |x.val * k.val| ≤ 1.001 * |c * x.val| := by
      have := abs_nonneg (c * x.val)
      norm_num at d this t ⊢; linarith
    obtain ⟨f, e⟩ := fmul_rel hx.1 fk (lt_of_le_of_lt pr (by norm_num at cx ⊢; linarith))
    refine ⟨f, ?_⟩
    change |(fmul x k).val - c * x.val| ≤ _
    have t2 := abs_add_le ((fmul x k).val - x.val * k.val) (x.val * k.val - c * x.val)
    rw [sub_add_sub_cancel] at t2
    rw [BoxF32.small_u] at e
    generalize |c * x.val| = z at *
    have z0 : 0 ≤ z := by norm_num at d pr ⊢; linarith [abs_nonneg (x.val * k.val)]
    norm_num at d e pr ⊢; linarith
  match j with
  | 0 => exact lane v.x (vf _ (by simp [V4.toList]))
  | 1 => exact lane v.y (vf _ (by simp [V4.toList]))
  | 2 => exact lane v.z (vf _ (by simp [V4.toList]))
  | 3 => exact lane v.w (vf _ (by simp [V4.toList]))

/-- Rounding down to 200 binary places. -/
def ShTab.rdPlaces (q : Rat) : Rat := (⌊q * 2 ^ 200⌋ : Int) / 2 ^ 200

/-- Non-vacuity: a rounding that is not exact and meets the assumption, and nine coefficients. -/
example : DoubleOk rdPlaces ∧ rdPlaces (1 / 3) ≠ 1 / 3 := by
  constructor
  · intro q h1 _
    unfold rdPlaces
    have a := Int.floor_le (q * 2 ^ 200)
    have b := Int.lt_floor_add_one (q * 2 ^ 200)
    generalize (⌊q * 2 ^ 200⌋ : Int) = n at *
    rw [abs_le]
    have h2 : (1 : Rat) / 2 ^ 153 ≤ |q| / 2 ^ 53 := by
      rw [div_le_div_iff₀ (by norm_num) (by norm_num)]; norm_num at h1 ⊢; linarith
    constructor
    · rw [neg_le_sub_iff_le_add]
      have : q - 1 / 2 ^ 200 ≤ (n : Rat) / 2 ^ 200 := by rw [le_div_iff₀ (by norm_num)]; norm_num at b ⊢; linarith
      norm_num at this h2 ⊢; linarith
    · rw [sub_le_iff_le_add]
      have : (n : Rat) / 2 ^ 200 ≤ q := by rw [div_le_iff₀ (by norm_num)]; exact a
      linarith [show 0 ≤ |q| / 2 ^ 53 by positivity]
  · decide +kernel

end Verif
