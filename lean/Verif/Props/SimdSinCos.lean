import Verif.Props.SimdExp
import Mathlib.Analysis.SpecialFunctions.Trigonometric.Bounds
import Mathlib.Analysis.Real.Pi.Bounds
import Mathlib.Tactic.IntervalCases

/-!
# C84: the SIMD sine and cosine
-/

namespace Verif
open F32

namespace F32x4

/-- Taylor's theorem for both functions at once. -/
theorem trig_taylor {x : ℝ} (h : |x| ≤ 1) :
    |Real.cos x - (1 - x ^ 2 / 2 + x ^ 4 / 24 - x ^ 6 / 720 + x ^ 8 / 40320 - x ^ 10 / 3628800)| ≤ |x| ^ 12 * (13 / 5748019200) ∧
    |Real.sin x - (x - x ^ 3 / 6 + x ^ 5 / 120 - x ^ 7 / 5040 + x ^ 9 / 362880 - x ^ 11 / 39916800)| ≤ |x| ^ 12 * (13 / 5748019200) := by
  have hb := Complex.exp_bound (x := (x : ℂ) * Complex.I) (by simpa using h) (n := 12) (by norm_num)
  have hn : ‖(x : ℂ) * Complex.I‖ = |x| := by simp
  rw [hn] at hb
  have hs : Complex.exp ((x : ℂ) * Complex.I) - ∑ m ∈ Finset.range 12, ((x : ℂ) * Complex.I) ^ m / (m.factorial : ℂ) =
      ((Real.cos x - (1 - x ^ 2 / 2 + x ^ 4 / 24 - x ^ 6 / 720 + x ^ 8 / 40320 - x ^ 10 / 3628800) : ℝ) : ℂ) +
      ((Real.sin x - (x - x ^ 3 / 6 + x ^ 5 / 120 - x ^ 7 / 5040 + x ^ 9 / 362880 - x ^ 11 / 39916800) : ℝ) : ℂ) * Complex.I := by
    rw [Complex.exp_mul_I]
    have i2 : Complex.I ^ 2 = -1 := Complex.I_sq
    have i3 : Complex.I ^ 3 = -Complex.I := by rw [pow_succ, i2]; ring
    have i4 : Complex.I ^ 4 = 1 := Complex.I_pow_four
    have i5 : Complex.I ^ 5 = Complex.I := by rw [pow_succ, i4]; ring
    have i6 : Complex.I ^ 6 = -1 := by rw [show 6 = 4 + 2 by rfl, pow_add, i4, i2]; ring
    have i7 : Complex.I ^ 7 = -Complex.I := by rw [show 7 = 4 + 3 by rfl, pow_add, i4, i3]; ring
    have i8 : Complex.I ^ 8 = 1 := by rw [show 8 = 4 + 4 by rfl, pow_add, i4]; ring
    have i9 : Complex.I ^ 9 = Complex.I := by rw [show 9 = 8 + 1 by rfl, pow_add, i8]; ring
    have i10 : Complex.I ^ 10 = -1 := by rw [show 10 = 8 + 2 by rfl, pow_add, i8, i2]; ring
    have i11 : Complex.I ^ 11 = -Complex.I := by rw [show 11 = 8 + 3 by rfl, pow_add, i8, i3]; ring
    simp only [Finset.sum_range_succ, Finset.sum_range_zero, Nat.factorial, mul_pow, i2, i3, i4, i5, i6, i7, i8, i9, i10, i11]
    push_cast
    ring
  rw [hs] at hb
  have hc : (((Nat.succ 12 : ℕ) : ℝ) * (((Nat.factorial 12 : ℕ) : ℝ) * ((12 : ℕ) : ℝ))⁻¹) = 13 / 5748019200 := by
    simp only [Nat.factorial]; norm_num
  rw [hc] at hb
  generalize Real.cos x - (1 - x ^ 2 / 2 + x ^ 4 / 24 - x ^ 6 / 720 + x ^ 8 / 40320 - x ^ 10 / 3628800) = A at hb ⊢
  generalize Real.sin x - (x - x ^ 3 / 6 + x ^ 5 / 120 - x ^ 7 / 5040 + x ^ 9 / 362880 - x ^ 11 / 39916800) = B at hb ⊢
  constructor
  · have := Complex.abs_re_le_norm ((A : ℂ) + (B : ℂ) * Complex.I)
    simp at this
    exact this.trans hb
  · have := Complex.abs_im_le_norm ((A : ℂ) + (B : ℂ) * Complex.I)
    simp at this
    exact this.trans hb

/-- The two polynomials. -/
noncomputable def cosP (x : ℝ) : ℝ :=
  ((2.443315711809948e-5 * (x * x) - 1.388731625493765e-3) * (x * x) + 4.166664568298827e-2) * (x * x) * (x * x) - 1 / 2 * (x * x) + 1
noncomputable def sinP (x : ℝ) : ℝ :=
  ((-1.9515295891e-4 * (x * x) + 8.3321608736e-3) * (x * x) - 1.6666654611e-1) * (x * x) * x + x

/-- Nonnegative Bernstein basis polynomials of degree five on an interval. -/
theorem bern5 {s : ℝ} (h0 : 0 ≤ s) (h1 : 0 ≤ 1 - s) : 0 ≤ (1 - s) ^ 5 ∧ 0 ≤ s * (1 - s) ^ 4 ∧ 0 ≤ s ^ 2 * (1 - s) ^ 3 ∧
    0 ≤ s ^ 3 * (1 - s) ^ 2 ∧ 0 ≤ s ^ 4 * (1 - s) ∧ 0 ≤ s ^ 5 := by
  refine ⟨?_, ?_, ?_, ?_, ?_, ?_⟩ <;> positivity

theorem cosP_cos {x : ℝ} (h : |x| ≤ 0.7872) : |cosP x - Real.cos x| ≤ 2e-9 := by
  obtain ⟨ht, _⟩ := trig_taylor (h.trans (by norm_num))
  have p12 : |x| ^ 12 ≤ 0.7872 ^ 12 := pow_le_pow_left₀ (abs_nonneg _) h 12
  have ht' := abs_le.1 (ht.trans (mul_le_mul_of_nonneg_right p12 (by norm_num)))
  have hy : x ^ 2 ≤ 0.62 := by
    rw [← sq_abs]; exact (pow_le_pow_left₀ (abs_nonneg _) h 2).trans (by norm_num)
  obtain ⟨s, hs⟩ : ∃ s, s = x ^ 2 / 0.62 := ⟨_, rfl⟩
  have hx2 : x ^ 2 = 0.62 * s := by rw [hs]; ring
  have h0 : 0 ≤ s := by rw [hs]; positivity
  have h1 : 0 ≤ 1 - s := by rw [hs]; linarith [(div_le_one (by norm_num : (0 : ℝ) < 0.62)).2 hy]
  obtain ⟨b0, b1, b2, b3, b4, b5⟩ := bern5 h0 h1
  have hd : |cosP x - (1 - x ^ 2 / 2 + x ^ 4 / 24 - x ^ 6 / 720 + x ^ 8 / 40320 - x ^ 10 / 3628800)| ≤ 1.4e-9 := by
    have e : cosP x - (1 - x ^ 2 / 2 + x ^ 4 / 24 - x ^ 6 / 720 + x ^ 8 / 40320 - x ^ 10 / 3628800) =
        (4.166664568298827e-2 - 1 / 24) * (0.62 * s) ^ 2 + (1 / 720 - 1.388731625493765e-3) * (0.62 * s) ^ 3 +
        (2.443315711809948e-5 - 1 / 40320) * (0.62 * s) ^ 4 + 1 / 3628800 * (0.62 * s) ^ 5 := by
      rw [← hx2]; unfold cosP; ring
    rw [e, abs_le]
    constructor <;> nlinarith [b0, b1, b2, b3, b4, b5]
  have hd' := abs_le.1 hd
  norm_num at ht' hd' ⊢
  rw [abs_le]
  constructor <;> linarith [ht'.1, ht'.2, hd'.1, hd'.2]

theorem sinP_sin {x : ℝ} (h : |x| ≤ 0.7872) : |sinP x - Real.sin x| ≤ 1.6e-8 := by
  obtain ⟨_, ht⟩ := trig_taylor (h.trans (by norm_num))
  have p12 : |x| ^ 12 ≤ 0.7872 ^ 12 := pow_le_pow_left₀ (abs_nonneg _) h 12
  have ht' := ht.trans (mul_le_mul_of_nonneg_right p12 (by norm_num))
  have hy : x ^ 2 ≤ 0.62 := by
    rw [← sq_abs]; exact (pow_le_pow_left₀ (abs_nonneg _) h 2).trans (by norm_num)
  obtain ⟨s, hs⟩ : ∃ s, s = x ^ 2 / 0.62 := ⟨_, rfl⟩
  have hx2 : x ^ 2 = 0.62 * s := by rw [hs]; ring
  have h0 : 0 ≤ s := by rw [hs]; positivity
  have h1 : 0 ≤ 1 - s := by rw [hs]; linarith [(div_le_one (by norm_num : (0 : ℝ) < 0.62)).2 hy]
  obtain ⟨b0, b1, b2, b3, b4, b5⟩ := bern5 h0 h1
  have hd : |(1 / 6 - 1.6666654611e-1) * (0.62 * s) + (8.3321608736e-3 - 1 / 120) * (0.62 * s) ^ 2 +
      (1 / 5040 - 1.9515295891e-4) * (0.62 * s) ^ 3 - 1 / 362880 * (0.62 * s) ^ 4 + 1 / 39916800 * (0.62 * s) ^ 5| ≤ 1.9e-8 := by
    rw [abs_le]
    constructor <;> nlinarith [b0, b1, b2, b3, b4, b5]
  have e : sinP x - (x - x ^ 3 / 6 + x ^ 5 / 120 - x ^ 7 / 5040 + x ^ 9 / 362880 - x ^ 11 / 39916800) =
      ((1 / 6 - 1.6666654611e-1) * (0.62 * s) + (8.3321608736e-3 - 1 / 120) * (0.62 * s) ^ 2 +
      (1 / 5040 - 1.9515295891e-4) * (0.62 * s) ^ 3 - 1 / 362880 * (0.62 * s) ^ 4 + 1 / 39916800 * (0.62 * s) ^ 5) * x := by
    rw [← hx2]; unfold sinP; ring
  have hd2 : |sinP x - (x - x ^ 3 / 6 + x ^ 5 / 120 - x ^ 7 / 5040 + x ^ 9 / 362880 - x ^ 11 / 39916800)| ≤ 1.9e-8 * 0.7872 := by
    rw [e, abs_mul]; exact mul_le_mul hd h (abs_nonneg _) (by norm_num)
  have h1 := abs_le.1 hd2
  have h2 := abs_le.1 ht'
  norm_num at h1 h2 ⊢
  rw [abs_le]
  constructor <;> linarith [h1.1, h1.2, h2.1, h2.2]

theorem lit_app {q : Rat} (M : ℝ) {y : ℝ} (hy : (q : ℝ) = y) (h : |y| ≤ M) (hM : M < 2 ^ 127) : Approx (ofRat q) y (ulp M) :=
  hy ▸ lit_approx q M (hy ▸ h) hM

theorem taylorSin_approx (t : FTarget) {x : F32} (hx : x.isFinite = true) (h : |x.val| ≤ 0.7872) :
    Approx (taylorSin t x) (sinP x.val) 7.4e-8 := by
  have S := Approx.self hx
  unfold taylorSin sinP
  generalize x.val = r at *
  have q2 : |r * r| ≤ 0.62 := by
    rw [abs_mul]; exact (mul_le_mul h h (abs_nonneg _) (by norm_num)).trans (by norm_num)
  have x2 := (S.mul S 0.7872 0.7872 h h (by norm_num)).mono (e' := 3.71e-8) (by unfold ulp; norm_num)
  have c7 : |(-1.9515295891e-4 : ℝ)| ≤ 0.0002 := by rw [abs_of_neg] <;> norm_num
  have l7 := lit_app (q := -1.9515295891e-4) 0.0002 (y := -1.9515295891e-4) (by push_cast; rfl) c7 (by norm_num)
  have c5 : |(8.3321608736e-3 : ℝ)| ≤ 0.00834 := by rw [abs_of_pos] <;> norm_num
  have l5 := lit_app (q := 8.3321608736e-3) 0.00834 (y := 8.3321608736e-3) (by push_cast; rfl) c5 (by norm_num)
  have c3 : |(1.6666654611e-1 : ℝ)| ≤ 0.16667 := by rw [abs_of_pos] <;> norm_num
  have l3 := lit_app (q := 1.6666654611e-1) 0.16667 (y := 1.6666654611e-1) (by push_cast; rfl) c3 (by norm_num)
  have ba := abs_horner c7 q2 c5
  have a := (l7.fma t x2 l5 0.0002 0.62 0.00013 0.0085 c7 q2 (by unfold ulp; norm_num) (le_trans (add_le_add_left ba _) (by unfold ulp; norm_num)) (by norm_num) (by norm_num)).mono (e' := 1.2e-9) (by unfold ulp; norm_num)
  have b := (a.mul x2 _ 0.62 ba q2 (by norm_num)).mono (e' := 1.5e-9) (by unfold ulp; norm_num)
  have bb : |(-1.9515295891e-4 * (r * r) + 8.3321608736e-3) * (r * r)| ≤ 0.0053 := by
    rw [abs_mul]; exact (mul_le_mul ba q2 (abs_nonneg _) (by norm_num)).trans (by norm_num)
  have bc := (abs_sub ((-1.9515295891e-4 * (r * r) + 8.3321608736e-3) * (r * r)) 1.6666654611e-1).trans (add_le_add bb c3)
  have c := (b.sub l3 0.173 (le_trans (add_le_add_left (add_le_add_left bc _) _) (by unfold ulp; norm_num)) (by norm_num)).mono (e' := 2.2e-8) (by unfold ulp; norm_num)
  have d := (c.mul x2 _ 0.62 bc q2 (by norm_num)).mono (e' := 2.7e-8) (by unfold ulp; norm_num)
  have bd : |((-1.9515295891e-4 * (r * r) + 8.3321608736e-3) * (r * r) - 1.6666654611e-1) * (r * r)| ≤ 0.1067 := by
    rw [abs_mul]; exact (mul_le_mul bc q2 (abs_nonneg _) (by norm_num)).trans (by norm_num)
  have e := (d.mul S _ 0.7872 bd h (by norm_num)).mono (e' := 2.7e-8) (by unfold ulp; norm_num)
  have hp := sinP_sin h
  have hp2 : |sinP r| ≤ 0.71 := by
    have h1 := abs_add_le (sinP r - Real.sin r) (Real.sin r)
    rw [sub_add_cancel] at h1
    have h2 : |Real.sin r| ≤ 0.7095 := by
      obtain ⟨_, ht⟩ := trig_taylor (h.trans (by norm_num))
      have h3 : |Real.sin r| ≤ |Real.sin 0.7872| := by
        have hpi := Real.pi_gt_three
        have h' := abs_le.1 h
        have hm := Real.strictMonoOn_sin.monotoneOn
        have s0 : 0 ≤ Real.sin 0.7872 := Real.sin_nonneg_of_nonneg_of_le_pi (by norm_num) (by linarith)
        rw [abs_of_nonneg s0, abs_le]
        constructor
        · rw [← Real.sin_neg]
          exact hm ⟨by linarith, by linarith⟩ ⟨by linarith, by linarith⟩ h'.1
        · exact hm ⟨by linarith, by linarith⟩ ⟨by linarith, by linarith⟩ h'.2
      obtain ⟨_, hc⟩ := trig_taylor (x := 0.7872) (by rw [abs_of_pos] <;> norm_num)
      rw [abs_of_pos (by norm_num : (0 : ℝ) < 0.7872)] at hc
      have h4 : |Real.sin 0.7872| ≤ 0.7095 := by
        have := abs_le.1 hc
        rw [abs_le]
        constructor <;> norm_num at this ⊢ <;> linarith [this.1, this.2]
      exact h3.trans h4
    norm_num at *
    linarith
  have f := (e.add S 0.7101 (le_trans (add_le_add_left (add_le_add_left hp2 _) _) (by norm_num)) (by norm_num)).mono (e' := 7.4e-8) (by unfold ulp; norm_num)
  exact f

theorem taylorCos_approx (t : FTarget) {x : F32} (hx : x.isFinite = true) (h : |x.val| ≤ 0.7872) :
    Approx (taylorCos t x) (cosP x.val) 1.3e-7 := by
  have S := Approx.self hx
  have hp := cosP_cos h
  have hp2 : |cosP x.val| ≤ 1.0001 := by
    have h1 := abs_add_le (cosP x.val - Real.cos x.val) (Real.cos x.val)
    rw [sub_add_cancel] at h1
    have := Real.abs_cos_le_one x.val
    norm_num at *
    linarith
  unfold taylorCos
  unfold cosP at hp2 ⊢
  generalize x.val = r at *
  have q2 : |r * r| ≤ 0.62 := by
    rw [abs_mul]; exact (mul_le_mul h h (abs_nonneg _) (by norm_num)).trans (by norm_num)
  have x2 := (S.mul S 0.7872 0.7872 h h (by norm_num)).mono (e' := 3.71e-8) (by unfold ulp; norm_num)
  have c8 : |(2.443315711809948e-5 : ℝ)| ≤ 2.5e-5 := by rw [abs_of_pos] <;> norm_num
  have l8 := lit_app (q := 2.443315711809948e-5) 2.5e-5 (y := 2.443315711809948e-5) (by push_cast; rfl) c8 (by norm_num)
  have c6 : |(1.388731625493765e-3 : ℝ)| ≤ 0.00139 := by rw [abs_of_pos] <;> norm_num
  have l6 := lit_app (q := 1.388731625493765e-3) 0.00139 (y := 1.388731625493765e-3) (by push_cast; rfl) c6 (by norm_num)
  have c4 : |(4.166664568298827e-2 : ℝ)| ≤ 0.0417 := by rw [abs_of_pos] <;> norm_num
  have l4 := lit_app (q := 4.166664568298827e-2) 0.0417 (y := 4.166664568298827e-2) (by push_cast; rfl) c4 (by norm_num)
  have a := (l8.mul x2 2.5e-5 0.62 c8 q2 (by unfold ulp; norm_num)).mono (e' := 4e-12) (by unfold ulp; norm_num)
  have ba : |2.443315711809948e-5 * (r * r)| ≤ 1.6e-5 := by
    rw [abs_mul]; exact (mul_le_mul c8 q2 (abs_nonneg _) (by norm_num)).trans (by norm_num)
  have bb := (abs_sub (2.443315711809948e-5 * (r * r)) 1.388731625493765e-3).trans (add_le_add ba c6)
  have b := (a.sub l6 0.00141 (le_trans (add_le_add_left (add_le_add_left bb _) _) (by unfold ulp; norm_num)) (by norm_num)).mono (e' := 1.8e-10) (by unfold ulp; norm_num)
  have bc := abs_horner bb q2 c4
  have c := (b.fma t x2 l4 _ 0.62 0.0009 0.043 bb q2 (by norm_num) (le_trans (add_le_add_left bc _) (by unfold ulp; norm_num)) (by norm_num) (by norm_num)).mono (e' := 5.4e-9) (by unfold ulp; norm_num)
  have d := (c.mul x2 _ 0.62 bc q2 (by norm_num)).mono (e' := 6.8e-9) (by unfold ulp; norm_num)
  have bd : |((2.443315711809948e-5 * (r * r) - 1.388731625493765e-3) * (r * r) + 4.166664568298827e-2) * (r * r)| ≤ 0.0265 := by
    rw [abs_mul]; exact (mul_le_mul bc q2 (abs_nonneg _) (by norm_num)).trans (by norm_num)
  have e := (d.mul x2 _ 0.62 bd q2 (by norm_num)).mono (e' := 6.4e-9) (by unfold ulp; norm_num)
  have be : |((2.443315711809948e-5 * (r * r) - 1.388731625493765e-3) * (r * r) + 4.166664568298827e-2) * (r * r) * (r * r)| ≤ 0.0165 := by
    rw [abs_mul]; exact (mul_le_mul bd q2 (abs_nonneg _) (by norm_num)).trans (by norm_num)
  have lh : Approx (ofRat (1 / 2)) (1 / 2) 0 := ⟨lit_half.1, by rw [lit_half.2]; simp⟩
  have ch : |(1 / 2 : ℝ)| ≤ 1 / 2 := by rw [abs_of_pos] <;> norm_num
  have f := (lh.mul x2 (1 / 2) 0.62 ch q2 (by norm_num)).mono (e' := 3.71e-8) (by unfold ulp; norm_num)
  have bf : |1 / 2 * (r * r)| ≤ 0.31 := by
    rw [abs_mul]; exact (mul_le_mul ch q2 (abs_nonneg _) (by norm_num)).trans (by norm_num)
  have bg := (abs_sub (((2.443315711809948e-5 * (r * r) - 1.388731625493765e-3) * (r * r) + 4.166664568298827e-2) * (r * r) * (r * r)) (1 / 2 * (r * r))).trans (add_le_add be bf)
  have g := (e.sub f 0.327 (le_trans (add_le_add_left (add_le_add_left bg _) _) (by norm_num)) (by norm_num)).mono (e' := 6.4e-8) (by unfold ulp; norm_num)
  have l1 : Approx (ofRat 1) 1 0 := ⟨lit_one.1, by rw [lit_one.2]; simp⟩
  exact (g.add l1 1.0002 (le_trans (add_le_add_left (add_le_add_left hp2 _) _) (by norm_num)) (by norm_num)).mono (e' := 1.3e-7) (by unfold ulp; norm_num)

/-- A number on the grid of spacing `2 ^ (s - 149)` and of magnitude at most `2 ^ (s - 125)` is representable. -/
theorem rep_of_bound {r : ℝ} (j : Int) (s : Nat) (h : r = (j : ℝ) * 2 ^ s / 2 ^ 149) (hb : |r| ≤ 2 ^ 24 * 2 ^ s / 2 ^ 149) (hs : s ≤ 252) :
    ∃ y : F32, y.isFinite = true ∧ y.val = r := by
  have hj : |j| ≤ 2 ^ 24 := by
    rw [h, abs_div, abs_mul, abs_of_pos (by positivity : (0 : ℝ) < 2 ^ s), abs_of_pos (by positivity : (0 : ℝ) < 2 ^ 149)] at hb
    have h1 : |(j : ℝ)| * 2 ^ s ≤ 2 ^ 24 * 2 ^ s := le_of_mul_le_mul_right (by simpa only [div_eq_mul_inv] using hb) (by positivity)
    have h2 : |(j : ℝ)| ≤ 2 ^ 24 := le_of_mul_le_mul_right h1 (by positivity)
    have h3 : ((|j| : Int) : ℝ) ≤ ((2 ^ 24 : Int) : ℝ) := by rw [Int.cast_abs, Int.cast_pow, Int.cast_ofNat]; exact h2
    exact Int.cast_le.1 h3
  obtain ⟨y, hyf, hyu⟩ := representable j s (by have := abs_le.1 hj; omega) hs
  refine ⟨y, hyf, ?_⟩
  rw [val_units, hyu, h, Int.cast_mul, Int.cast_pow, Int.cast_ofNat]

/-- The first two steps of the argument reduction are exact. -/
theorem reduce_exact {x : F32} (hx : x.isFinite = true) (h0 : 1 / 2 ≤ x.val) (hX : x.val ≤ 8192) (n : Nat)
    (h1 : |x.val - n * (201 / 2 ^ 7)| ≤ 0.79 + 0.001 * x.val) (h2 : |x.val - n * (201 / 2 ^ 7) - n * (2029 / 2 ^ 22)| ≤ 1) :
    (∃ y : F32, y.isFinite = true ∧ y.val = x.val - n * (201 / 2 ^ 7)) ∧
    (∃ y : F32, y.isFinite = true ∧ y.val = x.val - n * (201 / 2 ^ 7) - n * (2029 / 2 ^ 22)) := by
  obtain ⟨s, k, hm, hk, hs⟩ := mag_decomp x.mag
  have hmu : magUnits x.mag = k * 2 ^ s := by rw [hm]; exact magUnits_eq s k hk.le hs
  have hval : x.val = (k : ℝ) * 2 ^ s / 2 ^ 149 := by
    have hsg : x.signBit = false := by
      by_contra hc
      rw [Bool.not_eq_false] at hc
      rw [val_units] at h0
      unfold units at h0
      rw [if_pos hc] at h0
      have : (0 : ℝ) ≤ ((magUnits x.mag : Int) : ℝ) := by positivity
      rw [Int.cast_neg] at h0
      have h2 : -((magUnits x.mag : Int) : ℝ) / 2 ^ 149 ≤ 0 := div_nonpos_of_nonpos_of_nonneg (by linarith) (by positivity)
      linarith
    rw [val_units]; unfold units
    rw [if_neg (by simp [hsg]), hmu, Int.cast_natCast, Nat.cast_mul, Nat.cast_pow, Nat.cast_ofNat]
  have hkr : (k : ℝ) < 2 ^ 24 := by
    have : (k : ℝ) < ((2 ^ 24 : Nat) : ℝ) := Nat.cast_lt.2 hk
    rw [Nat.cast_pow, Nat.cast_ofNat] at this; exact this
  have hs2 : (0 : ℝ) < 2 ^ s := by positivity
  have hE : x.val < 2 ^ 24 * 2 ^ s / 2 ^ 149 := by rw [hval]; gcongr
  have hlo : 125 ≤ s := by
    by_contra hc
    have : (2 : ℝ) ^ s ≤ 2 ^ 124 := pow_le_pow_right₀ (by norm_num) (by omega)
    have : (2 : ℝ) ^ 24 * 2 ^ s / 2 ^ 149 ≤ 2 ^ 24 * 2 ^ 124 / 2 ^ 149 := by gcongr
    norm_num at *
    linarith
  have hE1 : (1 : ℝ) ≤ 2 ^ 24 * 2 ^ s / 2 ^ 149 := by
    have : (2 : ℝ) ^ 125 ≤ 2 ^ s := pow_le_pow_right₀ (by norm_num) hlo
    calc (1 : ℝ) = 2 ^ 24 * 2 ^ 125 / 2 ^ 149 := by norm_num
      _ ≤ _ := by gcongr
  have hhi : s ≤ 139 := by
    by_contra hc
    have hk23 : (2 : ℝ) ^ 23 ≤ k := by
      have : ((2 ^ 23 : Nat) : ℝ) ≤ k := Nat.cast_le.2 (by omega)
      rw [Nat.cast_pow, Nat.cast_ofNat] at this; exact this
    have : (2 : ℝ) ^ 140 ≤ 2 ^ s := pow_le_pow_right₀ (by norm_num) (by omega)
    have : (2 : ℝ) ^ 23 * 2 ^ 140 / 2 ^ 149 ≤ k * 2 ^ s / 2 ^ 149 := by gcongr
    rw [← hval] at this
    norm_num at this
    linarith
  obtain ⟨a, ha⟩ : ∃ a, 142 = s + a := ⟨142 - s, by omega⟩
  have r1 : x.val - n * (201 / 2 ^ 7) = (((k : Int) - n * 201 * 2 ^ a : Int) : ℝ) * 2 ^ s / 2 ^ 149 := by
    rw [hval, Int.cast_sub, Int.cast_mul, Int.cast_mul, Int.cast_pow, Int.cast_ofNat, Int.cast_ofNat, Int.cast_natCast, Int.cast_natCast,
      sub_mul, mul_assoc ((n : ℝ) * 201), ← pow_add, add_comm a s, ← ha, sub_div]
    congr 1
    norm_num; ring
  refine ⟨rep_of_bound _ s r1 ?_ (by omega), ?_⟩
  · linarith
  · by_cases hc : s ≤ 127
    · obtain ⟨b, hb⟩ : ∃ b, 127 = s + b := ⟨127 - s, by omega⟩
      refine rep_of_bound ((k : Int) - n * 201 * 2 ^ a - n * 2029 * 2 ^ b) s ?_ (by linarith) (by omega)
      rw [r1, Int.cast_sub _ ((n : Int) * 2029 * 2 ^ b), Int.cast_mul, Int.cast_mul, Int.cast_pow, Int.cast_ofNat, Int.cast_ofNat, Int.cast_natCast,
        sub_mul, mul_assoc ((n : ℝ) * 2029), ← pow_add, add_comm b s, ← hb, sub_div]
      congr 1
      norm_num; ring
    · obtain ⟨b, hb⟩ : ∃ b, s = b + 127 := ⟨s - 127, by omega⟩
      refine rep_of_bound (((k : Int) - n * 201 * 2 ^ a) * 2 ^ b - n * 2029) 127 ?_ (h2.trans (by norm_num)) (by omega)
      rw [r1, Int.cast_sub _ ((n : Int) * 2029), Int.cast_mul _ ((2 : Int) ^ b), Int.cast_mul (n : Int), Int.cast_pow, Int.cast_ofNat, Int.cast_ofNat, Int.cast_natCast,
        sub_mul, mul_assoc _ ((2 : ℝ) ^ b), ← pow_add, ← hb, sub_div]
      congr 1
      norm_num; ring

theorem lit_d1 : (ofRat 1.5703125).isFinite = true ∧ (ofRat 1.5703125).val = 201 / 2 ^ 7 := by
  have := lit_exact (q := 1.5703125) (U := 201 * 2 ^ 142) (by decide +kernel) (by decide +kernel)
  refine ⟨this.1, ?_⟩
  rw [this.2]; push_cast; norm_num
theorem lit_d2 : (ofRat 0.0004837512969970703125).isFinite = true ∧ (ofRat 0.0004837512969970703125).val = 2029 / 2 ^ 22 := by
  have := lit_exact (q := 0.0004837512969970703125) (U := 2029 * 2 ^ 127) (by decide +kernel) (by decide +kernel)
  refine ⟨this.1, ?_⟩
  rw [this.2]; push_cast; norm_num

/-- The reduced argument, given the quadrant. -/
theorem reduce_approx {x fq : F32} (hx : x.isFinite = true) (h0 : 0 ≤ x.val) (hX : x.val ≤ 8192) (hq : fq.isFinite = true) {n : Nat}
    (hn : fq.val = n) (hq1 : |x.val - n * (Real.pi / 2)| ≤ 0.787) :
    Approx (fsub (fsub (fsub x (fmul fq (ofRat 1.5703125))) (fmul fq (ofRat 0.0004837512969970703125))) (fmul fq (ofRat 7.549789948768648e-8)))
      (x.val - n * (Real.pi / 2)) 4.8e-8 := by
  have hp1 := Real.pi_gt_d20
  have hp2 := Real.pi_lt_d20
  have hq' := abs_le.1 hq1
  have hn0 : (0 : ℝ) ≤ n := by positivity
  have hnx : (n : ℝ) ≤ 0.6367 * x.val + 0.5011 := by
    have : (n : ℝ) * (Real.pi / 2) ≤ x.val + 0.787 := by linarith
    nlinarith
  have hn5 : (n : ℝ) ≤ 5217 := by linarith
  have hn5' : n ≤ 5217 := by exact_mod_cast hn5
  -- exact products
  obtain ⟨y1, fy1, uy1⟩ := representable ((n : Int) * 201) 142 (by omega) (by norm_num)
  obtain ⟨y2, fy2, uy2⟩ := representable ((n : Int) * 2029) 127 (by omega) (by norm_num)
  have p1 := fmul_exact hq lit_d1.1 fy1 (by rw [val_units, uy1, hn, lit_d1.2]; push_cast; norm_num; ring)
  have p2 := fmul_exact hq lit_d2.1 fy2 (by rw [val_units, uy2, hn, lit_d2.2]; push_cast; norm_num; ring)
  rw [hn, lit_d1.2] at p1
  rw [hn, lit_d2.2] at p2
  generalize fmul fq (ofRat 1.5703125) = m1 at p1
  generalize fmul fq (ofRat 0.0004837512969970703125) = m2 at p2
  -- exact differences
  have hd1 : |x.val - n * (201 / 2 ^ 7)| ≤ 0.79 + 0.001 * x.val := by
    rw [abs_le]; constructor <;> nlinarith
  have hd2 : |x.val - n * (201 / 2 ^ 7) - n * (2029 / 2 ^ 22)| ≤ 0.788 := by
    rw [abs_le]; norm_num; constructor <;> nlinarith
  have hex : (∃ y : F32, y.isFinite = true ∧ y.val = x.val - n * (201 / 2 ^ 7)) ∧
      (∃ y : F32, y.isFinite = true ∧ y.val = x.val - n * (201 / 2 ^ 7) - n * (2029 / 2 ^ 22)) := by
    by_cases hz : n = 0
    · subst hz
      exact ⟨⟨x, hx, by simp⟩, ⟨x, hx, by simp⟩⟩
    · have : (1 : ℝ) ≤ n := by exact_mod_cast Nat.one_le_iff_ne_zero.2 hz
      exact reduce_exact hx (by nlinarith) hX n hd1 (hd2.trans (by norm_num))
  obtain ⟨⟨z1, fz1, vz1⟩, z2, fz2, vz2⟩ := hex
  have s1 := fsub_exact hx p1.1 fz1 (by rw [vz1, p1.eq])
  rw [p1.eq] at s1
  have s2 := fsub_exact s1.1 p2.1 fz2 (by rw [vz2, s1.eq, p2.eq])
  rw [p2.eq, s1.eq] at s2
  have l3 := lit_app (q := 7.549789948768648e-8) 7.55e-8 (y := 7.549789948768648e-8) (by push_cast; rfl) (by rw [abs_of_pos] <;> norm_num) (by norm_num)
  have Q : Approx fq (n : ℝ) 0 := ⟨hq, by rw [hn]; simp⟩
  have p3 := (Q.mul l3 5217 7.55e-8 (by rw [abs_of_nonneg hn0]; exact hn5) (by rw [abs_of_pos] <;> norm_num) (by unfold ulp; norm_num)).mono
    (e' := 5e-11) (by unfold ulp; norm_num)
  have hfin : |x.val - n * (201 / 2 ^ 7) - n * (2029 / 2 ^ 22) - n * 7.549789948768648e-8 - (x.val - n * (Real.pi / 2))| ≤ 1e-12 := by
    rw [show x.val - n * (201 / 2 ^ 7) - n * (2029 / 2 ^ 22) - n * 7.549789948768648e-8 - (x.val - n * (Real.pi / 2)) =
      n * (Real.pi / 2 - (201 / 2 ^ 7 + 2029 / 2 ^ 22 + 7.549789948768648e-8)) by ring, abs_mul, abs_of_nonneg hn0]
    have : |Real.pi / 2 - (201 / 2 ^ 7 + 2029 / 2 ^ 22 + 7.549789948768648e-8)| ≤ 1e-16 := by
      rw [abs_le]; norm_num at hp1 hp2 ⊢; constructor <;> linarith
    exact (mul_le_mul hn5 this (abs_nonneg _) (by norm_num)).trans (by norm_num)
  have s3 := s2.sub p3 0.7871 (by
    have := abs_add_le (x.val - n * (201 / 2 ^ 7) - n * (2029 / 2 ^ 22) - n * 7.549789948768648e-8 - (x.val - n * (Real.pi / 2))) (x.val - n * (Real.pi / 2))
    rw [sub_add_cancel] at this
    have h3 := this.trans (add_le_add hfin hq1)
    refine (add_le_add_left (add_le_add_left h3 _) _).trans (by norm_num)) (by norm_num)
  exact (s3.trans hfin).mono (by unfold ulp; norm_num)

/-- The two constant masks, bit by bit. -/
theorem bit_sign_all : ∀ i : Fin 32, (0x80000000#32)[i.val] = decide (i.val = 31) := by decide
theorem bit_rest_all : ∀ i : Fin 32, (0x7FFFFFFF#32)[i.val] = !decide (i.val = 31) := by decide
theorem bit_sign (i : Nat) (hi : i < 32) : (0x80000000#32)[i] = decide (i = 31) :=
  bit_sign_all ⟨i, hi⟩
theorem bit_rest (i : Nat) (hi : i < 32) : (0x7FFFFFFF#32)[i] = !decide (i = 31) :=
  bit_rest_all ⟨i, hi⟩

/-- Clearing the sign bit. -/
theorem clear_sign (v : F32) : (⟨v.bits ^^^ (v.bits &&& 0x80000000#32)⟩ : F32) = fabs v := by
  unfold fabs
  congr 1
  ext i hi
  rw [BitVec.getElem_xor, BitVec.getElem_and, BitVec.getElem_and, bit_sign]
  change _ = (v.bits[i] && (0x7FFFFFFF#32)[i])
  rw [bit_rest]
  cases v.bits[i] <;> cases decide (i = 31) <;> rfl

theorem fabs_val (v : F32) (hv : v.isFinite = true) : (fabs v).isFinite = true ∧ (fabs v).val = |v.val| := by
  obtain ⟨hm, hs⟩ := fabs_parts v
  refine ⟨by unfold isFinite at *; rw [hm]; exact hv, ?_⟩
  rw [val_units, val_units, abs_div, abs_of_pos (by positivity : (0 : ℝ) < 2 ^ 149)]
  congr 1
  rw [← Int.cast_abs]
  congr 1
  unfold units
  rw [hs, hm]
  split
  · simp at *
  · split <;> simp

/-- The sign mask. -/
theorem sign_word (v : F32) : v.bits &&& 0x80000000#32 = if v.signBit then 0x80000000#32 else 0#32 := by
  ext i hi
  rw [BitVec.getElem_and, bit_sign]
  by_cases h : i = 31
  · subst h
    unfold signBit
    cases hb : v.bits[31] <;> simp [hb]
  · rw [decide_eq_false h, Bool.and_false]
    split
    · rw [bit_sign, decide_eq_false h]
    · simp

theorem xor_sign (a : F32) (b : Bool) : (⟨a.bits ^^^ (if b then 0x80000000#32 else 0#32)⟩ : F32) = if b then fneg a else a := by
  cases b
  · simp
  · rfl

theorem fneg_val (a : F32) : (fneg a).val = -a.val := by unfold val; rw [fneg_toRat]; push_cast; rfl

/-- Flipping the sign of an approximation. -/
theorem approx_signed {r : F32} {x e : ℝ} (h : Approx r x e) (b : Bool) : Approx (if b then fneg r else r) (if b then -x else x) e := by
  cases b
  · exact h
  · refine ⟨by simp only [if_true]; rw [fneg_finite]; exact h.1, ?_⟩
    simp only [if_true]
    rw [fneg_val, show -r.val - -x = -(r.val - x) by ring, abs_neg]; exact h.2

/-- Conversion to an unsigned integer, in range. -/
theorem toU_small (t : FTarget) {x : F32} (hx : x.isFinite = true) (h0 : 0 ≤ x.val) (h : x.val ≤ 2 ^ 30) :
    ∃ n : Nat, toU t x = BitVec.ofNat 32 n ∧ (n : ℝ) ≤ x.val ∧ x.val < n + 1 := by
  obtain ⟨a, b⟩ := (truncInt_val x).1 h0
  have ht0 : 0 ≤ x.truncInt := by
    have : (-1 : ℝ) < x.truncInt := by linarith
    have : (-1 : Int) < x.truncInt := by exact_mod_cast this
    omega
  have ht1 : x.truncInt ≤ 2 ^ 30 := by
    have : (x.truncInt : ℝ) ≤ ((2 ^ 30 : Int) : ℝ) := by push_cast; linarith
    exact_mod_cast this
  obtain ⟨n, hn⟩ := Int.eq_ofNat_of_zero_le ht0
  refine ⟨n, ?_, ?_, ?_⟩
  · have e : BitVec.ofInt 32 x.truncInt = BitVec.ofNat 32 n := by rw [hn]; exact BitVec.ofInt_natCast _ _
    rw [← e]
    unfold toU
    cases t
    · unfold cvtt
      rw [if_pos]
      simp only [Bool.and_eq_true, decide_eq_true_eq]
      exact ⟨⟨hx, by omega⟩, by omega⟩
    · unfold vcvtU
      rw [(finite_notNaN hx).1, (finite_notNaN hx).2]
      simp only [Bool.false_eq_true, if_false]
      congr 1
      omega
  · rw [hn] at a; exact_mod_cast a
  · rw [hn] at b; exact_mod_cast b

theorem ofU_small (t : FTarget) {n : Nat} (h : n ≤ 2 ^ 24) : (ofU t (BitVec.ofNat 32 n)).isFinite = true ∧ (ofU t (BitVec.ofNat 32 n)).val = n := by
  have e1 : (BitVec.ofNat 32 n).toNat = n := by rw [BitVec.toNat_ofNat]; omega
  have e2 : (BitVec.ofNat 32 n).toInt = n := by
    rw [BitVec.toInt_eq_toNat_of_lt (by rw [e1]; omega), e1]
  have := ofInt_exact (n : Int) (by simpa using h)
  unfold ofU
  cases t
  · simp only [e2]; simpa using this
  · simp only [e1]; simpa using this

/-- The reduction: quadrant and reduced argument. -/
theorem sinCosReduce_spec (t : FTarget) {v : F32} (hv : v.isFinite = true) (h : |v.val| ≤ 8192) :
    ∃ (n : Nat) (x : F32), sinCosReduce t v = (if v.signBit then 0x80000000#32 else 0#32, BitVec.ofNat 32 n, x) ∧
      Approx x (|v.val| - n * (Real.pi / 2)) 4.8e-8 ∧ |(|v.val| - n * (Real.pi / 2))| ≤ 0.787 := by
  obtain ⟨fx, vx⟩ := fabs_val v hv
  have ha := abs_nonneg v.val
  have hp1 := Real.pi_gt_d20
  have hp2 := Real.pi_lt_d20
  have L := lit_app (q := 0.63661977236758134308) 0.6367 (y := 0.63661977236758134308) (by push_cast; rfl) (by rw [abs_of_pos] <;> norm_num) (by norm_num)
  have lh : Approx (ofRat (1 / 2)) (1 / 2) 0 := ⟨lit_half.1, by rw [lit_half.2]; simp⟩
  have X : Approx (fabs v) |v.val| 0 := ⟨fx, by rw [vx]; simp⟩
  have w := (L.fma t X lh 0.6367 8192 5216 5217 (by rw [abs_of_pos] <;> norm_num) (by rw [abs_abs]; exact h) (by unfold ulp; norm_num)
    (by rw [abs_of_nonneg (by positivity)]; unfold ulp; norm_num; linarith) (by norm_num) (by norm_num)).mono (e' := 9.5e-4)
    (by unfold ulp; norm_num)
  obtain ⟨w1, w2⟩ := abs_le.1 w.2
  unfold sinCosReduce
  simp only
  rw [clear_sign, sign_word]
  generalize fma1 t (ofRat 0.63661977236758134308) (fabs v) (ofRat (1 / 2)) = wv at *
  obtain ⟨n, en, n1, n2⟩ := toU_small t w.1 (by linarith) (by linarith)
  have hred : |(|v.val| - n * (Real.pi / 2))| ≤ 0.787 := by
    have h1 : |(n : ℝ) - 0.63661977236758134308 * (|v.val|)| ≤ 0.50095 := by
      rw [abs_le]; constructor <;> linarith
    have e : |v.val| - n * (Real.pi / 2) = -((n - 0.63661977236758134308 * |v.val|) * (Real.pi / 2)) + |v.val| * (1 - 0.63661977236758134308 * (Real.pi / 2)) := by ring
    rw [e]
    refine (abs_add_le _ _).trans ?_
    rw [abs_neg, abs_mul, abs_mul, abs_abs]
    have h2 : |Real.pi / 2| ≤ 1.5708 := by rw [abs_of_pos (by positivity)]; linarith
    have h3 : |1 - 0.63661977236758134308 * (Real.pi / 2)| ≤ 1e-15 := by rw [abs_le]; constructor <;> linarith
    exact (add_le_add (mul_le_mul h1 h2 (abs_nonneg _) (by norm_num)) (mul_le_mul h h3 (abs_nonneg _) (by norm_num))).trans (by norm_num)
  have hn : n ≤ 2 ^ 24 := by
    have : (n : ℝ) ≤ ((2 ^ 24 : Nat) : ℝ) := by push_cast; linarith
    exact_mod_cast this
  obtain ⟨fq, vq⟩ := ofU_small t hn
  refine ⟨n, _, by rw [en], ?_, hred⟩
  have := reduce_approx fx (by rw [vx]; exact ha) (by rw [vx]; exact h) fq vq (by rw [vx]; exact hred)
  rw [vx] at this
  exact this

/-- The quadrant bits. -/
theorem quadrant_bits (n : Nat) : (BitVec.ofNat 32 n) <<< 31 = (if n % 2 = 1 then 0x80000000#32 else 0#32) ∧
    ((BitVec.ofNat 32 n) <<< 30) &&& 0x80000000#32 = (if 2 ≤ n % 4 then 0x80000000#32 else 0#32) := by
  have e1 : (BitVec.ofNat 32 n) <<< 31 = BitVec.ofNat 32 (n % 2 * 2 ^ 31) := by
    apply BitVec.eq_of_toNat_eq
    rw [BitVec.toNat_shiftLeft, BitVec.toNat_ofNat, BitVec.toNat_ofNat, Nat.shiftLeft_eq]; omega
  have e2 : (BitVec.ofNat 32 n) <<< 30 = BitVec.ofNat 32 (n % 4 * 2 ^ 30) := by
    apply BitVec.eq_of_toNat_eq
    rw [BitVec.toNat_shiftLeft, BitVec.toNat_ofNat, BitVec.toNat_ofNat, Nat.shiftLeft_eq]; omega
  rw [e1, e2]
  have h2 : n % 2 < 2 := Nat.mod_lt _ (by norm_num)
  have h4 : n % 4 < 4 := Nat.mod_lt _ (by norm_num)
  constructor
  · interval_cases n % 2 <;> decide
  · interval_cases n % 4 <;> decide

/-- Sine and cosine from the quadrant. -/
theorem quadrant_trig (y : ℝ) (n : Nat) :
    Real.sin (y + n * (Real.pi / 2)) = (if 2 ≤ n % 4 then -(if n % 2 = 1 then Real.cos y else Real.sin y) else if n % 2 = 1 then Real.cos y else Real.sin y) ∧
    Real.cos (y + n * (Real.pi / 2)) = (if (n % 2 = 1) ≠ (2 ≤ n % 4) then -(if n % 2 = 1 then Real.sin y else Real.cos y) else if n % 2 = 1 then Real.sin y else Real.cos y) := by
  induction n with
  | zero => simp
  | succ n ih =>
    have e : y + ((n + 1 : Nat) : ℝ) * (Real.pi / 2) = (y + n * (Real.pi / 2)) + Real.pi / 2 := by push_cast; ring
    rw [e, Real.sin_add_pi_div_two, Real.cos_add_pi_div_two, ih.1, ih.2]
    have h4 : n % 4 < 4 := Nat.mod_lt _ (by norm_num)
    have h2 : n % 2 = n % 4 % 2 := by omega
    have h3 : (n + 1) % 4 = (n % 4 + 1) % 4 := by omega
    have h5 : (n + 1) % 2 = (n % 4 + 1) % 2 := by omega
    rw [h2, h3, h5]
    interval_cases n % 4 <;> simp

theorem sel_word {α : Type} (b : Bool) (x y : α) : sel (if b then 0x80000000#32 else 0#32) x y = if b then x else y := by
  cases b <;> rfl

theorem xor_words (a b : Bool) : (if a then 0x80000000#32 else 0#32) ^^^ (if b then 0x80000000#32 else 0#32) =
    if a != b then 0x80000000#32 else 0#32 := by cases a <;> cases b <;> rfl

theorem sign_of_val {v : F32} (h : v.val ≠ 0) : (v.signBit = true ↔ v.val < 0) := by
  have hp : (0 : ℝ) < 2 ^ 149 := by positivity
  have h0 : (0 : ℝ) ≤ ((magUnits v.mag : Int) : ℝ) := by positivity
  rw [val_units] at *
  unfold units at *
  by_cases hs : v.signBit = true
  · rw [if_pos hs] at *
    rw [Int.cast_neg] at *
    refine ⟨fun _ => ?_, fun _ => hs⟩
    rcases lt_or_eq_of_le h0 with h1 | h1
    · exact div_neg_of_neg_of_pos (by linarith) hp
    · rw [← h1] at h; simp at h
  · rw [if_neg hs] at *
    exact ⟨fun c => absurd c hs, fun c => absurd c (not_lt.2 (div_nonneg h0 hp.le))⟩

/-- Every lane: the sine and cosine are within `2e-7` of the exact ones for arguments up to 8192 in magnitude. -/
theorem sinCos1_accurate (t : FTarget) {v : F32} (hv : v.isFinite = true) (h : |v.val| ≤ 8192) :
    Approx (sinCos1 t v).1 (Real.sin v.val) 2e-7 ∧ Approx (sinCos1 t v).2 (Real.cos v.val) 2e-7 := by
  obtain ⟨n, x, e, hx, hb⟩ := sinCosReduce_spec t hv h
  obtain ⟨w1, w2⟩ := quadrant_bits n
  have hxb : |x.val| ≤ 0.7872 := hx.abs_le.trans (by norm_num at *; linarith)
  have S0 := taylorSin_approx t hx.1 hxb
  have C0 := taylorCos_approx t hx.1 hxb
  generalize hy : |v.val| - n * (Real.pi / 2) = y at *
  have S : Approx (taylorSin t x) (Real.sin y) 2e-7 := by
    have h1 := S0.trans (sinP_sin hxb)
    have h2 := h1.trans ((Real.abs_sin_sub_sin_le x.val y).trans hx.2)
    exact h2.mono (by norm_num)
  have C : Approx (taylorCos t x) (Real.cos y) 2e-7 := by
    have h1 := C0.trans (cosP_cos hxb)
    have h2 := h1.trans ((Real.abs_cos_sub_cos_le x.val y).trans hx.2)
    exact h2.mono (by norm_num)
  have hyv : |v.val| = y + n * (Real.pi / 2) := by rw [← hy]; ring
  obtain ⟨q1, q2⟩ := quadrant_trig y n
  rw [← hyv] at q1 q2
  have b1 : (BitVec.ofNat 32 n) <<< 31 = if decide (n % 2 = 1) then 0x80000000#32 else 0#32 := by
    rw [w1]; by_cases hc : n % 2 = 1 <;> simp [hc]
  have b2 : ((BitVec.ofNat 32 n) <<< 30) &&& 0x80000000#32 = if decide (2 ≤ n % 4) then 0x80000000#32 else 0#32 := by
    rw [w2]; by_cases hc : 2 ≤ n % 4 <;> simp [hc]
  have es : (sinCos1 t v).1 = (if (v.signBit != decide (2 ≤ n % 4)) then fneg (if decide (n % 2 = 1) then taylorCos t x else taylorSin t x)
      else if decide (n % 2 = 1) then taylorCos t x else taylorSin t x) := by
    unfold sinCos1
    rw [e]
    simp only
    rw [b1, b2, sel_word, xor_words, xor_sign]
  have ec : (sinCos1 t v).2 = (if (decide (n % 2 = 1) != decide (2 ≤ n % 4)) then fneg (if decide (n % 2 = 1) then taylorSin t x else taylorCos t x)
      else if decide (n % 2 = 1) then taylorSin t x else taylorCos t x) := by
    unfold sinCos1
    rw [e]
    simp only
    rw [b1, b2, sel_word, xor_words, xor_sign]
  have M1 : Approx (if decide (n % 2 = 1) then taylorCos t x else taylorSin t x) (if n % 2 = 1 then Real.cos y else Real.sin y) 2e-7 := by
    by_cases hc : n % 2 = 1 <;> simp only [hc, decide_true, decide_false, if_true, if_false, Bool.false_eq_true]
    · exact C
    · exact S
  have M2 : Approx (if decide (n % 2 = 1) then taylorSin t x else taylorCos t x) (if n % 2 = 1 then Real.sin y else Real.cos y) 2e-7 := by
    by_cases hc : n % 2 = 1 <;> simp only [hc, decide_true, decide_false, if_true, if_false, Bool.false_eq_true]
    · exact S
    · exact C
  generalize (if decide (n % 2 = 1) then taylorCos t x else taylorSin t x) = f1 at *
  generalize (if decide (n % 2 = 1) then taylorSin t x else taylorCos t x) = f2 at *
  generalize (if n % 2 = 1 then Real.cos y else Real.sin y) = r1 at *
  generalize (if n % 2 = 1 then Real.sin y else Real.cos y) = r2 at *
  rw [es, ec]
  constructor
  · have hs : Real.sin v.val = if v.signBit then -Real.sin |v.val| else Real.sin |v.val| := by
      by_cases h0 : v.val = 0
      · rw [h0]; simp
      · by_cases hn : v.val < 0
        · rw [if_pos ((sign_of_val h0).2 hn), abs_of_neg hn, Real.sin_neg, neg_neg]
        · rw [if_neg (fun c => hn ((sign_of_val h0).1 c)), abs_of_nonneg (not_lt.1 hn)]
    refine (approx_signed M1 _).of_eq ?_
    rw [hs, q1]
    cases v.signBit <;> by_cases hc : 2 ≤ n % 4 <;> simp [hc]
  · rw [← Real.cos_abs v.val, q2]
    refine (approx_signed M2 _).of_eq ?_
    by_cases hc : 2 ≤ n % 4 <;> by_cases hd : n % 2 = 1 <;> simp [hc, hd]

/-- **C84** For every lane of every vector. -/
theorem simd_sinCos_accurate_partial (t : FTarget) (v : V4 F32) (i : Fin 4) (hv : (v.get i).isFinite = true) (h : |(v.get i).val| ≤ 8192) :
    ((sinCos t v).1.get i).isFinite = true ∧ |((sinCos t v).1.get i).val - Real.sin (v.get i).val| ≤ 2e-7 ∧
    ((sinCos t v).2.get i).isFinite = true ∧ |((sinCos t v).2.get i).val - Real.cos (v.get i).val| ≤ 2e-7 := by
  unfold sinCos
  simp only [map_get]
  obtain ⟨a, b⟩ := sinCos1_accurate t hv h
  exact ⟨a.1, a.2, b.1, b.2⟩

/-- For a large finite argument the result can leave `[-1, 1]`: at `1e10` the "sine" and "cosine" are infinite. -/
theorem simd_sinCos_large_wrong : (⟨0x501502F9⟩ : F32).isFinite = true ∧
    ((sinCos (.sse true) (V4.splat ⟨0x501502F9⟩)).1.x.isFinite = false ∨ (sinCos (.sse true) (V4.splat ⟨0x501502F9⟩)).2.x.isFinite = false) := by
  decide +kernel

/-- Hypotheses met: `sin(1)` and `cos(1)`, and a large negative angle. -/
example : (⟨0x3F800000⟩ : F32).isFinite = true ∧ sinCos1 (.sse true) ⟨0x3F800000⟩ = (⟨0x3F576AA4⟩, ⟨0x3F0A5140⟩) ∧
    (⟨0xC5FA0000⟩ : F32).toRat = -8000 := by decide +kernel

end F32x4
end Verif
