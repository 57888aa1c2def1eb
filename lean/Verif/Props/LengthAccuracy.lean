import Verif.Props.VecAccuracy
import Verif.Props.SimdSinCos

/-!
# C90: accuracy of lengths, distances and normalised vectors in binary32; `isNormalized` after `normalize`
-/

namespace Verif
open F32 Spec F32x4

namespace LenAcc

/-! ## One operation -/

/-- The relative error of a computed squared length. -/
noncomputable def dsq : ℝ := 4 / 2 ^ 24 + 1 / 2 ^ 45

theorem pow4 {n : ℕ} (h : n ≤ 4) : ((1 : ℝ) + 1 / 2 ^ 24) ^ n - 1 ≤ dsq := by
  have : ((1 : ℝ) + 1 / 2 ^ 24) ^ n ≤ (1 + 1 / 2 ^ 24) ^ 4 := pow_le_pow_right₀ (by norm_num) h
  unfold dsq
  have : ((1 : ℝ) + 1 / 2 ^ 24) ^ 4 - 1 ≤ 4 / 2 ^ 24 + 1 / 2 ^ 45 := by norm_num
  linarith

/-- A sum of squares. -/
theorem sumOk_sq {r : F32} {l : List (ℝ × ℝ)} {X : ℝ} (h : SumOk r l) (h1 : absProd l = X) (h2 : sumProd l = X)
    (hl : l.length ≤ 4) (h0 : 0 ≤ X) (hX : X ≤ 2 ^ 126) : r.isFinite = true ∧ |r.val - X| ≤ dsq * X + 1 / 2 ^ 147 := by
  obtain ⟨g1, g2⟩ := h (h1 ▸ hX)
  refine ⟨g1, ?_⟩
  rw [h1, h2, VecAcc.rv_eq] at g2
  have h3 := mul_le_mul_of_nonneg_right (pow4 hl) h0
  have h4 : (l.length : ℝ) / 2 ^ 149 ≤ 4 / 2 ^ 149 := by
    have : (l.length : ℝ) ≤ 4 := by exact_mod_cast hl
    gcongr
  have h5 : (4 : ℝ) / 2 ^ 149 = 1 / 2 ^ 147 := by norm_num
  linarith

theorem sqrt_ge {X : ℝ} (hX : 1 / 2 ^ 100 ≤ X) : 1 / 2 ^ 50 ≤ Real.sqrt X := by
  have : (1 : ℝ) / 2 ^ 50 = Real.sqrt (1 / 2 ^ 100) := by
    rw [show (1 : ℝ) / 2 ^ 100 = (1 / 2 ^ 50) ^ 2 by norm_num, Real.sqrt_sq (by positivity)]
  rw [this]; exact Real.sqrt_le_sqrt hX

theorem sqrt_le {X : ℝ} (hX : X ≤ 2 ^ 126) : Real.sqrt X ≤ 2 ^ 63 := by
  have : (2 : ℝ) ^ 63 = Real.sqrt (2 ^ 126) := by
    rw [show (2 : ℝ) ^ 126 = (2 ^ 63) ^ 2 by norm_num, Real.sqrt_sq (by positivity)]
  rw [this]; exact Real.sqrt_le_sqrt hX

/-- The square root of a value known up to a relative error `d`. -/
theorem sqrt_rel {r : F32} {X d : ℝ} (hr : r.isFinite = true) (h : |r.val - X| ≤ d * X) (hd0 : 0 ≤ d) (hd : d ≤ 1 / 2 ^ 21)
    (hX : 1 / 2 ^ 100 ≤ X) (hX' : X ≤ 2 ^ 126) :
    (fsqrt r).isFinite = true ∧ |(fsqrt r).val - Real.sqrt X| ≤ (d / 2 + 1 / 2 ^ 24 + 1 / 2 ^ 41) * Real.sqrt X := by
  have hXp : 0 < X := lt_of_lt_of_le (by positivity) hX
  have hab := abs_le.1 h
  have hr0 : 0 ≤ r.val := by nlinarith
  have hS := sqrt_ge hX
  have hS0 : 0 < Real.sqrt X := lt_of_lt_of_le (by positivity) hS
  have hS2 := Real.mul_self_sqrt hXp.le
  have hs2 := Real.mul_self_sqrt hr0
  have hs0 := Real.sqrt_nonneg r.val
  set S := Real.sqrt X
  set s := Real.sqrt r.val
  -- s + S is about 2 S
  have hlow : (1 - d) * S ≤ s := by
    by_contra hc
    push Not at hc
    have : s * s < (1 - d) * S * ((1 - d) * S) := mul_self_lt_mul_self hs0 hc
    have h1 : (1 - d) * X ≤ r.val := by linarith
    have h2 : (1 - d) * (1 - d) ≤ 1 - d := by nlinarith
    have h3 : (1 - d) * S * ((1 - d) * S) = (1 - d) * (1 - d) * X := by rw [← hS2]; ring
    nlinarith
  have hdiff : |s - S| ≤ (d / 2 + 1 / 2 ^ 43) * S := by
    have e : (s - S) * (s + S) = r.val - X := by rw [← hs2, ← hS2]; ring
    have hpos : 0 < s + S := by linarith
    have h1 : |s - S| * (s + S) ≤ d * X := by
      rw [← abs_of_pos hpos, ← abs_mul, e]; exact h
    have h2 : |s - S| * ((2 - d) * S) ≤ d * X :=
      (mul_le_mul_of_nonneg_left (by linarith) (abs_nonneg _)).trans h1
    have h3 : |s - S| * (2 - d) ≤ d * S := by
      rw [← hS2] at h2
      have : |s - S| * (2 - d) * S ≤ d * S * S := by linarith
      exact le_of_mul_le_mul_right this hS0
    have h4 : |s - S| * 2 ≤ d * S + |s - S| * d := by linarith
    have h5 : |s - S| ≤ d * S := by
      have : |s - S| * 1 ≤ |s - S| * (2 - d) := mul_le_mul_of_nonneg_left (by linarith) (abs_nonneg _)
      linarith
    have h6 : |s - S| * d ≤ d * S * (1 / 2 ^ 21) := mul_le_mul h5 hd hd0 (by positivity)
    have h7 : d * S * (1 / 2 ^ 21) ≤ 1 / 2 ^ 21 * S * (1 / 2 ^ 21) := by gcongr
    have h8 : (1 : ℝ) / 2 ^ 21 * S * (1 / 2 ^ 21) = 2 * (1 / 2 ^ 43 * S) := by ring
    linarith
  have hsS : s ≤ (1 + 1 / 2 ^ 20) * S := by
    have := (abs_le.1 hdiff).2
    nlinarith
  have hn := fsqrt_nearest hr (show 0 ≤ r.toRat by have : (0 : ℝ) ≤ (r.toRat : ℝ) := hr0; exact_mod_cast this)
  have hS63 := sqrt_le hX'
  have hb : |s| ≤ s := by rw [abs_of_nonneg hs0]
  have := nearest_approx (q := s) (M := s) hn hb (by
    have : (1 + 1 / 2 ^ 20) * S ≤ (1 + 1 / 2 ^ 20) * 2 ^ 63 := by gcongr
    refine lt_of_le_of_lt (hsS.trans this) (by norm_num))
  refine ⟨this.1, ?_⟩
  have h1 := abs_add_le ((fsqrt r).val - s) (s - S)
  rw [sub_add_sub_cancel] at h1
  have h2 := this.2
  unfold ulp at h2
  have h3 : (1 : ℝ) / 2 ^ 150 ≤ 1 / 2 ^ 100 * S := by
    refine le_trans ?_ (mul_le_mul_of_nonneg_left hS (by positivity)); norm_num
  have h4 : s / 2 ^ 24 ≤ (1 + 1 / 2 ^ 20) * S / 2 ^ 24 := by gcongr
  have h5 : (1 + 1 / 2 ^ 20) * S / 2 ^ 24 = 1 / 2 ^ 24 * S + 1 / 2 ^ 44 * S := by ring
  have h6 : (1 : ℝ) / 2 ^ 43 * S + (1 / 2 ^ 44 * S + 1 / 2 ^ 100 * S) ≤ 1 / 2 ^ 41 * S := by
    have : ((1 : ℝ) / 2 ^ 43 + 1 / 2 ^ 44 + 1 / 2 ^ 100) ≤ 1 / 2 ^ 41 := by norm_num
    nlinarith
  linarith

/-- Division by a value `l` known up to a relative error `e`. -/
theorem div_rel {a l : F32} {L e : ℝ} (ha : a.isFinite = true) (hl : l.isFinite = true) (h : |l.val - L| ≤ e * L) (hL : 0 < L)
    (he0 : 0 ≤ e) (he : e ≤ 1 / 2 ^ 21) (hM : |a.val / L| ≤ 2 ^ 100) :
    (fdiv a l).isFinite = true ∧
      |(fdiv a l).val - a.val / L| ≤ (e + 1 / 2 ^ 24 + 1 / 2 ^ 40) * |a.val / L| + 1 / 2 ^ 150 := by
  have hab := abs_le.1 h
  have hlp : (1 - e) * L ≤ l.val := by linarith
  have hl0 : 0 < l.val := lt_of_lt_of_le (by nlinarith) hlp
  set q := a.val / L
  have hq0 := abs_nonneg q
  have e1 : a.val / l.val - q = q * ((L - l.val) / l.val) := by
    simp only [q]; field_simp
  have h1 : |(L - l.val) / l.val| ≤ e + 1 / 2 ^ 41 := by
    rw [abs_div, abs_of_pos hl0, div_le_iff₀ hl0, abs_sub_comm]
    refine h.trans ?_
    have : (e + 1 / 2 ^ 41) * ((1 - e) * L) ≤ (e + 1 / 2 ^ 41) * l.val := mul_le_mul_of_nonneg_left hlp (by positivity)
    refine le_trans ?_ this
    have h2 : e * e ≤ 1 / 2 ^ 21 * (1 / 2 ^ 21) := mul_le_mul he he he0 (by norm_num)
    have h3 : e ≤ (e + 1 / 2 ^ 41) * (1 - e) := by
      have : (1 : ℝ) / 2 ^ 41 * e ≤ 1 / 2 ^ 41 * (1 / 2 ^ 21) := by gcongr
      norm_num at *
      nlinarith
    nlinarith
  have h2 : |a.val / l.val - q| ≤ (e + 1 / 2 ^ 41) * |q| := by
    rw [e1, abs_mul, mul_comm]; exact mul_le_mul_of_nonneg_right h1 hq0
  have h3 : |a.val / l.val| ≤ (1 + 1 / 2 ^ 20) * |q| := by
    have := abs_add_le (a.val / l.val - q) q
    rw [sub_add_cancel] at this
    have h4 : (e + 1 / 2 ^ 41) * |q| ≤ 1 / 2 ^ 20 * |q| := by
      apply mul_le_mul_of_nonneg_right _ hq0
      have : (1 : ℝ) / 2 ^ 21 + 1 / 2 ^ 41 ≤ 1 / 2 ^ 20 := by norm_num
      linarith
    linarith
  have := fdiv_approx ha hl hl0.ne' h3 (by
    have : (1 + 1 / 2 ^ 20) * |q| ≤ (1 + 1 / 2 ^ 20) * 2 ^ 100 := by gcongr
    exact lt_of_le_of_lt this (by norm_num))
  refine ⟨this.1, ?_⟩
  have h5 := this.2
  unfold ulp at h5
  have h6 := abs_add_le ((fdiv a l).val - a.val / l.val) (a.val / l.val - q)
  rw [sub_add_sub_cancel] at h6
  have h7 : (1 + 1 / 2 ^ 20) * |q| / 2 ^ 24 = 1 / 2 ^ 24 * |q| + 1 / 2 ^ 44 * |q| := by ring
  have h8 : (1 : ℝ) / 2 ^ 41 * |q| + 1 / 2 ^ 44 * |q| ≤ 1 / 2 ^ 40 * |q| := by
    have : (1 : ℝ) / 2 ^ 41 + 1 / 2 ^ 44 ≤ 1 / 2 ^ 40 := by norm_num
    nlinarith
  linarith

/-- Multiplication by a reciprocal `s` of `L` known up to a relative error `e`. -/
theorem mul_rel {a s : F32} {L e : ℝ} (ha : a.isFinite = true) (hs : s.isFinite = true) (h : |s.val - 1 / L| ≤ e * (1 / L)) (hL : 0 < L)
    (he0 : 0 ≤ e) (he : e ≤ 1 / 2 ^ 21) (hM : |a.val / L| ≤ 2 ^ 100) :
    (fmul a s).isFinite = true ∧
      |(fmul a s).val - a.val / L| ≤ (e + 1 / 2 ^ 24 + 1 / 2 ^ 40) * |a.val / L| + 1 / 2 ^ 150 := by
  set q := a.val / L with hq
  have hq0 := abs_nonneg q
  have h2 : |a.val * s.val - q| ≤ e * |q| := by
    have e1 : a.val * s.val - q = a.val * (s.val - 1 / L) := by rw [hq]; ring
    have e2 : e * |q| = |a.val| * (e * (1 / L)) := by rw [hq, abs_div, abs_of_pos hL]; ring
    rw [e1, abs_mul, e2]; exact mul_le_mul_of_nonneg_left h (abs_nonneg _)
  have h3 : |a.val * s.val| ≤ (1 + 1 / 2 ^ 20) * |q| := by
    have := abs_add_le (a.val * s.val - q) q
    rw [sub_add_cancel] at this
    have h4 : e * |q| ≤ 1 / 2 ^ 20 * |q| := by
      apply mul_le_mul_of_nonneg_right _ hq0
      exact he.trans (by norm_num)
    linarith
  have := fmul_approx ha hs h3 (by
    have : (1 + 1 / 2 ^ 20) * |q| ≤ (1 + 1 / 2 ^ 20) * 2 ^ 100 := by gcongr
    exact lt_of_le_of_lt this (by norm_num))
  refine ⟨this.1, ?_⟩
  have h5 := this.2
  unfold ulp at h5
  have h6 := abs_add_le ((fmul a s).val - a.val * s.val) (a.val * s.val - q)
  rw [sub_add_sub_cancel] at h6
  have h7 : (1 + 1 / 2 ^ 20) * |q| / 2 ^ 24 = 1 / 2 ^ 24 * |q| + 1 / 2 ^ 44 * |q| := by ring
  have h8 : (1 : ℝ) / 2 ^ 44 * |q| ≤ 1 / 2 ^ 40 * |q| := mul_le_mul_of_nonneg_right (by norm_num) hq0
  linarith

/-! ## Lengths -/

/-- A computed squared length that is not tiny, as a relative error. -/
theorem sq_rel {r : F32} {X d : ℝ} (h : |r.val - X| ≤ d * X + 1 / 2 ^ 147) (hX : 1 / 2 ^ 100 ≤ X) :
    |r.val - X| ≤ (d + 1 / 2 ^ 47) * X := by
  have : (1 : ℝ) / 2 ^ 147 ≤ 1 / 2 ^ 47 * X := by
    refine le_trans ?_ (mul_le_mul_of_nonneg_left hX (by positivity)); norm_num
  linarith

/-- What is known of a computed length. -/
theorem len_rel {r : F32} {X : ℝ} (hr : r.isFinite = true) (h : |r.val - X| ≤ dsq * X + 1 / 2 ^ 147) (hX : 1 / 2 ^ 100 ≤ X)
    (hX' : X ≤ 2 ^ 126) :
    (fsqrt r).isFinite = true ∧ |(fsqrt r).val - Real.sqrt X| ≤ (3 / 2 ^ 24 + 1 / 2 ^ 40) * Real.sqrt X := by
  obtain ⟨h1, h2⟩ := sqrt_rel hr (sq_rel h hX) (by unfold dsq; positivity) (by unfold dsq; norm_num) hX hX'
  refine ⟨h1, h2.trans ?_⟩
  apply mul_le_mul_of_nonneg_right _ (Real.sqrt_nonneg _)
  unfold dsq; norm_num

theorem rootOk_of {r : F32} {X : ℝ} (h : X ≤ 2 ^ 126 → r.isFinite = true ∧ |r.val - X| ≤ dsq * X + 1 / 2 ^ 147) :
    RootOk (fsqrt r) X 4 := by
  intro hX hX''
  have hX' : X ≤ 2 ^ 126 := hX''.trans (by norm_num)
  obtain ⟨h1, h2⟩ := len_rel (h hX').1 (h hX').2 hX hX'
  refine ⟨h1, h2.trans ?_⟩
  apply mul_le_mul_of_nonneg_right _ (Real.sqrt_nonneg _)
  norm_num

theorem squareOk_of {r : F32} {X : ℝ} (h0 : 0 ≤ X) (h : X ≤ 2 ^ 126 → r.isFinite = true ∧ |r.val - X| ≤ dsq * X + 1 / 2 ^ 147) :
    SquareOk r X 5 := by
  intro hX''
  have hX' : X ≤ 2 ^ 126 := hX''.trans (by norm_num)
  refine ⟨(h hX').1, (h hX').2.trans ?_⟩
  have : dsq * X ≤ 5 / 2 ^ 24 * X := mul_le_mul_of_nonneg_right (by unfold dsq; norm_num) h0
  have : (1 : ℝ) / 2 ^ 147 ≤ 1 / 2 ^ 146 := by norm_num
  linarith

/-! ## Directions -/

/-- A component over the length. -/
theorem comp_le {x X : ℝ} (h : x ^ 2 ≤ X) (hX : 0 < X) : |x / Real.sqrt X| ≤ 1 := by
  rw [abs_div, abs_of_nonneg (Real.sqrt_nonneg _), div_le_one (Real.sqrt_pos.2 hX)]
  exact Real.abs_le_sqrt h

/-- The error of a component of a normalised vector. -/
noncomputable def eta : ℝ := 5 / 2 ^ 24 + 1 / 2 ^ 37

theorem simd_comp {x r : F32} {X : ℝ} (hx : x.isFinite = true) (hr : r.isFinite = true) (h : |r.val - X| ≤ dsq * X + 1 / 2 ^ 147)
    (hX : 1 / 2 ^ 100 ≤ X) (hX' : X ≤ 2 ^ 126) (hc : x.val ^ 2 ≤ X) :
    (fdiv x (fsqrt r)).isFinite = true ∧
      |(fdiv x (fsqrt r)).val - x.val / Real.sqrt X| ≤ eta * |x.val / Real.sqrt X| + 1 / 2 ^ 149 := by
  have hXp : 0 < X := lt_of_lt_of_le (by positivity) hX
  obtain ⟨h1, h2⟩ := len_rel hr h hX hX'
  have hle := comp_le hc hXp
  obtain ⟨h3, h4⟩ := div_rel hx h1 h2 (Real.sqrt_pos.2 hXp) (by positivity) (by norm_num) (hle.trans (by norm_num))
  refine ⟨h3, h4.trans ?_⟩
  refine add_le_add (mul_le_mul_of_nonneg_right ?_ (abs_nonneg _)) (by norm_num)
  unfold eta; norm_num

theorem one_lit : (ofRat 1).isFinite = true ∧ (ofRat 1).val = 1 := by
  have h : (ofRat 1).isFinite = true ∧ (ofRat 1).units = 2 ^ 149 := by decide +kernel
  refine ⟨h.1, ?_⟩
  rw [val_units, h.2]; push_cast; norm_num

theorem scalar_comp {x r : F32} {X : ℝ} (hx : x.isFinite = true) (hr : r.isFinite = true) (h : |r.val - X| ≤ dsq * X + 1 / 2 ^ 147)
    (hX : 1 / 2 ^ 100 ≤ X) (hX' : X ≤ 2 ^ 126) (hc : x.val ^ 2 ≤ X) :
    (fmul x (fdiv (ofRat 1) (fsqrt r))).isFinite = true ∧
      |(fmul x (fdiv (ofRat 1) (fsqrt r))).val - x.val / Real.sqrt X| ≤ eta * |x.val / Real.sqrt X| + 1 / 2 ^ 149 := by
  have hXp : 0 < X := lt_of_lt_of_le (by positivity) hX
  obtain ⟨h1, h2⟩ := len_rel hr h hX hX'
  have hL := Real.sqrt_pos.2 hXp
  have hinv : 1 / 2 ^ 63 ≤ 1 / Real.sqrt X := one_div_le_one_div_of_le hL (sqrt_le hX')
  have hinv' : 1 / Real.sqrt X ≤ 2 ^ 50 := by
    rw [div_le_iff₀ hL]
    have := mul_le_mul_of_nonneg_left (sqrt_ge hX) (show (0 : ℝ) ≤ 2 ^ 50 by positivity)
    rw [show (2 : ℝ) ^ 50 * (1 / 2 ^ 50) = 1 by norm_num] at this
    exact this
  have hpos : 0 < 1 / Real.sqrt X := by positivity
  obtain ⟨h3, h4⟩ := div_rel one_lit.1 h1 h2 hL (by positivity) (by norm_num) (by
    rw [one_lit.2, abs_of_pos hpos]; exact hinv'.trans (by norm_num))
  rw [one_lit.2, abs_of_pos hpos] at h4
  have h5 : |(fdiv (ofRat 1) (fsqrt r)).val - 1 / Real.sqrt X| ≤ (4 / 2 ^ 24 + 1 / 2 ^ 38) * (1 / Real.sqrt X) := by
    refine h4.trans ?_
    have : (1 : ℝ) / 2 ^ 150 ≤ 1 / 2 ^ 80 * (1 / Real.sqrt X) := by
      refine le_trans ?_ (mul_le_mul_of_nonneg_left hinv (by positivity)); norm_num
    have h6 : ((3 : ℝ) / 2 ^ 24 + 1 / 2 ^ 40 + 1 / 2 ^ 24 + 1 / 2 ^ 40) + 1 / 2 ^ 80 ≤ 4 / 2 ^ 24 + 1 / 2 ^ 38 := by norm_num
    have := mul_le_mul_of_nonneg_right h6 hpos.le
    linarith
  have hle := comp_le hc hXp
  obtain ⟨h7, h8⟩ := mul_rel hx h3 h5 hL (by positivity) (by norm_num) (hle.trans (by norm_num))
  refine ⟨h7, h8.trans ?_⟩
  refine add_le_add (mul_le_mul_of_nonneg_right ?_ (abs_nonneg _)) (by norm_num)
  unfold eta; norm_num

theorem near_comp {c x : F32} {X : ℝ} (h : c.isFinite = true ∧ |c.val - x.val / Real.sqrt X| ≤ eta * |x.val / Real.sqrt X| + 1 / 2 ^ 149) :
    Near c (rv x / Real.sqrt X) (6 / 2 ^ 24 * |rv x / Real.sqrt X| + 1 / 2 ^ 149) := by
  refine ⟨h.1, h.2.trans ?_⟩
  have : eta * |x.val / Real.sqrt X| ≤ 6 / 2 ^ 24 * |x.val / Real.sqrt X| :=
    mul_le_mul_of_nonneg_right (by unfold eta; norm_num) (abs_nonneg _)
  rw [VecAcc.rv_eq]
  linarith

/-! ## Unit length again -/

/-- The square of a component of a normalised vector. -/
theorem sq_close {c n : ℝ} (h : |c - n| ≤ eta * |n| + 1 / 2 ^ 149) (hn : |n| ≤ 1) :
    |c ^ 2 - n ^ 2| ≤ (10 / 2 ^ 24 + 1 / 2 ^ 35) * n ^ 2 + 1 / 2 ^ 140 := by
  have e : c ^ 2 - n ^ 2 = 2 * n * (c - n) + (c - n) ^ 2 := by ring
  rw [e]
  have hn0 := abs_nonneg n
  have hd := abs_nonneg (c - n)
  have h1 : |2 * n * (c - n)| ≤ 2 * |n| * (eta * |n| + 1 / 2 ^ 149) := by
    rw [abs_mul, abs_mul, abs_two]; exact mul_le_mul_of_nonneg_left h (by positivity)
  have h2 : |(c - n) ^ 2| ≤ (eta * |n| + 1 / 2 ^ 149) ^ 2 := by
    rw [abs_pow]; exact pow_le_pow_left₀ hd h 2
  refine (abs_add_le _ _).trans ((add_le_add h1 h2).trans ?_)
  have hsq : |n| ^ 2 = n ^ 2 := sq_abs n
  have e2 : 2 * |n| * (eta * |n| + 1 / 2 ^ 149) + (eta * |n| + 1 / 2 ^ 149) ^ 2
      = (2 * eta + eta ^ 2) * n ^ 2 + (2 + 2 * eta) / 2 ^ 149 * |n| + 1 / 2 ^ 149 * (1 / 2 ^ 149) := by
    rw [← hsq]; ring
  rw [e2]
  have h3 : 2 * eta + eta ^ 2 ≤ 10 / 2 ^ 24 + 1 / 2 ^ 35 := by unfold eta; norm_num
  have h4 : (2 + 2 * eta) / 2 ^ 149 * |n| ≤ (2 + 2 * eta) / 2 ^ 149 * 1 :=
    mul_le_mul_of_nonneg_left hn (by unfold eta; positivity)
  have h5 : (2 + 2 * eta) / 2 ^ 149 * 1 + 1 / 2 ^ 149 * (1 / 2 ^ 149) ≤ 1 / 2 ^ 140 := by unfold eta; norm_num
  have h6 := mul_le_mul_of_nonneg_right h3 (sq_nonneg n)
  linarith

theorem tol_lit : Approx (ofRat (1 / 1000000)) (1 / 1000000) (1 / 2 ^ 40) := by
  have := lit_approx (1 / 1000000) (1 / 2 ^ 17) (by push_cast; rw [abs_of_pos (by norm_num)]; norm_num) (by norm_num)
  have h := this.mono (e' := 1 / 2 ^ 40) (by unfold ulp; norm_num)
  exact h.of_eq (by push_cast; rfl)

/-- The test `|r - 1| <= tolerance` when `r` is within 0.9e-6 of one. -/
theorem normalized_test {r : F32} (hr : r.isFinite = true) (h : |r.val - 1| ≤ 9 / 10000000) :
    leb (fabs (fsub r (ofRat 1))) (ofRat (1 / 1000000)) = true := by
  obtain ⟨h1, h2⟩ := fsub_err' hr one_lit.1 (by rw [one_lit.2]; exact h.trans_lt (by norm_num))
  rw [one_lit.2] at h2
  obtain ⟨h3, h4⟩ := fabs_val _ h1
  rw [leb_val h3 tol_lit.1, decide_eq_true_eq, h4]
  have h5 := abs_add_le ((fsub r (ofRat 1)).val - (r.val - 1)) (r.val - 1)
  rw [sub_add_cancel] at h5
  have h6 := (abs_le.1 tol_lit.2).1
  unfold uro at h2
  have : (9 : ℝ) / 10000000 + 1 / 2 ^ 24 * (9 / 10000000) ≤ 1 / 1000000 - 1 / 2 ^ 40 := by norm_num
  nlinarith

/-- Squared length of the computed direction. -/
theorem unit_sq {r : F32} {C : ℝ} (hr : C ≤ 2 ^ 126 → r.isFinite = true ∧ |r.val - C| ≤ dsq * C + 1 / 2 ^ 147)
    (hC : |C - 1| ≤ 10 / 2 ^ 24 + 1 / 2 ^ 34) : r.isFinite = true ∧ |r.val - 1| ≤ 9 / 10000000 := by
  have hC' := abs_le.1 hC
  have hC2 : C ≤ 1 + 1 / 2 ^ 20 := by
    have : (10 : ℝ) / 2 ^ 24 + 1 / 2 ^ 34 ≤ 1 / 2 ^ 20 := by norm_num
    linarith
  obtain ⟨h1, h2⟩ := hr (hC2.trans (by norm_num))
  refine ⟨h1, ?_⟩
  have h3 := abs_add_le (r.val - C) (C - 1)
  rw [sub_add_sub_cancel] at h3
  have h4 : dsq * C ≤ dsq * (1 + 1 / 2 ^ 20) := mul_le_mul_of_nonneg_left hC2 (by unfold dsq; positivity)
  have h5 : dsq * (1 + 1 / 2 ^ 20) + 1 / 2 ^ 147 + (10 / 2 ^ 24 + 1 / 2 ^ 34) ≤ 9 / 10000000 := by unfold dsq; norm_num
  linarith


/-! ## Sums of squares -/

/-- The computed squared length of a vector. -/
def SqKnown (r : F32) (X : ℝ) : Prop := X ≤ 2 ^ 126 → r.isFinite = true ∧ |r.val - X| ≤ dsq * X + 1 / 2 ^ 147

theorem normSq_nonneg (l : List F32) : 0 ≤ normSq l := by
  unfold normSq
  induction l with
  | nil => simp
  | cons a l ih => simp only [List.map_cons, List.sum_cons]; positivity

theorem mem_normSq {x : F32} {l : List F32} (h : x ∈ l) : x.val ^ 2 ≤ normSq l := by
  induction l with
  | nil => simp at h
  | cons a l ih =>
    have e : normSq (a :: l) = a.val ^ 2 + normSq l := by simp [normSq, VecAcc.rv_eq]
    rw [e]
    rcases List.mem_cons.1 h with rfl | h
    · linarith [normSq_nonneg l]
    · linarith [ih h, sq_nonneg a.val]

theorem sq_known {r : F32} {l : List F32} (hl : l.length ≤ 4) (h : SumOk r (l.map (fun x => (rv x, rv x)))) :
    SqKnown r (normSq l) := by
  have e1 : absProd (l.map (fun x => (rv x, rv x))) = normSq l := by
    simp only [absProd, normSq, List.map_map]; congr 1
    apply List.map_congr_left; intro x _
    simp only [Function.comp]; rw [abs_mul_self]; ring
  have e2 : sumProd (l.map (fun x => (rv x, rv x))) = normSq l := by
    simp only [sumProd, normSq, List.map_map]; congr 1
    apply List.map_congr_left; intro x _
    simp only [Function.comp]; ring
  exact fun hX => sumOk_sq h e1 e2 (by simpa using hl) (normSq_nonneg l) hX

theorem known2 {v : V2 F32} (h : AllFinite v.toList) : SqKnown (V2.dot v v) (normSq v.toList) :=
  sq_known (by simp [V2.toList]) (dot_accuracy.1 v v h h)
theorem known3 {v : V3 F32} (h : AllFinite v.toList) : SqKnown (V3.dot v v) (normSq v.toList) :=
  sq_known (by simp [V3.toList]) (dot_accuracy.2.1 v v h h)
theorem known4 {v : V4 F32} (h : AllFinite v.toList) : SqKnown (V4.dot v v) (normSq v.toList) :=
  sq_known (by simp [V4.toList]) (dot_accuracy.2.2.1 v v h h)
theorem knownK3 (k : Backend) {v : V4 F32} (h : AllFinite v.xyz.toList) : SqKnown (k.dot3 v v) (normSq v.xyz.toList) :=
  sq_known (by simp [V3.toList]) (dot_accuracy.2.2.2.1 k v v h h)
theorem knownK4 (k : Backend) {v : V4 F32} (h : AllFinite v.toList) : SqKnown (k.dot4 v v) (normSq v.toList) :=
  sq_known (by simp [V4.toList]) (dot_accuracy.2.2.2.2 k v v h h)

/-! ## Differences -/

theorem diff_sq {d x : ℝ} (h : |d - x| ≤ uro * |x|) : |d ^ 2 - x ^ 2| ≤ (2 / 2 ^ 24 + 1 / 2 ^ 47) * x ^ 2 := by
  have e : d ^ 2 - x ^ 2 = 2 * x * (d - x) + (d - x) ^ 2 := by ring
  rw [e]
  have h1 : |2 * x * (d - x)| ≤ 2 * |x| * (uro * |x|) := by
    rw [abs_mul, abs_mul, abs_two]; exact mul_le_mul_of_nonneg_left h (by positivity)
  have h2 : |(d - x) ^ 2| ≤ (uro * |x|) ^ 2 := by
    rw [abs_pow]; exact pow_le_pow_left₀ (abs_nonneg _) h 2
  refine (abs_add_le _ _).trans ((add_le_add h1 h2).trans ?_)
  have hsq : |x| ^ 2 = x ^ 2 := sq_abs x
  have e2 : 2 * |x| * (uro * |x|) + (uro * |x|) ^ 2 = (2 * uro + uro ^ 2) * x ^ 2 := by rw [← hsq]; ring
  rw [e2]
  exact mul_le_mul_of_nonneg_right (by unfold uro; norm_num) (sq_nonneg _)

theorem distSq_nonneg : ∀ a b : List F32, 0 ≤ distSq a b
  | [], _ => by simp [distSq]
  | _ :: _, [] => by simp [distSq]
  | x :: a, y :: b => by
    have := distSq_nonneg a b
    simp only [distSq, List.zipWith_cons_cons, List.sum_cons] at this ⊢
    positivity

theorem lt_of_sq {x : ℝ} (h : x ^ 2 ≤ 2 ^ 125) : |x| < 2 ^ 127 := by
  have : |x| ≤ 2 ^ 63 := by
    have := Real.abs_le_sqrt (h.trans (show (2 : ℝ) ^ 125 ≤ 2 ^ 126 by norm_num))
    exact this.trans (sqrt_le le_rfl)
  exact this.trans_lt (by norm_num)

/-- The differences of the components of two points. -/
theorem diff_known : ∀ a b : List F32, AllFinite a → AllFinite b → distSq a b ≤ 2 ^ 125 →
    AllFinite (List.zipWith fsub a b) ∧
      |normSq (List.zipWith fsub a b) - distSq a b| ≤ (2 / 2 ^ 24 + 1 / 2 ^ 47) * distSq a b
  | [], _, _, _, _ => by simp [AllFinite, normSq, distSq]
  | _ :: _, [], _, _, _ => by simp [AllFinite, normSq, distSq]
  | x :: a, y :: b, ha, hb, hD => by
    have e1 : distSq (x :: a) (y :: b) = (x.val - y.val) ^ 2 + distSq a b := by simp [distSq, VecAcc.rv_eq]
    have e2 : normSq (List.zipWith fsub (x :: a) (y :: b)) = (fsub x y).val ^ 2 + normSq (List.zipWith fsub a b) := by
      simp [normSq, VecAcc.rv_eq]
    rw [e1] at hD
    have h0 := distSq_nonneg a b
    obtain ⟨h1, h2⟩ := diff_known a b (fun z hz => ha z (List.mem_cons_of_mem _ hz)) (fun z hz => hb z (List.mem_cons_of_mem _ hz))
      (by linarith [sq_nonneg (x.val - y.val)])
    obtain ⟨h3, h4⟩ := fsub_err' (ha x List.mem_cons_self) (hb y List.mem_cons_self) (lt_of_sq (by linarith))
    refine ⟨?_, ?_⟩
    · intro z hz
      simp only [List.zipWith_cons_cons, List.mem_cons] at hz
      rcases hz with rfl | hz
      · exact h3
      · exact h1 z hz
    · rw [e1, e2, show (fsub x y).val ^ 2 + normSq (List.zipWith fsub a b) - ((x.val - y.val) ^ 2 + distSq a b)
        = ((fsub x y).val ^ 2 - (x.val - y.val) ^ 2) + (normSq (List.zipWith fsub a b) - distSq a b) by ring]
      refine (abs_add_le _ _).trans ?_
      have := diff_sq h4
      linarith

/-- The relative error of a computed squared distance. -/
theorem dist_known {r : F32} {a b : List F32} (ha : AllFinite a) (hb : AllFinite b)
    (h : AllFinite (List.zipWith fsub a b) → SqKnown r (normSq (List.zipWith fsub a b))) (hD : distSq a b ≤ 2 ^ 125) :
    r.isFinite = true ∧ |r.val - distSq a b| ≤ (6 / 2 ^ 24 + 1 / 2 ^ 43) * distSq a b + 1 / 2 ^ 147 := by
  obtain ⟨h1, h2⟩ := diff_known a b ha hb hD
  have h0 := distSq_nonneg a b
  have h3 := (abs_le.1 h2).2
  have h4 : normSq (List.zipWith fsub a b) ≤ (1 + (2 / 2 ^ 24 + 1 / 2 ^ 47)) * distSq a b := by linarith
  obtain ⟨h5, h6⟩ := h h1 (by
    refine h4.trans ((mul_le_mul_of_nonneg_left hD (by positivity)).trans (by norm_num)))
  refine ⟨h5, ?_⟩
  have h7 := abs_add_le (r.val - normSq (List.zipWith fsub a b)) (normSq (List.zipWith fsub a b) - distSq a b)
  rw [sub_add_sub_cancel] at h7
  have h8 : dsq * normSq (List.zipWith fsub a b) ≤ dsq * ((1 + (2 / 2 ^ 24 + 1 / 2 ^ 47)) * distSq a b) :=
    mul_le_mul_of_nonneg_left h4 (by unfold dsq; positivity)
  have h9 : dsq * (1 + (2 / 2 ^ 24 + 1 / 2 ^ 47)) + (2 / 2 ^ 24 + 1 / 2 ^ 47) ≤ 6 / 2 ^ 24 + 1 / 2 ^ 43 := by unfold dsq; norm_num
  have := mul_le_mul_of_nonneg_right h9 h0
  linarith

theorem dist_ok {r : F32} {a b : List F32} (ha : AllFinite a) (hb : AllFinite b)
    (h : AllFinite (List.zipWith fsub a b) → SqKnown r (normSq (List.zipWith fsub a b))) :
    SquareOk r (distSq a b) 7 ∧ RootOk (fsqrt r) (distSq a b) 5 := by
  have h0 := distSq_nonneg a b
  refine ⟨fun hD => ?_, fun hX hD => ?_⟩
  · obtain ⟨h1, h2⟩ := dist_known ha hb h hD
    refine ⟨h1, h2.trans ?_⟩
    have h3 : (6 / 2 ^ 24 + 1 / 2 ^ 43) * distSq a b ≤ 7 / 2 ^ 24 * distSq a b := mul_le_mul_of_nonneg_right (by norm_num) h0
    have : (1 : ℝ) / 2 ^ 147 ≤ 1 / 2 ^ 146 := by norm_num
    linarith
  · obtain ⟨h1, h2⟩ := dist_known ha hb h hD
    obtain ⟨h3, h4⟩ := sqrt_rel h1 (sq_rel h2 hX) (by positivity) (by norm_num) hX (hD.trans (by norm_num))
    refine ⟨h3, h4.trans ?_⟩
    exact mul_le_mul_of_nonneg_right (by norm_num) (Real.sqrt_nonneg _)

/-! ## Directions as lists -/

/-- The components of a computed direction. -/
def Dir (c v : List F32) : Prop :=
  List.Forall₂ (fun c x => c.isFinite = true ∧
    |c.val - x.val / Real.sqrt (normSq v)| ≤ eta * |x.val / Real.sqrt (normSq v)| + 1 / 2 ^ 149) c v

theorem dir_map {v : List F32} {r : F32} {f : F32 → F32} (hv : AllFinite v) (hr : SqKnown r (normSq v))
    (hf : (∀ x, f x = fdiv x (fsqrt r)) ∨ (∀ x, f x = fmul x (fdiv (ofRat 1) (fsqrt r))))
    (hX : 1 / 2 ^ 100 ≤ normSq v) (hX' : normSq v ≤ 2 ^ 126) : Dir (v.map f) v := by
  unfold Dir
  rw [List.forall₂_map_left_iff, List.forall₂_same]
  intro x hx
  obtain ⟨h1, h2⟩ := hr hX'
  rcases hf with hf | hf <;> rw [hf]
  · exact simd_comp (hv x hx) h1 h2 hX hX' (mem_normSq hx)
  · exact scalar_comp (hv x hx) h1 h2 hX hX' (mem_normSq hx)

theorem Dir.unitOk {c v : List F32} (h : 1 / 2 ^ 100 ≤ normSq v → normSq v ≤ 2 ^ 126 → Dir c v) : UnitOk c v := by
  intro h1 h2
  refine List.Forall₂.imp (fun _ _ hh => ?_) (h h1 (h2.trans (by norm_num)))
  exact near_comp hh

theorem Dir.finite {c v : List F32} (h : Dir c v) : AllFinite c := by
  unfold Dir at h
  intro x hx
  rw [List.forall₂_iff_get] at h
  obtain ⟨i, rfl⟩ := List.mem_iff_get.1 hx
  exact (h.2 i i.2 (h.1 ▸ i.2)).1

theorem forall2_sq {S : ℝ} : ∀ {c v : List F32}, List.Forall₂ (fun c x => |c.val ^ 2 - (x.val / S) ^ 2| ≤
      (10 / 2 ^ 24 + 1 / 2 ^ 35) * (x.val / S) ^ 2 + 1 / 2 ^ 140) c v →
    |normSq c - normSq v / S ^ 2| ≤ (10 / 2 ^ 24 + 1 / 2 ^ 35) * (normSq v / S ^ 2) + v.length / 2 ^ 140
  | _, _, .nil => by simp [normSq]
  | _, _, .cons (a := a) (l₁ := l1) (b := b) (l₂ := l2) h t => by
    have e1 : normSq (a :: l1) = a.val ^ 2 + normSq l1 := by simp [normSq, VecAcc.rv_eq]
    have e2 : normSq (b :: l2) / S ^ 2 = (b.val / S) ^ 2 + normSq l2 / S ^ 2 := by
      simp only [normSq, VecAcc.rv_eq, List.map_cons, List.sum_cons]; ring
    have ih := forall2_sq t
    rw [e1, e2, show a.val ^ 2 + normSq l1 - ((b.val / S) ^ 2 + normSq l2 / S ^ 2)
      = (a.val ^ 2 - (b.val / S) ^ 2) + (normSq l1 - normSq l2 / S ^ 2) by ring]
    refine (abs_add_le _ _).trans ?_
    simp only [List.length_cons]; push_cast
    have : ((l2.length : ℝ) + 1) / 2 ^ 140 = l2.length / 2 ^ 140 + 1 / 2 ^ 140 := by ring
    linarith

theorem Dir.normSq {c v : List F32} (h : Dir c v) (hl : v.length ≤ 4) (hX : 1 / 2 ^ 100 ≤ Spec.normSq v) :
    |Spec.normSq c - 1| ≤ 10 / 2 ^ 24 + 1 / 2 ^ 34 := by
  have hXp : 0 < Spec.normSq v := lt_of_lt_of_le (by positivity) hX
  have e : Spec.normSq v / Real.sqrt (Spec.normSq v) ^ 2 = 1 := by
    rw [Real.sq_sqrt hXp.le, div_self hXp.ne']
  have hm : ∀ x ∈ v, |x.val / Real.sqrt (Spec.normSq v)| ≤ 1 := fun x hx => comp_le (mem_normSq hx) hXp
  unfold Dir at h
  generalize Real.sqrt (Spec.normSq v) = S at *
  have h' : List.Forall₂ (fun c x => |c.val ^ 2 - (x.val / S) ^ 2| ≤
      (10 / 2 ^ 24 + 1 / 2 ^ 35) * (x.val / S) ^ 2 + 1 / 2 ^ 140) c v := by
    rw [List.forall₂_iff_get] at h ⊢
    refine ⟨h.1, fun i h1 h2 => ?_⟩
    exact sq_close (h.2 i h1 h2).2 (hm _ (List.get_mem _ _))
  have := forall2_sq h'
  rw [e] at this
  refine this.trans ?_
  have hl' : (v.length : ℝ) ≤ 4 := by exact_mod_cast hl
  have : (v.length : ℝ) / 2 ^ 140 ≤ 4 / 2 ^ 140 := by gcongr
  have : ((10 : ℝ) / 2 ^ 24 + 1 / 2 ^ 35) * 1 + 4 / 2 ^ 140 ≤ 10 / 2 ^ 24 + 1 / 2 ^ 34 := by norm_num
  linarith

theorem Dir.test {c v : List F32} {r : F32} (h : Dir c v) (hl : v.length ≤ 4) (hX : 1 / 2 ^ 100 ≤ Spec.normSq v)
    (hr : AllFinite c → SqKnown r (Spec.normSq c)) : leb (fabs (fsub r (ofRat 1))) (ofRat (1 / 1000000)) = true := by
  obtain ⟨h1, h2⟩ := unit_sq (hr h.finite) (h.normSq hl hX)
  exact normalized_test h1 h2

theorem dir2 {v : V2 F32} (hv : AllFinite v.toList) (hX : 1 / 2 ^ 100 ≤ normSq v.toList) (hX' : normSq v.toList ≤ 2 ^ 126) :
    Dir (V2.normalize v).toList v.toList := dir_map hv (known2 hv) (.inr fun _ => rfl) hX hX'
theorem dir3 {v : V3 F32} (hv : AllFinite v.toList) (hX : 1 / 2 ^ 100 ≤ normSq v.toList) (hX' : normSq v.toList ≤ 2 ^ 126) :
    Dir (V3.normalize v).toList v.toList := dir_map hv (known3 hv) (.inr fun _ => rfl) hX hX'
theorem dir4 {v : V4 F32} (hv : AllFinite v.toList) (hX : 1 / 2 ^ 100 ≤ normSq v.toList) (hX' : normSq v.toList ≤ 2 ^ 126) :
    Dir (V4.normalize v).toList v.toList := dir_map hv (known4 hv) (.inr fun _ => rfl) hX hX'
theorem dirK3 (k : Backend) {v : V4 F32} (hv : AllFinite v.xyz.toList) (hX : 1 / 2 ^ 100 ≤ normSq v.xyz.toList)
    (hX' : normSq v.xyz.toList ≤ 2 ^ 126) : Dir (k.normalize3 v).xyz.toList v.xyz.toList := by
  cases k
  · exact dir3 hv hX hX'
  · exact dir_map hv (knownK3 .sse41 hv) (.inl fun _ => rfl) hX hX'
  · exact dir_map hv (knownK3 .neon hv) (.inl fun _ => rfl) hX hX'
  · exact dir3 hv hX hX'
theorem dirK4 (k : Backend) {v : V4 F32} (hv : AllFinite v.toList) (hX : 1 / 2 ^ 100 ≤ normSq v.toList)
    (hX' : normSq v.toList ≤ 2 ^ 126) : Dir (k.normalize4 v).toList v.toList := by
  cases k
  · exact dir4 hv hX hX'
  · exact dir_map hv (knownK4 .sse41 hv) (.inl fun _ => rfl) hX hX'
  · exact dir_map hv (knownK4 .neon hv) (.inl fun _ => rfl) hX hX'
  · exact dir4 hv hX hX'

theorem sub4_list (a b : V4 F32) : (V4.sub a b).xyz.toList = List.zipWith fsub a.xyz.toList b.xyz.toList := rfl

end LenAcc
open LenAcc

/-- C90: squared lengths and lengths of finite vectors. -/
theorem length_accuracy :
    (∀ v : V2 F32, AllFinite v.toList →
      SquareOk (V2.lengthSq v) (normSq v.toList) 5 ∧ RootOk (V2.length v) (normSq v.toList) 4) ∧
    (∀ v : V3 F32, AllFinite v.toList →
      SquareOk (V3.lengthSq v) (normSq v.toList) 5 ∧ RootOk (V3.length v) (normSq v.toList) 4) ∧
    (∀ v : V4 F32, AllFinite v.toList →
      SquareOk (V4.lengthSq v) (normSq v.toList) 5 ∧ RootOk (V4.length v) (normSq v.toList) 4) ∧
    (∀ (k : Backend) (v : V4 F32), AllFinite v.xyz.toList →
      SquareOk (k.lengthSq3 v) (normSq v.xyz.toList) 5 ∧ RootOk (k.length3 v) (normSq v.xyz.toList) 4) ∧
    (∀ (k : Backend) (v : V4 F32), AllFinite v.toList →
      SquareOk (k.lengthSq4 v) (normSq v.toList) 5 ∧ RootOk (k.length4 v) (normSq v.toList) 4) := by
  refine ⟨fun v h => ⟨squareOk_of (normSq_nonneg _) (known2 h), rootOk_of (known2 h)⟩,
    fun v h => ⟨squareOk_of (normSq_nonneg _) (known3 h), rootOk_of (known3 h)⟩,
    fun v h => ⟨squareOk_of (normSq_nonneg _) (known4 h), rootOk_of (known4 h)⟩,
    fun k v h => ⟨squareOk_of (normSq_nonneg _) (knownK3 k h), ?_⟩,
    fun k v h => ⟨squareOk_of (normSq_nonneg _) (knownK4 k h), ?_⟩⟩
  · have := rootOk_of (knownK3 k h)
    cases k <;> exact this
  · have := rootOk_of (knownK4 k h)
    cases k <;> exact this

/-- C90: squared distances and distances of finite points. -/
theorem distance_accuracy :
    (∀ a b : V2 F32, AllFinite a.toList → AllFinite b.toList →
      SquareOk (V2.distanceSq a b) (distSq a.toList b.toList) 7 ∧ RootOk (V2.distance a b) (distSq a.toList b.toList) 5) ∧
    (∀ a b : V3 F32, AllFinite a.toList → AllFinite b.toList →
      SquareOk (V3.distanceSq a b) (distSq a.toList b.toList) 7 ∧ RootOk (V3.distance a b) (distSq a.toList b.toList) 5) ∧
    (∀ a b : V4 F32, AllFinite a.toList → AllFinite b.toList →
      SquareOk (V4.distanceSq a b) (distSq a.toList b.toList) 7 ∧ RootOk (V4.distance a b) (distSq a.toList b.toList) 5) ∧
    (∀ (k : Backend) (a b : V4 F32), AllFinite a.xyz.toList → AllFinite b.xyz.toList →
      SquareOk (k.distanceSq3 a b) (distSq a.xyz.toList b.xyz.toList) 7 ∧
      RootOk (k.distance3 a b) (distSq a.xyz.toList b.xyz.toList) 5) ∧
    (∀ (k : Backend) (a b : V4 F32), AllFinite a.toList → AllFinite b.toList →
      SquareOk (k.distanceSq4 a b) (distSq a.toList b.toList) 7 ∧ RootOk (k.distance4 a b) (distSq a.toList b.toList) 5) := by
  refine ⟨fun a b ha hb => dist_ok ha hb fun h => known2 (v := V2.sub a b) h,
    fun a b ha hb => dist_ok ha hb fun h => known3 (v := V3.sub a b) h,
    fun a b ha hb => dist_ok ha hb fun h => known4 (v := V4.sub a b) h, fun k a b ha hb => ?_, fun k a b ha hb => ?_⟩
  · have := dist_ok ha hb fun h => knownK3 k (v := V4.sub a b) h
    cases k <;> exact this
  · have := dist_ok ha hb fun h => knownK4 k (v := V4.sub a b) h
    cases k <;> exact this

/-- C90: directions of finite vectors. -/
theorem normalize_accuracy :
    (∀ v : V2 F32, AllFinite v.toList → UnitOk (V2.normalize v).toList v.toList) ∧
    (∀ v : V3 F32, AllFinite v.toList → UnitOk (V3.normalize v).toList v.toList) ∧
    (∀ v : V4 F32, AllFinite v.toList → UnitOk (V4.normalize v).toList v.toList) ∧
    (∀ (k : Backend) (v : V4 F32), AllFinite v.xyz.toList → UnitOk (k.normalize3 v).xyz.toList v.xyz.toList) ∧
    (∀ (k : Backend) (v : V4 F32), AllFinite v.toList → UnitOk (k.normalize4 v).toList v.toList) :=
  ⟨fun _ h => Dir.unitOk (dir2 h), fun _ h => Dir.unitOk (dir3 h), fun _ h => Dir.unitOk (dir4 h),
   fun k _ h => Dir.unitOk (dirK3 k h), fun k _ h => Dir.unitOk (dirK4 k h)⟩

/-- C91: what `normalize` returns passes `isNormalized` with the default tolerance. Partial: the squared length must be at
least `2^-100` and at most `2^126`; see `normalize_range_counterexample` for vectors outside this range. -/
theorem normalize_isNormalized_partial :
    (∀ v : V2 F32, AllFinite v.toList → 1 / 2 ^ 100 ≤ normSq v.toList → normSq v.toList ≤ 2 ^ 126 →
      V2.isNormalized (V2.normalize v) defaultTolerance = true) ∧
    (∀ v : V3 F32, AllFinite v.toList → 1 / 2 ^ 100 ≤ normSq v.toList → normSq v.toList ≤ 2 ^ 126 →
      V3.isNormalized (V3.normalize v) defaultTolerance = true) ∧
    (∀ v : V4 F32, AllFinite v.toList → 1 / 2 ^ 100 ≤ normSq v.toList → normSq v.toList ≤ 2 ^ 126 →
      V4.isNormalized (V4.normalize v) defaultTolerance = true) ∧
    (∀ (k : Backend) (v : V4 F32), AllFinite v.xyz.toList → 1 / 2 ^ 100 ≤ normSq v.xyz.toList → normSq v.xyz.toList ≤ 2 ^ 126 →
      k.isNormalized3 (k.normalize3 v) defaultTolerance = true) ∧
    (∀ (k : Backend) (v : V4 F32), AllFinite v.toList → 1 / 2 ^ 100 ≤ normSq v.toList → normSq v.toList ≤ 2 ^ 126 →
      k.isNormalized4 (k.normalize4 v) defaultTolerance = true) :=
  ⟨fun _ h h1 h2 => (dir2 h h1 h2).test (by simp [V2.toList]) h1 known2,
   fun _ h h1 h2 => (dir3 h h1 h2).test (by simp [V3.toList]) h1 known3,
   fun _ h h1 h2 => (dir4 h h1 h2).test (by simp [V4.toList]) h1 known4,
   fun k _ h h1 h2 => (dirK3 k h h1 h2).test (by simp [V3.toList]) h1 (knownK3 k),
   fun k _ h h1 h2 => (dirK4 k h h1 h2).test (by simp [V4.toList]) h1 (knownK4 k)⟩


/-- A squared length between `2^-100` and `2^125`, with a component that is not a power of two. -/
private def sampleV : V3 F32 := ⟨ofRat 3, ofRat (-4), ofRat (1 / 10)⟩

private theorem sample_fin : AllFinite sampleV.toList := by
  have : ∀ x ∈ sampleV.toList, x.isFinite = true := by decide +kernel
  exact this

private theorem range_of {x y z : F32} (h : (x.units = 3 * 2 ^ 149 ∧ y.units = -4 * 2 ^ 149) ∧ 0 ≤ z.units ∧ z.units ≤ 2 ^ 149) :
    1 / 2 ^ 100 ≤ normSq [x, y, z] ∧ normSq [x, y, z] ≤ 2 ^ 125 := by
  have hx : x.val = 3 := by rw [val_units, h.1.1]; push_cast; norm_num
  have hy : y.val = -4 := by rw [val_units, h.1.2]; push_cast; norm_num
  have hz0 : 0 ≤ z.val := by
    rw [val_units]; have : (0 : ℝ) ≤ z.units := by exact_mod_cast h.2.1
    exact div_nonneg this (by positivity)
  have hz1 : z.val ≤ 1 := by
    rw [val_units, div_le_one (by positivity)]
    have : ((z.units : ℤ) : ℝ) ≤ ((2 ^ 149 : ℤ) : ℝ) := by exact_mod_cast h.2.2
    rw [Int.cast_pow] at this; exact this
  have e : normSq [x, y, z] = 9 + (16 + z.val ^ 2) := by
    simp only [normSq, List.map_cons, List.map_nil, List.sum_cons, List.sum_nil, VecAcc.rv_eq, hx, hy]; norm_num
  rw [e]
  generalize z.val = t at *
  have h1 : t ^ 2 ≤ 1 := by nlinarith
  have h2 : 0 ≤ t ^ 2 := sq_nonneg _
  constructor
  · have : (1 : ℝ) / 2 ^ 100 ≤ 1 := by norm_num
    linarith
  · have : (26 : ℝ) ≤ 2 ^ 125 := by norm_num
    linarith

private theorem sample_range : 1 / 2 ^ 100 ≤ normSq sampleV.toList ∧ normSq sampleV.toList ≤ 2 ^ 125 :=
  range_of (by decide +kernel)

/-- The hypotheses of the theorems above are met, and their conclusions apply. -/
example : V3.isNormalized (V3.normalize sampleV) defaultTolerance = true :=
  normalize_isNormalized_partial.2.1 sampleV sample_fin sample_range.1 (sample_range.2.trans (by norm_num))
example : Near (V3.length sampleV) (Real.sqrt (normSq sampleV.toList)) (4 / 2 ^ 24 * Real.sqrt (normSq sampleV.toList)) :=
  (length_accuracy.2.1 sampleV sample_fin).2 sample_range.1 sample_range.2

/-- C91: outside that range `normalize` fails on non-zero finite vectors: the length of a vector of length `2^-80` is
computed as zero and the result is infinite or NaN; the length of a vector of length `2^70` is computed as infinity and
the result is the zero vector. Both hold in the scalar code and on every SIMD backend. -/
theorem normalize_range_counterexample :
    (let v : V4 F32 := ⟨ofRat (1 / 2 ^ 80), ofRat 0, ofRat 0, ofRat 0⟩
     V3.length v.xyz = ofRat 0 ∧ (V3.normalize v.xyz).x = F32.inf false ∧ (V3.normalize v.xyz).y.isNaN = true ∧
     ∀ k ∈ [Backend.sse2, .sse41, .neon, .scalar],
       k.length4 v = ofRat 0 ∧ (k.normalize4 v).x = F32.inf false ∧ (k.normalize4 v).y.isNaN = true ∧
       k.isNormalized4 (k.normalize4 v) defaultTolerance = false) ∧
    (let v : V4 F32 := ⟨ofRat (2 ^ 70), ofRat 0, ofRat 0, ofRat 0⟩
     V3.length v.xyz = F32.inf false ∧ V3.normalize v.xyz = V3.splat (ofRat 0) ∧
     ∀ k ∈ [Backend.sse2, .sse41, .neon, .scalar],
       k.length4 v = F32.inf false ∧ k.normalize4 v = V4.splat (ofRat 0) ∧
       k.isNormalized4 (k.normalize4 v) defaultTolerance = false) := by
  decide +kernel

/-! ## The tests -/

namespace LenAcc

theorem close_test {r m : F32} {X : ℝ} (hm : m.isFinite = true) (h : SquareOk r X 7) (hX : X ≤ 2 ^ 125) :
    (X + (7 / 2 ^ 24 * X + 1 / 2 ^ 146) ≤ rv m → leb r m = true) ∧
    (rv m < X - (7 / 2 ^ 24 * X + 1 / 2 ^ 146) → leb r m = false) := by
  obtain ⟨h1, h2⟩ := h hX
  have h3 := abs_le.1 h2
  rw [VecAcc.rv_eq] at *
  rw [leb_val h1 hm]
  constructor
  · intro h; rw [decide_eq_true_eq]; linarith
  · intro h; rw [decide_eq_false_iff_not]; linarith

/-- `|r - 1| <= t` against the exact squared length. -/
theorem unit_test {r t : F32} {X : ℝ} (ht : t.isFinite = true) (ht1 : rv t ≤ 1 / 2 ^ 10) (h0 : 0 ≤ X)
    (h : SqKnown r X) (hX : X ≤ 2 ^ 125) :
    (|X - 1| + 3 / 10000000 ≤ rv t → leb (fabs (fsub r (ofRat 1))) t = true) ∧
    (rv t + 3 / 10000000 < |X - 1| → leb (fabs (fsub r (ofRat 1))) t = false) := by
  obtain ⟨h1, h2⟩ := h (hX.trans (by norm_num))
  rw [VecAcc.rv_eq] at *
  have hd : dsq ≤ 239 / 1000000000 := by unfold dsq; norm_num
  have hd0 : 0 ≤ dsq := by unfold dsq; positivity
  have hdX : dsq * X ≤ 239 / 1000000000 * X := mul_le_mul_of_nonneg_right hd h0
  have h147 : (1 : ℝ) / 2 ^ 147 ≤ 1 / 10 ^ 12 := by norm_num
  have h3 := abs_le.1 h2
  have hrlt : |r.val - (ofRat 1).val| < 2 ^ 127 := by
    rw [one_lit.2, abs_lt]
    have : (239 : ℝ) / 1000000000 * 2 ^ 125 + 2 ^ 125 + 1 < 2 ^ 127 := by norm_num
    constructor <;> linarith
  obtain ⟨h4, h5⟩ := fsub_err' h1 one_lit.1 hrlt
  rw [one_lit.2] at h5
  obtain ⟨h6, h7⟩ := fabs_val _ h4
  rw [leb_val h6 ht, h7]
  unfold uro at h5
  set s := (fsub r (ofRat 1)).val
  constructor
  · intro hh
    rw [decide_eq_true_eq]
    have hX2 : |X - 1| ≤ 1 / 2 ^ 10 := by linarith
    have hX3 := abs_le.1 hX2
    have a1 := abs_add_le (r.val - X) (X - 1)
    rw [sub_add_sub_cancel] at a1
    have a2 := abs_add_le (s - (r.val - 1)) (r.val - 1)
    rw [sub_add_cancel] at a2
    have a3 : |r.val - 1| ≤ 1 / 2 ^ 9 := by
      have : (239 : ℝ) / 1000000000 * (1 + 1 / 2 ^ 10) + 1 / 10 ^ 12 + 1 / 2 ^ 10 ≤ 1 / 2 ^ 9 := by norm_num
      linarith
    have a4 : (1 : ℝ) / 2 ^ 24 * |r.val - 1| ≤ 1 / 2 ^ 24 * (1 / 2 ^ 9) := by gcongr
    have a5 : (239 : ℝ) / 1000000000 * (1 + 1 / 2 ^ 10) + 1 / 10 ^ 12 + 1 / 2 ^ 24 * (1 / 2 ^ 9) ≤ 3 / 10000000 := by norm_num
    linarith
  · intro hh
    rw [decide_eq_false_iff_not, not_le]
    have a2 : |r.val - 1| ≤ |r.val - 1 - s| + |s| := by
      have := abs_add_le (r.val - 1 - s) s; rwa [sub_add_cancel] at this
    rw [abs_sub_comm (r.val - 1) s] at a2
    by_cases hc : |X - 1| ≤ 1 / 2 ^ 9
    · have hX3 := abs_le.1 hc
      have a1 : |X - 1| ≤ |X - r.val| + |r.val - 1| := by
        have := abs_add_le (X - r.val) (r.val - 1); rwa [sub_add_sub_cancel] at this
      rw [abs_sub_comm X r.val] at a1
      have a3 : |r.val - 1| ≤ 1 / 2 ^ 8 := by
        have b := abs_add_le (r.val - X) (X - 1)
        rw [sub_add_sub_cancel] at b
        have : (239 : ℝ) / 1000000000 * (1 + 1 / 2 ^ 9) + 1 / 10 ^ 12 + 1 / 2 ^ 9 ≤ 1 / 2 ^ 8 := by norm_num
        linarith
      have a4 : (1 : ℝ) / 2 ^ 24 * |r.val - 1| ≤ 1 / 2 ^ 24 * (1 / 2 ^ 8) := by gcongr
      have a5 : (239 : ℝ) / 1000000000 * (1 + 1 / 2 ^ 9) + 1 / 10 ^ 12 + 1 / 2 ^ 24 * (1 / 2 ^ 8) ≤ 3 / 10000000 := by norm_num
      linarith
    · push Not at hc
      have a1 : |X - 1| * (1 - 239 / 1000000000) - 240 / 1000000000 ≤ |r.val - 1| := by
        have b : |X - 1| ≤ |X - r.val| + |r.val - 1| := by
          have := abs_add_le (X - r.val) (r.val - 1); rwa [sub_add_sub_cancel] at this
        rw [abs_sub_comm X r.val] at b
        have c : X ≤ |X - 1| + 1 := by linarith [le_abs_self (X - 1)]
        linarith
      have a3 : |r.val - 1| * (1 - 1 / 2 ^ 24) ≤ |s| := by linarith
      have a4 : (1 / 2 ^ 9 * (1 - 239 / 1000000000) - 240 / 1000000000) * (1 - 1 / 2 ^ 24) ≤ |s| := by
        refine le_trans (mul_le_mul_of_nonneg_right ?_ (by norm_num)) a3
        have : (1 : ℝ) / 2 ^ 9 * (1 - 239 / 1000000000) ≤ |X - 1| * (1 - 239 / 1000000000) := by
          apply mul_le_mul_of_nonneg_right hc.le (by norm_num)
        linarith
      have a5 : (1 : ℝ) / 2 ^ 10 < (1 / 2 ^ 9 * (1 - 239 / 1000000000) - 240 / 1000000000) * (1 - 1 / 2 ^ 24) := by norm_num
      linarith

end LenAcc

/-- The answer `ans` of `isClose` for points at squared distance `X` and threshold `m`: yes when `X` is below `m` and no
when it is above, except within seven half units in the last place of `m`. -/
def CloseOk (ans : Bool) (X : ℝ) (m : F32) : Prop :=
  X ≤ 2 ^ 125 → (X + (7 / 2 ^ 24 * X + 1 / 2 ^ 146) ≤ rv m → ans = true) ∧ (rv m < X - (7 / 2 ^ 24 * X + 1 / 2 ^ 146) → ans = false)

/-- C91: `isClose`. -/
theorem isClose_accuracy (m : F32) (hm : m.isFinite = true) :
    (∀ a b : V2 F32, AllFinite a.toList → AllFinite b.toList → CloseOk (V2.isClose a b m) (distSq a.toList b.toList) m) ∧
    (∀ a b : V3 F32, AllFinite a.toList → AllFinite b.toList → CloseOk (V3.isClose a b m) (distSq a.toList b.toList) m) ∧
    (∀ a b : V4 F32, AllFinite a.toList → AllFinite b.toList → CloseOk (V4.isClose a b m) (distSq a.toList b.toList) m) :=
  ⟨fun a b ha hb => close_test hm (distance_accuracy.1 a b ha hb).1,
   fun a b ha hb => close_test hm (distance_accuracy.2.1 a b ha hb).1,
   fun a b ha hb => close_test hm (distance_accuracy.2.2.1 a b ha hb).1⟩

/-- The answer `ans` of `isNormalized` for a vector of squared length `X` and tolerance `t`: yes when `X` is within `t` of
one, no when it is farther, except within `3e-7` of the boundary. -/
def NormalizedOk (ans : Bool) (X : ℝ) (t : F32) : Prop :=
  X ≤ 2 ^ 125 → (|X - 1| + 3 / 10000000 ≤ rv t → ans = true) ∧ (rv t + 3 / 10000000 < |X - 1| → ans = false)

/-- C91: `isNormalized`, for tolerances up to `2^-10`. -/
theorem isNormalized_accuracy (t : F32) (ht : t.isFinite = true) (ht1 : rv t ≤ 1 / 2 ^ 10) :
    (∀ v : V2 F32, AllFinite v.toList → NormalizedOk (V2.isNormalized v t) (normSq v.toList) t) ∧
    (∀ v : V3 F32, AllFinite v.toList → NormalizedOk (V3.isNormalized v t) (normSq v.toList) t) ∧
    (∀ v : V4 F32, AllFinite v.toList → NormalizedOk (V4.isNormalized v t) (normSq v.toList) t) ∧
    (∀ (k : Backend) (v : V4 F32), AllFinite v.xyz.toList → NormalizedOk (k.isNormalized3 v t) (normSq v.xyz.toList) t) ∧
    (∀ (k : Backend) (v : V4 F32), AllFinite v.toList → NormalizedOk (k.isNormalized4 v t) (normSq v.toList) t) :=
  ⟨fun _ h => unit_test ht ht1 (normSq_nonneg _) (known2 h), fun _ h => unit_test ht ht1 (normSq_nonneg _) (known3 h),
   fun _ h => unit_test ht ht1 (normSq_nonneg _) (known4 h), fun k _ h => unit_test ht ht1 (normSq_nonneg _) (knownK3 k h),
   fun k _ h => unit_test ht ht1 (normSq_nonneg _) (knownK4 k h)⟩

/-- The default tolerance meets the hypotheses. -/
example : (defaultTolerance : F32).isFinite = true ∧ rv (defaultTolerance : F32) ≤ 1 / 2 ^ 10 := by
  refine ⟨tol_lit.1, ?_⟩
  have := (abs_le.1 tol_lit.2).2
  have h2 : (1 : ℝ) / 1000000 + 1 / 2 ^ 40 ≤ 1 / 2 ^ 10 := by norm_num
  show (ofRat (1 / 1000000)).val ≤ _
  linarith

/-- A vector that is not normalised is rejected: its squared length is about 25. -/
example : V3.isNormalized sampleV defaultTolerance = false := by decide +kernel

end Verif
