import Verif.Model.Scalar

/-!
# C18, C19: scalar helpers in exact arithmetic
-/

namespace Verif
open Scalar

theorem repeat_real (v : ℝ) : repeat' v = if v < 0 then 1 - Int.fract (-v) else Int.fract v := by
  unfold repeat'
  simp only [Flt.real_lt, Flt.real_lit, Flt.real_sub, Flt.real_neg, Flt.real_le, decide_eq_true_eq, Rat.cast_zero,
    Rat.cast_one]
  split_ifs with h1 h2
  · rw [FltT.real_fmod_one (by linarith)]
  · rw [FltT.real_fmod_one (by linarith)]
  · rw [Int.fract_eq_self.2 ⟨by linarith, by linarith⟩]

/-- **C18** (sign): `sign` is ±1 and `sign(v) * v = |v|`. -/
theorem sign_spec (v : ℝ) : (sign v = 1 ∨ sign v = -1) ∧ sign v * v = |v| := by
  unfold sign
  simp only [FltT.real_signbit, Flt.real_lit, decide_eq_true_eq]
  split_ifs with h
  · refine ⟨Or.inr (by norm_num), ?_⟩
    rw [abs_of_neg h]; push_cast; ring
  · refine ⟨Or.inl (by norm_num), ?_⟩
    rw [abs_of_nonneg (not_lt.1 h)]; push_cast; ring

/-- **C18** (repeat, partial): the result lies in `[0, 1]`, differs from the argument by an integer, and for
every argument that is not a negative integer it is the fractional part, hence in `[0, 1)` and 1-periodic.
Missing: negative integers, where the result is 1 (see `repeat_counterexample`). The SIMD form is the same
function. -/
theorem repeat_partial (v : ℝ) :
    0 ≤ repeat' v ∧ repeat' v ≤ 1 ∧ (∃ k : ℤ, repeat' v = v + k) ∧
    ((¬ ∃ k : ℤ, v = k ∧ k < 0) → repeat' v = Int.fract v ∧ repeat' v < 1) ∧
    simdRepeat v = repeat' v := by
  rw [repeat_real]
  refine ⟨?_, ?_, ?_, ?_, ?_⟩
  · split_ifs
    · linarith [Int.fract_lt_one (-v)]
    · exact Int.fract_nonneg v
  · split_ifs
    · linarith [Int.fract_nonneg (-v)]
    · exact (Int.fract_lt_one v).le
  · split_ifs
    · exact ⟨1 + ⌊-v⌋, by rw [Int.fract]; push_cast; ring⟩
    · exact ⟨-⌊v⌋, by rw [Int.fract]; push_cast; ring⟩
  · intro h
    split_ifs with hv
    · have hne : Int.fract (-v) ≠ 0 := by
        intro h0
        rw [Int.fract_eq_zero_iff] at h0
        obtain ⟨k, hk⟩ := h0
        refine h ⟨-k, by push_cast; linarith, ?_⟩
        have : (0 : ℝ) < k := by rw [hk]; linarith
        have : 0 < k := by exact_mod_cast this
        omega
      have h1 : Int.fract v ≠ 0 := by
        intro h0
        rw [Int.fract_eq_zero_iff] at h0
        obtain ⟨k, hk⟩ := h0
        exact h ⟨k, hk.symm, by
          have : (k : ℝ) < 0 := by rw [hk]; exact hv
          exact_mod_cast this⟩
      rw [Int.fract_neg h1]
      exact ⟨by ring, by linarith [Int.fract_lt_one v]⟩
    · exact ⟨rfl, Int.fract_lt_one v⟩
  · unfold simdRepeat simdMod
    simp only [Flt.real_lt, Flt.real_lit, Flt.real_sub, Flt.real_neg, Flt.real_mul, Flt.real_div, FltT.real_floor,
      decide_eq_true_eq, Rat.cast_zero, Rat.cast_one, div_one, mul_one]
    by_cases h1 : v < 0
    · rw [if_pos (show v < 1 by linarith), if_pos h1, if_pos h1]; rfl
    · rw [if_neg h1, if_neg h1]
      by_cases h2 : v < 1
      · rw [if_pos h2, Int.fract_eq_self.2 ⟨by linarith, h2⟩]
      · rw [if_neg h2]; rfl

/-- **C18** is false of the code at negative integers: `repeat(-1) = 1`, outside `[0, 1)` and different from
`repeat(0) = 0`. -/
theorem repeat_counterexample : repeat' (-1 : ℝ) = 1 ∧ repeat' (0 : ℝ) = 0 := by
  constructor
  · rw [repeat_real]; norm_num
  · rw [repeat_real]; norm_num

/-- **C18** (lerp): end points, betweenness, monotonicity; the vector form computes the same value. -/
theorem lerp_spec (a b t : ℝ) :
    lerp a b 0 = a ∧ lerp a b 1 = b ∧ lerpV a b t = lerp a b t ∧
    (0 ≤ t → t ≤ 1 → min a b ≤ lerp a b t ∧ lerp a b t ≤ max a b) ∧
    (∀ t', t ≤ t' → (a ≤ b → lerp a b t ≤ lerp a b t') ∧ (b ≤ a → lerp a b t' ≤ lerp a b t)) := by
  simp only [lerp, lerpV, Flt.real_add, Flt.real_mul, Flt.real_sub, Flt.real_lit, Rat.cast_one]
  refine ⟨by ring, by ring, by ring, fun h0 h1 => ?_, fun t' h => ⟨fun hab => ?_, fun hab => ?_⟩⟩
  · rcases le_total a b with h | h
    · rw [min_eq_left h, max_eq_right h]
      exact ⟨by nlinarith, by nlinarith⟩
    · rw [min_eq_right h, max_eq_left h]
      exact ⟨by nlinarith, by nlinarith⟩
  · nlinarith
  · nlinarith

/-- **C18** (gain): for a positive factor, `gain` maps `[0,1]` into `[0,1]`, fixes 0, 1/2 and 1, is
symmetric about 1/2 and is onto. -/
theorem gain_spec (k : ℝ) (hk : 0 < k) :
    (∀ x, 0 ≤ x → x ≤ 1 → 0 ≤ gain x k ∧ gain x k ≤ 1 ∧ gain x k + gain (1 - x) k = 1) ∧
    gain 0 k = 0 ∧ gain (1 / 2) k = 1 / 2 ∧ gain 1 k = 1 ∧
    (∀ y, 0 ≤ y → y ≤ 1 → ∃ x, 0 ≤ x ∧ x ≤ 1 ∧ gain x k = y) := by
  have lo : ∀ x : ℝ, x < 1 / 2 → gain x k = 1 / 2 * (2 * x) ^ k := by
    intro x hx
    simp only [gain, Flt.real_lt, Flt.real_lit, Flt.real_mul, Flt.real_sub, FltT.real_pow, decide_eq_true_eq]
    push_cast
    rw [if_pos hx, if_pos hx]
  have hi : ∀ x : ℝ, 1 / 2 ≤ x → gain x k = 1 - 1 / 2 * (2 * (1 - x)) ^ k := by
    intro x hx
    simp only [gain, Flt.real_lt, Flt.real_lit, Flt.real_mul, Flt.real_sub, FltT.real_pow, decide_eq_true_eq]
    push_cast
    rw [if_neg (not_lt.2 hx), if_neg (not_lt.2 hx)]
  have half : gain (1 / 2 : ℝ) k = 1 / 2 := by
    rw [hi _ le_rfl]; norm_num
  have bnd : ∀ z : ℝ, 0 ≤ z → z ≤ 1 → 0 ≤ z ^ k ∧ z ^ k ≤ 1 := fun z h0 h1 =>
    ⟨Real.rpow_nonneg h0 k, Real.rpow_le_one h0 h1 hk.le⟩
  refine ⟨fun x h0 h1 => ?_, ?_, half, ?_, fun y h0 h1 => ?_⟩
  · rcases lt_trichotomy x (1 / 2) with h | h | h
    · have := bnd (2 * x) (by linarith) (by linarith)
      rw [lo x h, hi (1 - x) (by linarith), show (1 : ℝ) - (1 - x) = x by ring]
      exact ⟨by linarith, by linarith, by ring⟩
    · subst h
      rw [show (1 : ℝ) - 1 / 2 = 1 / 2 by norm_num, half]; norm_num
    · have := bnd (2 * (1 - x)) (by linarith) (by linarith)
      rw [hi x h.le, lo (1 - x) (by linarith)]
      exact ⟨by linarith, by linarith, by ring⟩
  · rw [lo 0 (by norm_num), mul_zero, Real.zero_rpow hk.ne', mul_zero]
  · rw [hi 1 (by norm_num), sub_self, mul_zero, Real.zero_rpow hk.ne', mul_zero, sub_zero]
  · have inv : ∀ z : ℝ, 0 ≤ z → (z ^ (1 / k)) ^ k = z := fun z hz => by
      rw [← Real.rpow_mul hz, one_div, inv_mul_cancel₀ hk.ne', Real.rpow_one]
    have b1 : ∀ z : ℝ, 0 ≤ z → z ≤ 1 → 0 ≤ z ^ (1 / k) ∧ z ^ (1 / k) ≤ 1 := fun z h0 h1 =>
      ⟨Real.rpow_nonneg h0 _, Real.rpow_le_one h0 h1 (by positivity)⟩
    rcases lt_or_ge y (1 / 2) with h | h
    · obtain ⟨c0, c1⟩ := b1 (2 * y) (by linarith) (by linarith)
      have c2 : (2 * y) ^ (1 / k) < 1 := Real.rpow_lt_one (by linarith) (by linarith) (by positivity)
      refine ⟨(2 * y) ^ (1 / k) / 2, by linarith, by linarith, ?_⟩
      rw [lo _ (by linarith), mul_div_cancel₀ _ (two_ne_zero), inv _ (by linarith)]; ring
    · obtain ⟨c0, c1⟩ := b1 (2 * (1 - y)) (by linarith) (by linarith)
      refine ⟨1 - (2 * (1 - y)) ^ (1 / k) / 2, by linarith, by linarith, ?_⟩
      rw [hi _ (by linarith), sub_sub_cancel, mul_div_cancel₀ _ (two_ne_zero), inv _ (by linarith)]; ring

example : ∃ k : ℝ, 0 < k ∧ k ≠ 1 := ⟨2, by norm_num, by norm_num⟩

/-- Applying `lerpDelta` once per frame, for the given list of time steps. -/
noncomputable def smooth (a b f : ℝ) : List ℝ → ℝ
  | [] => a
  | dt :: rest => smooth (lerpDelta a b f dt) b f rest

/-- **C19**: the smoothed value after a sequence of frames depends only on the total time: any two
sequences of non-negative steps with the same sum give the same result, namely one step of that length. -/
theorem lerpDelta_frames (a b f : ℝ) (hf : 0 < f) (dts : List ℝ) :
    smooth a b f dts = lerpDelta a b f dts.sum := by
  have key : ∀ a d1 d2 : ℝ, lerpDelta (lerpDelta a b f d1) b f d2 = lerpDelta a b f (d1 + d2) := by
    intro a d1 d2
    simp only [lerpDelta, Flt.real_add, Flt.real_mul, Flt.real_sub, Flt.real_lit, FltT.real_pow, Rat.cast_one,
      Real.rpow_add hf]
    ring
  induction dts generalizing a with
  | nil => simp [smooth, lerpDelta]
  | cons d ds ih => rw [smooth, ih, key, List.sum_cons]

/-- C19, restated as independence of the partition, with an instance: two steps of 1/2 and one step of 1. -/
theorem lerpDelta_partition (a b f : ℝ) (hf : 0 < f) (xs ys : List ℝ) (h : xs.sum = ys.sum) :
    smooth a b f xs = smooth a b f ys := by rw [lerpDelta_frames a b f hf, lerpDelta_frames a b f hf, h]

example : smooth 0 10 (1 / 4) [1 / 2, 1 / 2] = smooth 0 10 (1 / 4) [1] ∧ smooth 0 10 (1 / 4) [1] = 7.5 := by
  refine ⟨lerpDelta_partition _ _ _ (by norm_num) _ _ (by norm_num), ?_⟩
  rw [lerpDelta_frames _ _ _ (by norm_num)]
  simp [lerpDelta]; norm_num

end Verif
