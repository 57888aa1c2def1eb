import Mathlib.Analysis.SpecialFunctions.Trigonometric.Bounds
import Mathlib.Analysis.SpecialFunctions.Trigonometric.Deriv
import Mathlib.Analysis.SpecialFunctions.Trigonometric.Inverse
import Mathlib.Analysis.Calculus.Deriv.MeanValue
import Mathlib.Analysis.Real.Pi.Bounds

/-!
# The weights of spherical interpolation
-/

namespace Verif.SlerpReal
open Real

/-- Away from `π` the sine is at least a fixed fraction of its argument. -/
theorem sin_ge {x : ℝ} (h0 : 0 ≤ x) (h : x ≤ 1.6) : 0.573 * x ≤ sin x := by
  have := sin_ge_sub_cube h0
  have h2 : x ^ 2 ≤ 2.56 := by nlinarith
  have : x ^ 3 ≤ 2.56 * x := by nlinarith
  linarith

/-- The numerator of the derivative of `sin (s x) / sin x`. -/
theorem numer {s x : ℝ} (hs : 0 ≤ s) (hs1 : s ≤ 1) (h0 : 0 ≤ x) :
    |s * cos (s * x) * sin x - sin (s * x) * cos x| ≤ 0.141 * x ^ 3 := by
  have e : s * cos (s * x) * sin x - sin (s * x) * cos x =
      ((1 + s) * sin ((1 - s) * x) - (1 - s) * sin ((1 + s) * x)) / 2 := by
    rw [show (1 - s) * x = x - s * x by ring, show (1 + s) * x = x + s * x by ring, sin_add, sin_sub]; ring
  have p : 0 ≤ (1 - s) * x := mul_nonneg (by linarith) h0
  have q : 0 ≤ (1 + s) * x := mul_nonneg (by linarith) h0
  have a1 := sin_ge_sub_cube p
  have a2 := sin_le p
  have b1 := sin_ge_sub_cube q
  have b2 := sin_le q
  have x3 : 0 ≤ x ^ 3 := pow_nonneg h0 3
  have m1 := mul_le_mul_of_nonneg_left a1 (show 0 ≤ 1 + s by linarith)
  have m2 := mul_le_mul_of_nonneg_left a2 (show 0 ≤ 1 + s by linarith)
  have m3 := mul_le_mul_of_nonneg_left b1 (show 0 ≤ 1 - s by linarith)
  have m4 := mul_le_mul_of_nonneg_left b2 (show 0 ≤ 1 - s by linarith)
  have k1 : (1 - s) * (1 + s) ^ 3 ≤ 1.6875 := by
    have : 0 ≤ (2 * s - 1) ^ 2 * (s ^ 2 + 3 * s + 2.75) := by positivity
    nlinarith
  have k2 : (1 + s) * (1 - s) ^ 3 ≤ 1.6875 := by
    have h1 : (1 - s) ^ 3 ≤ 1 := pow_le_one₀ (by linarith) (by linarith)
    have h1' : (1 - s) ^ 3 ≤ 1 - s := by
      have := mul_le_mul_of_nonneg_left (show (1 - s) ^ 2 ≤ 1 from pow_le_one₀ (by linarith) (by linarith)) (show 0 ≤ 1 - s by linarith)
      linarith [show (1 - s) ^ 3 = (1 - s) * (1 - s) ^ 2 by ring]
    nlinarith
  have k1' := mul_le_mul_of_nonneg_right k1 x3
  have k2' := mul_le_mul_of_nonneg_right k2 x3
  rw [e, abs_le]
  constructor <;> nlinarith

/-- The weight of an end as a function of the angle, measured against its cosine. -/
theorem weight_lip {s x y : ℝ} (hs : 0 ≤ s) (hs1 : s ≤ 1) (hx : 0 < x) (hxy : x < y) (hy : y ≤ 1.6) :
    |sin (s * y) / sin y - sin (s * x) / sin x| ≤ 0.75 * |cos y - cos x| := by
  have pos : ∀ z ∈ Set.Icc x y, 0 < sin z := fun z hz => by
    have := sin_ge (by linarith [hz.1]) (hz.2.trans hy)
    have := hz.1
    linarith
  have hf : ContinuousOn (fun z => sin (s * z) / sin z) (Set.Icc x y) := by
    apply ContinuousOn.div
    · fun_prop
    · fun_prop
    · exact fun z hz => (pos z hz).ne'
  have hg : ContinuousOn cos (Set.Icc x y) := continuous_cos.continuousOn
  have df : ∀ z ∈ Set.Ioo x y, HasDerivAt (fun z => sin (s * z) / sin z)
      ((s * cos (s * z) * sin z - sin (s * z) * cos z) / sin z ^ 2) z := by
    intro z hz
    have h1 : HasDerivAt (fun z => sin (s * z)) (cos (s * z) * s) z := by
      have := (hasDerivAt_id z).const_mul s
      simpa using this.sin
    have := h1.div (hasDerivAt_sin z) (pos z ⟨hz.1.le, hz.2.le⟩).ne'
    exact this.congr_deriv (by ring)
  obtain ⟨z, hz, he⟩ := exists_ratio_hasDerivAt_eq_ratio_slope (fun z => sin (s * z) / sin z) _ hxy hf df cos (fun z => -sin z) hg
    (fun z _ => hasDerivAt_cos z)
  have pz := pos z ⟨hz.1.le, hz.2.le⟩
  have z0 : 0 < z := hx.trans hz.1
  have n := numer hs hs1 z0.le
  have sg := sin_ge z0.le (hz.2.le.trans hy)
  have c3 : 0.141 * z ^ 3 ≤ 0.75 * sin z ^ 3 := by
    have := pow_le_pow_left₀ (by positivity) sg 3
    have : 0 ≤ z ^ 3 := by positivity
    nlinarith
  generalize sin (s * y) / sin y - sin (s * x) / sin x = D at *
  have e : D = -((cos y - cos x) * ((s * cos (s * z) * sin z - sin (s * z) * cos z) / sin z ^ 3)) := by
    field_simp at he ⊢
    linarith
  rw [e, abs_neg, abs_mul, abs_div, abs_of_pos (by positivity : 0 < sin z ^ 3), mul_comm]
  gcongr
  rw [div_le_iff₀ (by positivity)]
  linarith

theorem weight_lip' {s x y : ℝ} (hs : 0 ≤ s) (hs1 : s ≤ 1) (hx : 0 < x) (hy : 0 < y) (hx' : x ≤ 1.6) (hy' : y ≤ 1.6) :
    |sin (s * y) / sin y - sin (s * x) / sin x| ≤ 0.75 * |cos y - cos x| := by
  rcases lt_trichotomy x y with h | h | h
  · exact weight_lip hs hs1 hx h hy'
  · rw [h]; simp
  · rw [abs_sub_comm, abs_sub_comm (cos y)]; exact weight_lip hs hs1 hy h hx'

/-- For small angles the weight is the fraction. -/
theorem weight_small {s x : ℝ} (hs : 0 ≤ s) (hs1 : s ≤ 1) (hx : 0 < x) (hx' : x ≤ 1.6) : |sin (s * x) / sin x - s| ≤ 0.3 * x ^ 2 := by
  have sg := sin_ge hx.le hx'
  have sp : 0 < sin x := by linarith
  have sx : 0 ≤ s * x := mul_nonneg hs hx.le
  have a1 := sin_ge_sub_cube sx
  have a2 := sin_le sx
  have b1 := sin_ge_sub_cube hx.le
  have b2 := sin_le hx.le
  have x3 : 0 ≤ x ^ 3 := by positivity
  have e : sin (s * x) / sin x - s = (sin (s * x) - s * sin x) / sin x := by field_simp
  rw [e, abs_div, abs_of_pos sp, div_le_iff₀ sp]
  have r : 0.3 * x ^ 2 * (0.573 * x) ≤ 0.3 * x ^ 2 * sin x := by gcongr
  have m1 := mul_le_mul_of_nonneg_left b1 hs
  have m2 := mul_le_mul_of_nonneg_left b2 hs
  have s3 : s ^ 3 ≤ 1 := pow_le_one₀ hs hs1
  have s3' := mul_le_mul_of_nonneg_right s3 x3
  have s1' := mul_le_mul_of_nonneg_right hs1 x3
  rw [abs_le]
  constructor <;> nlinarith

/-- Weights are bounded. -/
theorem weight_le {s x : ℝ} (hs : 0 ≤ s) (hs1 : s ≤ 1) (hx : 0 < x) (hx' : x ≤ 1.6) : 0 ≤ sin (s * x) / sin x ∧ sin (s * x) / sin x ≤ 1.01 := by
  have sg := sin_ge hx.le hx'
  have sp : 0 < sin x := by linarith
  have sx : 0 ≤ s * x := mul_nonneg hs hx.le
  have sx' : s * x ≤ 1.6 := by nlinarith
  have s1 := sin_ge sx sx'
  refine ⟨div_nonneg (by linarith) sp.le, ?_⟩
  rw [div_le_iff₀ sp]
  have hp := Real.pi_gt_d2
  by_cases h : x ≤ π / 2
  · have := sin_le_sin_of_le_of_le_pi_div_two (by linarith) h (show s * x ≤ x by nlinarith)
    linarith
  · push Not at h
    have hp' := Real.pi_lt_d2
    have c : 1 - (x - π / 2) ^ 2 / 2 ≤ cos (x - π / 2) := one_sub_sq_div_two_le_cos
    rw [cos_sub_pi_div_two] at c
    have : (x - π / 2) ^ 2 ≤ 0.002 := by nlinarith
    have := sin_le_one (s * x)
    linarith

/-- Angles up to `1.6` from their cosines. -/
theorem angle_le {θ : ℝ} (h0 : 0 ≤ θ) (h1 : θ ≤ π) (h : -0.02 ≤ cos θ) : θ ≤ 1.6 := by
  by_contra hc
  push Not at hc
  have hp := Real.pi_lt_d2
  have hp' := Real.pi_gt_d2
  have c1 : cos θ < cos 1.6 := cos_lt_cos_of_nonneg_of_le_pi (by norm_num) h1 hc
  have c2 : cos 1.6 = -sin (1.6 - π / 2) := by
    rw [sin_sub_pi_div_two]; ring
  have c3 := sin_ge_sub_cube (show 0 ≤ 1.6 - π / 2 by norm_num at *; linarith)
  have c4 : 0.025 ≤ 1.6 - π / 2 := by norm_num at *; linarith
  have c5 : (1.6 - π / 2) ^ 2 ≤ 0.001 := by nlinarith
  have : (1.6 - π / 2) ^ 3 ≤ 0.001 * (1.6 - π / 2) := by nlinarith
  norm_num at *
  linarith

end Verif.SlerpReal
