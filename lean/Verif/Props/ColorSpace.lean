import Verif.Model.ColorSpace
import Verif.Spec.Color
import Mathlib.Tactic.NormNum

/-!
# Color spaces (C64, C65)
-/

namespace Verif
open Spec ColorSpace

@[simp] private theorem top_mask (b : Bool) : top (mask b) = b := by cases b <;> decide

/-- C64: each color channel goes through the published transfer function, and alpha is kept. -/
theorem srgb_channels (v : V4 ℝ) :
    rgbToSrgb v = ⟨srgbEnc v.x, srgbEnc v.y, srgbEnc v.z, v.w⟩ ∧
    srgbToRgb v = ⟨srgbDec v.x, srgbDec v.y, srgbDec v.z, v.w⟩ := by
  constructor
  · simp only [vec, top_mask, decide_eq_true_eq, srgbEnc, V4.mk.injEq, and_true]
    push_cast
    refine ⟨?_, ?_, ?_⟩ <;> · split_ifs <;> norm_num <;> ring_nf
  · simp only [vec, top_mask, decide_eq_true_eq, srgbDec, V4.mk.injEq, and_true]
    push_cast
    refine ⟨?_, ?_, ?_⟩ <;> · split_ifs <;> norm_num <;> ring_nf

private theorem e24 : ((1 : ℝ) / 2.4) = 5 / 12 := by norm_num
private theorem e24' : (2.4 : ℝ) = 12 / 5 := by norm_num

private theorem pow_e (x : ℝ) (hx : 0 ≤ x) : (x ^ ((1 : ℝ) / 2.4)) ^ 12 = x ^ 5 := by
  rw [e24, ← Real.rpow_natCast, ← Real.rpow_mul hx, ← Real.rpow_natCast]; norm_num
private theorem pow_d (x : ℝ) (hx : 0 ≤ x) : (x ^ (2.4 : ℝ)) ^ 5 = x ^ 12 := by
  rw [e24', ← Real.rpow_natCast, ← Real.rpow_mul hx, ← Real.rpow_natCast]; norm_num
private theorem e_nonneg {x : ℝ} (hx : 0 ≤ x) : 0 ≤ x ^ ((1 : ℝ) / 2.4) := Real.rpow_nonneg hx _
private theorem d_nonneg {x : ℝ} (hx : 0 ≤ x) : 0 ≤ x ^ (2.4 : ℝ) := Real.rpow_nonneg hx _
private theorem e_lt {x q : ℝ} (hx : 0 ≤ x) (hq : 0 ≤ q) (h : x ^ 5 < q ^ 12) : x ^ ((1 : ℝ) / 2.4) < q := by
  by_contra hc
  have := pow_le_pow_left₀ hq (not_lt.1 hc) 12
  rw [pow_e x hx] at this; linarith
private theorem lt_e {x q : ℝ} (hx : 0 ≤ x) (h : q ^ 12 < x ^ 5) : q < x ^ ((1 : ℝ) / 2.4) := by
  by_contra hc
  have := pow_le_pow_left₀ (e_nonneg hx) (not_lt.1 hc) 12
  rw [pow_e x hx] at this; linarith
private theorem lt_d {x q : ℝ} (hx : 0 ≤ x) (h : q ^ 5 < x ^ 12) : q < x ^ (2.4 : ℝ) := by
  by_contra hc
  have := pow_le_pow_left₀ (d_nonneg hx) (not_lt.1 hc) 5
  rw [pow_d x hx] at this; linarith
private theorem e_mono {x y : ℝ} (hx : 0 ≤ x) (h : x ≤ y) : x ^ ((1 : ℝ) / 2.4) ≤ y ^ ((1 : ℝ) / 2.4) :=
  Real.rpow_le_rpow hx h (by norm_num)
private theorem d_mono {x y : ℝ} (hx : 0 ≤ x) (h : x ≤ y) : x ^ (2.4 : ℝ) ≤ y ^ (2.4 : ℝ) :=
  Real.rpow_le_rpow hx h (by norm_num)

/-- The dark branch stays below the bright branch once the input reaches 0.0031309. -/
private theorem enc_join : (0.04045 + 0.055 : ℝ) / 1.055 < (0.0031309 : ℝ) ^ ((1 : ℝ) / 2.4) :=
  lt_e (by norm_num) (by norm_num)
/-- Just above the threshold the bright branch is below the value of the dark branch at the threshold. -/
private theorem enc_dip : (0.003130801 : ℝ) ^ ((1 : ℝ) / 2.4) < (12.92 * 0.0031308 + 0.055) / 1.055 :=
  e_lt (by norm_num) (by norm_num) (by norm_num)
private theorem dec_join : (0.04045 / 12.92 : ℝ) < ((0.04045 + 0.055) / 1.055 : ℝ) ^ (2.4 : ℝ) :=
  lt_d (by norm_num) (by norm_num)
private theorem dec_join' : (0.0031308 : ℝ) < ((0.04045 + 0.055) / 1.055 : ℝ) ^ (2.4 : ℝ) :=
  lt_d (by norm_num) (by norm_num)

/-- Spec-level facts about `srgbDec`. -/
private theorem dec_mono {s t : ℝ} (h : s ≤ t) : srgbDec s ≤ srgbDec t := by
  unfold srgbDec
  split_ifs with h1 h2
  · exact div_le_div_of_nonneg_right h (by norm_num)
  · have a := dec_join
    have b : ((0.04045 + 0.055) / 1.055 : ℝ) ^ (2.4 : ℝ) ≤ ((t + 0.055) / 1.055) ^ (2.4 : ℝ) :=
      d_mono (by norm_num) (div_le_div_of_nonneg_right (by linarith) (by norm_num))
    have c : s / 12.92 ≤ (0.04045 / 12.92 : ℝ) := div_le_div_of_nonneg_right h1 (by norm_num)
    linarith
  · linarith
  · exact d_mono (div_nonneg (by linarith) (by norm_num)) (div_le_div_of_nonneg_right (by linarith) (by norm_num))

private theorem enc_mono {x y : ℝ} (h : x ≤ y) (hg : y ≤ 0.0031308 ∨ 0.0031308 < x ∨ 0.0031309 ≤ y) :
    srgbEnc x ≤ srgbEnc y := by
  unfold srgbEnc
  split_ifs with h1 h2 h2
  · linarith
  · have h3 : (0.0031309 : ℝ) ≤ y := by rcases hg with g | g | g <;> linarith
    have a := enc_join
    have b := e_mono (by norm_num) h3
    rw [div_lt_iff₀ (by norm_num)] at a
    nlinarith
  · linarith
  · have := e_mono (by linarith : 0 ≤ x) h
    linarith

private theorem dec_zero : srgbDec 0 = 0 := by norm_num [srgbDec]
private theorem dec_one : srgbDec 1 = 1 := by
  unfold srgbDec; rw [if_neg (by norm_num)]; norm_num
private theorem enc_zero : srgbEnc 0 = 0 := by norm_num [srgbEnc]
private theorem enc_one : srgbEnc 1 = 1 := by
  unfold srgbEnc; rw [if_neg (by norm_num)]; norm_num

/-- C64: 0 and 1 are kept by both functions, and `srgbToRgb` is monotone in every channel (for all colors, not
only those in [0,1]); on [0,1] both functions stay in [0,1]. -/
theorem srgb_range_mono :
    (rgbToSrgb ⟨0, 0, 0, 0⟩ = (⟨0, 0, 0, 0⟩ : V4 ℝ) ∧ rgbToSrgb ⟨1, 1, 1, 1⟩ = (⟨1, 1, 1, 1⟩ : V4 ℝ)) ∧
    (srgbToRgb ⟨0, 0, 0, 0⟩ = (⟨0, 0, 0, 0⟩ : V4 ℝ) ∧ srgbToRgb ⟨1, 1, 1, 1⟩ = (⟨1, 1, 1, 1⟩ : V4 ℝ)) ∧
    (∀ v u : V4 ℝ, v.x ≤ u.x → (srgbToRgb v).x ≤ (srgbToRgb u).x) ∧
    (∀ v u : V4 ℝ, v.y ≤ u.y → (srgbToRgb v).y ≤ (srgbToRgb u).y) ∧
    (∀ v u : V4 ℝ, v.z ≤ u.z → (srgbToRgb v).z ≤ (srgbToRgb u).z) ∧
    (∀ v : V4 ℝ, 0 ≤ v.x → v.x ≤ 1 → (0 ≤ (rgbToSrgb v).x ∧ (rgbToSrgb v).x ≤ 1) ∧
      0 ≤ (srgbToRgb v).x ∧ (srgbToRgb v).x ≤ 1) := by
  simp only [srgb_channels, dec_zero, dec_one, enc_zero, enc_one, true_and]
  refine ⟨fun _ _ h => dec_mono h, fun _ _ h => dec_mono h, fun _ _ h => dec_mono h, fun v h0 h1 => ⟨⟨?_, ?_⟩, ?_, ?_⟩⟩
  · rw [← enc_zero]
    by_cases h : v.x ≤ 0.0031308
    · exact enc_mono h0 (Or.inl h)
    · rw [enc_zero]
      have a : (12.92 * 0.0031308 + 0.055 - 1e-6 : ℝ) / 1.055 < (0.0031308 : ℝ) ^ ((1 : ℝ) / 2.4) :=
        lt_e (by norm_num) (by norm_num)
      have b := e_mono (by norm_num) (le_of_lt (not_le.1 h))
      rw [div_lt_iff₀ (by norm_num)] at a
      unfold srgbEnc; rw [if_neg h]; nlinarith
  · rw [← enc_one]; exact enc_mono h1 (Or.inr (Or.inr (by norm_num)))
  · rw [← dec_zero]; exact dec_mono h0
  · rw [← dec_one]; exact dec_mono h1

/-- C64, the code violates monotonicity: `rgbToSrgb` is not monotone at the published threshold. The two linear
values 0.0031308 and 0.003130801 (both in [0,1]) are mapped in the opposite order. -/
theorem srgb_not_monotone :
    ¬ ∀ v u : V4 ℝ, 0 ≤ v.x → v.x ≤ u.x → u.x ≤ 1 → (rgbToSrgb v).x ≤ (rgbToSrgb u).x := by
  intro h
  have := h ⟨0.0031308, 0, 0, 0⟩ ⟨0.003130801, 0, 0, 0⟩ (by norm_num) (by norm_num) (by norm_num)
  simp only [srgb_channels] at this
  unfold srgbEnc at this
  rw [if_pos (le_refl _), if_neg (by norm_num)] at this
  have d := enc_dip
  rw [lt_div_iff₀ (by norm_num)] at d
  linarith

/-- C64, partial: `rgbToSrgb` is monotone in every channel for all pairs except those with the smaller value at or
below the threshold 0.0031308 and the larger one in the gap up to 0.0031309. What is missing: monotonicity inside
that gap, which is false (`srgb_not_monotone`). -/
theorem srgb_monotone_partial (v u : V4 ℝ) :
    (v.x ≤ u.x → (u.x ≤ 0.0031308 ∨ 0.0031308 < v.x ∨ 0.0031309 ≤ u.x) → (rgbToSrgb v).x ≤ (rgbToSrgb u).x) ∧
    (v.y ≤ u.y → (u.y ≤ 0.0031308 ∨ 0.0031308 < v.y ∨ 0.0031309 ≤ u.y) → (rgbToSrgb v).y ≤ (rgbToSrgb u).y) ∧
    (v.z ≤ u.z → (u.z ≤ 0.0031308 ∨ 0.0031308 < v.z ∨ 0.0031309 ≤ u.z) → (rgbToSrgb v).z ≤ (rgbToSrgb u).z) := by
  simp only [srgb_channels]
  exact ⟨enc_mono, enc_mono, enc_mono⟩

private theorem dec_enc {x : ℝ} (hg : x ≤ 0.0031308 ∨ 0.0031309 ≤ x) : srgbDec (srgbEnc x) = x := by
  unfold srgbEnc
  split_ifs with h
  · unfold srgbDec; rw [if_pos (by linarith)]; ring
  · have h3 : (0.0031309 : ℝ) ≤ x := by rcases hg with g | g <;> linarith
    have a := enc_join
    have b := e_mono (by norm_num) h3
    rw [div_lt_iff₀ (by norm_num)] at a
    unfold srgbDec
    rw [if_neg (by rw [not_le]; nlinarith)]
    rw [show (1.055 * x ^ ((1 : ℝ) / 2.4) - 0.055 + 0.055) / 1.055 = x ^ ((1 : ℝ) / 2.4) by ring,
      ← Real.rpow_mul (by linarith)]
    norm_num

private theorem enc_dec {s : ℝ} (hg : s ≤ 0.040449936 ∨ 0.04045 < s) : srgbEnc (srgbDec s) = s := by
  unfold srgbDec
  split_ifs with h
  · have h3 : s ≤ 0.040449936 := by rcases hg with g | g <;> linarith
    unfold srgbEnc
    rw [if_pos (by rw [div_le_iff₀ (by norm_num)]; linarith)]; ring
  · have h0 : 0 ≤ (s + 0.055) / 1.055 := div_nonneg (by linarith) (by norm_num)
    have a := dec_join'
    have b : ((0.04045 + 0.055) / 1.055 : ℝ) ^ (2.4 : ℝ) ≤ ((s + 0.055) / 1.055) ^ (2.4 : ℝ) :=
      d_mono (by norm_num) (div_le_div_of_nonneg_right (by linarith) (by norm_num))
    unfold srgbEnc
    rw [if_neg (by linarith), ← Real.rpow_mul h0]
    norm_num
    ring

/-- C64: the two functions undo each other away from the gap between the published thresholds: decoding an
encoded color returns it when no channel is in (0.0031308, 0.0031309), and encoding a decoded color returns it
when no channel is in (0.040449936, 0.04045]. -/
theorem srgb_inverse (v : V4 ℝ) :
    ((v.x ≤ 0.0031308 ∨ 0.0031309 ≤ v.x) → (v.y ≤ 0.0031308 ∨ 0.0031309 ≤ v.y) →
      (v.z ≤ 0.0031308 ∨ 0.0031309 ≤ v.z) → srgbToRgb (rgbToSrgb v) = v) ∧
    ((v.x ≤ 0.040449936 ∨ 0.04045 < v.x) → (v.y ≤ 0.040449936 ∨ 0.04045 < v.y) →
      (v.z ≤ 0.040449936 ∨ 0.04045 < v.z) → rgbToSrgb (srgbToRgb v) = v) := by
  constructor
  · intro h1 h2 h3
    simp only [srgb_channels, dec_enc h1, dec_enc h2, dec_enc h3]
  · intro h1 h2 h3
    simp only [srgb_channels, enc_dec h1, enc_dec h2, enc_dec h3]

/-- Concrete case: a mid grey with alpha one half, on the bright branch, and a near black on the dark one. -/
example : srgbToRgb (rgbToSrgb ⟨0.5, 0.25, 0.001, 0.5⟩) = (⟨0.5, 0.25, 0.001, 0.5⟩ : V4 ℝ) :=
  (srgb_inverse _).1 (by norm_num) (by norm_num) (by norm_num)

/-! ## XYZ and Yxy -/

/-- C65: the two Yxy conversions undo each other where chromaticity is defined: for XYZ colors with non-zero
component sum and luminance, and for Yxy colors with non-zero luminance and non-zero `y`. -/
theorem yxy_xyz_inverse :
    (∀ v : V4 ℝ, v.x + v.y + v.z ≠ 0 → v.y ≠ 0 → (yxyToXyz (xyzToYxy v)).xyz = v.xyz) ∧
    (∀ v : V4 ℝ, v.x ≠ 0 → v.z ≠ 0 → (xyzToYxy (yxyToXyz v)).xyz = v.xyz) := by
  constructor
  · rintro ⟨x, y, z, w⟩ h1 h2
    simp only at h1 h2
    simp only [vec, V3.mk.injEq, Rat.cast_zero, Rat.cast_one, mul_one, add_zero]
    refine ⟨?_, trivial, ?_⟩ <;> field_simp
    ring
  · rintro ⟨Y, x, y, w⟩ h1 h2
    simp only at h1 h2
    simp only [vec, V3.mk.injEq, Rat.cast_zero, Rat.cast_one, mul_one, add_zero]
    have e : Y * x / y + Y + Y * (1 - x - y) / y = Y / y := by field_simp; ring
    rw [e]
    refine ⟨trivial, ?_, ?_⟩ <;> field_simp

/-- C65: `xyzToYxy` returns the luminance and the first two chromaticity coordinates. -/
theorem xyzToYxy_chromaticity (v : V4 ℝ) :
    (xyzToYxy v).x = v.y ∧ (xyzToYxy v).y = v.x / (v.x + v.y + v.z) ∧
    (xyzToYxy v).z = v.y / (v.x + v.y + v.z) := by
  simp only [vec, Rat.cast_zero, Rat.cast_one, mul_one, add_zero, add_assoc, true_and]
  constructor <;> ring

/-- C65, what the code computes: the product with the transposed matrix. Each output channel is a column of the
published matrix applied to the color. -/
theorem rgbToXyz_transposed (v : V4 ℝ) :
    rgbToXyz v = V4.ofV3
      ⟨0.4124564 * v.x + 0.2126729 * v.y + 0.0193339 * v.z,
       0.3575761 * v.x + 0.7151522 * v.y + 0.1191920 * v.z,
       0.1804375 * v.x + 0.0721750 * v.y + 0.9503041 * v.z⟩ := by
  simp only [vec, V4.mk.injEq]
  push_cast
  refine ⟨?_, ?_, ?_, ?_⟩ <;> ring

/-- C65, the code violates the claim: white is not mapped to the D65 white point, and the second output is not the
relative luminance: it is more than 0.19 away for white. -/
theorem rgbToXyz_wrong :
    (rgbToXyz ⟨1, 1, 1, 1⟩ : V4 ℝ).x = 0.6444632 ∧ cieX 1 1 1 = 0.95047 ∧
    (rgbToXyz ⟨1, 1, 1, 1⟩ : V4 ℝ).y - cieY 1 1 1 > 0.19 ∧
    ¬ ∀ r g b : ℝ, (rgbToXyz ⟨r, g, b, 1⟩).y = cieY r g b := by
  refine ⟨?_, ?_, ?_, ?_⟩
  · rw [rgbToXyz_transposed]; norm_num [vec]
  · norm_num [cieX]
  · rw [rgbToXyz_transposed]; norm_num [vec, cieY]
  · intro h
    have := h 1 0 0
    rw [rgbToXyz_transposed] at this
    norm_num [vec, cieY] at this

/-- C65, partial: the two matrix conversions undo each other to within 1e-6 of the largest channel, in both orders.
What is missing: that the intermediate values are CIE XYZ, which is false (`rgbToXyz_wrong`). -/
theorem rgb_xyz_inverse_partial (v : V4 ℝ) (B : ℝ) (hx : |v.x| ≤ B) (hy : |v.y| ≤ B) (hz : |v.z| ≤ B) :
    (|(xyzToRgb (rgbToXyz v)).x - v.x| ≤ 1e-6 * B ∧ |(xyzToRgb (rgbToXyz v)).y - v.y| ≤ 1e-6 * B ∧
      |(xyzToRgb (rgbToXyz v)).z - v.z| ≤ 1e-6 * B) ∧
    (|(rgbToXyz (xyzToRgb v)).x - v.x| ≤ 1e-6 * B ∧ |(rgbToXyz (xyzToRgb v)).y - v.y| ≤ 1e-6 * B ∧
      |(rgbToXyz (xyzToRgb v)).z - v.z| ≤ 1e-6 * B) := by
  rw [abs_le] at hx hy hz
  obtain ⟨x1, x2⟩ := hx
  obtain ⟨y1, y2⟩ := hy
  obtain ⟨z1, z2⟩ := hz
  simp only [vec]
  push_cast
  simp only [abs_le]
  norm_num
  refine ⟨⟨⟨?_, ?_⟩, ⟨?_, ?_⟩, ?_, ?_⟩, ⟨?_, ?_⟩, ⟨?_, ?_⟩, ?_, ?_⟩ <;> linarith

/-- Concrete case: the color (0.2, 0.5, 0.1). -/
example : (yxyToXyz (xyzToYxy ⟨0.2, 0.5, 0.1, 0⟩) : V4 ℝ).xyz = ⟨0.2, 0.5, 0.1⟩ :=
  yxy_xyz_inverse.1 _ (by norm_num) (by norm_num)

end Verif
