import Verif.Props.SrgbF32

/-!
# C142: linear values through sRGB and back in binary32
-/

namespace Verif
open F32 Flt Spec ColorLinear

namespace SrgbP
variable [FltT F32]

omit [FltT F32] in
theorem dec_ends : ((0.0954475 : ℝ) / 1.055) ^ (2.4 : ℝ) ≥ 0.0031306 ∧ ((0.09545 : ℝ) / 1.055) ^ (2.4 : ℝ) ≤ 0.00313083 := by
  have e : ∀ b : ℝ, 0 ≤ b → (b ^ (2.4 : ℝ)) ^ 5 = b ^ 12 := by
    intro b hb
    rw [← Real.rpow_natCast, ← Real.rpow_mul hb, show (2.4 : ℝ) * ((5 : ℕ) : ℝ) = ((12 : ℕ) : ℝ) by norm_num, Real.rpow_natCast]
  constructor
  · by_contra hc
    have := pow_lt_pow_left₀ (not_le.1 hc) (Real.rpow_nonneg (by norm_num) _) (n := 5) (by norm_num)
    rw [e _ (by norm_num)] at this
    norm_num at this
  · by_contra hc
    have := pow_lt_pow_left₀ (not_le.1 hc) (by norm_num) (n := 5) (by norm_num)
    rw [e _ (by norm_num)] at this
    norm_num at this

omit [FltT F32] in
theorem root_low {x : ℝ} (h : 0.0031308 ≤ x) : 0.090473 ≤ x ^ ((1 : ℝ) / 2.4) := by
  have x0 : 0 ≤ x := by norm_num at *; linarith
  by_contra hc
  have p0 := Real.rpow_nonneg x0 ((1 : ℝ) / 2.4)
  have := pow_lt_pow_left₀ (not_le.1 hc) p0 (n := 12) (by norm_num)
  rw [← Real.rpow_natCast, ← Real.rpow_mul x0, show (1 : ℝ) / 2.4 * ((12 : ℕ) : ℝ) = ((5 : ℕ) : ℝ) by norm_num, Real.rpow_natCast] at this
  have l := pow_le_pow_left₀ (by norm_num) h 5
  norm_num at *; linarith

omit [FltT F32] in
/-- The exact decoding of a slightly wrong encoded value. -/
theorem forth_near {x s : ℝ} (h0 : 0.0031308 ≤ x) (h1 : x ≤ 1) (hs : |s - (1.055 * x ^ ((1 : ℝ) / 2.4) - 0.055)| ≤ 3 / 2 ^ 21) :
    |srgbDec s - x| ≤ 6.9 / 2 ^ 21 ∧ |srgbDec s - x| ≤ 224 / 2 ^ 21 * x ∧ 0.0404 ≤ s ∧ s ≤ 1.001 := by
  have x0 : 0 < x := by norm_num at *; linarith
  have r0 := root_low h0
  have r1 : x ^ ((1 : ℝ) / 2.4) ≤ 1 := Real.rpow_le_one x0.le h1 (by norm_num)
  have e : (x ^ ((1 : ℝ) / 2.4)) ^ (2.4 : ℝ) = x := by rw [← Real.rpow_mul x0.le]; norm_num
  have xr : x ≤ x ^ ((1 : ℝ) / 2.4) := by
    conv_lhs => rw [← Real.rpow_one x]
    exact Real.rpow_le_rpow_of_exponent_ge x0 h1 (by norm_num)
  generalize x ^ ((1 : ℝ) / 2.4) = b0 at *
  have hs' := abs_le.1 hs
  have b0p : 0 < b0 := by norm_num at *; linarith
  have k := power_near (r := ((s + 0.055) / 1.055) ^ (2.4 : ℝ)) (b := (s + 0.055) / 1.055) (b0 := b0) (E := 2.4) (E0 := 2.4)
    (B := 3 / 2 ^ 21 / 1.055 / b0) (A := 0) (L := |Real.log b0|) (C := 0) (m := 2.4) b0p
    (by rw [div_mul_cancel₀ _ b0p.ne', abs_le]; norm_num at *; constructor <;> linarith)
    (by rw [div_le_iff₀ b0p]; norm_num at *; linarith) (by simp) le_rfl (by norm_num [abs_of_nonneg]) (by norm_num) (by simp) (by norm_num) (by norm_num)
  rw [e] at k
  have q1 : x / b0 ≤ 1 := by rw [div_le_one b0p]; exact xr
  have q2 : 1 / b0 ≤ 11.06 := by rw [div_le_iff₀ b0p]; norm_num at *; linarith
  have k1 : |((s + 0.055) / 1.055) ^ (2.4 : ℝ) - x| ≤ 6.85 / 2 ^ 21 * (x / b0) := by
    refine k.trans ?_
    have : 1.001 * (1.001 * 2.4 * (3 / 2 ^ 21 / 1.055 / b0) + 0 * |Real.log b0| + 1.001 * 0) * x =
        1.001 * (1.001 * 2.4 * (3 / 2 ^ 21 / 1.055)) * (x / b0) := by field_simp; ring
    rw [this]
    refine mul_le_mul_of_nonneg_right (by norm_num) (by positivity)
  have k2 : x / b0 ≤ 11.06 * x := by
    have := mul_le_mul_of_nonneg_left q2 x0.le
    rw [mul_one_div] at this; linarith
  have s0 : 0.0404 ≤ s := by norm_num at *; linarith
  have s1 : s ≤ 1.001 := by norm_num at *; linarith
  have k3 := abs_le.1 k1
  unfold srgbDec
  by_cases h : s ≤ 0.04045
  · rw [if_pos h]
    obtain ⟨d1, d2⟩ := dec_ends
    have s2 : 0.0404475 ≤ s := by norm_num at *; linarith
    have m1 : ((0.0954475 : ℝ) / 1.055) ^ (2.4 : ℝ) ≤ ((s + 0.055) / 1.055) ^ (2.4 : ℝ) :=
      Real.rpow_le_rpow (by norm_num) (by norm_num at *; linarith) (by norm_num)
    have m2 : ((s + 0.055) / 1.055) ^ (2.4 : ℝ) ≤ ((0.09545 : ℝ) / 1.055) ^ (2.4 : ℝ) :=
      Real.rpow_le_rpow (by norm_num at *; linarith) (by norm_num at *; linarith) (by norm_num)
    clear k e r0 r1
    generalize ((s + 0.055) / 1.055) ^ (2.4 : ℝ) = P at *
    generalize ((0.0954475 : ℝ) / 1.055) ^ (2.4 : ℝ) = P1 at *
    generalize ((0.09545 : ℝ) / 1.055) ^ (2.4 : ℝ) = P2 at *
    have x1 : x ≤ 0.00314 := by norm_num at *; linarith
    generalize x / b0 = y at *
    refine ⟨?_, ?_, s0, s1⟩ <;> rw [abs_le] <;> norm_num at * <;> constructor <;> linarith
  · rw [if_neg h]
    refine ⟨k1.trans ?_, k1.trans ?_, s0, s1⟩
    · norm_num at *; linarith
    · norm_num at *; linarith

theorem enc_small (t : FTarget) {v : F32} (fv : v.isFinite = true) (h0 : 0 ≤ v.val) (h : v.val ≤ (lit 0.0031308 : F32).val) :
    Approx (enc t v) (12.92 * v.val) (15 / 2 ^ 24 * v.val + 1 / 2 ^ 150) := by
  obtain ⟨⟨kf, k1⟩, k2⟩ := k_lo
  have k3 := abs_le.1 k1
  have br : (v <=. (lit 0.0031308 : F32)) = true := by
    rw [show ((v <=. (lit 0.0031308 : F32)) = true ↔ v.toRat ≤ (lit 0.0031308 : F32).toRat) from leb_finite fv kf]
    unfold val at h; exact_mod_cast h
  unfold enc
  rw [if_pos br]
  generalize (lit 0.0031308 : F32) = c at *
  have m := (Approx.self fv).mul k_1292 v.val 12.92 (by rw [abs_of_nonneg h0]) (by norm_num [abs_of_nonneg]) (by norm_num at *; linarith)
  refine (m.mono ?_).of_eq (by ring)
  unfold ulp; norm_num at *; linarith

theorem forth_back (hp : PowAccurate FltT.pow) (t : FTarget) {v : F32} (fv : v.isFinite = true) (h0 : 0 ≤ v.val) (h1 : v.val ≤ 1) :
    Near (dec (enc t v)) v.val (min (11 / 2 ^ 21) (v.val / 2 ^ 13 + 1 / 2 ^ 149)) := by
  obtain ⟨⟨kf, k1⟩, k2⟩ := k_lo
  have k3 := abs_le.1 k1
  by_cases h : v.val ≤ (lit 0.0031308 : F32).val
  · have a := enc_small t fv h0 h
    have a2 := abs_le.1 a.2
    generalize (lit 0.0031308 : F32) = c at *
    have br := branch_hi a.1
    unfold dec
    rw [if_pos (br.2 (by norm_num at *; linarith))]
    generalize enc t v = s at *
    have m := a.mul k_inv1292 (12.92 * v.val) 0.0774 (by rw [abs_of_nonneg (by positivity)]) (by norm_num [abs_of_nonneg]) (by norm_num at *; linarith)
    refine Approx.mono (m.of_eq (y := v.val) (by ring)) (le_min ?_ ?_)
    · unfold ulp; norm_num at *; linarith
    · unfold ulp; norm_num at *; linarith
  · have q := enc_near hp t fv (nn h0) (nl h1)
    have h2 : 0.0031308 < v.val := k2.trans_lt (not_le.1 h)
    unfold srgbEnc at q
    rw [if_neg (not_le.2 h2)] at q
    obtain ⟨f1, f2, f3, f4⟩ := forth_near h2.le h1 q.2
    change 0.0404 ≤ F32.val _ at f3
    change F32.val _ ≤ 1.001 at f4
    have d := dec_near hp q.1 (by norm_num at *; linarith) f4
    refine ⟨d.1, ?_⟩
    have d2 := abs_le.1 d.2
    change -_ ≤ F32.val _ - _ ∧ F32.val _ - _ ≤ _ at d2
    change |srgbDec (F32.val _) - _| ≤ _ at f1
    change |srgbDec (F32.val _) - _| ≤ _ at f2
    change |F32.val _ - _| ≤ _
    have f1' := abs_le.1 f1
    have f2' := abs_le.1 f2
    clear q f1 f2 h d
    generalize srgbDec (enc t v).val = D at *
    generalize (dec (enc t v)).val = R at *
    refine le_min ?_ ?_ <;> rw [abs_le] <;> norm_num at * <;> constructor <;> linarith

end SrgbP

/-- C142: linear channels in the unit interval encoded to sRGB and decoded again: within `11 / 2^21`, and dark channels
keep one part in 2^13 (plus `1 / 2^149`); alpha is kept. -/
theorem linear_roundtrip_f32 (T : FltT F32) (hp : PowAccurate T.pow) (t : FTarget) (v : V4 F32)
    (h : ∀ c ∈ [v.x, v.y, v.z], c.isFinite = true ∧ 0 ≤ rv c ∧ rv c ≤ 1) :
    Near (ColorSpace.srgbToRgb (Color.rgbToSrgb32 t v)).x (rv v.x) (min (11 / 2 ^ 21) (rv v.x / 2 ^ 13 + 1 / 2 ^ 149)) ∧
    Near (ColorSpace.srgbToRgb (Color.rgbToSrgb32 t v)).y (rv v.y) (min (11 / 2 ^ 21) (rv v.y / 2 ^ 13 + 1 / 2 ^ 149)) ∧
    Near (ColorSpace.srgbToRgb (Color.rgbToSrgb32 t v)).z (rv v.z) (min (11 / 2 ^ 21) (rv v.z / 2 ^ 13 + 1 / 2 ^ 149)) ∧
    (ColorSpace.srgbToRgb (Color.rgbToSrgb32 t v)).w = v.w := by
  rw [SrgbP.enc_eq, SrgbP.dec_eq]
  obtain ⟨x1, x2, x3⟩ := h v.x (by simp)
  obtain ⟨y1, y2, y3⟩ := h v.y (by simp)
  obtain ⟨z1, z2, z3⟩ := h v.z (by simp)
  exact ⟨SrgbP.forth_back hp t x1 x2 x3, SrgbP.forth_back hp t y1 y2 y3, SrgbP.forth_back hp t z1 z2 z3, rfl⟩

/-- Non-vacuity: a full, a middle and a full channel with a library function that meets the assumption. -/
example : ∃ T : FltT F32, PowAccurate T.pow ∧ ∀ t, Near (ColorSpace.srgbToRgb (Color.rgbToSrgb32 t (⟨lit 1, lit (1 / 2), lit 1, lit 2⟩ : V4 F32))).y
    (1 / 2) (11 / 2 ^ 21) := by
  obtain ⟨p, hp⟩ := powAccurate_exists
  have e1 : rv (lit (1 / 2) : F32) = 1 / 2 := SrgbP.half_l.2
  have e2 : rv (lit 1 : F32) = 1 := SrgbP.one_l.2
  refine ⟨⟨p, id, id, id, id, id, id, id, fun x _ => x, fun x _ => x, id, fun _ => false⟩, hp, fun t => ?_⟩
  have := (linear_roundtrip_f32 ⟨p, id, id, id, id, id, id, id, fun x _ => x, fun x _ => x, id, fun _ => false⟩ hp t ⟨lit 1, lit (1 / 2), lit 1, lit 2⟩ (by
    intro c hc
    simp only [List.mem_cons, List.not_mem_nil, or_false] at hc
    rcases hc with rfl | rfl | rfl
    · exact ⟨SrgbP.one_l.1, by rw [e2]; norm_num, by rw [e2]⟩
    · exact ⟨SrgbP.half_l.1, by rw [e1]; norm_num, by rw [e1]; norm_num⟩
    · exact ⟨SrgbP.one_l.1, by rw [e2]; norm_num, by rw [e2]⟩)).2.1
  dsimp only at this
  rw [e1] at this
  exact Approx.mono this (min_le_left _ _)

end Verif
