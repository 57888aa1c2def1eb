import Verif.Props.ColorLinear
import Verif.Props.SmoothF32
import Verif.Spec.GainF32

/-!
# C142: sRGB and gain in binary32
-/

namespace Verif
open F32 Flt Spec ColorLinear

namespace SrgbP

theorem k_inv1292 : Approx (lit 1 /. lit 12.92 : F32) (1 / 12.92) (1 / 2 ^ 31) := by
  have := const_approx (r := (lit 1 /. lit 12.92 : F32)) (q := 1 / 12.92) (e := 1 / 2 ^ 31) (by decide +kernel)
  push_cast at this; exact this
theorem k_1292 : Approx (lit 12.92 : F32) 12.92 (1 / 2 ^ 23) := by
  have := const_approx (r := (lit 12.92 : F32)) (q := 12.92) (e := 1 / 2 ^ 23) (by decide +kernel)
  push_cast at this; exact this
theorem k_055 : Approx (lit 0.055 : F32) 0.055 (1 / 2 ^ 31) := by
  have := const_approx (r := (lit 0.055 : F32)) (q := 0.055) (e := 1 / 2 ^ 31) (by decide +kernel)
  push_cast at this; exact this
theorem k_m055 : Approx (lit (-0.055) : F32) (-0.055) (1 / 2 ^ 31) := by
  have := const_approx (r := (lit (-0.055) : F32)) (q := -0.055) (e := 1 / 2 ^ 31) (by decide +kernel)
  push_cast at this; exact this
theorem k_1055 : Approx (lit 1.055 : F32) 1.055 (1 / 2 ^ 24) := by
  have := const_approx (r := (lit 1.055 : F32)) (q := 1.055) (e := 1 / 2 ^ 24) (by decide +kernel)
  push_cast at this; exact this
theorem k_inv1055 : Approx (lit 1 /. lit 1.055 : F32) (1 / 1.055) (0.6 / 2 ^ 24) := by
  have := const_approx (r := (lit 1 /. lit 1.055 : F32)) (q := 1 / 1.055) (e := 0.6 / 2 ^ 24) (by decide +kernel)
  push_cast at this; exact this
theorem k_24 : Approx (lit 2.4 : F32) 2.4 (1.7 / 2 ^ 24) := by
  have := const_approx (r := (lit 2.4 : F32)) (q := 2.4) (e := 1.7 / 2 ^ 24) (by decide +kernel)
  push_cast at this; exact this
theorem k_inv24 : Approx (lit 1 /. lit 2.4 : F32) (1 / 2.4) (0.2 / 2 ^ 24) := by
  have := const_approx (r := (lit 1 /. lit 2.4 : F32)) (q := 1 / 2.4) (e := 0.2 / 2 ^ 24) (by decide +kernel)
  push_cast at this; exact this
theorem k_lo : Approx (lit 0.0031308 : F32) 0.0031308 (1 / 2 ^ 33) ∧ 0.0031308 ≤ (lit 0.0031308 : F32).val := by
  have := const_approx (r := (lit 0.0031308 : F32)) (q := 0.0031308) (e := 1 / 2 ^ 33) (by decide +kernel)
  push_cast at this
  refine ⟨this, ?_⟩
  have h : (0.0031308 : Rat) ≤ (lit 0.0031308 : F32).toRat := by decide +kernel
  have : ((0.0031308 : Rat) : ℝ) ≤ (((lit 0.0031308 : F32).toRat : Rat) : ℝ) := by exact_mod_cast h
  push_cast at this
  exact this
theorem k_hi : Approx (lit 0.04045 : F32) 0.04045 (1 / 2 ^ 30) ∧ (lit 0.04045 : F32).val ≤ 0.04045 := by
  have := const_approx (r := (lit 0.04045 : F32)) (q := 0.04045) (e := 1 / 2 ^ 30) (by decide +kernel)
  push_cast at this
  refine ⟨this, ?_⟩
  have h : (lit 0.04045 : F32).toRat ≤ (0.04045 : Rat) := by decide +kernel
  have : (((lit 0.04045 : F32).toRat : Rat) : ℝ) ≤ ((0.04045 : Rat) : ℝ) := by exact_mod_cast h
  push_cast at this
  exact this

/-- A literal is the nearest float. -/
theorem lit_nearest (q : Rat) (h : |(q : ℝ)| < 2 ^ 127) : (lit q : F32).IsNearest (q : ℝ) := by
  have hd : 0 < q.den := q.den_pos
  have hk : (ofRat q).key = (roundUnits (q.num * 2 ^ 149) q.den).key := rfl
  have := nearest_of_key hd hk (by rw [quo_ofRat]; exact rat_le_max le_rfl h)
  rwa [quo_ofRat] at this

/-- The decoding branch is the one of the standard for every float. -/
theorem branch_hi {v : F32} (fv : v.isFinite = true) : (v <=. (lit 0.04045 : F32)) = true ↔ v.val ≤ 0.04045 := by
  have n := lit_nearest 0.04045 (by norm_num [abs_lt])
  have k := k_hi
  push_cast at n
  have n2 := n.2 v fv
  change |(lit 0.04045 : F32).val - 0.04045| ≤ |v.val - 0.04045| at n2
  generalize (lit 0.04045 : F32) = c at *
  rw [show ((v <=. c) = true ↔ v.toRat ≤ c.toRat) from leb_finite fv k.1.1]
  have e : v.toRat ≤ c.toRat ↔ v.val ≤ c.val := by unfold val; exact_mod_cast Iff.rfl
  rw [e]
  constructor
  · intro h; exact h.trans k.2
  · intro h
    rw [abs_of_nonpos (by linarith [k.2]), abs_of_nonpos (by linarith)] at n2
    linarith

/-- The logarithm near one. -/
theorem log_near {d e : ℝ} (h : |d| ≤ e) (he : e ≤ 1 / 2 ^ 12) : |Real.log (1 + d)| ≤ 1.001 * e := by
  have hd := abs_le.1 h
  norm_num at he
  have h0 : 0 < 1 + d := by linarith
  have a := Real.log_le_sub_one_of_pos h0
  have c := Real.one_sub_inv_le_log_of_pos h0
  have f : (1 + d)⁻¹ ≤ 1 + 1.001 * e := by
    rw [inv_le_iff_one_le_mul₀ h0]; norm_num; nlinarith
  rw [abs_le]; norm_num at *; constructor <;> linarith

/-- A power with errors in the base, the exponent and the result. -/
theorem power_near {r b b0 E E0 L A B C m : ℝ} (b0p : 0 < b0) (hb : |b - b0| ≤ B * b0) (hB : B ≤ 1 / 2 ^ 13) (hE : |E - E0| ≤ A)
    (hL : |Real.log b0| ≤ L) (hEm : |E| ≤ m) (hm : m ≤ 2.5) (hr : |r - b ^ E| ≤ b ^ E * C) (hC : C ≤ 1 / 2 ^ 13) (hA : A * L ≤ 1 / 2 ^ 13) :
    |r - b0 ^ E0| ≤ 1.001 * (1.001 * m * B + A * L + 1.001 * C) * b0 ^ E0 := by
  have B0 : 0 ≤ B := by
    by_contra h
    have := mul_neg_of_neg_of_pos (not_le.1 h) b0p
    linarith [abs_nonneg (b - b0)]
  have A0 : 0 ≤ A := (abs_nonneg _).trans hE
  have L0 : 0 ≤ L := (abs_nonneg _).trans hL
  have m0 : 0 ≤ m := (abs_nonneg _).trans hEm
  have mB : m * B ≤ 2.5 * B := mul_le_mul_of_nonneg_right hm B0
  have hq : |b / b0 - 1| ≤ B := by
    rw [show b / b0 - 1 = (b - b0) / b0 by field_simp, abs_div, abs_of_pos b0p, div_le_iff₀ b0p]; exact hb
  have bp : 0 < b := by
    obtain ⟨h1, -⟩ := abs_le.1 hq
    have : 0 < b / b0 := by norm_num at hB; linarith
    by_contra hn
    exact absurd (div_nonpos_of_nonpos_of_nonneg (not_lt.1 hn) b0p.le) (not_le.2 this)
  have pp := Real.rpow_pos_of_pos bp E
  have p0 := Real.rpow_pos_of_pos b0p E0
  have hd : |r / b ^ E - 1| ≤ C := by
    rw [show r / b ^ E - 1 = (r - b ^ E) / b ^ E by field_simp, abs_div, abs_of_pos pp, div_le_iff₀ pp]; linarith
  have C0 : 0 ≤ C := (abs_nonneg _).trans hd
  have rp : 0 < 1 + (r / b ^ E - 1) := by
    obtain ⟨h1, -⟩ := abs_le.1 hd
    norm_num at hC; linarith
  have l1 : |Real.log b - Real.log b0| ≤ 1.001 * B := by
    rw [← Real.log_div bp.ne' b0p.ne', show b / b0 = 1 + (b / b0 - 1) by ring]
    exact log_near hq (hB.trans (by norm_num))
  have l3 := log_near hd (hC.trans (by norm_num))
  have e : r = b0 ^ E0 * Real.exp (E * (Real.log b - Real.log b0) + (E - E0) * Real.log b0 + Real.log (1 + (r / b ^ E - 1))) := by
    rw [Real.exp_add, Real.exp_log rp, Real.rpow_def_of_pos b0p, ← mul_assoc, ← Real.exp_add]
    rw [show Real.log b0 * E0 + (E * (Real.log b - Real.log b0) + (E - E0) * Real.log b0) = Real.log b * E by ring,
      ← Real.rpow_def_of_pos bp]
    field_simp; ring
  have b1 : |E * (Real.log b - Real.log b0)| ≤ m * (1.001 * B) := by
    rw [abs_mul]; exact mul_le_mul hEm l1 (abs_nonneg _) m0
  have b2 : |(E - E0) * Real.log b0| ≤ A * L := by
    rw [abs_mul]; exact mul_le_mul hE hL (abs_nonneg _) A0
  have b5 : |E * (Real.log b - Real.log b0) + (E - E0) * Real.log b0 + Real.log (1 + (r / b ^ E - 1))| ≤ 1.001 * m * B + A * L + 1.001 * C := by
    refine (abs_add_three _ _ _).trans ?_
    norm_num at *; linarith
  generalize E * (Real.log b - Real.log b0) + (E - E0) * Real.log b0 + Real.log (1 + (r / b ^ E - 1)) = x at *
  have K0 : 0 ≤ 1.001 * m * B + A * L + 1.001 * C := (abs_nonneg _).trans b5
  have K1 : 1.001 * m * B + A * L + 1.001 * C ≤ 1 / 1000 := by norm_num at *; linarith [mul_nonneg A0 L0]
  generalize 1.001 * m * B + A * L + 1.001 * C = K at *
  have b6 := Real.abs_exp_sub_one_sub_id_le (x := x) (b5.trans (by norm_num at *; linarith))
  have b7 : |Real.exp x - 1| ≤ 1.001 * K := by
    have := abs_add_le (Real.exp x - 1 - x) x
    rw [sub_add_cancel] at this
    have s : x ^ 2 ≤ K * K := by rw [← sq_abs]; nlinarith [abs_nonneg x]
    have : K * K ≤ 1 / 1000 * K := mul_le_mul_of_nonneg_right K1 K0
    norm_num at *; linarith
  rw [e, show b0 ^ E0 * Real.exp x - b0 ^ E0 = (Real.exp x - 1) * b0 ^ E0 by ring, abs_mul, abs_of_pos p0]
  exact mul_le_mul_of_nonneg_right b7 p0.le

theorem log_bound {b : ℝ} {n : ℕ} (hb : 0 < b) (h1 : b ≤ 1.1) (hn : 1 ≤ n) (hc : 2.7182 ^ n * b ^ 2 ≥ 1) : |Real.log b| ≤ n / 2 := by
  have a := Real.log_le_sub_one_of_pos hb
  have e1 : (2.7182 : ℝ) ^ n ≤ Real.exp n := by
    have := Real.exp_one_gt_d9
    rw [← Real.exp_one_pow]
    exact pow_le_pow_left₀ (by norm_num) (by norm_num at *; linarith) n
  have e2 : 1 ≤ Real.exp n * b ^ 2 := hc.le.trans (mul_le_mul_of_nonneg_right e1 (by positivity))
  have e3 := Real.log_nonneg e2
  rw [Real.log_mul (Real.exp_ne_zero _) (by positivity), Real.log_exp, Real.log_pow] at e3
  have n1 : (1 : ℝ) ≤ n := by exact_mod_cast hn
  rw [abs_le]; push_cast at e3
  constructor
  · linarith
  · norm_num at h1; linarith

section lanes
variable [FltT F32]

/-- One channel decoded. -/
def dec (s : F32) : F32 :=
  if s <=. (lit 0.04045 : F32) then s *. (lit 1 /. lit 12.92) else FltT.pow ((s +. lit 0.055) *. (lit 1 /. lit 1.055)) (lit 2.4)
/-- One channel encoded. -/
def enc (t : FTarget) (x : F32) : F32 :=
  if x <=. (lit 0.0031308 : F32) then x *. lit 12.92
  else F32x4.fma1 t (FltT.pow x (lit 1 /. lit 2.4)) (lit 1.055) (lit (-0.055))

private theorem top_mask (b : Bool) : top (mask b) = b := by cases b <;> rfl
private theorem sel_le (v c h l : V4 F32) : V4.select (V4.cmp Flt.le v c) h l =
    ⟨if v.x <=. c.x then h.x else l.x, if v.y <=. c.y then h.y else l.y, if v.z <=. c.z then h.z else l.z,
      if v.w <=. c.w then h.w else l.w⟩ := by
  simp only [V4.select, V4.cmp, V4.map2, top_mask]

theorem dec_eq (s : V4 F32) : ColorSpace.srgbToRgb s = ⟨dec s.x, dec s.y, dec s.z, s.w⟩ := by
  unfold ColorSpace.srgbToRgb
  simp only [sel_le]
  rfl
theorem enc_eq (t : FTarget) (v : V4 F32) : Color.rgbToSrgb32 t v = ⟨enc t v.x, enc t v.y, enc t v.z, v.w⟩ := by
  unfold Color.rgbToSrgb32
  simp only [sel_le]
  rfl

omit [FltT F32] in
theorem base_near {v : F32} (fv : v.isFinite = true) (h0 : 0.04 ≤ v.val) (h1 : v.val ≤ 1.001) :
    Approx ((v +. lit 0.055) *. (lit 1 /. lit 1.055)) ((v.val + 0.055) / 1.055) (2.8 / 2 ^ 24 * ((v.val + 0.055) / 1.055)) := by
  have s := (Approx.self fv).add k_055 (1.0001 * (v.val + 0.055)) (by rw [abs_of_nonneg (by norm_num; linarith)]; norm_num at *; linarith)
    (by norm_num; linarith)
  have s' := s.mono (e' := 1.1 / 2 ^ 24 * (v.val + 0.055)) (by unfold ulp; norm_num at *; linarith)
  have m := s'.mul k_inv1055 (v.val + 0.055) 0.948 (by rw [abs_of_nonneg (by norm_num; linarith)])
    (by norm_num [abs_of_nonneg]) (by norm_num; nlinarith)
  refine (m.mono ?_).of_eq (by ring)
  unfold ulp
  norm_num at *; linarith

theorem dec_near (hp : PowAccurate FltT.pow) {v : F32} (fv : v.isFinite = true) (h0 : 0 ≤ v.val) (h1 : v.val ≤ 1.001) :
    Near (dec v) (srgbDec v.val) (srgbDec v.val / 2 ^ 19 + 1 / 2 ^ 149) := by
  have br := branch_hi fv
  unfold dec srgbDec
  by_cases h : v.val ≤ 0.04045
  · rw [if_pos (br.2 h), if_pos h]
    have m := (Approx.self fv).mul k_inv1292 v.val 0.0774 (by rw [abs_of_nonneg h0]) (by norm_num [abs_of_nonneg]) (by norm_num; linarith)
    refine Approx.mono (m.of_eq (by ring)) ?_
    unfold ulp; norm_num at *; linarith
  · rw [if_neg (mt br.1 h), if_neg h]
    have b := base_near fv (by norm_num at *; linarith) h1
    have b2 := abs_le.1 b.2
    have e := k_24
    have e2 := abs_le.1 e.2
    have v0 : 0.04045 < v.val := not_le.1 h
    have hlog := log_bound (b := (v.val + 0.055) / 1.055) (n := 5) (by norm_num at *; linarith) (by norm_num at *; linarith) (by norm_num)
      (by norm_num at *; nlinarith)
    generalize (v +. lit 0.055) *. (lit 1 /. lit 1.055) = B at *
    generalize (lit 2.4 : F32) = E at *
    have pw := hp B E b.1 e.1 (by change _ ≤ F32.val _; norm_num at *; linarith) (by change F32.val _ ≤ _; norm_num at *; linarith)
      (by change _ ≤ F32.val _; norm_num at *; linarith) (by change F32.val _ ≤ _; norm_num at *; linarith)
    refine ⟨pw.1, ?_⟩
    have k := power_near (r := (FltT.pow B E).val) (b := B.val) (E := E.val) (by norm_num at *; linarith) b.2 (by norm_num) e.2 hlog
      (m := 2.5) (by rw [abs_le]; norm_num at *; constructor <;> linarith) le_rfl (C := 1 / 2 ^ 20) (pw.2.trans_eq (div_eq_mul_one_div _ _)) (by norm_num) (by norm_num)
    refine k.trans ?_
    have p0 := Real.rpow_nonneg (show 0 ≤ (v.val + 0.055) / 1.055 by norm_num at *; linarith) (2.4 : ℝ)
    generalize ((v.val + 0.055) / 1.055) ^ (2.4 : ℝ) = p at *
    norm_num at *; linarith

omit [FltT F32] in
theorem gap {x : ℝ} (h0 : 0.0031308 ≤ x) (h1 : x ≤ 0.003130812) :
    |1.055 * x ^ ((1 : ℝ) / 2.4) - 0.055 - 12.92 * x| ≤ 1 / 2 ^ 21 := by
  have x0 : 0 < x := by norm_num at *; linarith
  have p0 := Real.rpow_nonneg x0.le ((1 : ℝ) / 2.4)
  have e : (x ^ ((1 : ℝ) / 2.4)) ^ 12 = x ^ 5 := by
    rw [← Real.rpow_natCast, ← Real.rpow_mul x0.le, ← Real.rpow_natCast x 5]; norm_num
  have l := pow_le_pow_left₀ (by norm_num) h0 5
  have u := pow_le_pow_left₀ x0.le h1 5
  rw [← e] at l u
  have a : 0.0904738 ≤ x ^ ((1 : ℝ) / 2.4) := by
    by_contra hc
    have := pow_lt_pow_left₀ (not_le.1 hc) p0 (n := 12) (by norm_num)
    have := l.trans_lt this
    norm_num at this
  have c : x ^ ((1 : ℝ) / 2.4) ≤ 0.090474 := by
    by_contra hc
    have := pow_lt_pow_left₀ (not_le.1 hc) (by norm_num) (n := 12) (by norm_num)
    have := this.trans_le u
    norm_num at this
  rw [abs_le]; norm_num at *; constructor <;> linarith

omit [FltT F32] in
theorem nn {x : ℝ} (h : 0 ≤ x) : -(1 / 2 ^ 100) ≤ x := h.trans' (by norm_num)
omit [FltT F32] in
theorem nl {x : ℝ} (h : x ≤ 1) : x ≤ 1.001 := h.trans (by norm_num)

theorem enc_near (hp : PowAccurate FltT.pow) (t : FTarget) {v : F32} (fv : v.isFinite = true) (hm : -(1 / 2 ^ 100) ≤ v.val) (h1 : v.val ≤ 1.001) :
    Near (enc t v) (srgbEnc v.val) (3 / 2 ^ 21) := by
  obtain ⟨⟨kf, k1⟩, k2⟩ := k_lo
  have k3 := abs_le.1 k1
  unfold enc srgbEnc
  have br : (v <=. (lit 0.0031308 : F32)) = true ↔ v.val ≤ (lit 0.0031308 : F32).val := by
    rw [show ((v <=. (lit 0.0031308 : F32)) = true ↔ v.toRat ≤ (lit 0.0031308 : F32).toRat) from leb_finite fv kf]
    unfold val; exact_mod_cast Iff.rfl
  by_cases h : v.val ≤ (lit 0.0031308 : F32).val
  · rw [if_pos (br.2 h)]
    generalize (lit 0.0031308 : F32) = c at *
    have m := (Approx.self fv).mul k_1292 0.0032 12.92 (by rw [abs_le]; norm_num at *; constructor <;> linarith)
      (by norm_num [abs_of_nonneg]) (by norm_num)
    have m' := (m.mono (e' := 1 / 2 ^ 22) (by unfold ulp; norm_num)).of_eq (y := 12.92 * v.val) (by ring)
    by_cases g : v.val ≤ 0.0031308
    · rw [if_pos g]
      exact Approx.mono m' (by norm_num)
    · rw [if_neg g]
      refine ⟨m'.1, ?_⟩
      have g2 := abs_le.1 (gap (not_le.1 g).le (by norm_num at *; linarith))
      have m2 := abs_le.1 m'.2
      change |F32.val (fmul v (lit 12.92)) - _| ≤ _
      rw [abs_le]; norm_num at *; constructor <;> linarith
  · rw [if_neg (mt br.1 h)]
    have h2 : 0.0031308 < v.val := k2.trans_lt (not_le.1 h)
    rw [if_neg (not_le.2 h2)]
    have h0 : 0 ≤ v.val := by norm_num at *; linarith
    have e := k_inv24
    have e2 := abs_le.1 e.2
    generalize (lit 1 /. lit 2.4 : F32) = E at *
    have hlog := log_bound (b := v.val) (n := 12) (by norm_num at *; linarith) (by norm_num at *; linarith) (by norm_num)
      (by norm_num at *; nlinarith)
    have pw := hp v E fv e.1 (by change _ ≤ F32.val _; norm_num at *; linarith) (by change F32.val _ ≤ _; norm_num at *; linarith)
      (by change _ ≤ F32.val _; norm_num at *; linarith) (by change F32.val _ ≤ _; norm_num at *; linarith)
    have k := power_near (r := (FltT.pow v E).val) (b := v.val) (b0 := v.val) (E := E.val) (B := 0) (by norm_num at *; linarith)
      (by simp) (by norm_num) e.2 hlog
      (m := 2.5) (by rw [abs_le]; norm_num at *; constructor <;> linarith) le_rfl (C := 1 / 2 ^ 20) (pw.2.trans_eq (div_eq_mul_one_div _ _)) (by norm_num) (by norm_num)
    have p0 := Real.rpow_nonneg h0 ((1 : ℝ) / 2.4)
    have p1 : v.val ^ ((1 : ℝ) / 2.4) ≤ 1.001 := by
      refine (Real.rpow_le_rpow h0 h1 (by norm_num)).trans ?_
      conv_rhs => rw [← Real.rpow_one (1.001 : ℝ)]
      exact Real.rpow_le_rpow_of_exponent_le (by norm_num) (by norm_num)
    generalize v.val ^ ((1 : ℝ) / 2.4) = p at *
    have q : Approx (FltT.pow v E) p (17.4 / 2 ^ 24) := ⟨pw.1, k.trans (by norm_num at *; linarith)⟩
    have r := (q.fma t k_1055 k_m055 1.001 1.055 1.0562 1.01 (by rw [abs_of_nonneg p0]; exact p1) (by norm_num [abs_of_nonneg]) (by norm_num)
      (by
        have : |p * 1.055 + -0.055| ≤ 1.002 := by rw [abs_le]; norm_num at *; constructor <;> linarith
        unfold ulp; norm_num at *; linarith) (by norm_num) (by norm_num)).mono (e' := 3 / 2 ^ 21) (by unfold ulp; norm_num)
    exact r.of_eq (by ring)

omit [FltT F32] in
theorem dec_low : 0.00313080724 ≤ ((0.09545 : ℝ) / 1.055) ^ (2.4 : ℝ) := by
  by_contra hc
  have := pow_lt_pow_left₀ (not_le.1 hc) (Real.rpow_nonneg (by norm_num) _) (n := 5) (by norm_num)
  rw [← Real.rpow_natCast, ← Real.rpow_mul (by norm_num), show (2.4 : ℝ) * ((5 : ℕ) : ℝ) = ((12 : ℕ) : ℝ) by norm_num,
    Real.rpow_natCast] at this
  norm_num at this

/-- The exact encoding of a slightly wrong decoded value. -/
theorem back_near {v x : ℝ} (h0 : 0 ≤ v) (h1 : v ≤ 1) (hx : |x - srgbDec v| ≤ srgbDec v / 2 ^ 19 + 1 / 2 ^ 149) :
    |srgbEnc x - v| ≤ 16 / 2 ^ 24 := by
  have hx' := abs_le.1 hx
  unfold srgbDec at hx hx'
  unfold srgbEnc
  by_cases h : v ≤ 0.04045
  · rw [if_pos h] at hx hx'
    by_cases g : x ≤ 0.0031308
    · rw [if_pos g, abs_le]; norm_num at *; constructor <;> linarith
    · rw [if_neg g]
      have k := abs_le.1 (gap (not_le.1 g).le (by norm_num at *; linarith))
      rw [abs_le]
      generalize x ^ ((1 : ℝ) / 2.4) = p at *
      norm_num at *; constructor <;> linarith
  · rw [if_neg h] at hx hx'
    have b0 : 0 < (v + 0.055) / 1.055 := by norm_num at *; linarith
    have hD : 0.00313080724 ≤ ((v + 0.055) / 1.055) ^ (2.4 : ℝ) := by
      refine dec_low.trans (Real.rpow_le_rpow (by norm_num) ?_ (by norm_num))
      norm_num at *; linarith
    have e : (((v + 0.055) / 1.055) ^ (2.4 : ℝ)) ^ ((1 : ℝ) / 2.4) = (v + 0.055) / 1.055 := by
      rw [← Real.rpow_mul b0.le]; norm_num
    generalize ((v + 0.055) / 1.055) ^ (2.4 : ℝ) = D at *
    rw [if_neg (by norm_num at *; linarith)]
    have k := power_near (r := x ^ ((1 : ℝ) / 2.4)) (b := x) (b0 := D) (E := 1 / 2.4) (E0 := 1 / 2.4) (B := 1.0001 / 2 ^ 19) (A := 0)
      (L := |Real.log D|) (C := 0) (m := 0.417) (by norm_num at *; linarith) (hx.trans (by norm_num at *; linarith)) (by norm_num) (by simp) le_rfl
      (by norm_num [abs_of_nonneg]) (by norm_num) (by simp) (by norm_num) (by norm_num)
    rw [e] at k
    have k2 := abs_le.1 k
    generalize x ^ ((1 : ℝ) / 2.4) = p at *
    rw [abs_le]; norm_num at *; constructor <;> linarith

theorem round_trip (hp : PowAccurate FltT.pow) (t : FTarget) {v : F32} (fv : v.isFinite = true) (h0 : 0 ≤ v.val) (h1 : v.val ≤ 1) :
    Near (enc t (dec v)) v.val (5 / 2 ^ 21) := by
  have d := dec_near hp fv h0 (h1.trans (by norm_num))
  have k := back_near h0 h1 d.2
  have D0 : 0 ≤ srgbDec v.val := by
    unfold srgbDec; split
    · positivity
    · positivity
  have D1 : srgbDec v.val ≤ 1 := by
    unfold srgbDec; split
    · norm_num at *; linarith
    · exact Real.rpow_le_one (by positivity) (by norm_num at *; linarith) (by norm_num)
  have d2 := abs_le.1 d.2
  change -_ ≤ F32.val _ - _ ∧ F32.val _ - _ ≤ _ at d2
  have q := enc_near hp t d.1 (by norm_num at *; linarith) (by norm_num at *; linarith)
  refine ⟨q.1, ?_⟩
  have q2 := abs_le.1 q.2
  have k2 := abs_le.1 k
  change -_ ≤ F32.val _ - srgbEnc (F32.val _) ∧ F32.val _ - srgbEnc (F32.val _) ≤ _ at q2
  change -_ ≤ srgbEnc (F32.val _) - _ ∧ srgbEnc (F32.val _) - _ ≤ _ at k2
  change |F32.val _ - _| ≤ _
  rw [abs_le]; norm_num at *; constructor <;> linarith

end lanes

/-! ## Exact steps of `gain` -/

theorem exists_units (k s : ℕ) (hk : k ≤ 2 ^ 24) (hs : s ≤ 200) : ∃ y : F32, y.isFinite = true ∧ y.val = (k : ℝ) * 2 ^ s / 2 ^ 149 := by
  obtain ⟨m, e, hm⟩ := exists_mag s k hk
  have hi : m < infMag := by unfold infMag; omega
  have h31 : m < 2 ^ 31 := hi.trans (by decide)
  refine ⟨ofParts false m, ?_, ?_⟩
  · unfold isFinite; rw [ofParts_mag _ _ h31]; simpa using hi
  · unfold val toRat units
    rw [ofParts_signBit _ _ h31, ofParts_mag _ _ h31, e]; norm_num

theorem decomp {x : F32} (h : 0 ≤ x.val) : ∃ s k : ℕ, k < 2 ^ 24 ∧ (s = 0 ∨ 2 ^ 23 ≤ k) ∧ x.val = (k : ℝ) * 2 ^ s / 2 ^ 149 := by
  obtain ⟨s, k, e, hk, hs⟩ := mag_decomp x.mag
  refine ⟨s, k, hk, hs, ?_⟩
  have u := magUnits_eq s k hk.le hs
  rw [← e] at u
  have hv : x.val = (x.units : ℝ) / 2 ^ 149 := by unfold val toRat; push_cast; norm_num
  have h0 : (0 : ℝ) ≤ (x.units : ℝ) := by
    rw [hv] at h
    by_contra hc
    have := div_neg_of_neg_of_pos (not_le.1 hc) (show (0 : ℝ) < 2 ^ 149 by positivity)
    linarith
  rw [hv]
  congr 1
  have : x.units = (magUnits x.mag : ℤ) := by
    unfold units at h0 ⊢
    split
    · rename_i hb
      rw [if_pos hb] at h0
      have h1 : (0 : ℤ) ≤ -(magUnits x.mag : ℤ) := by exact_mod_cast h0
      omega
    · rfl
  rw [this, u]; push_cast; rfl

/-- Doubling is exact. -/
theorem double_fits {x : F32} (h0 : 0 ≤ x.val) (h1 : x.val ≤ 1) : ∃ y : F32, y.isFinite = true ∧ y.val = 2 * x.val := by
  obtain ⟨s, k, hk, hs, e⟩ := decomp h0
  have hs' : s ≤ 126 := by
    by_contra hc
    rcases hs with hs | hs
    · omega
    have k1 : (2 ^ 23 : ℝ) ≤ k := by exact_mod_cast hs
    have p1 : (2 : ℝ) ^ 127 ≤ 2 ^ s := pow_le_pow_right₀ (by norm_num) (by omega)
    have := mul_le_mul k1 p1 (by positivity) (by positivity)
    rw [e, div_le_one (by positivity)] at h1
    norm_num at this h1; linarith
  obtain ⟨y, fy, ey⟩ := exists_units k (s + 1) hk.le (by omega)
  exact ⟨y, fy, by rw [ey, e, pow_succ]; ring⟩

/-- From one half to one, taking the value away from one is exact. -/
theorem complement_fits {x : F32} (h0 : 1 / 2 ≤ x.val) (h1 : x.val ≤ 1) : ∃ y : F32, y.isFinite = true ∧ y.val = 1 - x.val := by
  obtain ⟨s, k, hk, hs, e⟩ := decomp (x := x) (by linarith)
  have k2 : (k : ℝ) < 2 ^ 24 := by exact_mod_cast hk
  have hs1 : 125 ≤ s := by
    by_contra hc
    have p1 : (2 : ℝ) ^ s ≤ 2 ^ 124 := pow_le_pow_right₀ (by norm_num) (by omega)
    have := mul_lt_mul k2 p1 (by positivity) (by positivity)
    rw [e, le_div_iff₀ (by positivity)] at h0
    norm_num at this h0; linarith
  have ks : 2 ^ 23 ≤ k := by omega
  have k1 : (2 ^ 23 : ℝ) ≤ k := by exact_mod_cast ks
  have hs2 : s ≤ 126 := by
    by_contra hc
    have p1 : (2 : ℝ) ^ 127 ≤ 2 ^ s := pow_le_pow_right₀ (by norm_num) (by omega)
    have := mul_le_mul k1 p1 (by positivity) (by positivity)
    rw [e, div_le_one (by positivity)] at h1
    norm_num at this h1; linarith
  have : s = 125 ∨ s = 126 := by omega
  rcases this with rfl | rfl
  · obtain ⟨y, fy, ey⟩ := exists_units (2 ^ 24 - k) 125 (by omega) (by omega)
    refine ⟨y, fy, ?_⟩
    rw [ey, e, Nat.cast_sub hk.le]; push_cast; ring
  · have : k = 2 ^ 23 := by
      rw [e, div_le_one (by positivity)] at h1
      have : (k : ℝ) ≤ 2 ^ 23 := by
        refine le_of_mul_le_mul_right (h1.trans_eq ?_) (show (0 : ℝ) < 2 ^ 126 by positivity)
        norm_num
      have : k ≤ 2 ^ 23 := by exact_mod_cast this
      omega
    subst this
    obtain ⟨y, fy, ey⟩ := exists_units 0 0 (by omega) (by omega)
    refine ⟨y, fy, ?_⟩
    rw [ey, e]; norm_num

theorem one_l : (lit 1 : F32).isFinite = true ∧ (lit 1 : F32).val = 1 := by
  have := const_approx (r := (lit 1 : F32)) (q := 1) (e := 0) (by decide +kernel)
  push_cast at this; exact ⟨this.1, this.eq⟩
theorem two_l : (lit 2 : F32).isFinite = true ∧ (lit 2 : F32).val = 2 := by
  have := const_approx (r := (lit 2 : F32)) (q := 2) (e := 0) (by decide +kernel)
  push_cast at this; exact ⟨this.1, this.eq⟩
theorem half_l : (lit (1 / 2) : F32).isFinite = true ∧ (lit (1 / 2) : F32).val = 1 / 2 := by
  have := const_approx (r := (lit (1 / 2) : F32)) (q := 1 / 2) (e := 0) (by decide +kernel)
  push_cast at this; exact ⟨this.1, this.eq⟩

/-- The base of the power in `gain`: exact. -/
theorem gain_base {x : F32} (fx : x.isFinite = true) (h0 : 0 ≤ x.val) (h1 : x.val ≤ 1) :
    Approx (lit 2 *. (if (x <. (lit (1 / 2) : F32)) = true then x else lit 1 -. x)) (if x.val < 1 / 2 then 2 * x.val else 2 * (1 - x.val)) 0 := by
  have br : (x <. (lit (1 / 2) : F32)) = true ↔ x.val < 1 / 2 := by
    rw [show ((x <. (lit (1 / 2) : F32)) = true ↔ x.toRat < (lit (1 / 2) : F32).toRat) from ltb_finite fx half_l.1, ← half_l.2]
    unfold val; exact_mod_cast Iff.rfl
  by_cases h : x.val < 1 / 2
  · rw [if_pos (br.2 h), if_pos h]
    obtain ⟨y, fy, ey⟩ := double_fits h0 h1
    have := fmul_exact two_l.1 fx fy (by rw [ey, two_l.2])
    rwa [two_l.2] at this
  · rw [if_neg (mt br.1 h), if_neg h]
    obtain ⟨c, fc, ec⟩ := complement_fits (not_lt.1 h) h1
    have s := fsub_exact one_l.1 fx fc (by rw [ec, one_l.2])
    rw [one_l.2] at s
    have es := s.eq
    obtain ⟨y, fy, ey⟩ := double_fits (x := fsub (lit 1) x) (by rw [es]; linarith) (by rw [es]; linarith)
    have := fmul_exact two_l.1 s.1 fy (by rw [ey, two_l.2])
    rw [two_l.2, es] at this
    exact this

theorem val_bits {a b : F32} (h : a.val = b.val) (hb : b.val ≠ 0) : a = b := by
  have hr : a.toRat = b.toRat := by unfold val at h; exact_mod_cast h
  have k : a.key = b.key := by
    apply le_antisymm
    · exact (toRat_le_iff a b).1 hr.le
    · exact (toRat_le_iff b a).1 hr.ge
  have m0 : b.mag ≠ 0 := by
    intro hc
    apply hb
    unfold val toRat units
    rw [hc, magUnits_zero]; simp
  unfold key at k
  have ha := a.mag_lt
  apply ext_parts
  · by_cases h1 : a.signBit = true <;> by_cases h2 : b.signBit = true <;> simp_all
  · by_cases h1 : a.signBit = true <;> by_cases h2 : b.signBit = true <;> simp_all

end SrgbP

/-- C142: every channel in the unit interval is decoded from sRGB as the standard says, up to one part in 2^19, and alpha is
kept. -/
theorem srgbToRgb_f32 (T : FltT F32) (hp : PowAccurate T.pow) (s : V4 F32)
    (h : ∀ c ∈ [s.x, s.y, s.z], c.isFinite = true ∧ 0 ≤ rv c ∧ rv c ≤ 1) :
    Near (ColorSpace.srgbToRgb s).x (srgbDec (rv s.x)) (srgbDec (rv s.x) / 2 ^ 19 + 1 / 2 ^ 149) ∧
    Near (ColorSpace.srgbToRgb s).y (srgbDec (rv s.y)) (srgbDec (rv s.y) / 2 ^ 19 + 1 / 2 ^ 149) ∧
    Near (ColorSpace.srgbToRgb s).z (srgbDec (rv s.z)) (srgbDec (rv s.z) / 2 ^ 19 + 1 / 2 ^ 149) ∧
    (ColorSpace.srgbToRgb s).w = s.w := by
  rw [SrgbP.dec_eq]
  obtain ⟨x1, x2, x3⟩ := h s.x (by simp)
  obtain ⟨y1, y2, y3⟩ := h s.y (by simp)
  obtain ⟨z1, z2, z3⟩ := h s.z (by simp)
  exact ⟨SrgbP.dec_near hp x1 x2 (SrgbP.nl x3), SrgbP.dec_near hp y1 y2 (SrgbP.nl y3), SrgbP.dec_near hp z1 z2 (SrgbP.nl z3), rfl⟩

/-- C142: every channel in the unit interval is encoded to sRGB within `3 / 2^21` of what the standard says, also at the
one float where the code takes the other branch, and alpha is kept. -/
theorem rgbToSrgb_f32 (T : FltT F32) (hp : PowAccurate T.pow) (t : FTarget) (v : V4 F32)
    (h : ∀ c ∈ [v.x, v.y, v.z], c.isFinite = true ∧ 0 ≤ rv c ∧ rv c ≤ 1) :
    Near (Color.rgbToSrgb32 t v).x (srgbEnc (rv v.x)) (3 / 2 ^ 21) ∧ Near (Color.rgbToSrgb32 t v).y (srgbEnc (rv v.y)) (3 / 2 ^ 21) ∧
    Near (Color.rgbToSrgb32 t v).z (srgbEnc (rv v.z)) (3 / 2 ^ 21) ∧ (Color.rgbToSrgb32 t v).w = v.w := by
  rw [SrgbP.enc_eq]
  obtain ⟨x1, x2, x3⟩ := h v.x (by simp)
  obtain ⟨y1, y2, y3⟩ := h v.y (by simp)
  obtain ⟨z1, z2, z3⟩ := h v.z (by simp)
  exact ⟨SrgbP.enc_near hp t x1 (SrgbP.nn x2) (SrgbP.nl x3), SrgbP.enc_near hp t y1 (SrgbP.nn y2) (SrgbP.nl y3), SrgbP.enc_near hp t z1 (SrgbP.nn z2) (SrgbP.nl z3), rfl⟩

/-- C142: decoding from sRGB and encoding again gives every channel in the unit interval back within `5 / 2^21`, and alpha
exactly. -/
theorem srgb_roundtrip_f32 (T : FltT F32) (hp : PowAccurate T.pow) (t : FTarget) (s : V4 F32)
    (h : ∀ c ∈ [s.x, s.y, s.z], c.isFinite = true ∧ 0 ≤ rv c ∧ rv c ≤ 1) :
    Near (Color.rgbToSrgb32 t (ColorSpace.srgbToRgb s)).x (rv s.x) (5 / 2 ^ 21) ∧
    Near (Color.rgbToSrgb32 t (ColorSpace.srgbToRgb s)).y (rv s.y) (5 / 2 ^ 21) ∧
    Near (Color.rgbToSrgb32 t (ColorSpace.srgbToRgb s)).z (rv s.z) (5 / 2 ^ 21) ∧
    (Color.rgbToSrgb32 t (ColorSpace.srgbToRgb s)).w = s.w := by
  rw [SrgbP.dec_eq, SrgbP.enc_eq]
  obtain ⟨x1, x2, x3⟩ := h s.x (by simp)
  obtain ⟨y1, y2, y3⟩ := h s.y (by simp)
  obtain ⟨z1, z2, z3⟩ := h s.z (by simp)
  exact ⟨SrgbP.round_trip hp t x1 x2 x3, SrgbP.round_trip hp t y1 y2 y3, SrgbP.round_trip hp t z1 z2 z3, rfl⟩

/-- C142: `gain` in binary32 is the gain curve: up to one part in 2^21 on the lower half, within `1 / 2^22` on the upper half,
for every factor. -/
theorem gain_f32 (T : FltT F32) (hT : PowUnitOk T.pow) (hE : PowEnds T.pow) (x k : F32) (fx : x.isFinite = true) (fk : k.isFinite = true)
    (x0 : 0 ≤ rv x) (x1 : rv x ≤ 1) (k0 : 0 < rv k) :
    Near (Scalar.gain x k) (gainOf (rv x) (rv k)) (if rv x < 1 / 2 then gainOf (rv x) (rv k) / 2 ^ 21 + 1 / 2 ^ 148 else 1 / 2 ^ 22) := by
  have b := SrgbP.gain_base fx x0 x1
  have br : (x <. (lit (1 / 2) : F32)) = true ↔ rv x < 1 / 2 := by
    rw [show ((x <. (lit (1 / 2) : F32)) = true ↔ x.toRat < (lit (1 / 2) : F32).toRat) from ltb_finite fx SrgbP.half_l.1, ← SrgbP.half_l.2]
    unfold val rv; exact_mod_cast Iff.rfl
  obtain ⟨y, hy⟩ : ∃ y : ℝ, y = if rv x < 1 / 2 then 2 * rv x else 2 * (1 - rv x) := ⟨_, rfl⟩
  have y0 : 0 ≤ y := by rw [hy]; split <;> linarith
  have y1 : y ≤ 1 := by rw [hy]; split <;> linarith
  have hg : gainOf (rv x) (rv k) = if rv x < 1 / 2 then y ^ rv k / 2 else 1 - y ^ rv k / 2 := by
    unfold gainOf; rw [hy]; split <;> rfl
  rw [hg]
  change Approx _ (if rv x < 1 / 2 then 2 * rv x else 2 * (1 - rv x)) 0 at b
  rw [← hy] at b
  unfold Scalar.gain
  dsimp only
  generalize (lit 2 : F32) *. (if (x <. (lit (1 / 2) : F32)) = true then x else lit 1 -. x) = B at *
  have eB : rv B = y := b.eq
  have p0 := Real.rpow_nonneg y0 (rv k)
  have p1 := Real.rpow_le_one y0 y1 k0.le
  have q : Approx (T.pow B k) (y ^ rv k) (1 / 2 ^ 22 * y ^ rv k + 1 / 2 ^ 149) := by
    rcases y0.eq_or_lt with h | h
    · obtain ⟨f0, e0⟩ := (hE B k b.1 fk k0).1 (eB.trans h.symm)
      refine ⟨f0, ?_⟩
      rw [← h, Real.zero_rpow k0.ne']
      change |rv _ - 0| ≤ _
      rw [e0]; norm_num
    · have := hT B k b.1 fk (by rw [eB]; exact h) (by rw [eB]; exact y1) k0.le
      rw [eB] at this; exact this
  have m := (Approx.self SrgbP.half_l.1).mul q (1 / 2) (y ^ rv k) (by rw [SrgbP.half_l.2, abs_of_nonneg (by norm_num)])
    (by rw [abs_of_nonneg p0]) (by norm_num; linarith)
  rw [SrgbP.half_l.2] at m
  by_cases h : rv x < 1 / 2
  · rw [if_pos h, if_pos h, if_pos (br.2 h)]
    refine Approx.mono (m.of_eq (by ring)) ?_
    unfold ulp; norm_num; linarith
  · rw [if_neg h, if_neg h, if_neg (mt br.1 h)]
    have m' := (m.mono (e' := 2.6 / 2 ^ 24) (by unfold ulp; norm_num at *; linarith))
    have s := (Approx.self SrgbP.one_l.1).sub m' 1.01 (by rw [SrgbP.one_l.2, abs_of_nonneg (by linarith)]; norm_num at *; linarith) (by norm_num)
    rw [SrgbP.one_l.2] at s
    refine Approx.mono (s.of_eq (by ring)) ?_
    unfold ulp; norm_num

/-- C142: `gain` passes through the ends and the middle exactly. -/
theorem gain_points_f32 (T : FltT F32) (hE : PowEnds T.pow) (x k : F32) (fx : x.isFinite = true) (fk : k.isFinite = true) (k0 : 0 < rv k)
    (hx : rv x = 0 ∨ rv x = 1 / 2 ∨ rv x = 1) : (Scalar.gain x k).isFinite = true ∧ rv (Scalar.gain x k) = rv x := by
  have b := SrgbP.gain_base fx (by change 0 ≤ rv x; rcases hx with h | h | h <;> rw [h] <;> norm_num)
    (by change rv x ≤ 1; rcases hx with h | h | h <;> rw [h] <;> norm_num)
  have br : (x <. (lit (1 / 2) : F32)) = true ↔ rv x < 1 / 2 := by
    rw [show ((x <. (lit (1 / 2) : F32)) = true ↔ x.toRat < (lit (1 / 2) : F32).toRat) from ltb_finite fx SrgbP.half_l.1, ← SrgbP.half_l.2]
    unfold val rv; exact_mod_cast Iff.rfl
  change Approx _ (if rv x < 1 / 2 then 2 * rv x else 2 * (1 - rv x)) 0 at b
  obtain ⟨z0, z1⟩ := SatF32.lit0
  unfold Scalar.gain
  dsimp only
  generalize (lit 2 : F32) *. (if (x <. (lit (1 / 2) : F32)) = true then x else lit 1 -. x) = B at *
  obtain ⟨e0, e1⟩ := hE B k b.1 fk k0
  rcases hx with h | h | h <;> rw [h] at b br ⊢ <;> norm_num at b br ⊢
  · rw [if_pos br]
    obtain ⟨f, e⟩ := e0 b.eq
    have := fmul_exact SrgbP.half_l.1 f z0 (by rw [z1]; change 0 = _ * rv _; rw [e]; simp)
    refine ⟨this.1, ?_⟩
    refine this.eq.trans ?_
    change _ * rv _ = _
    rw [e, mul_zero]
  · rw [if_neg (by rw [br]; exact Bool.false_ne_true)]
    obtain ⟨f, e⟩ := e1 b.eq
    have := fmul_exact SrgbP.half_l.1 f SrgbP.half_l.1 (by rw [SrgbP.half_l.2]; change _ = _ * rv _; rw [e]; simp)
    have q := fsub_exact SrgbP.one_l.1 this.1 SrgbP.half_l.1 (by rw [this.eq, SrgbP.one_l.2, SrgbP.half_l.2]; change _ = 1 - _ * rv _; rw [e]; norm_num)
    refine ⟨q.1, q.eq.trans ?_⟩
    rw [this.eq, SrgbP.one_l.2, SrgbP.half_l.2]
    change 1 - _ * rv _ = _
    rw [e]; norm_num
  · rw [if_neg (by rw [br]; exact Bool.false_ne_true)]
    obtain ⟨f, e⟩ := e0 b.eq
    have := fmul_exact SrgbP.half_l.1 f z0 (by rw [z1]; change 0 = _ * rv _; rw [e]; simp)
    have e2 : (fmul (lit (1 / 2)) (T.pow B k)).val = 0 := by
      refine this.eq.trans ?_
      change _ * rv _ = _
      rw [e, mul_zero]
    have q := fsub_exact SrgbP.one_l.1 this.1 SrgbP.one_l.1 (by rw [e2, sub_zero])
    refine ⟨q.1, q.eq.trans ?_⟩
    rw [e2, SrgbP.one_l.2, sub_zero]

/-- C142: the two halves of `gain` mirror each other to the bit, whatever `std::pow` computes. -/
theorem gain_mirror_f32 (T : FltT F32) (x y k : F32) (fx : x.isFinite = true) (fy : y.isFinite = true) (x0 : 0 < rv x) (x1 : rv x < 1 / 2)
    (h : rv y = 1 - rv x) : Scalar.gain y k = F32.fsub (lit 1) (Scalar.gain x k) := by
  have bx := SrgbP.gain_base fx x0.le (by change rv x ≤ 1; linarith)
  have bY := SrgbP.gain_base fy (by change 0 ≤ rv y; linarith) (by change rv y ≤ 1; linarith)
  have brx : (x <. (lit (1 / 2) : F32)) = true := by
    rw [show ((x <. (lit (1 / 2) : F32)) = true ↔ x.toRat < (lit (1 / 2) : F32).toRat) from ltb_finite fx SrgbP.half_l.1]
    have : x.val < (lit (1 / 2) : F32).val := by rw [SrgbP.half_l.2]; exact x1
    unfold val at this; exact_mod_cast this
  have bry : ¬ (y <. (lit (1 / 2) : F32)) = true := by
    rw [show ((y <. (lit (1 / 2) : F32)) = true ↔ y.toRat < (lit (1 / 2) : F32).toRat) from ltb_finite fy SrgbP.half_l.1]
    intro hc
    have : y.val < (lit (1 / 2) : F32).val := by unfold val; exact_mod_cast hc
    rw [SrgbP.half_l.2] at this
    change rv y < _ at this
    linarith
  rw [if_pos (show x.val < 1 / 2 from x1)] at bx
  rw [if_neg (show ¬ y.val < 1 / 2 by change ¬ rv y < _; linarith)] at bY
  unfold Scalar.gain
  dsimp only
  rw [if_neg bry, if_neg bry, if_pos brx, if_pos brx] at *
  have e : (lit 2 : F32) *. ((lit 1 : F32) -. y) = (lit 2 : F32) *. x := by
    apply SrgbP.val_bits
    · rw [bx.eq, bY.eq]
      change 2 * (1 - rv y) = 2 * rv x
      rw [h]; ring
    · rw [bx.eq]; change 2 * rv x ≠ 0; linarith
  rw [e]; rfl

/-- Non-vacuity: there is a `pow` as asked, and a color and a value as asked. -/
theorem powEnds_exists : ∃ T : FltT F32, PowUnitOk T.pow ∧ PowEnds T.pow := by
  obtain ⟨T, hT⟩ := powUnitOk_exists
  refine ⟨{ T with pow := fun b x => if b.toRat = 0 then ofRat 0 else if b.toRat = 1 then lit 1 else T.pow b x }, ?_, ?_⟩
  · intro b x fb fx b0 b1 x0
    have n0 : b.toRat ≠ 0 := by intro hc; unfold rv at b0; rw [hc] at b0; simp at b0
    dsimp only
    rw [if_neg n0]
    by_cases h : b.toRat = 1
    · rw [if_pos h]
      refine ⟨SrgbP.one_l.1, ?_⟩
      have : rv b = 1 := by unfold rv; rw [h]; simp
      rw [this, Real.one_rpow]
      change |F32.val _ - 1| ≤ _
      rw [SrgbP.one_l.2]; norm_num
    · rw [if_neg h]; exact hT b x fb fx b0 b1 x0
  · intro b x fb fx x0
    dsimp only
    constructor
    · intro h
      have : b.toRat = 0 := by unfold rv at h; exact_mod_cast h
      rw [if_pos this]; exact SatF32.lit0
    · intro h
      have : b.toRat = 1 := by unfold rv at h; exact_mod_cast h
      rw [if_neg (by rw [this]; norm_num), if_pos this]; exact SrgbP.one_l

/-- Non-vacuity: the middle of the curve with the factor two, and a color. -/
example : ∃ T : FltT F32, PowUnitOk T.pow ∧ PowEnds T.pow ∧
    Near (Scalar.gain (lit (1 / 2)) (lit 2)) (gainOf (1 / 2) 2) (1 / 2 ^ 22) := by
  obtain ⟨T, h1, h2⟩ := powEnds_exists
  refine ⟨T, h1, h2, ?_⟩
  have e1 : rv (lit (1 / 2) : F32) = 1 / 2 := SrgbP.half_l.2
  have e2 : rv (lit 2 : F32) = 2 := SrgbP.two_l.2
  have := gain_f32 T h1 h2 (lit (1 / 2)) (lit 2) SrgbP.half_l.1 SrgbP.two_l.1 (by rw [e1]; norm_num) (by rw [e1]; norm_num) (by rw [e2]; norm_num)
  rw [e1, e2, if_neg (by norm_num)] at this
  exact this

example : ∃ T : FltT F32, PowAccurate T.pow ∧ Near (ColorSpace.srgbToRgb (⟨lit 1, lit (1 / 2), lit 1, lit 2⟩ : V4 F32)).y (srgbDec (1 / 2))
    (srgbDec (1 / 2) / 2 ^ 19 + 1 / 2 ^ 149) := by
  obtain ⟨p, hp⟩ := powAccurate_exists
  have e1 : rv (lit (1 / 2) : F32) = 1 / 2 := SrgbP.half_l.2
  have e2 : rv (lit 1 : F32) = 1 := SrgbP.one_l.2
  refine ⟨⟨p, id, id, id, id, id, id, id, fun x _ => x, fun x _ => x, id, fun _ => false⟩, hp, ?_⟩
  have := (srgbToRgb_f32 ⟨p, id, id, id, id, id, id, id, fun x _ => x, fun x _ => x, id, fun _ => false⟩ hp ⟨lit 1, lit (1 / 2), lit 1, lit 2⟩ (by
    intro c hc
    simp only [List.mem_cons, List.not_mem_nil, or_false] at hc
    rcases hc with rfl | rfl | rfl
    · exact ⟨SrgbP.one_l.1, by rw [e2]; norm_num, by rw [e2]⟩
    · exact ⟨SrgbP.half_l.1, by rw [e1]; norm_num, by rw [e1]; norm_num⟩
    · exact ⟨SrgbP.one_l.1, by rw [e2]; norm_num, by rw [e2]⟩)).2.1
  dsimp only at this
  rw [e1] at this
  exact this

/-- Non-vacuity: 1/4 and 3/4 mirror each other. -/
example (T : FltT F32) (k : F32) : Scalar.gain (lit (3 / 4)) k = F32.fsub (lit 1) (Scalar.gain (lit (1 / 4)) k) := by
  have a := const_approx (r := (lit (1 / 4) : F32)) (q := 1 / 4) (e := 0) (by decide +kernel)
  have b := const_approx (r := (lit (3 / 4) : F32)) (q := 3 / 4) (e := 0) (by decide +kernel)
  push_cast at a b
  have ea : rv (lit (1 / 4) : F32) = 1 / 4 := a.eq
  have eb : rv (lit (3 / 4) : F32) = 3 / 4 := b.eq
  exact gain_mirror_f32 T _ _ k a.1 b.1 (by rw [ea]; norm_num) (by rw [ea]; norm_num) (by rw [ea, eb]; norm_num)

end Verif
