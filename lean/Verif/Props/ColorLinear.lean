import Verif.Spec.ColorLinear
import Verif.Model.ColorLinear
import Verif.Props.Color
import Verif.Props.SimdLog

/-!
# C102: colors and linear values
-/

namespace Verif.ColorLinear
open F32 Flt Color Spec

/-! ## Quantisation of a nearly exact value -/

private def lo (n : BitVec 8) : F32 := F32.ofRat ((n.toNat : Rat) / 255 - 1 / 1000)
private def hi (n : BitVec 8) : F32 := F32.ofRat ((n.toNat : Rat) / 255 + 1 / 1000)

private theorem q_ends (n : BitVec 8) : quantizeSimd (lo n) = some n ∧ quantizeSimd (hi n) = some n ∧
    quantizeSimdFused (lo n) = some n ∧ quantizeSimdFused (hi n) = some n := by
  simp only [quantizeSimd, quantizeSimdFused]
  rw [lit0, lit1, lit255, litHalf]
  revert n; decide +kernel

private theorem byte_le (n : BitVec 8) : (n.toNat : ℝ) ≤ 255 := by
  have := n.isLt; exact_mod_cast Nat.le_of_lt_succ this

private theorem sandwich {q : F32 → Option (BitVec 8)} (hq : Saturating q) {x a b : F32} {n : BitVec 8}
    (ha : a.isFinite = true) (hb : b.isFinite = true) (hx : x.isFinite = true) (h1 : a.val ≤ x.val) (h2 : x.val ≤ b.val)
    (qa : q a = some n) (qb : q b = some n) : q x = some n := by
  obtain ⟨hs, -, -, hm⟩ := hq
  have l1 : a <=. x := (leb_finite ha hx).2 (by unfold val at h1; exact_mod_cast h1)
  have l2 : x <=. b := (leb_finite hx hb).2 (by unfold val at h2; exact_mod_cast h2)
  obtain ⟨m, hm'⟩ := Option.isSome_iff_exists.1 (hs x (finite_notNaN hx).1)
  rw [hm']
  exact congrArg some (BitVec.le_antisymm (hm x b l2 m n hm' qb) (hm a x l1 n m qa hm'))

theorem quantize_near {x : F32} {n : BitVec 8} (h : Approx x ((n.toNat : ℝ) / 255) (1 / 2000)) (k : Bool) :
    (if k then quantizeSimdFused else quantizeSimd) x = some n := by
  have hn := byte_le n
  have hn0 : (0 : ℝ) ≤ n.toNat := Nat.cast_nonneg _
  have a1 := lit_approx ((n.toNat : Rat) / 255 - 1 / 1000) 2 (by push_cast; rw [abs_le]; constructor <;> linarith) (by norm_num)
  have a2 := lit_approx ((n.toNat : Rat) / 255 + 1 / 1000) 2 (by push_cast; rw [abs_le]; constructor <;> linarith) (by norm_num)
  have e1 := abs_le.1 a1.2
  have e2 := abs_le.1 a2.2
  have e3 := abs_le.1 h.2
  have u : ulp 2 ≤ 1 / 10000 := by unfold ulp; norm_num
  push_cast at e1 e2
  have h1 : (lo n).val ≤ x.val := by unfold lo; linarith
  have h2 : x.val ≤ (hi n).val := by unfold hi; linarith
  obtain ⟨q1, q2, q3, q4⟩ := q_ends n
  cases k
  · exact sandwich color_saturates_partial.2.2.1 a1.1 a2.1 h.1 h1 h2 q1 q2
  · exact sandwich color_saturates_partial.2.2.2.1 a1.1 a2.1 h.1 h1 h2 q3 q4

/-! ## The lanes -/

theorem const_approx {r : F32} {q e : Rat} (h : r.isFinite = true ∧ |r.toRat - q| ≤ e) : Approx r (q : ℝ) (e : ℝ) := by
  refine ⟨h.1, ?_⟩
  have : ((|r.toRat - q| : Rat) : ℝ) ≤ ((e : Rat) : ℝ) := by exact_mod_cast h.2
  push_cast at this
  unfold val; exact this

private theorem norm_approx (n : BitVec 8) : Approx (getNorm n) ((n.toNat : ℝ) / 255) (1 / 2 ^ 22) := by
  have key : ∀ n : BitVec 8, (getNorm n).isFinite = true ∧ |(getNorm n).toRat - (n.toNat : Rat) / 255| ≤ 1 / 2 ^ 22 := by
    intro n
    simp only [getNorm, inv255]
    revert n; decide +kernel
  have := const_approx (key n)
  push_cast at this; exact this

private theorem c_inv1292 : Approx (lit 1 /. lit 12.92 : F32) (1 / 12.92) (1 / 2 ^ 27) := by
  have := const_approx (r := (lit 1 /. lit 12.92 : F32)) (q := 1 / 12.92) (e := 1 / 2 ^ 27) (by decide +kernel)
  push_cast at this; exact this
private theorem c_1292 : Approx (lit 12.92 : F32) 12.92 (1 / 2 ^ 20) := by
  have := const_approx (r := (lit 12.92 : F32)) (q := 12.92) (e := 1 / 2 ^ 20) (by decide +kernel)
  push_cast at this; exact this
private theorem c_055 : Approx (lit 0.055 : F32) 0.055 (1 / 2 ^ 26) := by
  have := const_approx (r := (lit 0.055 : F32)) (q := 0.055) (e := 1 / 2 ^ 26) (by decide +kernel)
  push_cast at this; exact this
private theorem c_m055 : Approx (lit (-0.055) : F32) (-0.055) (1 / 2 ^ 26) := by
  have := const_approx (r := (lit (-0.055) : F32)) (q := -0.055) (e := 1 / 2 ^ 26) (by decide +kernel)
  push_cast at this; exact this
private theorem c_1055 : Approx (lit 1.055 : F32) 1.055 (1 / 2 ^ 23) := by
  have := const_approx (r := (lit 1.055 : F32)) (q := 1.055) (e := 1 / 2 ^ 23) (by decide +kernel)
  push_cast at this; exact this
private theorem c_inv1055 : Approx (lit 1 /. lit 1.055 : F32) (1 / 1.055) (1 / 2 ^ 23) := by
  have := const_approx (r := (lit 1 /. lit 1.055 : F32)) (q := 1 / 1.055) (e := 1 / 2 ^ 23) (by decide +kernel)
  push_cast at this; exact this
private theorem c_24 : Approx (lit 2.4 : F32) 2.4 (1 / 2 ^ 23) := by
  have := const_approx (r := (lit 2.4 : F32)) (q := 2.4) (e := 1 / 2 ^ 23) (by decide +kernel)
  push_cast at this; exact this
private theorem c_inv24 : Approx (lit 1 /. lit 2.4 : F32) (1 / 2.4) (1 / 2 ^ 25) := by
  have := const_approx (r := (lit 1 /. lit 2.4 : F32)) (q := 1 / 2.4) (e := 1 / 2 ^ 25) (by decide +kernel)
  push_cast at this; exact this
private theorem c_lo : Approx (lit 0.0031308 : F32) 0.0031308 (1 / 2 ^ 30) := by
  have := const_approx (r := (lit 0.0031308 : F32)) (q := 0.0031308) (e := 1 / 2 ^ 30) (by decide +kernel)
  push_cast at this; exact this
private theorem c_hi : Approx (lit 0.04045 : F32) 0.04045 (1 / 2 ^ 26) := by
  have := const_approx (r := (lit 0.04045 : F32)) (q := 0.04045) (e := 1 / 2 ^ 26) (by decide +kernel)
  push_cast at this; exact this

/-! ## Exact powers -/

private theorem abs_log {b : ℝ} (h1 : 0.09 ≤ b) (h2 : b ≤ 1.1) : |Real.log b| ≤ 11 := by
  have h0 : 0 < b := by linarith
  have a := Real.log_le_sub_one_of_pos h0
  have c := Real.one_sub_inv_le_log_of_pos h0
  have d : b⁻¹ ≤ (0.09 : ℝ)⁻¹ := inv_anti₀ (by norm_num) h1
  have e : ((0.09 : ℝ))⁻¹ ≤ 12 := by norm_num
  rw [abs_le]; constructor <;> linarith

private theorem abs_log1 {d e : ℝ} (h : |d| ≤ e) (he : e ≤ 1 / 2) : |Real.log (1 + d)| ≤ 2 * e := by
  have hd := abs_le.1 h
  have h0 : 0 < 1 + d := by linarith
  have a := Real.log_le_sub_one_of_pos h0
  have c := Real.one_sub_inv_le_log_of_pos h0
  have f : (1 + d)⁻¹ ≤ 1 + 2 * e := by
    rw [inv_le_iff_one_le_mul₀ h0]; nlinarith
  rw [abs_le]; constructor <;> linarith

/-- A power `b ^ E` computed with a small relative error. -/
private theorem rel_split {p y e : ℝ} (hy : 0 < y) (h : |p - y| ≤ y * e) : ∃ d, |d| ≤ e ∧ p = y * (1 + d) := by
  refine ⟨p / y - 1, ?_, by field_simp; ring⟩
  rw [show p / y - 1 = (p - y) / y by field_simp, abs_div, abs_of_pos hy, div_le_iff₀ hy]; linarith

/-- Two powers undo each other. -/
private theorem pow_pow {b E E' d e : ℝ} (h1 : 0.09 ≤ b) (h2 : b ≤ 1.1) (hE : |E * E' - 1| ≤ 1 / 2 ^ 20) (hE' : |E'| ≤ 1)
    (hd : |d| ≤ e) (he : e ≤ 1 / 2 ^ 10) : ∃ k, |k| ≤ 22 / 2 ^ 20 + 4 * e ∧ (b ^ E * (1 + d)) ^ E' = b * (1 + k) := by
  have h0 : 0 < b := by linarith
  have hd' := abs_le.1 hd
  have hp : 0 < b ^ E * (1 + d) := mul_pos (Real.rpow_pos_of_pos h0 _) (by linarith)
  refine ⟨Real.exp ((E * E' - 1) * Real.log b + E' * Real.log (1 + d)) - 1, ?_, ?_⟩
  · have l1 := abs_log h1 h2
    have l2 := abs_log1 hd (by linarith)
    have b1 : |(E * E' - 1) * Real.log b| ≤ 1 / 2 ^ 20 * 11 := by
      rw [abs_mul]; exact mul_le_mul hE l1 (abs_nonneg _) (by norm_num)
    have b2 : |E' * Real.log (1 + d)| ≤ 1 * (2 * e) := by
      rw [abs_mul]; exact mul_le_mul hE' l2 (abs_nonneg _) (by norm_num)
    have b3 := abs_add_le ((E * E' - 1) * Real.log b) (E' * Real.log (1 + d))
    have he0 := (abs_nonneg d).trans hd
    refine (Real.abs_exp_sub_one_le ?_).trans ?_
    · linarith
    · linarith
  · rw [Real.rpow_def_of_pos hp, Real.log_mul (Real.rpow_pos_of_pos h0 _).ne' (by linarith : (1 + d) ≠ 0),
      Real.log_rpow h0]
    have : b * (1 + (Real.exp ((E * E' - 1) * Real.log b + E' * Real.log (1 + d)) - 1)) =
        Real.exp (Real.log b) * Real.exp ((E * E' - 1) * Real.log b + E' * Real.log (1 + d)) := by
      rw [Real.exp_log h0]; ring
    rw [this, ← Real.exp_add]; congr 1; ring

/-! ## One channel -/

section lanes
variable [FltT F32]

private def dec1 (s : F32) : F32 :=
  if s <=. (lit 0.04045 : F32) then s *. (lit 1 /. lit 12.92) else FltT.pow ((s +. lit 0.055) *. (lit 1 /. lit 1.055)) (lit 2.4)
private def enc1 (t : FTarget) (x : F32) : F32 :=
  if x <=. (lit 0.0031308 : F32) then x *. lit 12.92
  else F32x4.fma1 t (FltT.pow x (lit 1 /. lit 2.4)) (lit 1.055) (lit (-0.055))

private theorem le_true {a b : F32} (ha : a.isFinite = true) (hb : b.isFinite = true) (h : a.val ≤ b.val) : (a <=. b) = true :=
  (leb_finite ha hb).2 (by unfold val at h; exact_mod_cast h)
private theorem le_false {a b : F32} (ha : a.isFinite = true) (hb : b.isFinite = true) (h : b.val < a.val) : (a <=. b) = false := by
  rw [Bool.eq_false_iff]; intro hc
  have := (leb_finite ha hb).1 hc
  have h2 : a.val ≤ b.val := by unfold val; exact_mod_cast this
  linarith

/-- Dark channels: bytes up to 10. -/
private theorem dec_dark (n : BitVec 8) (hn : n.toNat ≤ 10) :
    Approx (dec1 (getNorm n)) ((n.toNat : ℝ) / 255 * (1 / 12.92)) (1 / 2 ^ 25) := by
  have hn' : (n.toNat : ℝ) ≤ 10 := by exact_mod_cast hn
  have hn0 : (0 : ℝ) ≤ n.toNat := Nat.cast_nonneg _
  have s := norm_approx n
  have s2 := abs_le.1 s.2
  have c2 := abs_le.1 c_hi.2
  unfold dec1
  rw [le_true s.1 c_hi.1 (by linarith), if_pos rfl]
  refine (s.mul c_inv1292 0.04 0.08 ?_ ?_ (by norm_num)).mono (by unfold ulp; norm_num)
  · rw [abs_of_nonneg (by positivity)]; norm_num; linarith
  · rw [abs_of_nonneg (by norm_num)]; norm_num

private theorem lane_dark (t : FTarget) (n : BitVec 8) (hn : n.toNat ≤ 10) :
    Approx (enc1 t (dec1 (getNorm n))) ((n.toNat : ℝ) / 255) (1 / 2000) := by
  have hn' : (n.toNat : ℝ) ≤ 10 := by exact_mod_cast hn
  have hn0 : (0 : ℝ) ≤ n.toNat := Nat.cast_nonneg _
  have s := dec_dark n hn
  have s2 := abs_le.1 s.2
  have c2 := abs_le.1 c_lo.2
  unfold enc1
  rw [le_true s.1 c_lo.1 (by linarith), if_pos rfl]
  have := (s.mul c_1292 0.04 13 ?_ ?_ (by norm_num)).mono (e' := 1 / 2000) (by unfold ulp; norm_num)
  · exact this.of_eq (by ring)
  · rw [abs_of_nonneg (by positivity)]; norm_num; linarith
  · rw [abs_of_nonneg (by norm_num)]; norm_num

/-- The base of the power for brighter channels. -/
private theorem base_bright (n : BitVec 8) :
    Approx ((getNorm n +. lit 0.055) *. (lit 1 /. lit 1.055)) (((n.toNat : ℝ) / 255 + 0.055) * (1 / 1.055)) (1 / 2 ^ 20) := by
  have hn' := byte_le n
  have hn0 : (0 : ℝ) ≤ n.toNat := Nat.cast_nonneg _
  have s := ((norm_approx n).add c_055 2 (by rw [abs_of_nonneg (by positivity)]; norm_num; linarith) (by norm_num)).mono
    (e' := 1 / 2 ^ 21) (by unfold ulp; norm_num)
  refine (s.mul c_inv1055 1.1 0.95 ?_ ?_ (by norm_num)).mono (by unfold ulp; norm_num)
  · rw [abs_of_nonneg (by positivity)]; norm_num; linarith
  · rw [abs_of_nonneg (by norm_num)]; norm_num

private theorem dec_bright (hp : PowAccurate FltT.pow) (n : BitVec 8) (hn : 11 ≤ n.toNat) :
    ∃ b d : ℝ, |b - ((n.toNat : ℝ) / 255 + 0.055) * (1 / 1.055)| ≤ 1 / 2 ^ 20 ∧ 0.0929 ≤ b ∧ b ≤ 1.1 ∧ |d| ≤ 1 / 2 ^ 20 ∧
      (dec1 (getNorm n)).isFinite = true ∧ (dec1 (getNorm n)).val = b ^ (lit 2.4 : F32).val * (1 + d) := by
  have hn' : (11 : ℝ) ≤ n.toNat := by exact_mod_cast hn
  have hn2 := byte_le n
  have s := norm_approx n
  have s2 := abs_le.1 s.2
  have c2 := abs_le.1 c_hi.2
  have e2 := abs_le.1 c_24.2
  have b := base_bright n
  have b2 := abs_le.1 b.2
  have h1 : 0.0929 ≤ ((getNorm n +. lit 0.055) *. (lit 1 /. lit 1.055)).val := by linarith
  have h2 : ((getNorm n +. lit 0.055) *. (lit 1 /. lit 1.055)).val ≤ 1.1 := by linarith
  have h0 : 0 < ((getNorm n +. lit 0.055) *. (lit 1 /. lit 1.055)).val := by linarith
  have pw := hp _ (lit 2.4) b.1 c_24.1 (by change _ ≤ F32.val _; linarith) (by change F32.val _ ≤ _; linarith)
    (by change _ ≤ F32.val _; linarith) (by change F32.val _ ≤ _; linarith)
  obtain ⟨d, hd, he⟩ := rel_split (Real.rpow_pos_of_pos h0 (lit 2.4 : F32).val) (pw.2.trans_eq (div_eq_mul_one_div _ _))
  refine ⟨_, d, b.2, h1, h2, hd, ?_, ?_⟩
  · unfold dec1; rw [le_false s.1 c_hi.1 (by linarith), if_neg Bool.false_ne_true]; exact pw.1
  · unfold dec1; rw [le_false s.1 c_hi.1 (by linarith), if_neg Bool.false_ne_true]; exact he

private theorem real1 {y d : ℝ} (h1 : 0.0032 ≤ y) (h2 : y ≤ 1.4) (h3 : -(1 / 2 ^ 20) ≤ d) (h4 : d ≤ 1 / 2 ^ 20) :
    0.00319 ≤ y * (1 + d) ∧ y * (1 + d) ≤ 2 := by
  norm_num at *; constructor <;> nlinarith
private theorem real2 {E E' : ℝ} (h1 : |E - 2.4| ≤ 1 / 2 ^ 23) (h2 : |E' - 1 / 2.4| ≤ 1 / 2 ^ 25) : |E * E' - 1| ≤ 1 / 2 ^ 20 := by
  have := mul_close h1 h2 (X := 2.4) (Y := 1) (by norm_num) (by norm_num [abs_of_nonneg])
  norm_num at *; linarith
private theorem real3 {k d b z : ℝ} (h1 : |k| ≤ 22 / 2 ^ 20 + 4 * (1 / 2 ^ 20)) (h2 : |d| ≤ 1 / 2 ^ 20) (h3 : 0 ≤ b) (h4 : b ≤ 1.1)
    (h5 : |b - z| ≤ 1 / 2 ^ 20) : |b * (1 + k) * (1 + d) - z| ≤ 1 / 10000 := by
  have e : b * (1 + k) * (1 + d) - z = b * k + b * d * (1 + k) + (b - z) := by ring
  have a1 : |b * k| ≤ 1.1 * (26 / 2 ^ 20) := by
    rw [abs_mul, abs_of_nonneg h3]; exact mul_le_mul h4 (h1.trans (by norm_num)) (abs_nonneg _) (by norm_num)
  have a2 : |b * d * (1 + k)| ≤ 1.1 * (1 / 2 ^ 20) * 2 := by
    rw [abs_mul, abs_mul, abs_of_nonneg h3]
    refine mul_le_mul (mul_le_mul h4 h2 (abs_nonneg _) (by norm_num)) ?_ (abs_nonneg _) (by norm_num)
    have := abs_add_le 1 k
    rw [abs_one] at this; norm_num at *; linarith
  rw [e]
  refine (abs_add_le _ _).trans ((add_le_add (abs_add_le _ _) h5).trans ?_)
  norm_num at *; linarith

private theorem lane_bright (hp : PowAccurate FltT.pow) (t : FTarget) (n : BitVec 8) (hn : 11 ≤ n.toNat) :
    Approx (enc1 t (dec1 (getNorm n))) ((n.toNat : ℝ) / 255) (1 / 2000) := by
  have hn' : (11 : ℝ) ≤ n.toNat := by exact_mod_cast hn
  have hn2 := byte_le n
  obtain ⟨b, d, hb, b1, b2, hd, hf, hv⟩ := dec_bright hp n hn
  have hb' := abs_le.1 hb
  have hd' := abs_le.1 hd
  have e2 := abs_le.1 c_24.2
  have i2 := abs_le.1 c_inv24.2
  have c2 := abs_le.1 c_lo.2
  have b0 : 0 < b := by linarith
  set E := (lit 2.4 : F32).val with hE
  set E' := (lit 1 /. lit 2.4 : F32).val with hE'
  have lower : 0.0032 ≤ b ^ E := by
    have q1 : (0.0929 : ℝ) ^ (2.41 : ℝ) ≤ b ^ E := by
      calc (0.0929 : ℝ) ^ (2.41 : ℝ) ≤ (0.0929 : ℝ) ^ E :=
            Real.rpow_le_rpow_of_exponent_ge (by norm_num) (by norm_num) (by linarith)
        _ ≤ b ^ E := Real.rpow_le_rpow (by norm_num) b1 (by linarith)
    refine le_trans ?_ q1
    by_contra hc
    have := pow_lt_pow_left₀ (not_le.1 hc) (Real.rpow_nonneg (by norm_num) _) (n := 100) (by norm_num)
    rw [← Real.rpow_natCast, ← Real.rpow_mul (by norm_num), show (2.41 : ℝ) * ((100 : Nat) : ℝ) = ((241 : Nat) : ℝ) by norm_num,
      Real.rpow_natCast] at this
    norm_num at this
  have upper : b ^ E ≤ 1.4 := by
    calc b ^ E ≤ (1.1 : ℝ) ^ E := Real.rpow_le_rpow b0.le b2 (by linarith)
      _ ≤ (1.1 : ℝ) ^ (3 : ℝ) := Real.rpow_le_rpow_of_exponent_le (by norm_num) (by linarith)
      _ ≤ 1.4 := by rw [show (3 : ℝ) = ((3 : Nat) : ℝ) by norm_num, Real.rpow_natCast]; norm_num
  have x1 : 0.00319 ≤ (dec1 (getNorm n)).val := by rw [hv]; exact (real1 lower upper hd'.1 hd'.2).1
  have x2 : (dec1 (getNorm n)).val ≤ 2 := by rw [hv]; exact (real1 lower upper hd'.1 hd'.2).2
  have pw := hp _ (lit 1 /. lit 2.4) hf c_inv24.1 (by change _ ≤ F32.val _; linarith) (by change F32.val _ ≤ _; linarith)
    (by change _ ≤ F32.val _; linarith) (by change F32.val _ ≤ _; linarith)
  obtain ⟨d2, hd2, he2⟩ := rel_split (Real.rpow_pos_of_pos (by linarith : 0 < (dec1 (getNorm n)).val) E') (pw.2.trans_eq (div_eq_mul_one_div _ _))
  have hprod : |E * E' - 1| ≤ 1 / 2 ^ 20 := by
    exact real2 c_24.2 c_inv24.2
  obtain ⟨k, hk, ek⟩ := pow_pow (by linarith : 0.09 ≤ b) b2 hprod (by rw [abs_le]; constructor <;> linarith) hd (by norm_num)
  have hk' := abs_le.1 hk
  have hd2' := abs_le.1 hd2
  have q : Approx (FltT.pow (dec1 (getNorm n)) (lit 1 /. lit 2.4)) (((n.toNat : ℝ) / 255 + 0.055) * (1 / 1.055)) (1 / 10000) := by
    refine ⟨pw.1, ?_⟩
    change _ = _ at he2
    have : (FltT.pow (dec1 (getNorm n)) (lit 1 /. lit 2.4)).val = b * (1 + k) * (1 + d2) := by
      rw [← ek, ← hv]; exact he2
    rw [this]
    exact real3 hk hd2 b0.le b2 hb
  unfold enc1
  rw [le_false hf c_lo.1 (by linarith), if_neg Bool.false_ne_true]
  have r := (q.fma t c_1055 c_m055 1.1 1.1 2 2 ?_ ?_ (by norm_num) ?_ (by norm_num) (by norm_num)).mono (e' := 1 / 2000)
    (by unfold ulp; norm_num)
  · exact r.of_eq (by ring)
  · rw [abs_of_nonneg (by positivity)]; norm_num; linarith
  · rw [abs_of_nonneg (by norm_num)]; norm_num
  · rw [abs_of_nonneg (by norm_num; linarith)]; unfold ulp; norm_num; linarith

private theorem lane (hp : PowAccurate FltT.pow) (t : FTarget) (n : BitVec 8) :
    Approx (enc1 t (dec1 (getNorm n))) ((n.toNat : ℝ) / 255) (1 / 2000) := by
  rcases Nat.lt_or_ge n.toNat 11 with h | h
  · exact lane_dark t n (by omega)
  · exact lane_bright hp t n h

private theorem top_mask (b : Bool) : top (mask b) = b := by cases b <;> rfl
private theorem sel_le (v c h l : V4 F32) : V4.select (V4.cmp Flt.le v c) h l =
    ⟨if v.x <=. c.x then h.x else l.x, if v.y <=. c.y then h.y else l.y, if v.z <=. c.z then h.z else l.z,
      if v.w <=. c.w then h.w else l.w⟩ := by
  simp only [V4.select, V4.cmp, V4.map2, top_mask]

/-- **C102**: a color converted to linear values and back is the same color, whatever the platform's `std::pow`, as long
as it is accurate, with and without fused multiply-add. -/
theorem color_linear_roundtrip (hp : PowAccurate FltT.pow) (t : FTarget) (contract : Bool) (c : Color) :
    fromLinear t contract (toLinear c) = some c := by
  have hr := quantize_near (lane hp t c.r) contract
  have hg := quantize_near (lane hp t c.g) contract
  have hb := quantize_near (lane hp t c.b) contract
  have ha := quantize_near ((norm_approx c.a).mono (e' := 1 / 2000) (by norm_num)) contract
  have key : rgbToSrgb32 t (toLinear c) =
      ⟨enc1 t (dec1 (getNorm c.r)), enc1 t (dec1 (getNorm c.g)), enc1 t (dec1 (getNorm c.b)), getNorm c.a⟩ := by
    unfold rgbToSrgb32 toLinear ColorSpace.srgbToRgb
    simp only [sel_le]
    rfl
  unfold fromLinear
  simp only [key, ofLanes4, hr, hg, hb, ha]

private theorem dec_bright_close {b b0 E d : ℝ} (h : |b - b0| ≤ 1 / 2 ^ 20) (h1 : 0.0929 ≤ b) (h1' : 0.0929 ≤ b0) (h2 : b0 ≤ 1.1)
    (hE : |E - 2.4| ≤ 1 / 2 ^ 23) (hd : |d| ≤ 1 / 2 ^ 20) : |b ^ E * (1 + d) - b0 ^ (2.4 : ℝ)| ≤ b0 ^ (2.4 : ℝ) / 2 ^ 12 := by
  have hb : 0 < b := by linarith
  have hb0 : 0 < b0 := by linarith
  have hd' := abs_le.1 hd
  have hp : 0 < b0 ^ (2.4 : ℝ) := Real.rpow_pos_of_pos hb0 _
  have hr : |b / b0 - 1| ≤ 1 / 2 ^ 16 := by
    rw [show b / b0 - 1 = (b - b0) / b0 by field_simp, abs_div, abs_of_pos hb0, div_le_iff₀ hb0]
    refine h.trans ?_
    have : (1 / 2 ^ 16 : ℝ) * 0.0929 ≤ 1 / 2 ^ 16 * b0 := by gcongr
    refine le_trans ?_ this; norm_num
  have l1 : |Real.log b - Real.log b0| ≤ 2 * (1 / 2 ^ 16) := by
    rw [← Real.log_div hb.ne' hb0.ne', show b / b0 = 1 + (b / b0 - 1) by ring]
    exact abs_log1 hr (by norm_num)
  have l2 := abs_log (by linarith : 0.09 ≤ b0) h2
  have l3 := abs_log1 hd (by norm_num)
  have e : b ^ E * (1 + d) = b0 ^ (2.4 : ℝ) *
      Real.exp (E * (Real.log b - Real.log b0) + (E - 2.4) * Real.log b0 + Real.log (1 + d)) := by
    rw [Real.rpow_def_of_pos hb, Real.rpow_def_of_pos hb0]
    conv_lhs => rw [← Real.exp_log (by linarith : 0 < 1 + d)]
    rw [← Real.exp_add, ← Real.exp_add]; congr 1; ring
  have hE' := abs_le.1 hE
  have b1 : |E * (Real.log b - Real.log b0)| ≤ 2.5 * (2 * (1 / 2 ^ 16)) := by
    rw [abs_mul]; exact mul_le_mul (by rw [abs_le]; constructor <;> linarith) l1 (abs_nonneg _) (by norm_num)
  have b2 : |(E - 2.4) * Real.log b0| ≤ 1 / 2 ^ 23 * 11 := by
    rw [abs_mul]; exact mul_le_mul hE l2 (abs_nonneg _) (by norm_num)
  have b3 := abs_add_le (E * (Real.log b - Real.log b0) + (E - 2.4) * Real.log b0) (Real.log (1 + d))
  have b4 := abs_add_le (E * (Real.log b - Real.log b0)) ((E - 2.4) * Real.log b0)
  have b5 : |E * (Real.log b - Real.log b0) + (E - 2.4) * Real.log b0 + Real.log (1 + d)| ≤ 1 / 2 ^ 13 := by linarith
  have b6 := Real.abs_exp_sub_one_le (b5.trans (by norm_num : (1 / 2 ^ 13 : ℝ) ≤ 1))
  rw [e, show ∀ x y : ℝ, x * y - x = x * (y - 1) by intros; ring, abs_mul, abs_of_pos hp, div_eq_mul_one_div]
  refine mul_le_mul_of_nonneg_left (b6.trans ?_) hp.le
  linarith

private theorem dec_zero (n : BitVec 8) (h : n.toNat = 0) : dec1 (getNorm n) = ⟨0⟩ := by
  have : n = 0 := BitVec.eq_of_toNat_eq h
  subst this
  have e : (getNorm 0 <=. (lit 0.04045 : F32)) = true := by decide +kernel
  unfold dec1; rw [e, if_pos rfl]; decide +kernel

private theorem dec_accurate (hp : PowAccurate FltT.pow) (n : BitVec 8) :
    Near (dec1 (getNorm n)) (srgbDec ((n.toNat : ℝ) / 255)) (srgbDec ((n.toNat : ℝ) / 255) / 2 ^ 12) := by
  have hn0 : (0 : ℝ) ≤ n.toNat := Nat.cast_nonneg _
  rcases Nat.lt_or_ge n.toNat 11 with h | h
  · have h' : (n.toNat : ℝ) ≤ 10 := by exact_mod_cast Nat.le_of_lt_succ h
    have e : srgbDec ((n.toNat : ℝ) / 255) = (n.toNat : ℝ) / 255 * (1 / 12.92) := by
      unfold srgbDec; rw [if_pos (by linarith)]; ring
    rw [e]
    rcases Nat.eq_zero_or_pos n.toNat with z | z
    · rw [dec_zero n z, z]
      refine ⟨by decide, ?_⟩
      have : rv ⟨0⟩ = 0 := by
        unfold rv; rw [(F32.toRat_zero_iff _).2 (by decide)]; simp
      rw [this]; simp
    · have z' : (1 : ℝ) ≤ n.toNat := by exact_mod_cast z
      have s := dec_dark n (by omega)
      refine ⟨s.1, s.2.trans ?_⟩
      norm_num; linarith
  · have h' : (11 : ℝ) ≤ n.toNat := by exact_mod_cast h
    have h2 := byte_le n
    have e : srgbDec ((n.toNat : ℝ) / 255) = (((n.toNat : ℝ) / 255 + 0.055) * (1 / 1.055)) ^ (2.4 : ℝ) := by
      unfold srgbDec; rw [if_neg (by linarith)]; congr 1; ring
    obtain ⟨b, d, hb, b1, b2, hd, hf, hv⟩ := dec_bright hp n h
    rw [e]
    refine ⟨hf, ?_⟩
    change |F32.val _ - _| ≤ _
    rw [hv]
    exact dec_bright_close hb b1 (by linarith) (by linarith) c_24.2 hd

/-- **C102**: every channel of the linear color is within one part in 4096 of the sRGB standard's value, and alpha is the
normalised byte. -/
theorem color_linear_accurate (hp : PowAccurate FltT.pow) (c : Color) :
    Near (toLinear c).x (srgbDec ((c.r.toNat : ℝ) / 255)) (srgbDec ((c.r.toNat : ℝ) / 255) / 2 ^ 12) ∧
    Near (toLinear c).y (srgbDec ((c.g.toNat : ℝ) / 255)) (srgbDec ((c.g.toNat : ℝ) / 255) / 2 ^ 12) ∧
    Near (toLinear c).z (srgbDec ((c.b.toNat : ℝ) / 255)) (srgbDec ((c.b.toNat : ℝ) / 255) / 2 ^ 12) ∧
    Near (toLinear c).w ((c.a.toNat : ℝ) / 255) (1 / 2 ^ 22) := by
  have key : toLinear c = ⟨dec1 (getNorm c.r), dec1 (getNorm c.g), dec1 (getNorm c.b), getNorm c.a⟩ := by
    unfold toLinear ColorSpace.srgbToRgb
    simp only [sel_le]
    rfl
  rw [key]
  exact ⟨dec_accurate hp c.r, dec_accurate hp c.g, dec_accurate hp c.b, norm_approx c.a⟩

/-- With fused multiply-add the binary32 model is the generic one. -/
theorem rgbToSrgb32_fused (v : V4 F32) : rgbToSrgb32 (.sse true) v = ColorSpace.rgbToSrgb v := by
  unfold rgbToSrgb32 ColorSpace.rgbToSrgb
  simp only [sel_le]
  rfl

end lanes

/-! ## An accurate `pow` exists -/

private theorem near_exists {y : ℝ} (h1 : 1 / 2 ^ 40 ≤ y) (h2 : y ≤ 2 ^ 40) : ∃ r : F32, r.isFinite = true ∧ |rv r - y| ≤ y / 2 ^ 20 := by
  have hy : 0 < y := lt_of_lt_of_le (by norm_num) h1
  obtain ⟨q, q1, q2⟩ := exists_rat_btwn (show y < y + y / 2 ^ 22 by linarith [show 0 < y / 2 ^ 22 by positivity])
  have a := lit_approx q (2 * y) (by rw [abs_le]; norm_num at *; constructor <;> linarith) (by norm_num at *; linarith)
  refine ⟨_, a.1, ?_⟩
  have a2 := abs_le.1 a.2
  change |F32.val _ - _| ≤ _
  have u : ulp (2 * y) ≤ y / 2 ^ 22 := by unfold ulp; norm_num at *; linarith
  rw [abs_le]; norm_num at *; constructor <;> linarith

theorem powAccurate_exists : ∃ pow, PowAccurate pow := by
  have key : ∀ b e : F32, ∃ r : F32, b.isFinite = true → e.isFinite = true → 1 / 2 ^ 10 ≤ rv b → rv b ≤ 2 → 0 ≤ rv e → rv e ≤ 3 →
      r.isFinite = true ∧ |rv r - rv b ^ rv e| ≤ rv b ^ rv e / 2 ^ 20 := by
    intro b e
    by_cases h : 1 / 2 ^ 10 ≤ rv b ∧ rv b ≤ 2 ∧ 0 ≤ rv e ∧ rv e ≤ 3
    · obtain ⟨h1, h2, h3, h4⟩ := h
      have lo : 1 / 2 ^ 40 ≤ rv b ^ rv e := by
        calc (1 / 2 ^ 40 : ℝ) ≤ (1 / 2 ^ 10 : ℝ) ^ (3 : ℝ) := by
              rw [show (3 : ℝ) = ((3 : Nat) : ℝ) by norm_num, Real.rpow_natCast]; norm_num
          _ ≤ (1 / 2 ^ 10 : ℝ) ^ rv e := Real.rpow_le_rpow_of_exponent_ge (by norm_num) (by norm_num) h4
          _ ≤ _ := Real.rpow_le_rpow (by norm_num) h1 h3
      have hi : rv b ^ rv e ≤ 2 ^ 40 := by
        calc rv b ^ rv e ≤ (2 : ℝ) ^ rv e := Real.rpow_le_rpow (by linarith [show (0 : ℝ) < 1 / 2 ^ 10 by norm_num]) h2 h3
          _ ≤ (2 : ℝ) ^ (3 : ℝ) := Real.rpow_le_rpow_of_exponent_le (by norm_num) h4
          _ ≤ 2 ^ 40 := by rw [show (3 : ℝ) = ((3 : Nat) : ℝ) by norm_num, Real.rpow_natCast]; norm_num
      obtain ⟨r, hr⟩ := near_exists lo hi
      exact ⟨r, fun _ _ _ _ _ _ => hr⟩
    · exact ⟨⟨0⟩, fun _ _ h1 h2 h3 h4 => (h ⟨h1, h2, h3, h4⟩).elim⟩
  choose f hf using key
  exact ⟨f, hf⟩

/-- Non-vacuity: a platform whose `pow` meets the assumption; there the color (200, 10, 11, 128) comes back. -/
example : ∃ inst : FltT F32, PowAccurate FltT.pow ∧
    @fromLinear inst (.sse true) false (@toLinear inst ⟨200, 10, 11, 128⟩) = some ⟨200, 10, 11, 128⟩ := by
  obtain ⟨p, hp⟩ := powAccurate_exists
  let inst : FltT F32 := ⟨p, id, id, id, id, id, id, id, fun x _ => x, fun x _ => x, id, fun _ => false⟩
  exact ⟨inst, hp, color_linear_roundtrip hp _ _ _⟩

end Verif.ColorLinear
