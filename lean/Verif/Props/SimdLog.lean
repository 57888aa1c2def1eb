import Verif.Props.SimdSinCos
import Mathlib.Analysis.SpecialFunctions.Log.Deriv

/-!
# C81: the SIMD logarithm
-/

namespace Verif
open F32

/-- Division. -/
theorem approx_div {a b : F32} {x y e1 e2 : ℝ} (ha : Approx a x e1) (hb : Approx b y e2) (Z L : ℝ) (hZ : |x / y| ≤ Z) (hL : 0 < L)
    (hy : L ≤ y - e2) (hy0 : 0 < y) (hM : Z + (e1 + Z * e2) / L < 2 ^ 127) :
    Approx (fdiv a b) (x / y) ((e1 + Z * e2) / L + ulp (Z + (e1 + Z * e2) / L)) := by
  have hb' := abs_le.1 hb.2
  have hbL : L ≤ b.val := by linarith
  have hb0 : 0 < b.val := by linarith
  have h1 : |a.val / b.val - x / y| ≤ (e1 + Z * e2) / L := by
    have e : a.val / b.val - x / y = ((a.val - x) - x / y * (b.val - y)) / b.val := by field_simp; ring
    rw [e, abs_div, abs_of_pos hb0]
    have hZ0 := (abs_nonneg _).trans hZ
    have hn : |(a.val - x) - x / y * (b.val - y)| ≤ e1 + Z * e2 := by
      refine (abs_sub _ _).trans (add_le_add ha.2 ?_)
      rw [abs_mul]; exact mul_le_mul hZ hb.2 (abs_nonneg _) hZ0
    exact div_le_div₀ ((abs_nonneg _).trans hn) hn hL hbL
  have h2 : |a.val / b.val| ≤ Z + (e1 + Z * e2) / L := by
    have := abs_add_le (a.val / b.val - x / y) (x / y); rw [sub_add_cancel] at this; linarith
  exact ((fdiv_approx ha.1 hb.1 hb0.ne' h2 hM).trans h1).mono (by linarith)

/-- The bits of a positive normal number. -/
theorem val_of_bits {v : F32} {E f : Nat} (h : v.bits.toNat = E * 2 ^ 23 + f) (hf : f < 2 ^ 23) (hE1 : 1 ≤ E) (hE2 : E ≤ 254) :
    v.isFinite = true ∧ v.val = (2 ^ 23 + f) * (2 : ℝ) ^ ((E : Int) - 150) := by
  have hmag : v.mag = E * 2 ^ 23 + f := by unfold mag; rw [h]; omega
  have hsg : v.signBit = false := by
    have h2 := toNat_eq v
    rw [hmag, h] at h2
    by_contra hc
    rw [Bool.not_eq_false] at hc
    rw [hc] at h2; simp at h2
  refine ⟨by unfold isFinite; rw [hmag]; unfold infMag; exact decide_eq_true (by omega), ?_⟩
  rw [val_units]; unfold units
  rw [if_neg (by simp [hsg]), hmag]
  have : magUnits (E * 2 ^ 23 + f) = (2 ^ 23 + f) * 2 ^ (E - 1) := by
    unfold magUnits
    rw [show (E * 2 ^ 23 + f) / 2 ^ 23 = E by omega, show (E * 2 ^ 23 + f) % 2 ^ 23 = f by omega, if_neg (by omega)]
  obtain ⟨k, hk⟩ : ∃ k, E = k + 1 := ⟨E - 1, by omega⟩
  rw [this, hk, show k + 1 - 1 = k by omega, show ((k + 1 : Nat) : Int) - 150 = (k : Int) - 149 by push_cast; ring, zpow_sub₀ (by norm_num),
    zpow_natCast, show ((2 : ℝ) ^ (149 : Int)) = 2 ^ 149 by norm_cast, Int.cast_natCast, Nat.cast_mul, Nat.cast_pow, Nat.cast_add,
    Nat.cast_pow, Nat.cast_ofNat, mul_div_assoc]

/-- Magnitude bounds from the exponent field. -/
theorem val_range {x : ℝ} {E f : Nat} (h : x = (2 ^ 23 + f) * (2 : ℝ) ^ ((E : Int) - 150)) (hf : f < 2 ^ 23) :
    (2 : ℝ) ^ ((E : Int) - 127) ≤ x ∧ x < (2 : ℝ) ^ ((E : Int) - 126) := by
  have hf' : (f : ℝ) < 2 ^ 23 := by exact_mod_cast hf
  have hp : (0 : ℝ) < (2 : ℝ) ^ ((E : Int) - 150) := by positivity
  have e1 : (2 : ℝ) ^ ((E : Int) - 127) = 2 ^ 23 * (2 : ℝ) ^ ((E : Int) - 150) := by
    rw [show ((E : Int) - 127) = 23 + ((E : Int) - 150) by ring, zpow_add₀ (by norm_num)]; norm_cast
  have e2 : (2 : ℝ) ^ ((E : Int) - 126) = 2 ^ 24 * (2 : ℝ) ^ ((E : Int) - 150) := by
    rw [show ((E : Int) - 126) = 24 + ((E : Int) - 150) by ring, zpow_add₀ (by norm_num)]; norm_cast
  rw [e1, e2, h]
  have : (0 : ℝ) ≤ f := by positivity
  constructor
  · gcongr; linarith
  · gcongr; linarith

theorem pos_sign {v : F32} (h : 0 < v.val) : v.signBit = false := by
  by_contra hc
  rw [Bool.not_eq_false] at hc
  have := (F32x4.sign_of_val h.ne').1 hc
  linarith

theorem pos_bits {v : F32} (h : v.signBit = false) : v.bits.toNat = v.mag := by
  have h2 := toNat_eq v
  rw [h] at h2; simpa using h2

/-- The exponent field and fraction of a positive normal number. -/
theorem bits_of_val {v : F32} (hv : v.isFinite = true) (h : (2 : ℝ) ^ (-126 : Int) ≤ v.val) :
    ∃ E f : Nat, v.bits.toNat = E * 2 ^ 23 + f ∧ f < 2 ^ 23 ∧ 1 ≤ E ∧ E ≤ 254 := by
  have hpos : 0 < v.val := lt_of_lt_of_le (by positivity) h
  have hb := pos_bits (pos_sign hpos)
  have hm : v.mag < infMag := of_decide_eq_true hv
  unfold infMag at hm
  refine ⟨v.mag / 2 ^ 23, v.mag % 2 ^ 23, by rw [hb]; omega, by omega, ?_, by omega⟩
  by_contra hc
  have h0 : v.mag < 2 ^ 23 := by omega
  rw [val_units] at h
  unfold units at h
  rw [if_neg (by simp [pos_sign hpos])] at h
  have h1 : magUnits v.mag < 2 ^ 23 := by
    unfold magUnits; rw [if_pos (by omega)]; omega
  have h2 : ((magUnits v.mag : Int) : ℝ) < 2 ^ 23 := by
    rw [Int.cast_natCast]; exact_mod_cast h1
  have h3 : ((magUnits v.mag : Int) : ℝ) / 2 ^ 149 < 2 ^ 23 / 2 ^ 149 := by gcongr
  have h4 : (2 : ℝ) ^ 23 / 2 ^ 149 = (2 : ℝ) ^ (-126 : Int) := by norm_num
  linarith

namespace F32x4

/-- The exponent extracted by `log`. -/
def logE (v : F32) : W := (((fmul v (fdiv (ofRat 1) (ofRat (3 / 4)))).bits >>> 23) &&& 0xFF#32) - 0x7F#32
/-- The polynomial part of `log`. -/
def logX (t : FTarget) (m : F32) (ef : F32) : F32 :=
  let x := fdiv (fsub m (ofRat 1)) (fadd m (ofRat 1))
  let x2 := fmul x x
  fma1 t x (fma1 t (fma1 t (fma1 t (fma1 t (fma1 t (ofRat 0.2392828464508056640625) x2 (ofRat 0.28518211841583251953125)) x2
    (ofRat 0.400005877017974853515625)) x2 (ofRat 0.28518211841583251953125)) x2 (ofRat 0.666666686534881591796875)) x2 (ofRat 2))
    (fmul (ofRat 0.693147180559945286226764) ef)

theorem log1_eq (t : FTarget) (v0 : F32) : log1 t v0 =
    (let o := mask (ltb v0 ⟨0x00800000⟩)
     let v := sel o (fmul v0 (fmul (ofNat (2 ^ 32)) (ofNat (2 ^ 32)))) v0
     sel (mask (eqb v (zero false))) (inf true)
      (sel (mask (ltb v (zero false)) ||| mask (eqb v nan)) nan
       (sel (mask (eqb v (inf false)) ||| mask (eqb v (inf true))) (inf true)
        (logX t ⟨v.bits + ((-(logE v)) <<< 23)⟩ (ofU t (sel o (logE v - 64#32) (logE v))))))) := rfl

/-- The polynomial. -/
noncomputable def logP (x : ℝ) : ℝ :=
  x * (((((0.2392828464508056640625 * (x * x) + 0.28518211841583251953125) * (x * x) + 0.400005877017974853515625) * (x * x) +
    0.28518211841583251953125) * (x * x) + 0.666666686534881591796875) * (x * x) + 2)

theorem logP_log {z : ℝ} (h : |z| ≤ 0.2001) : |logP z - (Real.log (1 + z) - Real.log (1 - z))| ≤ 3.9e-5 := by
  have h1 := Real.abs_log_sub_add_sum_range_le (x := z) (by linarith) 10
  have h2 := Real.abs_log_sub_add_sum_range_le (x := -z) (by rw [abs_neg]; linarith) 10
  rw [abs_neg, sub_neg_eq_add] at h2
  have hz := abs_nonneg z
  have hr : |z| ^ (10 + 1) / (1 - |z|) ≤ 0.2001 ^ 11 / 0.7999 := by
    apply div_le_div₀ (by norm_num) (pow_le_pow_left₀ hz h 11) (by norm_num); linarith
  have h1' := abs_le.1 (h1.trans hr)
  have h2' := abs_le.1 (h2.trans hr)
  simp only [Finset.sum_range_succ, Finset.sum_range_zero] at h1' h2'
  have p : ∀ n : Nat, |z ^ n| ≤ 0.2001 ^ n := fun n => by rw [abs_pow]; exact pow_le_pow_left₀ hz h n
  have q3 := abs_le.1 (p 3)
  have q5 := abs_le.1 (p 5)
  have q7 := abs_le.1 (p 7)
  have q9 := abs_le.1 (p 9)
  have q11 := abs_le.1 (p 11)
  have e : logP z = 2 * z + 0.666666686534881591796875 * z ^ 3 + 0.28518211841583251953125 * z ^ 5 + 0.400005877017974853515625 * z ^ 7 +
      0.28518211841583251953125 * z ^ 9 + 0.2392828464508056640625 * z ^ 11 := by unfold logP; ring
  have o3 : (-z) ^ 3 = -(z ^ 3) := by ring
  have o5 : (-z) ^ 5 = -(z ^ 5) := by ring
  have o7 : (-z) ^ 7 = -(z ^ 7) := by ring
  have o9 : (-z) ^ 9 = -(z ^ 9) := by ring
  norm_num at h1' h2' q3 q5 q7 q9 q11
  rw [o3, o5, o7, o9] at h2'
  rw [e, abs_le]
  norm_num
  constructor <;> linarith [h1'.1, h1'.2, h2'.1, h2'.2, q3.1, q3.2, q5.1, q5.2, q7.1, q7.2, q9.1, q9.2, q11.1, q11.2]

theorem lit_two : (ofRat 2).isFinite = true ∧ (ofRat 2).val = 2 := by
  have := lit_exact (q := 2) (U := 2 ^ 150) (by decide +kernel) (by decide +kernel)
  refine ⟨this.1, ?_⟩
  rw [this.2]; push_cast; norm_num

/-- The rounding errors of the polynomial part. -/
theorem logX_approx (t : FTarget) {m ef : F32} (hm : m.isFinite = true) (h1 : 0.7499 ≤ m.val) (h2 : m.val ≤ 1.5001) (hf : ef.isFinite = true)
    {e : Int} (he : ef.val = e) (hb : |e| ≤ 150) : Approx (logX t m ef) (Real.log m.val + e * Real.log 2) 6e-5 := by
  have L1 : Approx (ofRat 1) 1 0 := ⟨lit_one.1, by rw [lit_one.2]; simp⟩
  have L2 : Approx (ofRat 2) 2 0 := ⟨lit_two.1, by rw [lit_two.2]; simp⟩
  have M := Approx.self hm
  have hbr : |(e : ℝ)| ≤ 150 := by rw [← Int.cast_abs]; exact_mod_cast hb
  have EF : Approx ef (e : ℝ) 0 := ⟨hf, by rw [he]; simp⟩
  generalize m.val = y at *
  have hy1 : |y - 1| ≤ 0.5001 := by rw [abs_le]; constructor <;> linarith
  have n := (M.sub L1 0.5001 (by linarith) (by norm_num)).mono (e' := 3e-8) (by unfold ulp; norm_num)
  have hy2 : |y + 1| ≤ 2.5001 := by rw [abs_le]; constructor <;> linarith
  have d := (M.add L1 2.5001 (by linarith) (by norm_num)).mono (e' := 1.5e-7) (by unfold ulp; norm_num)
  have hz : |(y - 1) / (y + 1)| ≤ 0.2001 := by
    rw [abs_div, abs_of_pos (by linarith : 0 < y + 1), div_le_iff₀ (by linarith), abs_le]
    constructor <;> linarith
  have x := (approx_div n d 0.2001 1.7498 hz (by norm_num) (by linarith) (by linarith) (by norm_num)).mono (e' := 5e-8) (by unfold ulp; norm_num)
  have hlog : Real.log y = Real.log (1 + (y - 1) / (y + 1)) - Real.log (1 - (y - 1) / (y + 1)) := by
    have hp : 0 < y + 1 := by linarith
    rw [show 1 + (y - 1) / (y + 1) = y * (2 / (y + 1)) by field_simp; ring, show 1 - (y - 1) / (y + 1) = 2 / (y + 1) by field_simp; ring,
      Real.log_mul (by linarith) (by positivity)]
    ring
  have hpoly := logP_log hz
  rw [← hlog] at hpoly
  unfold logX
  simp only
  generalize fdiv (fsub m (ofRat 1)) (fadd m (ofRat 1)) = fx at x ⊢
  generalize (y - 1) / (y + 1) = z at *
  have q2 : |z * z| ≤ 0.0401 := by
    rw [abs_mul]; exact (mul_le_mul hz hz (abs_nonneg _) (by norm_num)).trans (by norm_num)
  have x2 := (x.mul x 0.2001 0.2001 hz hz (by norm_num)).mono (e' := 2.3e-8) (by unfold ulp; norm_num)
  generalize fmul fx fx = fx2 at x2 ⊢
  have c0 : |(0.2392828464508056640625 : ℝ)| ≤ 0.24 := by rw [abs_of_pos] <;> norm_num
  have c1 : |(0.28518211841583251953125 : ℝ)| ≤ 0.286 := by rw [abs_of_pos] <;> norm_num
  have c2 : |(0.400005877017974853515625 : ℝ)| ≤ 0.401 := by rw [abs_of_pos] <;> norm_num
  have c4 : |(0.666666686534881591796875 : ℝ)| ≤ 0.667 := by rw [abs_of_pos] <;> norm_num
  have c5 : |(2 : ℝ)| ≤ 2 := by rw [abs_of_pos] <;> norm_num
  have l0 := lit_app (q := 0.2392828464508056640625) 0.24 (y := 0.2392828464508056640625) (by push_cast; rfl) c0 (by norm_num)
  have l1 := lit_app (q := 0.28518211841583251953125) 0.286 (y := 0.28518211841583251953125) (by push_cast; rfl) c1 (by norm_num)
  have l2 := lit_app (q := 0.400005877017974853515625) 0.401 (y := 0.400005877017974853515625) (by push_cast; rfl) c2 (by norm_num)
  have l4 := lit_app (q := 0.666666686534881591796875) 0.667 (y := 0.666666686534881591796875) (by push_cast; rfl) c4 (by norm_num)
  have b1 := abs_horner c0 q2 c1
  have a1 := (l0.fma t x2 l1 _ _ 0.01 0.296 c0 q2 (by unfold ulp; norm_num) (le_trans (add_le_add_left b1 _) (by unfold ulp; norm_num)) (by norm_num) (by norm_num)).mono (e' := 1e-7) (by unfold ulp; norm_num)
  have b2 := abs_horner b1 q2 c2
  have a2 := (a1.fma t x2 l2 _ _ 0.02 0.42 b1 q2 (by norm_num) (le_trans (add_le_add_left b2 _) (by unfold ulp; norm_num)) (by norm_num) (by norm_num)).mono (e' := 1e-7) (by unfold ulp; norm_num)
  have b3 := abs_horner b2 q2 c1
  have a3 := (a2.fma t x2 l1 _ _ 0.02 0.31 b2 q2 (by norm_num) (le_trans (add_le_add_left b3 _) (by unfold ulp; norm_num)) (by norm_num) (by norm_num)).mono (e' := 1e-7) (by unfold ulp; norm_num)
  have b4 := abs_horner b3 q2 c4
  have a4 := (a3.fma t x2 l4 _ _ 0.02 0.69 b3 q2 (by norm_num) (le_trans (add_le_add_left b4 _) (by unfold ulp; norm_num)) (by norm_num) (by norm_num)).mono (e' := 1.2e-7) (by unfold ulp; norm_num)
  have b5 := abs_horner b4 q2 c5
  have a5 := (a4.fma t x2 L2 _ _ 0.03 2.04 b4 q2 (by norm_num) (le_trans (add_le_add_left b5 _) (by unfold ulp; norm_num)) (by norm_num) (by norm_num)).mono (e' := 2e-7) (by unfold ulp; norm_num)
  have cl : |(0.693147180559945286226764 : ℝ)| ≤ 0.6932 := by rw [abs_of_pos] <;> norm_num
  have ll := lit_app (q := 0.693147180559945286226764) 0.6932 (y := 0.693147180559945286226764) (by push_cast; rfl) cl (by norm_num)
  have pe := (ll.mul EF 0.6932 150 cl hbr (by unfold ulp; norm_num)).mono (e' := 1.25e-5) (by unfold ulp; norm_num)
  have bpe : |0.693147180559945286226764 * (e : ℝ)| ≤ 103.98 := by
    rw [abs_mul]; exact (mul_le_mul cl hbr (abs_nonneg _) (by norm_num)).trans (by norm_num)
  have b6 := abs_horner hz b5 bpe
  have a6 := (x.fma t a5 pe _ _ 0.42 104.5 hz b5 (by norm_num) (le_trans (add_le_add_left b6 _) (by unfold ulp; norm_num)) (by norm_num) (by norm_num)).mono (e' := 1.9e-5) (by unfold ulp; norm_num)
  have hl2 := abs_le.1 Real.log_two_near_10
  have hfin : |logP z + 0.693147180559945286226764 * (e : ℝ) - (Real.log y + e * Real.log 2)| ≤ 3.95e-5 := by
    rw [show logP z + 0.693147180559945286226764 * (e : ℝ) - (Real.log y + e * Real.log 2) =
      (logP z - Real.log y) + e * (0.693147180559945286226764 - Real.log 2) by ring]
    refine (abs_add_le _ _).trans ?_
    rw [abs_mul]
    have : |0.693147180559945286226764 - Real.log 2| ≤ 1e-9 := by rw [abs_le]; constructor <;> linarith
    exact (add_le_add hpoly (mul_le_mul hbr this (abs_nonneg _) (by norm_num))).trans (by norm_num)
  exact (Approx.trans a6 hfin).mono (by norm_num)

/-- The word left by the exponent extraction. -/
theorem logE_word {r : F32} {Er fr : Nat} (h : r.bits.toNat = Er * 2 ^ 23 + fr) (hf : fr < 2 ^ 23) (hE : Er ≤ 255) :
    ((r.bits >>> 23) &&& 0xFF#32) - 0x7F#32 = BitVec.ofInt 32 ((Er : Int) - 127) := by
  have h1 : (r.bits >>> 23) &&& 0xFF#32 = BitVec.ofNat 32 Er := by
    apply BitVec.eq_of_toNat_eq
    rw [BitVec.toNat_and, BitVec.toNat_ushiftRight, h, Nat.shiftRight_eq_div_pow, show (Er * 2 ^ 23 + fr) / 2 ^ 23 = Er by omega,
      show (0xFF#32).toNat = 2 ^ 8 - 1 from rfl, Nat.and_two_pow_sub_one_eq_mod, BitVec.toNat_ofNat]
    omega
  rw [h1]
  apply BitVec.eq_of_toInt_eq
  rw [BitVec.toInt_sub, BitVec.toInt_ofInt_eq_self (by norm_num) (by omega) (by omega),
    BitVec.toInt_eq_toNat_of_lt (by rw [BitVec.toNat_ofNat]; omega), BitVec.toNat_ofNat, Nat.mod_eq_of_lt (by omega)]
  have : (0x7F#32).toInt = 127 := by decide
  rw [this, Int.bmod_def]
  split <;> omega

/-- The word arithmetic of subtracting an exponent. -/
theorem shift_word {w : BitVec 32} {E f k : Nat} {e : Int} (h : w.toNat = E * 8388608 + f) (hf : f < 8388608) (hE2 : E ≤ 254)
    (hk : (E : Int) = e + k) (hk1 : 126 ≤ k) (hk2 : k ≤ 127) :
    (w + ((-(BitVec.ofInt 32 e)) <<< 23)).toNat = k * 8388608 + f := by
  have he : BitVec.ofInt 32 e + BitVec.ofNat 32 k = BitVec.ofNat 32 E := by
    rw [← BitVec.ofInt_natCast, ← BitVec.ofInt_natCast, ← BitVec.ofInt_add, ← hk]
  have h2 : -(BitVec.ofInt 32 e) = BitVec.ofNat 32 k - BitVec.ofNat 32 E := by
    rw [← he]; generalize BitVec.ofInt 32 e = x; bv_omega
  rw [h2, BitVec.toNat_add, BitVec.toNat_shiftLeft, BitVec.toNat_sub, h, BitVec.toNat_ofNat, BitVec.toNat_ofNat, Nat.shiftLeft_eq]
  norm_num only
  omega

/-- Subtracting an exponent from the bits of a number divides it by a power of two. -/
theorem shift_bits {v : F32} {E f : Nat} (h : v.bits.toNat = E * 2 ^ 23 + f) (hf : f < 2 ^ 23) (hE1 : 1 ≤ E) (hE2 : E ≤ 254) {e : Int}
    (h1 : e + 126 ≤ E) (h2 : (E : Int) ≤ e + 127) :
    (⟨v.bits + ((-(BitVec.ofInt 32 e)) <<< 23)⟩ : F32).isFinite = true ∧
    (⟨v.bits + ((-(BitVec.ofInt 32 e)) <<< 23)⟩ : F32).val = v.val * (2 : ℝ) ^ (-e) := by
  obtain ⟨k, hk⟩ : ∃ k : Nat, (E : Int) = e + k := ⟨((E : Int) - e).toNat, by omega⟩
  have hk1 : 126 ≤ k := by omega
  have hk2 : k ≤ 127 := by omega
  have hb := shift_word (w := v.bits) (k := k) (e := e) (by rw [h]; norm_num) hf hE2 hk hk1 hk2
  generalize v.bits + ((-(BitVec.ofInt 32 e)) <<< 23) = w at hb ⊢
  obtain ⟨f1, v1⟩ := val_of_bits (v := ⟨w⟩) (E := k) (f := f) (by rw [hb]; norm_num) hf (by omega) (by omega)
  obtain ⟨_, v2⟩ := val_of_bits h hf hE1 hE2
  refine ⟨f1, ?_⟩
  rw [v1, v2, mul_assoc, ← zpow_add₀ (by norm_num)]
  have : (k : Int) - 150 = (E : Int) - 150 + -e := by omega
  rw [this]

theorem four_thirds : fdiv (ofRat 1) (ofRat (3 / 4)) = ⟨0x3FAAAAAB⟩ := by decide +kernel
theorem four_thirds_val : (⟨0x3FAAAAAB⟩ : F32).isFinite = true ∧ (⟨0x3FAAAAAB⟩ : F32).val = 11184811 / 2 ^ 23 := by
  refine ⟨by decide, ?_⟩
  have h := val_of_bits (v := ⟨0x3FAAAAAB⟩) (E := 127) (f := 2796203) (by decide) (by norm_num) (by norm_num) (by norm_num)
  rw [h.2]; norm_num

theorem maxRat_val : ((maxRat : Rat) : ℝ) = (2 ^ 24 - 1) * 2 ^ 104 := by
  rw [maxRat_eq]
  have h : magUnits (infMag - 1) = (2 ^ 24 - 1) * 2 ^ 253 := by decide +kernel
  rw [h]; push_cast; norm_num

/-- The magnitude of a product of positive numbers. -/
theorem fmul_mag {a b : F32} (ha : a.isFinite = true) (hb : b.isFinite = true) (h : 0 < a.val * b.val) :
    (fmul a b).signBit = false ∧ (fmul a b).mag = roundMag (a.units * b.units).natAbs (2 ^ 149) ∧ 0 < a.units * b.units := by
  have hu : (0 : ℝ) < ((a.units * b.units : Int) : ℝ) := by
    rw [Int.cast_mul, units_val, units_val, show a.val * 2 ^ 149 * (b.val * 2 ^ 149) = a.val * b.val * (2 ^ 149 * 2 ^ 149) by ring]
    positivity
  have hpos : 0 < a.units * b.units := Int.cast_pos.1 hu
  obtain ⟨na, ia⟩ := finite_notNaN ha
  obtain ⟨nb, ib⟩ := finite_notNaN hb
  unfold fmul
  rw [na, ia, nb, ib]
  simp only [Bool.or_self, Bool.false_eq_true, if_false]
  rw [if_neg hpos.ne']
  generalize a.units * b.units = z at hpos
  have hr : roundMag z.natAbs (2 ^ 149) ≤ infMag := by unfold roundMag; dsimp only; split <;> omega
  have h31 : roundMag z.natAbs (2 ^ 149) < 2 ^ 31 := lt_of_le_of_lt hr (by decide)
  unfold roundUnits
  rw [decide_eq_false (not_lt.2 hpos.le)]
  exact ⟨ofParts_signBit _ _ h31, ofParts_mag _ _ h31, hpos⟩

/-- Exponent and significand of a positive normal number. -/
theorem log_split {v : F32} (hv : v.isFinite = true) (h : (2 : ℝ) ^ (-126 : Int) ≤ v.val) :
    ∃ e : Int, logE v = BitVec.ofInt 32 e ∧ -126 ≤ e ∧ e ≤ 128 ∧ 0.7499 * (2 : ℝ) ^ e ≤ v.val ∧ v.val ≤ 1.5001 * (2 : ℝ) ^ e := by
  have hpos : 0 < v.val := lt_of_lt_of_le (by positivity) h
  unfold logE
  rw [four_thirds]
  obtain ⟨fc, vc⟩ := four_thirds_val
  generalize (⟨0x3FAAAAAB⟩ : F32) = c at *
  have hp0 : 0 < v.val * c.val := by rw [vc]; positivity
  by_cases hmax : v.val * c.val < ((maxRat : Rat) : ℝ)
  · have er : v.val * c.val = ((v.toRat * c.toRat : Rat) : ℝ) := by unfold val; push_cast; rfl
    have habs : |v.toRat * c.toRat| < maxRat := by
      have : ((|v.toRat * c.toRat| : Rat) : ℝ) < ((maxRat : Rat) : ℝ) := by
        rw [Rat.cast_abs, ← er, abs_of_pos hp0]; exact hmax
      exact_mod_cast this
    have hn := fmul_nearest hv fc habs.le
    rw [← er] at hn
    have herr := hn.err (by rw [abs_of_pos hp0]; exact hmax)
    have fr : (fmul v c).isFinite = true := hn.1
    change |(fmul v c).val - v.val * c.val| ≤ _ at herr
    rw [abs_of_pos hp0] at herr
    generalize fmul v c = r at *
    have hbig : (1 : ℝ) / 2 ^ 150 ≤ v.val * c.val / 2 ^ 24 := by
      rw [vc]
      have : (2 : ℝ) ^ (-126 : Int) = 1 / 2 ^ 126 := by rw [zpow_neg]; norm_num
      rw [this] at h
      norm_num at h ⊢
      linarith
    rw [max_eq_left hbig, vc] at herr
    obtain ⟨a1, a2⟩ := abs_le.1 herr
    have hr : (2 : ℝ) ^ (-126 : Int) ≤ r.val := by
      norm_num only at a1
      linarith
    obtain ⟨Er, fr', hb, hf, hE1, hE2⟩ := bits_of_val fr hr
    obtain ⟨b1, b2⟩ := val_range (val_of_bits hb hf hE1 hE2).2 hf
    refine ⟨(Er : Int) - 127, logE_word hb hf (by omega), by omega, by omega, ?_, ?_⟩
    · norm_num only at a2
      linarith
    · rw [show (Er : Int) - 126 = ((Er : Int) - 127) + 1 by ring, zpow_add_one₀ (by norm_num)] at b2
      norm_num only at a1
      linarith
  · push Not at hmax
    rw [maxRat_val, vc] at hmax
    obtain ⟨sg, mg, zp⟩ := fmul_mag hv fc hp0
    have hb := pos_bits sg
    have hvlt : v.val < 2 ^ 128 := by
      have h0 := val_le_max hv
      have : |v.val| ≤ ((maxRat : Rat) : ℝ) := by unfold val; rw [← Rat.cast_abs]; exact_mod_cast h0
      rw [maxRat_val] at this
      have := (abs_le.1 this).2
      norm_num at this ⊢; linarith
    have hlo : infMag - 1 ≤ (fmul v c).mag := by
      rw [mg]
      have := roundMag_exact (infMag - 1) (2 ^ 149) (by norm_num) (by decide)
      rw [← this]
      refine roundMag_mono (by norm_num) (by norm_num) (Nat.mul_le_mul_right _ ?_)
      have hz : ((magUnits (infMag - 1) * 2 ^ 149 : Nat) : ℝ) ≤ (((v.units * c.units).natAbs : Nat) : ℝ) := by
        rw [Nat.cast_natAbs, abs_of_pos zp, Int.cast_mul, units_val, units_val, vc,
          show v.val * 2 ^ 149 * (11184811 / 2 ^ 23 * 2 ^ 149) = v.val * (11184811 / 2 ^ 23) * (2 ^ 149 * 2 ^ 149) by ring,
          show magUnits (infMag - 1) = (2 ^ 24 - 1) * (2 ^ 104 * 2 ^ 149) by decide +kernel, Nat.cast_mul, Nat.cast_mul, Nat.cast_mul, Nat.cast_pow, Nat.cast_pow,
          Nat.cast_ofNat, Nat.cast_sub (by norm_num), Nat.cast_pow, Nat.cast_ofNat, Nat.cast_one,
          show ((2 : ℝ) ^ 24 - 1) * (2 ^ 104 * 2 ^ 149) * 2 ^ 149 = (2 ^ 24 - 1) * 2 ^ 104 * (2 ^ 149 * 2 ^ 149) by ring]
        exact mul_le_mul_of_nonneg_right hmax (by positivity)
      exact_mod_cast hz
    have hhi : (fmul v c).mag ≤ infMag := by rw [mg]; exact roundMag_le _ _
    have p127 : (2 : ℝ) ^ (127 : Int) = 2 ^ 127 := by norm_cast
    have p128 : (2 : ℝ) ^ (128 : Int) = 2 ^ 128 := by norm_cast
    by_cases hc : (2 : ℝ) ^ 128 ≤ v.val * c.val
    · have hi := fmul_overflow hv fc hc
      refine ⟨128, ?_, by norm_num, by norm_num, ?_, ?_⟩
      · rw [hi]; decide
      · rw [p128]; norm_num only at hmax ⊢; linarith
      · rw [p128]; linarith
    · push Not at hc
      rw [vc] at hc
      have hcase : (fmul v c).bits.toNat = 254 * 2 ^ 23 + 8388607 ∨ (fmul v c).bits.toNat = 255 * 2 ^ 23 + 0 := by
        rw [hb]; unfold infMag at hlo hhi; omega
      rcases hcase with hw | hw
      · refine ⟨127, logE_word hw (by norm_num) (by norm_num), by norm_num, by norm_num, ?_, ?_⟩
        · rw [p127]; norm_num only at hmax ⊢; linarith
        · rw [p127]; norm_num only at hc ⊢; linarith
      · refine ⟨128, logE_word hw (by norm_num) (by norm_num), by norm_num, by norm_num, ?_, ?_⟩
        · rw [p128]; norm_num only at hmax ⊢; linarith
        · rw [p128]; linarith

/-- The logarithm of a positive normal number, from its exponent and significand. -/
theorem log_core (t : FTarget) {v : F32} (hv : v.isFinite = true) (h : (2 : ℝ) ^ (-126 : Int) ≤ v.val) (s : Int)
    (ok : ∀ e : Int, -126 ≤ e → e ≤ 128 → v.val ≤ 1.5001 * (2 : ℝ) ^ e → |e - s| ≤ 150 ∧
      (ofU t (BitVec.ofInt 32 e - BitVec.ofInt 32 s)).isFinite = true ∧ (ofU t (BitVec.ofInt 32 e - BitVec.ofInt 32 s)).val = ((e - s : Int) : ℝ)) :
    Approx (logX t ⟨v.bits + ((-(logE v)) <<< 23)⟩ (ofU t (logE v - BitVec.ofInt 32 s))) (Real.log v.val - s * Real.log 2) 6e-5 := by
  have hpos : 0 < v.val := lt_of_lt_of_le (by positivity) h
  obtain ⟨e, hw, e1, e2, l1, l2⟩ := log_split hv h
  rw [hw]
  obtain ⟨hb, uf, uv⟩ := ok e e1 e2 l2
  obtain ⟨E, f, hbits, hf, hE1, hE2⟩ := bits_of_val hv h
  obtain ⟨b1, b2⟩ := val_range (val_of_bits hbits hf hE1 hE2).2 hf
  have hp : (0 : ℝ) < (2 : ℝ) ^ e := by positivity
  have g1 : (E : Int) ≤ e + 127 := by
    have : (2 : ℝ) ^ ((E : Int) - 127) < (2 : ℝ) ^ (e + 1) := by
      rw [zpow_add_one₀ (by norm_num)]; linarith
    have := (zpow_lt_zpow_iff_right₀ (by norm_num : (1 : ℝ) < 2)).1 this
    omega
  have g2 : e + 126 ≤ E := by
    have : (2 : ℝ) ^ (e - 1) < (2 : ℝ) ^ ((E : Int) - 126) := by
      rw [zpow_sub_one₀ (by norm_num)]; linarith
    have := (zpow_lt_zpow_iff_right₀ (by norm_num : (1 : ℝ) < 2)).1 this
    omega
  obtain ⟨mf, mv⟩ := shift_bits hbits hf hE1 hE2 g2 g1
  generalize (⟨v.bits + ((-(BitVec.ofInt 32 e)) <<< 23)⟩ : F32) = m at mf mv ⊢
  have em : m.val = v.val / (2 : ℝ) ^ e := by rw [mv, zpow_neg, div_eq_mul_inv]
  have key := logX_approx t mf (by rw [em, le_div_iff₀ hp]; exact l1) (by rw [em, div_le_iff₀ hp]; exact l2) uf uv hb
  refine Approx.of_eq key ?_
  rw [em, Real.log_div hpos.ne' hp.ne', Real.log_zpow]
  push_cast; ring

theorem log_sel_pos (t : FTarget) {v : F32} (hv : v.isFinite = true) (h : 0 < v.val) (x : F32) :
    sel (mask (eqb v (zero false))) (inf true) (sel (mask (ltb v (zero false)) ||| mask (eqb v nan)) nan
       (sel (mask (eqb v (inf false)) ||| mask (eqb v (inf true))) (inf true) x)) = x := by
  have h1 : eqb v nan = false := by
    unfold eqb; rw [show nan.isNaN = true by decide]; simp
  have hk : v.mag < infMag := of_decide_eq_true hv
  have h2 : ∀ b, eqb v (inf b) = false := by
    intro b
    unfold eqb
    have : ¬ v.key = (inf b).key := by
      have e : (inf b).key = (if b then -(infMag : Int) else infMag) := by cases b <;> decide
      rw [e]; unfold key; cases b <;> split <;> simp <;> omega
    rw [decide_eq_false this]; simp
  have h3 : ltb v (zero false) = false := by
    rw [ltb_val hv zero_val.1, zero_val.2, decide_eq_false (not_lt.2 h.le)]
  have h4 : eqb v (zero false) = false := by
    rw [Bool.eq_false_iff]
    intro hc
    have := (eqb_iff.1 hc).2.2
    have hz : (zero false).key = 0 := by decide
    rw [hz] at this
    have hm : v.mag = 0 := by unfold key at this; split at this <;> omega
    have : v.val = 0 := by unfold val; rw [(toRat_zero_iff v).2 hm]; simp
    linarith
  rw [h1, h2, h2, h3, h4]; rfl

theorem small_lit : (⟨0x00800000⟩ : F32).isFinite = true ∧ (⟨0x00800000⟩ : F32).val = (2 : ℝ) ^ (-126 : Int) := by
  refine ⟨by decide, ?_⟩
  rw [(val_of_bits (v := ⟨0x00800000⟩) (E := 1) (f := 0) (by decide) (by norm_num) (by norm_num) (by norm_num)).2]
  norm_num

theorem two64 : fmul (ofNat (2 ^ 32)) (ofNat (2 ^ 32)) = ⟨0x5F800000⟩ := by decide +kernel
theorem two64_val : (⟨0x5F800000⟩ : F32).isFinite = true ∧ (⟨0x5F800000⟩ : F32).val = (2 : ℝ) ^ 64 := by
  refine ⟨by decide, ?_⟩
  rw [(val_of_bits (v := ⟨0x5F800000⟩) (E := 191) (f := 0) (by decide) (by norm_num) (by norm_num) (by norm_num)).2]
  norm_num

theorem ofInt_sub32 (e s : Int) : BitVec.ofInt 32 e - BitVec.ofInt 32 s = BitVec.ofInt 32 (e - s) := by
  rw [BitVec.sub_eq_add_neg, ← BitVec.ofInt_neg, ← BitVec.ofInt_add, Int.sub_eq_add_neg]

/-- The scaled subnormal. -/
theorem sub_scale {v : F32} (hv : v.isFinite = true) (h0 : 0 < v.val) (h : v.val < (2 : ℝ) ^ (-126 : Int)) :
    Approx (fmul v ⟨0x5F800000⟩) (v.val * 2 ^ 64) 0 ∧ (2 : ℝ) ^ (-85 : Int) ≤ v.val * 2 ^ 64 ∧ v.val * 2 ^ 64 < (2 : ℝ) ^ (-62 : Int) := by
  have e62 : (2 : ℝ) ^ (-126 : Int) * 2 ^ 64 = (2 : ℝ) ^ (-62 : Int) := by norm_num
  have e149 : (2 : ℝ) ^ (-85 : Int) = 1 / 2 ^ 149 * 2 ^ 64 := by norm_num
  have hu0 : 0 < v.units := by
    have := units_val v
    have : (0 : ℝ) < (v.units : ℝ) := by rw [this]; positivity
    exact_mod_cast this
  have hu1 : v.units < 2 ^ 23 := by
    have h1 : (v.units : ℝ) < 2 ^ 23 := by
      rw [units_val]
      calc v.val * 2 ^ 149 < (2 : ℝ) ^ (-126 : Int) * 2 ^ 149 := by gcongr
        _ = 2 ^ 23 := by norm_num
    exact_mod_cast h1
  refine ⟨?_, ?_, ?_⟩
  · obtain ⟨y, yf, yu⟩ := representable v.units 64 (by omega) (by norm_num)
    have := fmul_exact hv two64_val.1 yf (by
      rw [two64_val.2, val_units, yu, val_units v, Int.cast_mul, Int.cast_pow, Int.cast_ofNat]; ring)
    rwa [two64_val.2] at this
  · rw [e149]
    have h1 : (1 : ℝ) ≤ v.units := by exact_mod_cast hu0
    rw [val_units]
    gcongr
  · rw [← e62]; gcongr

/-- The logarithm of every positive finite number, compiled with the signed conversion. -/
theorem log1_sse (b : Bool) {v : F32} (hv : v.isFinite = true) (h : 0 < v.val) : Approx (log1 (.sse b) v) (Real.log v.val) 6e-5 := by
  have hU : ∀ z : Int, |z| ≤ 150 → (ofU (.sse b) (BitVec.ofInt 32 z)).isFinite = true ∧ (ofU (.sse b) (BitVec.ofInt 32 z)).val = (z : ℝ) := by
    intro z hz
    have hz' := abs_le.1 hz
    have := ofInt_exact z (by omega)
    unfold ofU; dsimp only
    rw [BitVec.toInt_ofInt_eq_self (by norm_num) (by omega) (by omega)]
    exact this
  rw [log1_eq, two64]
  dsimp only
  by_cases hc : v.val < (2 : ℝ) ^ (-126 : Int)
  · rw [ltb_val hv small_lit.1, small_lit.2, decide_eq_true hc, sel_true, sel_true]
    obtain ⟨⟨wf, wv⟩, r1, r2⟩ := sub_scale hv h hc
    have wv' : (fmul v ⟨0x5F800000⟩).val = v.val * 2 ^ 64 := by
      have := abs_nonneg ((fmul v ⟨0x5F800000⟩).val - v.val * 2 ^ 64)
      have := abs_eq_zero.1 (le_antisymm wv this); linarith
    generalize fmul v ⟨0x5F800000⟩ = w at wf wv' ⊢
    have w0 : 0 < w.val := by rw [wv']; positivity
    rw [log_sel_pos (.sse b) wf w0]
    have := log_core (.sse b) wf (by rw [wv']; exact le_trans (by norm_num) r1) 64 (by
      intro e e1 e2 l
      have hlt : (2 : ℝ) ^ (-86 : Int) < (2 : ℝ) ^ e := by
        have e85 : (2 : ℝ) ^ (-85 : Int) = 2 * (2 : ℝ) ^ (-86 : Int) := by norm_num
        have : (0 : ℝ) < (2 : ℝ) ^ (-86 : Int) := by positivity
        rw [wv'] at l; linarith
      have := (zpow_lt_zpow_iff_right₀ (by norm_num : (1 : ℝ) < 2)).1 hlt
      have ha : |e - 64| ≤ 150 := abs_le.2 ⟨by omega, by omega⟩
      rw [ofInt_sub32]
      exact ⟨ha, hU _ ha⟩)
    refine Approx.of_eq this ?_
    rw [wv', Real.log_mul h.ne' (by positivity), Real.log_pow]; push_cast; ring
  · rw [ltb_val hv small_lit.1, small_lit.2, decide_eq_false hc, sel_false, sel_false, log_sel_pos (.sse b) hv h]
    have := log_core (.sse b) hv (not_lt.1 hc) 0 (by
      intro e e1 e2 _
      have ha : |e - 0| ≤ 150 := abs_le.2 ⟨by omega, by omega⟩
      rw [ofInt_sub32]
      exact ⟨ha, hU _ ha⟩)
    rw [show BitVec.ofInt 32 0 = 0#32 from rfl, BitVec.sub_zero] at this
    refine Approx.of_eq this ?_
    push_cast; ring

/-- The logarithm of every finite number from three quarters, compiled with the unsigned conversion. -/
theorem log1_neon (b : Bool) {v : F32} (hv : v.isFinite = true) (h : 0.7501 ≤ v.val) : Approx (log1 (.neon b) v) (Real.log v.val) 6e-5 := by
  have h0 : 0 < v.val := by linarith
  have hn : (2 : ℝ) ^ (-126 : Int) ≤ v.val := le_trans (by norm_num) h
  rw [log1_eq, two64]
  dsimp only
  rw [ltb_val hv small_lit.1, small_lit.2, decide_eq_false (not_lt.2 hn), sel_false, sel_false, log_sel_pos (.neon b) hv h0]
  have := log_core (.neon b) hv hn 0 (by
    intro e e1 e2 l
    have he : 0 ≤ e := by
      by_contra hc
      have : (2 : ℝ) ^ e ≤ (2 : ℝ) ^ (-1 : Int) := zpow_le_zpow_right₀ (by norm_num) (by omega)
      norm_num at this; linarith
    obtain ⟨n, rfl⟩ := Int.eq_ofNat_of_zero_le he
    rw [ofInt_sub32]
    refine ⟨abs_le.2 ⟨by omega, by omega⟩, ?_⟩
    have := ofU_small (.neon b) (n := n) (by omega)
    rw [show (n : Int) - 0 = n by ring, BitVec.ofInt_natCast]
    exact_mod_cast this)
  rw [show BitVec.ofInt 32 0 = 0#32 from rfl, BitVec.sub_zero] at this
  refine Approx.of_eq this ?_
  push_cast; ring

theorem fmul_neg {a : F32} (h : ltb a (zero false) = true) : ltb (fmul a ⟨0x5F800000⟩) (zero false) = true := by
  obtain ⟨hn, _, hk⟩ := ltb_iff.1 h
  have hz : (zero false).key = 0 := by decide
  rw [hz] at hk
  have hs : a.signBit = true := by
    by_contra hc
    unfold key at hk; rw [if_neg hc] at hk; omega
  have hm : 0 < a.mag := by unfold key at hk; rw [if_pos hs] at hk; omega
  have key : ∀ m, 0 < m → m ≤ infMag → ltb (ofParts true m) (zero false) = true := by
    intro m h1 h2
    have h31 : m < 2 ^ 31 := lt_of_le_of_lt h2 (by decide)
    rw [ltb_iff]
    refine ⟨?_, by decide, ?_⟩
    · unfold isNaN; rw [ofParts_mag _ _ h31]; exact decide_eq_false (by omega)
    · rw [hz]; unfold F32.key; rw [ofParts_signBit _ _ h31, ofParts_mag _ _ h31]; simp; omega
  unfold fmul
  rw [hn, hs, show (⟨0x5F800000⟩ : F32).isNaN = false by decide, show (⟨0x5F800000⟩ : F32).isInf = false by decide,
    show (⟨0x5F800000⟩ : F32).signBit = false by decide, show (⟨0x5F800000⟩ : F32).mag = 0x5F800000 by decide]
  simp only [Bool.or_false, Bool.or_self, Bool.false_eq_true, if_false]
  by_cases hi : a.isInf = true
  · rw [if_pos hi, if_neg (by simp; omega)]
    exact key _ (by decide) le_rfl
  · rw [if_neg hi]
    have hu : a.units ≤ -1 := by
      have hmu : 0 < magUnits a.mag := by
        unfold magUnits
        split
        · omega
        · positivity
      unfold units; rw [if_pos hs]; omega
    have hu2 : (⟨0x5F800000⟩ : F32).units = 2 ^ 213 := by decide
    rw [hu2]
    have hneg : a.units * 2 ^ 213 < 0 := by nlinarith
    rw [if_neg hneg.ne]
    unfold roundUnits
    rw [decide_eq_true hneg]
    refine key _ ?_ (roundMag_le _ _)
    have h1 := roundMag_exact 1 (2 ^ 149) (by norm_num) (by decide)
    have h2 : roundMag (magUnits 1 * 2 ^ 149) (2 ^ 149) ≤ roundMag (a.units * 2 ^ 213).natAbs (2 ^ 149) := by
      refine roundMag_mono (by norm_num) (by norm_num) (Nat.mul_le_mul_right _ ?_)
      rw [Int.natAbs_mul, show magUnits 1 = 1 by decide, one_mul]
      have : 1 ≤ a.units.natAbs := by omega
      calc 2 ^ 149 ≤ 1 * 2 ^ 213 := by norm_num
        _ ≤ a.units.natAbs * ((2 : Int) ^ 213).natAbs := Nat.mul_le_mul this (by norm_num)
    omega

/-- Absolute error at most `6e-5` for every positive finite argument, subnormals included, on SSE; on NEON for arguments from 0.7501 on.
Partial: the error should be a few units in the last place, and the NEON build should be right below 0.75 as well; see
`simd_log_inaccurate` and `simd_log_neon_wrong`. -/
theorem simd_log_accurate_partial (t : FTarget) (v : V4 F32) (i : Fin 4) (hv : (v.get i).isFinite = true)
    (h : match t with | .sse _ => 0 < (v.get i).val | .neon _ => 0.7501 ≤ (v.get i).val) :
    ((log t v).get i).isFinite = true ∧ |((log t v).get i).val - Real.log (v.get i).val| ≤ 6e-5 := by
  unfold log; rw [map_get]
  cases t with
  | sse b => exact log1_sse b hv h
  | neon b => exact log1_neon b hv h

/-- Zero of either sign gives minus infinity, on every target. -/
theorem simd_log_zero (t : FTarget) (v : V4 F32) (i : Fin 4) (h : ∃ s, v.get i = zero s) : (log t v).get i = inf true := by
  unfold log; rw [map_get]
  obtain ⟨s, h⟩ := h
  rw [h, log1_eq, two64]
  dsimp only
  have h1 : ltb (zero s) ⟨0x00800000⟩ = true := by cases s <;> decide
  have h2 : eqb (fmul (zero s) ⟨0x5F800000⟩) (zero false) = true := by cases s <;> decide
  rw [h1, sel_true, h2, sel_true]

/-- Every negative argument, minus infinity included, gives NaN, on every target. -/
theorem simd_log_negative (t : FTarget) (v : V4 F32) (i : Fin 4) (h : ltb (v.get i) (zero false) = true) : (log t v).get i = nan := by
  unfold log; rw [map_get]
  generalize v.get i = v at *
  rw [log1_eq, two64]
  dsimp only
  have h1 : ltb v ⟨0x00800000⟩ = true := by
    obtain ⟨a, _, c⟩ := ltb_iff.1 h
    refine ltb_iff.2 ⟨a, by decide, ?_⟩
    have e1 : (zero false).key = 0 := by decide
    have e2 : (⟨0x00800000⟩ : F32).key = 8388608 := by decide
    omega
  have h2 := fmul_neg h
  have h3 : eqb (fmul v ⟨0x5F800000⟩) (zero false) = false := by
    obtain ⟨_, _, c⟩ := ltb_iff.1 h2
    rw [Bool.eq_false_iff]; intro hc
    have := (eqb_iff.1 hc).2.2
    omega
  rw [h1, sel_true, h2, h3, sel_false]
  cases eqb (fmul v ⟨0x5F800000⟩) nan <;> rfl

/-- The logarithm of plus infinity should be plus infinity; it is minus infinity on every target. -/
theorem simd_log_inf_wrong (t : FTarget) (v : V4 F32) (i : Fin 4) (h : v.get i = inf false) : (log t v).get i = inf true := by
  unfold log; rw [map_get, h, log1_eq]
  dsimp only
  rw [show ltb (inf false) ⟨0x00800000⟩ = false by decide, sel_false, sel_false, show eqb (inf false) (zero false) = false by decide,
    show ltb (inf false) (zero false) = false by decide, show eqb (inf false) nan = false by decide,
    show eqb (inf false) (inf false) = true by decide, show eqb (inf false) (inf true) = false by decide]
  rfl

/-- The logarithm of NaN should be NaN; the test `equal(v, NaN)` is never true and a number near 89.13 comes out. -/
theorem simd_log_nan_lost : (log (.sse false) (V4.splat nan)).x = ⟨0x42B241AC⟩ ∧ (log (.sse true) (V4.splat nan)).x = ⟨0x42B241AD⟩ := by
  decide +kernel

/-- On NEON the negative exponent of a number below 0.75 is converted as unsigned: the logarithm of one half is `2977044480`. -/
theorem simd_log_neon_wrong (b : Bool) : (log (.neon b) (V4.splat ⟨0x3F000000⟩)).x = ofInt 2977044480 := by
  cases b <;> decide +kernel

/-- The error really is that large: a coefficient appears twice, and at 1.49 the result is `3e-5` too small, about a thousand units in
the last place. -/
theorem simd_log_inaccurate (b : Bool) :
    3e-5 < |((log (.sse b) (V4.splat ⟨0x3FBEB852⟩)).x).val - Real.log (⟨0x3FBEB852⟩ : F32).val| := by
  have h1 : (log (.sse b) (V4.splat ⟨0x3FBEB852⟩)).x = ⟨0x3ECC281D⟩ := by cases b <;> decide +kernel
  rw [h1, (val_of_bits (v := ⟨0x3ECC281D⟩) (E := 125) (f := 4991005) (by decide) (by norm_num) (by norm_num) (by norm_num)).2,
    (val_of_bits (v := ⟨0x3FBEB852⟩) (E := 127) (f := 4110418) (by decide) (by norm_num) (by norm_num) (by norm_num)).2]
  rw [abs_sub_comm]
  refine lt_of_lt_of_le ?_ (le_abs_self _)
  rw [lt_sub_iff_add_lt, Real.lt_log_iff_exp_lt (by positivity)]
  refine lt_of_le_of_lt (Real.exp_bound' (n := 7) ?_ ?_ (by norm_num)) ?_
  · norm_num
  · norm_num
  · norm_num [Finset.sum_range_succ, Nat.factorial]

/-- Hypotheses met: `log(2)`, a subnormal, and `log(1) = 0`. -/
example : (⟨0x40000000⟩ : F32).isFinite = true ∧ log1 (.sse true) ⟨0x40000000⟩ = ⟨0x3F317218⟩ ∧ log1 (.neon false) ⟨0x40000000⟩ = ⟨0x3F317218⟩ ∧
    log1 (.sse true) ⟨1⟩ = ⟨0xC2CE8ED0⟩ ∧ log1 (.sse false) ⟨0x3F800000⟩ = zero false ∧ log1 (.neon true) ⟨0xBF800000⟩ = nan := by decide +kernel

end F32x4
end Verif
