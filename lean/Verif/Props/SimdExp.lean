import Verif.Proofs.F32Real
import Verif.Props.Rounding
import Mathlib.Analysis.Complex.ExponentialBounds

/-!
# C82: the SIMD exponential
-/

namespace Verif
open F32

/-- Truncation of a finite value, against its real value. -/
theorem truncInt_val (x : F32) : (0 ≤ x.val → (x.truncInt : ℝ) ≤ x.val ∧ x.val < x.truncInt + 1) ∧
    (x.val ≤ 0 → (x.truncInt : ℝ) - 1 < x.val ∧ x.val ≤ x.truncInt) := by
  have hD : (0 : ℝ) < 2 ^ 149 := by positivity
  have hDi : (0 : Int) < 2 ^ 149 := D_pos
  have hu := units_val x
  unfold truncInt
  have hc : (((2 ^ 149 : Int) : Int) : ℝ) = 2 ^ 149 := by rw [Int.cast_pow, Int.cast_ofNat]
  generalize x.units = u at hu
  generalize (2 ^ 149 : Int) = D at hc hDi
  rw [← hc] at hu hD
  have key : ∀ w : Int, 0 ≤ w → ((w.tdiv D : Int) : ℝ) * D ≤ w ∧ (w : ℝ) < ((w.tdiv D : Int) + 1 : ℝ) * D := by
    intro w hw
    rw [Int.tdiv_eq_ediv_of_nonneg hw]
    have h1 := Int.ediv_mul_le w hDi.ne'
    have h2 := Int.lt_ediv_add_one_mul_self w hDi
    exact ⟨by exact_mod_cast h1, by exact_mod_cast h2⟩
  constructor
  · intro h
    have h0 : 0 ≤ u := by
      have : (0 : ℝ) ≤ u := by rw [hu]; positivity
      exact_mod_cast this
    obtain ⟨h1, h2⟩ := key u h0
    rw [hu] at h1 h2
    exact ⟨le_of_mul_le_mul_right h1 hD, lt_of_mul_lt_mul_right h2 hD.le⟩
  · intro h
    have h0 : 0 ≤ -u := by
      have : (u : ℝ) ≤ 0 := by rw [hu]; exact mul_nonpos_of_nonpos_of_nonneg h hD.le
      have : u ≤ 0 := by exact_mod_cast this
      omega
    obtain ⟨h1, h2⟩ := key (-u) h0
    rw [Int.neg_tdiv, Int.cast_neg, Int.cast_neg, hu] at h1 h2
    constructor
    · refine lt_of_mul_lt_mul_right ?_ hD.le; linarith
    · refine le_of_mul_le_mul_right ?_ hD; linarith

theorem finite_notNaN {x : F32} (h : x.isFinite = true) : x.isNaN = false ∧ x.isInf = false := by
  unfold isFinite at h; unfold isNaN isInf
  simp only [decide_eq_true_eq] at h
  exact ⟨decide_eq_false (by omega), decide_eq_false (by omega)⟩

/-- Float to integer conversion in range, on both instruction sets. -/
theorem toI_small (t : FTarget) {x : F32} (hx : x.isFinite = true) (h : |x.val| ≤ 2 ^ 30) :
    F32x4.toI t x = BitVec.ofInt 32 x.truncInt ∧ |(x.truncInt : ℝ)| ≤ |x.val| := by
  obtain ⟨h1, h2⟩ := truncInt_val x
  have hb : |(x.truncInt : ℝ)| ≤ |x.val| := by
    rcases le_total 0 x.val with h0 | h0
    · obtain ⟨a, b⟩ := h1 h0
      have : (-1 : ℝ) < x.truncInt := by linarith
      have : (0 : ℝ) ≤ x.truncInt := by
        have h3 : (-1 : Int) < x.truncInt := by exact_mod_cast this
        exact_mod_cast (by omega : (0 : Int) ≤ x.truncInt)
      rw [abs_of_nonneg this, abs_of_nonneg h0]; exact a
    · obtain ⟨a, b⟩ := h2 h0
      have : (x.truncInt : ℝ) < 1 := by linarith
      have : (x.truncInt : ℝ) ≤ 0 := by
        have h3 : x.truncInt < 1 := by exact_mod_cast this
        exact_mod_cast (by omega : x.truncInt ≤ 0)
      rw [abs_of_nonpos this, abs_of_nonpos h0]; linarith
  have hI : |x.truncInt| ≤ 2 ^ 30 := by
    have : ((|x.truncInt| : Int) : ℝ) ≤ ((2 ^ 30 : Int) : ℝ) := by push_cast; linarith
    exact_mod_cast this
  have hI' := abs_le.1 hI
  refine ⟨?_, hb⟩
  unfold F32x4.toI
  cases t
  · unfold cvtt
    rw [if_pos]
    simp only [Bool.and_eq_true, decide_eq_true_eq]
    exact ⟨⟨hx, by omega⟩, by omega⟩
  · unfold vcvtS
    rw [(finite_notNaN hx).1, (finite_notNaN hx).2]
    simp only [Bool.false_eq_true, if_false]
    congr 1
    omega

namespace F32x4

/-- The integer of the argument reduction of `exp`. -/
def expQ (t : FTarget) (v : F32) : W :=
  let s := fmul v (ofRat 1.44269504088896340736)
  toI t (sel (mask (ltb s (zero false))) (fsub s (ofRat (1 / 2))) (fadd s (ofRat (1 / 2))))
/-- The reduced argument. -/
def expS (t : FTarget) (v qf : F32) : F32 :=
  fma1 t qf (ofRat (-1.428606765330187045e-06)) (fma1 t qf (ofRat (-0.693145751953125)) v)
/-- The polynomial. -/
def expU (t : FTarget) (s : F32) : F32 :=
  fadd (fma1 t (fmul s s) (fma1 t (fma1 t (fma1 t (fma1 t (fma1 t (ofRat 0.000198527617612853646278381) s
    (ofRat 0.00139304355252534151077271)) s (ofRat 0.00833336077630519866943359)) s (ofRat 0.0416664853692054748535156)) s
    (ofRat 0.166666671633720397949219)) s (ofRat (1 / 2))) s) (ofRat 1)
/-- The scaling. -/
def expScale (u : F32) (q : W) : F32 :=
  fmul (fmul u ⟨(q.sshiftRight 1 + 0x7F#32) <<< 23⟩) ⟨((q - q.sshiftRight 1) + 0x7F#32) <<< 23⟩

theorem exp1_eq (t : FTarget) (v : F32) : exp1 t v = sel (mask (ltb (ofRat 104) v)) (inf false)
    ⟨(expScale (expU t (expS t v (ofI (expQ t v)))) (expQ t v)).bits &&& mask (leb (ofRat (-104)) v)⟩ := rfl

theorem lit_half : (ofRat (1 / 2)).isFinite = true ∧ (ofRat (1 / 2)).val = 1 / 2 := by
  have := lit_exact (q := 1 / 2) (U := 2 ^ 148) (by decide +kernel) (by decide +kernel)
  refine ⟨this.1, ?_⟩
  rw [this.2]; push_cast; norm_num
theorem lit_one : (ofRat 1).isFinite = true ∧ (ofRat 1).val = 1 := by
  have := lit_exact (q := 1) (U := 2 ^ 149) (by decide +kernel) (by decide +kernel)
  refine ⟨this.1, ?_⟩
  rw [this.2]; push_cast; norm_num
theorem lit_c1 : (ofRat (-0.693145751953125)).isFinite = true ∧ (ofRat (-0.693145751953125)).val = -(22713 / 2 ^ 15) := by
  have := lit_exact (q := -0.693145751953125) (U := -22713 * 2 ^ 134) (by decide +kernel) (by decide +kernel)
  refine ⟨this.1, ?_⟩
  rw [this.2]; push_cast; norm_num

theorem lit_ap {q : Rat} (M : ℝ) (h : |(q : ℝ)| ≤ M) (hM : M < 2 ^ 127) {y : ℝ} (hy : (q : ℝ) = y) : Approx (ofRat q) y (ulp M) :=
  hy ▸ lit_approx q M h hM

/-- The polynomial and its rounding errors. -/
noncomputable def expP (x : ℝ) : ℝ :=
  x * x * (((((0.000198527617612853646278381 * x + 0.00139304355252534151077271) * x + 0.00833336077630519866943359) * x +
    0.0416664853692054748535156) * x + 0.166666671633720397949219) * x + 1 / 2) + x + 1

theorem abs_horner {a x c A X C : ℝ} (ha : |a| ≤ A) (hx : |x| ≤ X) (hc : |c| ≤ C) : |a * x + c| ≤ A * X + C := by
  refine (abs_add_le _ _).trans (add_le_add ?_ hc)
  rw [abs_mul]; exact mul_le_mul ha hx (abs_nonneg _) ((abs_nonneg a).trans ha)

theorem expU_approx (t : FTarget) {s : F32} (hs : s.isFinite = true) (h : |s.val| ≤ 0.347) :
    Approx (expU t s) (expP s.val) 1.3e-7 := by
  have S := Approx.self hs
  generalize s.val = x at *
  have b0 : |(0.000198527617612853646278381 : ℝ)| ≤ 0.0002 := by rw [abs_of_pos] <;> norm_num
  have a0 := lit_ap (q := 0.000198527617612853646278381) 0.0002 (by push_cast; exact b0) (by norm_num) (y := 0.000198527617612853646278381) (by push_cast; rfl)
  have l1 := lit_ap (q := 0.00139304355252534151077271) 0.0014 (by push_cast; rw [abs_of_pos] <;> norm_num) (by norm_num) (y := 0.00139304355252534151077271) (by push_cast; rfl)
  have b1 := abs_horner (c := 0.00139304355252534151077271) b0 h (C := 0.0014) (by rw [abs_of_pos] <;> norm_num)
  have a1 := (a0.fma t S l1 0.0002 0.347 0.00007 0.0015 b0 h (by unfold ulp; norm_num) (le_trans (add_le_add_left b1 _) (by unfold ulp; norm_num)) (by norm_num) (by norm_num)).mono (e' := 2e-10) (by unfold ulp; norm_num)
  have l2 := lit_ap (q := 0.00833336077630519866943359) 0.00834 (by push_cast; rw [abs_of_pos] <;> norm_num) (by norm_num) (y := 0.00833336077630519866943359) (by push_cast; rfl)
  have b2 := abs_horner (c := 0.00833336077630519866943359) b1 h (C := 0.00834) (by rw [abs_of_pos] <;> norm_num)
  have a2 := (a1.fma t S l2 (0.0002 * 0.347 + 0.0014) 0.347 0.0006 0.009 b1 h (by norm_num) (le_trans (add_le_add_left b2 _) (by unfold ulp; norm_num)) (by norm_num) (by norm_num)).mono (e' := 1.2e-9) (by unfold ulp; norm_num)
  have l3 := lit_ap (q := 0.0416664853692054748535156) 0.0417 (by push_cast; rw [abs_of_pos] <;> norm_num) (by norm_num) (y := 0.0416664853692054748535156) (by push_cast; rfl)
  have b3 := abs_horner (c := 0.0416664853692054748535156) b2 h (C := 0.0417) (by rw [abs_of_pos] <;> norm_num)
  have a3 := (a2.fma t S l3 _ 0.347 0.0032 0.045 b2 h (by norm_num) (le_trans (add_le_add_left b3 _) (by unfold ulp; norm_num)) (by norm_num) (by norm_num)).mono (e' := 6e-9) (by unfold ulp; norm_num)
  have l4 := lit_ap (q := 0.166666671633720397949219) 0.1667 (by push_cast; rw [abs_of_pos] <;> norm_num) (by norm_num) (y := 0.166666671633720397949219) (by push_cast; rfl)
  have b4 := abs_horner (c := 0.166666671633720397949219) b3 h (C := 0.1667) (by rw [abs_of_pos] <;> norm_num)
  have a4 := (a3.fma t S l4 _ 0.347 0.016 0.183 b3 h (by norm_num) (le_trans (add_le_add_left b4 _) (by unfold ulp; norm_num)) (by norm_num) (by norm_num)).mono (e' := 2.5e-8) (by unfold ulp; norm_num)
  have l5 : Approx (ofRat (1 / 2)) (1 / 2) 0 := ⟨lit_half.1, by rw [lit_half.2]; simp⟩
  have b5 := abs_horner (c := 1 / 2) b4 h (C := 1 / 2) (by rw [abs_of_pos] <;> norm_num)
  have a5 := (a4.fma t S l5 _ 0.347 0.064 0.564 b4 h (by norm_num) (le_trans (add_le_add_left b5 _) (by unfold ulp; norm_num)) (by norm_num) (by norm_num)).mono (e' := 4.8e-8) (by unfold ulp; norm_num)
  have q0 : |x * x| ≤ 0.347 * 0.347 := by rw [abs_mul]; exact mul_le_mul h h (abs_nonneg _) (by norm_num)
  have a6 := (S.mul S 0.347 0.347 h h (by norm_num)).mono (e' := 7.3e-9) (by unfold ulp; norm_num)
  have b7 := abs_horner q0 b5 h
  have a7 := (a6.fma t a5 S _ _ 0.068 0.416 q0 b5 (by norm_num) (le_trans (add_le_add_left b7 _) (by unfold ulp; norm_num)) (by norm_num) (by norm_num)).mono (e' := 4.1e-8) (by unfold ulp; norm_num)
  have l8 : Approx (ofRat 1) 1 0 := ⟨lit_one.1, by rw [lit_one.2]; simp⟩
  have b8 := (abs_add_le _ _).trans (add_le_add b7 (abs_one (α := ℝ)).le)
  exact (a7.add l8 1.4154 (le_trans (add_le_add_left (add_le_add_left b8 _) _) (by norm_num)) (by norm_num)).mono (e' := 1.3e-7) (by unfold ulp; norm_num)

/-- The polynomial against the exponential. -/
theorem expP_exp {x : ℝ} (h : |x| ≤ 0.347) : |expP x - Real.exp x| ≤ 2e-8 := by
  have hb := Real.exp_bound (x := x) (h.trans (by norm_num)) (n := 8) (by norm_num)
  simp only [Finset.sum_range_succ, Finset.sum_range_zero, Nat.factorial] at hb
  have p : ∀ n : Nat, |x ^ n| ≤ 0.347 ^ n := fun n => by rw [abs_pow]; exact pow_le_pow_left₀ (abs_nonneg _) h n
  have p8 : |x| ^ 8 ≤ 0.347 ^ 8 := pow_le_pow_left₀ (abs_nonneg _) h 8
  have h3 := abs_le.1 (p 3)
  have h4 := abs_le.1 (p 4)
  have h5 := abs_le.1 (p 5)
  have h6 := abs_le.1 (p 6)
  have h7 := abs_le.1 (p 7)
  have hb' := abs_le.1 (hb.trans (mul_le_mul_of_nonneg_right p8 (by positivity)))
  have e : expP x = 1 + x + x ^ 2 / 2 + 0.166666671633720397949219 * x ^ 3 + 0.0416664853692054748535156 * x ^ 4 +
      0.00833336077630519866943359 * x ^ 5 + 0.00139304355252534151077271 * x ^ 6 + 0.000198527617612853646278381 * x ^ 7 := by
    unfold expP; ring
  rw [e]
  push_cast at hb'
  norm_num at hb' h3 h4 h5 h6 h7 ⊢
  rw [abs_le]
  constructor <;> linarith [hb'.1, hb'.2, h3.1, h3.2, h4.1, h4.2, h5.1, h5.2, h6.1, h6.2, h7.1, h7.2]

theorem sel_true {α : Type} (a b : α) : sel (mask true) a b = a := rfl
theorem sel_false {α : Type} (a b : α) : sel (mask false) a b = b := rfl

theorem zero_val : (zero false).isFinite = true ∧ (zero false).val = 0 := by
  refine ⟨by decide, ?_⟩
  unfold val; rw [show (zero false).toRat = 0 from (toRat_zero_iff _).2 (by decide)]; simp

theorem ltb_val {a b : F32} (ha : a.isFinite = true) (hb : b.isFinite = true) : ltb a b = decide (a.val < b.val) := by
  rw [Bool.eq_iff_iff, ltb_finite ha hb, decide_eq_true_eq]; unfold val; exact_mod_cast Iff.rfl
theorem leb_val {a b : F32} (ha : a.isFinite = true) (hb : b.isFinite = true) : leb a b = decide (a.val ≤ b.val) := by
  rw [Bool.eq_iff_iff, leb_finite ha hb, decide_eq_true_eq]; unfold val; exact_mod_cast Iff.rfl

/-- Rounding to the nearest integer through a half and truncation. -/
theorem roundHalf (t : FTarget) {s : F32} (hs : s.isFinite = true) (h : |s.val| ≤ 150.1) :
    ∃ q : Int, toI t (sel (mask (ltb s (zero false))) (fsub s (ofRat (1 / 2))) (fadd s (ofRat (1 / 2)))) = BitVec.ofInt 32 q ∧
      |(q : ℝ) - s.val| ≤ 0.50001 := by
  have l5 : Approx (ofRat (1 / 2)) (1 / 2) 0 := ⟨lit_half.1, by rw [lit_half.2]; simp⟩
  have S := Approx.self hs
  have h' := abs_le.1 h
  rw [ltb_val hs zero_val.1, zero_val.2]
  generalize ofRat (1 / 2) = half at *
  by_cases hneg : s.val < 0
  · rw [decide_eq_true hneg, sel_true]
    have w := (S.sub l5 151 (by
      have := abs_sub s.val (1 / 2)
      rw [abs_of_pos (by norm_num : (0 : ℝ) < 1 / 2)] at this; linarith) (by norm_num)).mono (e' := 1e-5) (by unfold ulp; norm_num)
    generalize fsub s half = r at w
    have hw := abs_le.1 w.2
    have hwn : r.val ≤ 0 := by linarith
    have hwa : |r.val| ≤ 2 ^ 30 := by rw [abs_of_nonpos hwn]; norm_num; linarith
    refine ⟨r.truncInt, (toI_small t w.1 hwa).1, ?_⟩
    obtain ⟨a, b⟩ := (truncInt_val r).2 hwn
    rw [abs_le]; constructor <;> linarith
  · rw [decide_eq_false hneg, sel_false]
    have w := (S.add l5 151 (by
      have := abs_add_le s.val (1 / 2)
      rw [abs_of_pos (by norm_num : (0 : ℝ) < 1 / 2)] at this; linarith) (by norm_num)).mono (e' := 1e-5) (by unfold ulp; norm_num)
    generalize fadd s half = r at w
    have hw := abs_le.1 w.2
    have hwn : 0 ≤ r.val := by linarith
    have hwa : |r.val| ≤ 2 ^ 30 := by rw [abs_of_nonneg hwn]; norm_num; linarith
    refine ⟨r.truncInt, (toI_small t w.1 hwa).1, ?_⟩
    obtain ⟨a, b⟩ := (truncInt_val r).1 hwn
    rw [abs_le]; constructor <;> linarith

/-- The reduction: the quotient is the nearest multiple of `ln 2`, up to a little. -/
theorem expQ_spec (t : FTarget) {v : F32} (hv : v.isFinite = true) (h : |v.val| ≤ 104) :
    ∃ q : Int, expQ t v = BitVec.ofInt 32 q ∧ |q| ≤ 151 ∧ |v.val - q * Real.log 2| ≤ 0.3467 := by
  have L := lit_ap (q := 1.44269504088896340736) 1.4427 (by push_cast; rw [abs_of_pos] <;> norm_num) (by norm_num)
    (y := 1.44269504088896340736) (by push_cast; rfl)
  have s0 := ((Approx.self hv).mul L 104 1.4427 h (by rw [abs_of_pos] <;> norm_num) (by unfold ulp; norm_num)).mono (e' := 2e-5)
    (by unfold ulp; norm_num)
  have hsb : |v.val * 1.44269504088896340736| ≤ 150.05 := by
    rw [abs_mul]
    refine (mul_le_mul h (by rw [abs_of_pos] <;> norm_num : |(1.44269504088896340736 : ℝ)| ≤ 1.4427) (abs_nonneg _) (by norm_num)).trans (by norm_num)
  unfold expQ
  generalize fmul v (ofRat 1.44269504088896340736) = s at s0
  obtain ⟨q, e, hq⟩ := roundHalf t s0.1 (s0.abs_le.trans (by linarith))
  refine ⟨q, e, ?_⟩
  have hl2 := abs_le.1 Real.log_two_near_10
  have hq : |(q : ℝ) - v.val * 1.44269504088896340736| ≤ 0.5001 := by
    have := abs_add_le ((q : ℝ) - s.val) (s.val - v.val * 1.44269504088896340736)
    rw [sub_add_sub_cancel] at this
    linarith [s0.2]
  have hq' := abs_le.1 hq
  have hsb' := abs_le.1 hsb
  have hv' := abs_le.1 h
  constructor
  · have : ((|q| : Int) : ℝ) < ((152 : Int) : ℝ) := by
      rw [Int.cast_abs, abs_lt]; push_cast; constructor <;> linarith
    have : |q| < 152 := by exact_mod_cast this
    omega
  · have e : v.val - q * Real.log 2 = -((q - v.val * 1.44269504088896340736) * Real.log 2) + v.val * (1 - 1.44269504088896340736 * Real.log 2) := by ring
    rw [e]
    refine (abs_add_le _ _).trans ?_
    rw [abs_neg, abs_mul, abs_mul]
    have h1 : |Real.log 2| ≤ 0.6931471808 := by rw [abs_of_pos (Real.log_pos (by norm_num))]; linarith
    have h2 : |1 - 1.44269504088896340736 * Real.log 2| ≤ 1e-9 := by rw [abs_le]; constructor <;> linarith
    have m1 := mul_le_mul hq h1 (abs_nonneg _) (by norm_num)
    have m2 := mul_le_mul h h2 (abs_nonneg _) (by norm_num)
    refine (add_le_add m1 m2).trans (by norm_num)

theorem ofI_small {q : Int} (h : |q| ≤ 2 ^ 24) : (ofI (BitVec.ofInt 32 q)).isFinite = true ∧ (ofI (BitVec.ofInt 32 q)).val = q := by
  have h' := abs_le.1 h
  unfold ofI
  rw [BitVec.toInt_ofInt_eq_self (by norm_num) (by omega) (by omega)]
  exact ofInt_exact q (by omega)

/-- The reduced argument. -/
theorem expS_approx (t : FTarget) {v qf : F32} (hv : v.isFinite = true) (hq : qf.isFinite = true) {q : Int} (hqv : qf.val = q)
    (hq1 : |q| ≤ 151) (h : |v.val - q * Real.log 2| ≤ 0.3467) :
    Approx (expS t v qf) (v.val - q * Real.log 2) 6e-8 := by
  have hq2 : |(q : ℝ)| ≤ 151 := by rw [← Int.cast_abs]; exact_mod_cast hq1
  have hl2 := abs_le.1 Real.log_two_near_10
  unfold expS
  obtain ⟨y, hyf, hyu⟩ := representable (q * (-22713)) 134 (by have := abs_le.1 hq1; omega) (by norm_num)
  have hprod : y.val = qf.val * (ofRat (-0.693145751953125)).val := by
    rw [val_units, hyu, hqv, lit_c1.2]; push_cast; ring
  have tgt : qf.val * (ofRat (-0.693145751953125)).val + v.val = v.val - q * (22713 / 2 ^ 15) := by
    rw [hqv, lit_c1.2]; ring
  have ha : |v.val - q * (22713 / 2 ^ 15)| ≤ 0.34692 := by
    rw [show v.val - q * (22713 / 2 ^ 15) = (v.val - q * Real.log 2) + q * (Real.log 2 - 22713 / 2 ^ 15) by ring]
    refine (abs_add_le _ _).trans ?_
    rw [abs_mul]
    have : |Real.log 2 - 22713 / 2 ^ 15| ≤ 1.44e-6 := by rw [abs_le]; constructor <;> norm_num <;> linarith
    refine (add_le_add h (mul_le_mul hq2 this (abs_nonneg _) (by norm_num))).trans (by norm_num)
  have s1 := fma_exact_prod t hq lit_c1.1 hv hyf hprod (M := 0.34692) (by rw [tgt]; exact ha) (by norm_num)
  rw [tgt] at s1
  have l2 := lit_ap (q := -1.428606765330187045e-06) 1.43e-6 (by push_cast; rw [abs_of_neg] <;> norm_num) (by norm_num)
    (y := -1.428606765330187045e-06) (by push_cast; rfl)
  have Q : Approx qf (q : ℝ) 0 := ⟨hq, by rw [hqv]; simp⟩
  have hfin : |(q : ℝ) * -1.428606765330187045e-06 + (v.val - q * (22713 / 2 ^ 15)) - (v.val - q * Real.log 2)| ≤ 1.7e-8 := by
    rw [show (q : ℝ) * -1.428606765330187045e-06 + (v.val - q * (22713 / 2 ^ 15)) - (v.val - q * Real.log 2) =
      q * (Real.log 2 - (22713 / 2 ^ 15 + 1.428606765330187045e-06)) by ring, abs_mul]
    have : |Real.log 2 - (22713 / 2 ^ 15 + 1.428606765330187045e-06)| ≤ 1.1e-10 := by
      rw [abs_le]; constructor <;> norm_num at hl2 ⊢ <;> linarith [hl2.1, hl2.2]
    exact (mul_le_mul hq2 this (abs_nonneg _) (by norm_num)).trans (by norm_num)
  have s2 := Q.fma t l2 s1 151 1.43e-6 0.00022 0.3470 hq2 (by rw [abs_of_neg] <;> norm_num) (by unfold ulp; norm_num)
    (by
      have := abs_add_le ((q : ℝ) * -1.428606765330187045e-06 + (v.val - q * (22713 / 2 ^ 15)) - (v.val - q * Real.log 2)) (v.val - q * Real.log 2)
      rw [sub_add_cancel] at this
      have h3 := this.trans (add_le_add hfin h)
      refine (add_le_add_left h3 _).trans ?_
      unfold ulp; norm_num) (by norm_num) (by norm_num)
  refine (s2.trans hfin).mono ?_
  unfold ulp; norm_num

/-- The two scaling factors. -/
theorem scale_words {q : Int} (h : |q| ≤ 151) :
    ((BitVec.ofInt 32 q).sshiftRight 1).toInt = q / 2 ∧
    (BitVec.ofInt 32 q - (BitVec.ofInt 32 q).sshiftRight 1).toInt = q - q / 2 := by
  have h' := abs_le.1 h
  have e0 : (BitVec.ofInt 32 q).toInt = q := BitVec.toInt_ofInt_eq_self (by norm_num) (by omega) (by omega)
  have e1 : ((BitVec.ofInt 32 q).sshiftRight 1).toInt = q / 2 := by
    rw [BitVec.toInt_sshiftRight, e0, Int.shiftRight_eq_div_pow]; rfl
  refine ⟨e1, ?_⟩
  rw [BitVec.toInt_sub, e0, e1]
  rw [Int.bmod_def]
  split <;> omega

theorem expScale_first {u : F32} (hu : u.isFinite = true) (h1 : 1 / 2 ≤ u.val) (h2 : u.val < 2) {q : Int} (hq : |q| ≤ 151) :
    ∃ a b : F32, expScale u (BitVec.ofInt 32 q) = fmul a b ∧ a.isFinite = true ∧ b.isFinite = true ∧
      a.val * b.val = u.val * (2 : ℝ) ^ q ∧ (2 : ℝ) ^ (q / 2 - 1) ≤ a.val ∧ b.val = (2 : ℝ) ^ (q - q / 2) := by
  obtain ⟨w1, w2⟩ := scale_words hq
  have h' := abs_le.1 hq
  obtain ⟨f1, v1⟩ := pow2_val (q / 2) (by omega) (by omega) _ w1
  obtain ⟨f2, v2⟩ := pow2_val (q - q / 2) (by omega) (by omega) _ w2
  obtain ⟨y, hyf, hyv⟩ := scale_representable hu (-1) (by norm_num) (by rw [zpow_neg_one]; linarith) (q / 2) (by omega) (by
    calc u.val * (2 : ℝ) ^ (q / 2) ≤ 2 * (2 : ℝ) ^ (75 : Int) := by
          apply mul_le_mul h2.le _ (by positivity) (by norm_num)
          exact zpow_le_zpow_right₀ (by norm_num) (by omega)
      _ < _ := by norm_num)
  have ex := fmul_exact hu f1 hyf (by rw [hyv, v1])
  refine ⟨fmul u ⟨((BitVec.ofInt 32 q).sshiftRight 1 + 0x7F#32) <<< 23⟩, _, rfl, ex.1, f2, ?_, ?_, v2⟩
  · rw [ex.eq, v1, v2, mul_assoc, ← zpow_add₀ (by norm_num), show q / 2 + (q - q / 2) = q by ring]
  · rw [ex.eq, v1, zpow_sub₀ (by norm_num), zpow_one, div_eq_inv_mul]
    gcongr; linarith

/-- Scaling in range is exact. -/
theorem expScale_exact {u : F32} (hu : u.isFinite = true) (h1 : 1 / 2 ≤ u.val) (h2 : u.val < 2) {q : Int} (hq : |q| ≤ 151)
    (hq1 : -125 ≤ q) (hov : u.val * (2 : ℝ) ^ q < (2 : ℝ) ^ (128 : Int)) :
    Approx (expScale u (BitVec.ofInt 32 q)) (u.val * (2 : ℝ) ^ q) 0 := by
  obtain ⟨a, b, e, fa, fb, hab, _, _⟩ := expScale_first hu h1 h2 hq
  obtain ⟨y, hyf, hyv⟩ := scale_representable hu (-1) (by norm_num) (by rw [zpow_neg_one]; linarith) q (by omega) hov
  rw [e, ← hab]
  exact fmul_exact fa fb hyf (by rw [hyv, hab])

/-- Scaling to a subnormal result is off by at most one unit. -/
theorem expScale_tiny {u : F32} (hu : u.isFinite = true) (h1 : 1 / 2 ≤ u.val) (h2 : u.val < 2) {q : Int} (hq : |q| ≤ 151)
    (hq1 : q ≤ -126) : Approx (expScale u (BitVec.ofInt 32 q)) (u.val * (2 : ℝ) ^ q) (1 / 2 ^ 149) := by
  obtain ⟨a, b, e, fa, fb, hab, _, _⟩ := expScale_first hu h1 h2 hq
  have hpos : 0 < u.val * (2 : ℝ) ^ q := by positivity
  have hq2 : (2 : ℝ) ^ q ≤ (2 : ℝ) ^ (-126 : Int) := zpow_le_zpow_right₀ (by norm_num) hq1
  have hM : |u.val * (2 : ℝ) ^ q| ≤ 1 / 2 ^ 125 := by
    rw [abs_of_pos hpos]
    refine (mul_le_mul h2.le hq2 (by positivity) (by norm_num)).trans ?_
    norm_num
  rw [e, ← hab]
  rw [← hab] at hM
  have er : a.val * b.val = ((a.toRat * b.toRat : Rat) : ℝ) := by unfold val; push_cast; rfl
  rw [er] at hM ⊢
  have hn := fmul_nearest fa fb (rat_le_max hM (by norm_num))
  refine ⟨hn.1, (hn.err (lt_of_le_of_lt hM (lt_of_lt_of_le (by norm_num) maxRat_big))).trans (max_le ?_ (by norm_num))⟩
  calc _ ≤ (1 / 2 ^ 125 : ℝ) / 2 ^ 24 := by gcongr
    _ ≤ _ := by norm_num

theorem expScale_overflow {u : F32} (hu : u.isFinite = true) (h1 : 1 / 2 ≤ u.val) (h2 : u.val < 2) {q : Int} (hq : |q| ≤ 151)
    (hov : (2 : ℝ) ^ 128 ≤ u.val * (2 : ℝ) ^ q) : expScale u (BitVec.ofInt 32 q) = inf false := by
  obtain ⟨a, b, e, fa, fb, hab, _, _⟩ := expScale_first hu h1 h2 hq
  rw [e]; exact fmul_overflow fa fb (by rw [hab]; exact hov)

/-- Everything before the scaling: a significand within `3e-7` and an exponent. -/
theorem exp_core (t : FTarget) {v : F32} (hv : v.isFinite = true) (h : |v.val| ≤ 104) :
    ∃ (u : F32) (q : Int) (x : ℝ), exp1 t v = expScale u (BitVec.ofInt 32 q) ∧ u.isFinite = true ∧ |q| ≤ 151 ∧
      x = v.val - q * Real.log 2 ∧ |x| ≤ 0.3467 ∧ |u.val - Real.exp x| ≤ 2.95e-7 * Real.exp x ∧ 1 / 2 ≤ u.val ∧ u.val < 2 := by
  obtain ⟨q, e, hq, hx⟩ := expQ_spec t hv h
  obtain ⟨fq, vq⟩ := ofI_small (q := q) (hq.trans (by norm_num))
  have hS := expS_approx t hv fq vq hq hx
  have hlt : ltb (ofRat 104) v = false := by
    have := lit_exact (q := 104) (U := 104 * 2 ^ 149) (by decide +kernel) (by decide +kernel)
    rw [ltb_val this.1 hv, this.2, decide_eq_false]
    rw [not_lt, Int.cast_mul, Int.cast_pow, Int.cast_ofNat, Int.cast_ofNat, mul_div_assoc, div_self (by positivity), mul_one]
    exact (abs_le.1 h).2
  have hle : leb (ofRat (-104)) v = true := by
    have := lit_exact (q := -104) (U := -104 * 2 ^ 149) (by decide +kernel) (by decide +kernel)
    rw [leb_val this.1 hv, this.2, decide_eq_true]
    rw [Int.cast_mul, Int.cast_pow, Int.cast_neg, Int.cast_ofNat, Int.cast_ofNat, mul_div_assoc, div_self (by positivity), mul_one]
    exact (abs_le.1 h).1
  generalize hsd : expS t v (ofI (BitVec.ofInt 32 q)) = s at hS
  have hs : |s.val| ≤ 0.347 := hS.abs_le.trans (by linarith)
  have hU := expU_approx t hS.1 hs
  have hP := expP_exp hs
  set x := v.val - q * Real.log 2 with hxd
  have hx' := abs_le.1 hx
  have hE0 : 0 < Real.exp x := Real.exp_pos x
  have hElo : 0.6533 ≤ Real.exp x := by linarith [Real.add_one_le_exp x]
  have hEhi : Real.exp x ≤ 1.54 := by
    have h1 := Real.add_one_le_exp (-x)
    have h2 : 0.6533 ≤ Real.exp (-x) := by linarith
    have h3 : Real.exp x * Real.exp (-x) = 1 := by rw [← Real.exp_add]; simp
    by_contra hc
    rw [not_le] at hc
    have := mul_lt_mul hc h2 (by norm_num) hE0.le
    rw [h3] at this
    norm_num at this
  have hd : |Real.exp s.val - Real.exp x| ≤ 6.1e-8 * Real.exp x := by
    have hdelta := hS.2
    set d := s.val - x with hdd
    have e1 : Real.exp s.val - Real.exp x = Real.exp x * (Real.exp d - 1) := by
      rw [mul_sub, ← Real.exp_add]; congr 2 <;> (try rw [hdd]) <;> ring
    have h1 := Real.abs_exp_sub_one_sub_id_le (x := d) (hdelta.trans (by norm_num))
    have h2 : |Real.exp d - 1| ≤ 6.1e-8 := by
      have h3 := abs_add_le (Real.exp d - 1 - d) d
      rw [sub_add_cancel] at h3
      have h4 : d ^ 2 ≤ (6e-8) ^ 2 := by rw [← sq_abs]; exact pow_le_pow_left₀ (abs_nonneg _) hdelta 2
      refine h3.trans ((add_le_add (h1.trans h4) hdelta).trans (by norm_num))
    rw [e1, abs_mul, abs_of_pos hE0, mul_comm]
    exact mul_le_mul_of_nonneg_right h2 hE0.le
  refine ⟨expU t s, q, x, ?_, hU.1, hq, rfl, hx, ?_, ?_⟩
  · rw [exp1_eq, e, hsd, hlt, hle, sel_false]
    have : ∀ r : F32, (⟨r.bits &&& mask true⟩ : F32) = r := by
      intro r
      have : mask true = BitVec.allOnes 32 := rfl
      rw [this, BitVec.and_allOnes]
    rw [this]
  · have h1 := abs_add_le ((expU t s).val - expP s.val) (expP s.val - Real.exp s.val)
    rw [sub_add_sub_cancel] at h1
    have h2 := abs_add_le ((expU t s).val - Real.exp s.val) (Real.exp s.val - Real.exp x)
    rw [sub_add_sub_cancel] at h2
    have := hU.2
    norm_num at *
    linarith
  · have h1 := abs_add_le ((expU t s).val - expP s.val) (expP s.val - Real.exp s.val)
    rw [sub_add_sub_cancel] at h1
    have h2 := abs_add_le ((expU t s).val - Real.exp s.val) (Real.exp s.val - Real.exp x)
    rw [sub_add_sub_cancel] at h2
    have h4 : |(expU t s).val - Real.exp x| ≤ 1e-6 := by
      have := hU.2
      norm_num at *
      linarith
    have h5 := abs_le.1 h4
    constructor
    · linarith
    · linarith

theorem exp_eq_mul {v x : ℝ} {q : Int} (h : x = v - q * Real.log 2) : Real.exp v = Real.exp x * (2 : ℝ) ^ q := by
  have : v = x + Real.log 2 * q := by rw [h]; ring
  rw [this, Real.exp_add, Real.exp_mul, Real.exp_log (by norm_num), Real.rpow_intCast]

theorem map_get (f : F32 → F32) (v : V4 F32) (i : Fin 4) : (v.map f).get i = f (v.get i) := by fin_cases i <;> rfl

/-- Before the final rounding. -/
theorem exp_close {u : F32} {v x : ℝ} {q : Int} (h : x = v - q * Real.log 2) (hu : |u.val - Real.exp x| ≤ 2.95e-7 * Real.exp x) :
    |u.val * (2 : ℝ) ^ q - Real.exp v| ≤ 2.95e-7 * Real.exp v := by
  rw [exp_eq_mul h, ← sub_mul, abs_mul, abs_of_pos (by positivity : (0 : ℝ) < (2 : ℝ) ^ q), ← mul_assoc]
  gcongr

theorem exp_range {v x : ℝ} {q : Int} (h : x = v - q * Real.log 2) (hx : |x| ≤ 0.3467) :
    (-86 ≤ v → -125 ≤ q) ∧ (v ≤ 88.7228 → q ≤ 128) := by
  have hl := abs_le.1 Real.log_two_near_10
  have hx' := abs_le.1 hx
  have hlp : 0.6931 < Real.log 2 := by linarith
  constructor
  · intro hv
    by_contra hc
    have : (q : ℝ) ≤ -126 := by exact_mod_cast (by omega : q ≤ -126)
    have : (q : ℝ) * Real.log 2 ≤ -126 * Real.log 2 := mul_le_mul_of_nonneg_right this (by linarith)
    linarith
  · intro hv
    by_contra hc
    have : (129 : ℝ) ≤ q := by exact_mod_cast (by omega : 129 ≤ q)
    have : 129 * Real.log 2 ≤ (q : ℝ) * Real.log 2 := mul_le_mul_of_nonneg_right this (by linarith)
    linarith

theorem exp_fits {u : F32} {v x : ℝ} {q : Int} (h : x = v - q * Real.log 2) (hx : |x| ≤ 0.3467)
    (hu : |u.val - Real.exp x| ≤ 2.95e-7 * Real.exp x) (h2 : u.val < 2) (hv : v ≤ 88.7228) :
    u.val * (2 : ℝ) ^ q < (2 : ℝ) ^ (128 : Int) := by
  have hq := (exp_range h hx).2 hv
  rcases lt_or_eq_of_le hq with hq | rfl
  · calc u.val * (2 : ℝ) ^ q < 2 * (2 : ℝ) ^ q := by gcongr
      _ = (2 : ℝ) ^ (1 + q) := by rw [zpow_add₀ (by norm_num), zpow_one]
      _ ≤ _ := zpow_le_zpow_right₀ (by norm_num) (by omega)
  · have hl := abs_le.1 Real.log_two_near_10
    have hx2 : x ≤ -3e-5 := by rw [h]; push_cast; linarith
    have hE : Real.exp x ≤ 0.99998 := by
      have h1 := Real.add_one_le_exp (-x)
      have h3 : Real.exp x * Real.exp (-x) = 1 := by rw [← Real.exp_add]; simp
      have hE0 := Real.exp_pos x
      by_contra hc
      rw [not_le] at hc
      have := mul_lt_mul hc (by linarith : (1.00003 : ℝ) ≤ Real.exp (-x)) (by norm_num) hE0.le
      rw [h3] at this
      norm_num at this
    have : u.val < 1 := by have := (abs_le.1 hu).2; linarith
    calc u.val * (2 : ℝ) ^ (128 : Int) < 1 * (2 : ℝ) ^ (128 : Int) := by gcongr
      _ = _ := one_mul _

/-- **C82** The exponential is within `3e-7` relative of the exact one wherever the result is a normal number; fused or not,
SSE or NEON. -/
theorem simd_exp_accurate_partial (t : FTarget) (v : V4 F32) (i : Fin 4) (hv : (v.get i).isFinite = true) (h1 : -86 ≤ (v.get i).val)
    (h2 : (v.get i).val ≤ 88.7228) : ((exp t v).get i).isFinite = true ∧
    |((exp t v).get i).val - Real.exp (v.get i).val| ≤ 3e-7 * Real.exp (v.get i).val := by
  unfold exp; rw [map_get]
  generalize v.get i = v at *
  obtain ⟨u, q, x, e, hu, hq, hx, hxb, hE, hu1, hu2⟩ := exp_core t hv (abs_le.2 ⟨by linarith, by linarith⟩)
  have r := expScale_exact hu hu1 hu2 hq ((exp_range hx hxb).1 h1) (exp_fits hx hxb hE hu2 h2)
  rw [e]
  refine ⟨r.1, ?_⟩
  rw [r.eq]
  refine (exp_close hx hE).trans ?_
  have := Real.exp_pos v.val
  linarith

/-- Subnormal results are within one unit in the last place more. -/
theorem simd_exp_subnormal_partial (t : FTarget) (v : V4 F32) (i : Fin 4) (hv : (v.get i).isFinite = true)
    (h1 : -104 ≤ (v.get i).val) (h2 : (v.get i).val ≤ 88.7228) : ((exp t v).get i).isFinite = true ∧
    |((exp t v).get i).val - Real.exp (v.get i).val| ≤ 3e-7 * Real.exp (v.get i).val + 1 / 2 ^ 149 := by
  unfold exp; rw [map_get]
  generalize v.get i = v at *
  obtain ⟨u, q, x, e, hu, hq, hx, hxb, hE, hu1, hu2⟩ := exp_core t hv (abs_le.2 ⟨by linarith, by linarith⟩)
  have hp := Real.exp_pos v.val
  have r : Approx (expScale u (BitVec.ofInt 32 q)) (u.val * (2 : ℝ) ^ q) (1 / 2 ^ 149) := by
    by_cases hc : -125 ≤ q
    · exact (expScale_exact hu hu1 hu2 hq hc (exp_fits hx hxb hE hu2 h2)).mono (by positivity)
    · exact expScale_tiny hu hu1 hu2 hq (by omega)
  have r2 := r.trans (exp_close hx hE)
  rw [e]
  exact ⟨r2.1, r2.2.trans (by linarith)⟩

theorem lit104 : (ofRat 104).isFinite = true ∧ (ofRat 104).val = 104 := by
  have := lit_exact (q := 104) (U := 104 * 2 ^ 149) (by decide +kernel) (by decide +kernel)
  refine ⟨this.1, ?_⟩
  rw [this.2, Int.cast_mul, Int.cast_pow, Int.cast_ofNat, Int.cast_ofNat, mul_div_assoc, div_self (by positivity), mul_one]
theorem litm104 : (ofRat (-104)).isFinite = true ∧ (ofRat (-104)).val = -104 := by
  have := lit_exact (q := -104) (U := -104 * 2 ^ 149) (by decide +kernel) (by decide +kernel)
  refine ⟨this.1, ?_⟩
  rw [this.2, Int.cast_mul, Int.cast_pow, Int.cast_neg, Int.cast_ofNat, Int.cast_ofNat, mul_div_assoc, div_self (by positivity), mul_one]

/-- Every argument from 88.723 on, and plus infinity, gives plus infinity. -/
theorem simd_exp_overflow (t : FTarget) (v : V4 F32) (i : Fin 4)
    (h : ((v.get i).isFinite = true ∧ 88.723 ≤ (v.get i).val) ∨ v.get i = inf false) : (exp t v).get i = inf false := by
  unfold exp; rw [map_get]
  generalize v.get i = v at *
  rcases h with ⟨hv, h⟩ | h
  · by_cases hb : v.val ≤ 104
    · obtain ⟨u, q, x, e, hu, hq, hx, hxb, hE, hu1, hu2⟩ := exp_core t hv (abs_le.2 ⟨by linarith, by linarith⟩)
      rw [e]
      apply expScale_overflow hu hu1 hu2 hq
      have h1 := (abs_le.1 (exp_close hx hE)).1
      have h128 : (2 : ℝ) ^ 128 * 1.0001 ≤ Real.exp v.val := by
        have hl := abs_le.1 Real.log_two_near_10
        have e1 := exp_eq_mul (v := v.val) (x := v.val - 128 * Real.log 2) (q := 128) (by push_cast; ring)
        have h3 := Real.add_one_le_exp (v.val - 128 * Real.log 2)
        rw [e1, mul_comm, show ((2 : ℝ) ^ (128 : Int)) = 2 ^ 128 by norm_cast]
        gcongr
        linarith
      have hP : (0 : ℝ) < 2 ^ 128 := by positivity
      generalize (2 : ℝ) ^ 128 = B at *
      nlinarith
    · rw [exp1_eq, ltb_val lit104.1 hv, lit104.2, decide_eq_true (by linarith), sel_true]
  · rw [exp1_eq, h, show ltb (ofRat 104) (inf false) = true by decide +kernel, sel_true]

/-- At the upper edge: every finite argument from -86 on gives a finite result within `3e-7`, or infinity when the exact
exponential is at least `2^128` up to that error. -/
theorem simd_exp_edge (t : FTarget) (v : V4 F32) (i : Fin 4) (hv : (v.get i).isFinite = true) (h1 : -86 ≤ (v.get i).val) :
    (((exp t v).get i).isFinite = true ∧
      |((exp t v).get i).val - Real.exp (v.get i).val| ≤ 3e-7 * Real.exp (v.get i).val) ∨
    ((exp t v).get i = inf false ∧ 2 ^ 128 ≤ (1 + 3e-7) * Real.exp (v.get i).val) := by
  have hp := Real.exp_pos (v.get i).val
  by_cases hb : (v.get i).val ≤ 88.7228
  · exact Or.inl (simd_exp_accurate_partial t v i hv h1 hb)
  by_cases hb' : 88.723 ≤ (v.get i).val
  · refine Or.inr ⟨simd_exp_overflow t v i (Or.inl ⟨hv, hb'⟩), ?_⟩
    have hl := abs_le.1 Real.log_two_near_10
    have e1 := exp_eq_mul (v := (v.get i).val) (x := (v.get i).val - 128 * Real.log 2) (q := 128) (by push_cast; ring)
    have h3 := Real.add_one_le_exp ((v.get i).val - 128 * Real.log 2)
    have h4 : 1 ≤ Real.exp ((v.get i).val - 128 * Real.log 2) := by linarith
    rw [show ((2 : ℝ) ^ (128 : Int)) = 2 ^ 128 by norm_cast] at e1
    have hP : (0 : ℝ) < 2 ^ 128 := by positivity
    have := mul_le_mul_of_nonneg_right h4 hP.le
    rw [← e1] at this
    linarith
  · unfold exp; rw [map_get]
    generalize v.get i = v at *
    obtain ⟨u, q, x, e, hu, hq, hx, hxb, hE, hu1, hu2⟩ := exp_core t hv (abs_le.2 ⟨by linarith, by linarith⟩)
    have hc := exp_close hx hE
    rw [e]
    by_cases ho : u.val * (2 : ℝ) ^ q < (2 : ℝ) ^ (128 : Int)
    · have r := expScale_exact hu hu1 hu2 hq ((exp_range hx hxb).1 h1) ho
      refine Or.inl ⟨r.1, ?_⟩
      rw [r.eq]
      linarith
    · rw [not_lt, show ((2 : ℝ) ^ (128 : Int)) = 2 ^ 128 by norm_cast] at ho
      refine Or.inr ⟨expScale_overflow hu hu1 hu2 hq ho, ?_⟩
      have := (abs_le.1 hc).2
      linarith

/-- Every argument below -104, and minus infinity, gives plus zero. -/
theorem simd_exp_underflow (t : FTarget) (v : V4 F32) (i : Fin 4)
    (h : ((v.get i).isFinite = true ∧ (v.get i).val < -104) ∨ v.get i = inf true) : (exp t v).get i = zero false := by
  unfold exp; rw [map_get]
  generalize v.get i = v at *
  have hz : ∀ r : F32, (⟨r.bits &&& mask false⟩ : F32) = zero false := by
    intro r
    have : mask false = 0#32 := rfl
    rw [this, BitVec.and_zero]; rfl
  rw [exp1_eq]
  rcases h with ⟨hv, h⟩ | h
  · rw [ltb_val lit104.1 hv, lit104.2, leb_val litm104.1 hv, litm104.2, decide_eq_false (by linarith), decide_eq_false (by linarith),
      sel_false, hz]
  · rw [h, show ltb (ofRat 104) (inf true) = false by decide +kernel, show leb (ofRat (-104)) (inf true) = false by decide +kernel,
      sel_false, hz]

/-- The exponential of NaN should be NaN. It is zero, on every target. -/
theorem simd_exp_nan_lost (t : FTarget) (v : V4 F32) (i : Fin 4) (h : (v.get i).isNaN = true) : (exp t v).get i = zero false := by
  unfold exp; rw [map_get]
  generalize v.get i = v at *
  have h1 : ltb (ofRat 104) v = false := by unfold ltb; simp [h]
  have h2 : leb (ofRat (-104)) v = false := by unfold leb; simp [h]
  rw [exp1_eq, h1, h2, sel_false]
  have : mask false = 0#32 := rfl
  rw [this, BitVec.and_zero]; rfl

/-- Hypotheses met: `exp(1)` and `exp(-100)`; the exponential of zero is one. -/
example : (⟨0x3F800000⟩ : F32).isFinite = true ∧ exp1 (.sse true) ⟨0x3F800000⟩ = ⟨0x402DF854⟩ ∧
    exp1 (.sse true) ⟨0xC2C80000⟩ = ⟨0x0000001B⟩ ∧ exp1 (.neon false) (zero false) = ⟨0x3F800000⟩ ∧
    exp1 (.sse false) ⟨0x42B20000⟩ = inf false ∧ exp1 (.sse true) nan = zero false := by decide +kernel

end F32x4
end Verif
