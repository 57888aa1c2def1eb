import Verif.Props.SimdLog

/-!
# C83: the fast SIMD power and gamma correction
-/

namespace Verif
open F32
namespace F32x4

/-- The word that selects the sign of the result. -/
def powW (t : FTarget) (b e : F32) : W :=
  mask (ltb b (zero false)) &&& (mask (decide (toI t e &&& 1#32 ≠ 0#32)) &&& (mask (eqb e (ofI (toI t e))) ||| mask (leb (ofNat (2 ^ 24)) (fabs e))) &&&
    mask (ltb (fabs e) (ofNat (2 ^ 24))))

theorem fastPow1_eq (t : FTarget) (b e : F32) : fastPow1 t b e = sel (mask (eqb e (zero false))) (ofRat 1)
    ⟨(fmul (exp1 t (fmul (log1 t (fabs b)) e)) (sel (powW t b e) (ofRat (-1)) (ofRat 1))).bits &&& ~~~(mask (eqb b (zero false)))⟩ := rfl

theorem mask_and (a b : Bool) : mask a &&& mask b = mask (a && b) := by cases a <;> cases b <;> rfl
theorem mask_or (a b : Bool) : mask a ||| mask b = mask (a || b) := by cases a <;> cases b <;> rfl

theorem powW_eq (t : FTarget) (b e : F32) : powW t b e = mask (ltb b (zero false) && (decide (toI t e &&& 1#32 ≠ 0#32) &&
    (eqb e (ofI (toI t e)) || leb (ofNat (2 ^ 24)) (fabs e)) && ltb (fabs e) (ofNat (2 ^ 24)))) := by
  unfold powW; rw [mask_or, mask_and, mask_and, mask_and]

theorem eqb_val {a b : F32} (ha : a.isFinite = true) (hb : b.isFinite = true) : eqb a b = decide (a.val = b.val) := by
  have h1 := ltb_val ha hb
  have h2 := leb_val ha hb
  rw [leb_eq_lt_or_eq] at h2
  rw [h1] at h2
  by_cases h : a.val = b.val
  · rw [h] at h2; simp at h2; rw [h2]; simp [h]
  · rw [decide_eq_false h]
    by_contra hc
    rw [Bool.not_eq_false] at hc
    have h3 := (eqb_iff.1 hc).2.2
    have h4 : ltb a b = false := by unfold ltb; rw [h3]; simp
    rw [hc] at h2
    rw [h4] at h1
    simp at h2 h1
    exact h (le_antisymm h2 h1)

/-- Multiplying by one or minus one is exact. -/
theorem mul_sign {r : F32} (hr : r.isFinite = true) (s : Bool) :
    (fmul r (if s then ofRat (-1) else ofRat 1)).isFinite = true ∧ (fmul r (if s then ofRat (-1) else ofRat 1)).val = if s then -r.val else r.val := by
  have hm : (ofRat (-1)).isFinite = true ∧ (ofRat (-1)).val = -1 := by
    have h : ofRat (-1) = ofInt (-1) := by decide +kernel
    rw [h]; have := ofInt_exact (-1) (by decide); exact_mod_cast this
  cases s
  · have := fmul_exact hr lit_one.1 hr (by rw [lit_one.2, mul_one])
    simp only [Bool.false_eq_true, if_false]
    exact ⟨this.1, by rw [Approx.eq this, lit_one.2, mul_one]⟩
  · have hn : (fneg r).isFinite = true := by rw [fneg_finite]; exact hr
    have hv : (fneg r).val = r.val * (ofRat (-1)).val := by
      rw [hm.2]; unfold val; rw [fneg_toRat]; push_cast; ring
    have := fmul_exact hr hm.1 hn hv
    simp only [if_true]
    exact ⟨this.1, by rw [Approx.eq this, hm.2, mul_neg, mul_one]⟩

theorem and_not_false (r : F32) : (⟨r.bits &&& ~~~(mask false)⟩ : F32) = r := by
  have : ~~~(mask false) = BitVec.allOnes 32 := by decide
  rw [this, BitVec.and_allOnes]

/-- The relative error of the power: `6.1e-5` per unit of the exponent. -/
theorem pow_core (t : FTarget) {b e : F32} (hb : b.isFinite = true) (hb0 : b.val ≠ 0) (he : e.isFinite = true)
    (L : Approx (log1 t (fabs b)) (Real.log |b.val|) 6e-5) (h1 : |e.val| ≤ 100) (h2 : |e.val * Real.log (|b.val|)| ≤ 85) (s : Bool)
    (hw : powW t b e = mask s) (hs : s = true → e.val ≠ 0) :
    Approx (fastPow1 t b e) ((if s then -1 else 1) * Real.exp (e.val * Real.log (|b.val|))) ((6.1e-5 * |e.val| + 6e-6) * Real.exp (e.val * Real.log (|b.val|))) := by
  rw [fastPow1_eq, hw, eqb_val hb zero_val.1, zero_val.2, decide_eq_false hb0, and_not_false, eqb_val he zero_val.1, zero_val.2]
  by_cases h0 : e.val = 0
  · have : s = false := by by_contra hc; rw [Bool.not_eq_false] at hc; exact hs hc h0
    rw [decide_eq_true h0, sel_true, this, h0]
    refine ⟨lit_one.1, ?_⟩
    rw [lit_one.2]; norm_num
  · rw [decide_eq_false h0, sel_false]
    obtain ⟨lf, lv⟩ := L
    generalize log1 t (fabs b) = l at *
    generalize Real.log |b.val| = y at *
    have ha0 := abs_nonneg e.val
    have d1 : |l.val * e.val - e.val * y| ≤ 6e-5 * |e.val| := by
      rw [show l.val * e.val - e.val * y = (l.val - y) * e.val by ring, abs_mul]; gcongr
    have hM : |l.val * e.val| ≤ 85.006 := by
      have := abs_add_le (l.val * e.val - e.val * y) (e.val * y)
      rw [sub_add_cancel] at this; linarith
    obtain ⟨pf, pv⟩ := fmul_approx lf he hM (by norm_num)
    generalize fmul l e = p at *
    have hu : ulp 85.006 ≤ 5.1e-6 := by unfold ulp; norm_num
    have d2 : |p.val - e.val * y| ≤ 6e-5 * |e.val| + 5.1e-6 := by
      have := abs_add_le (p.val - l.val * e.val) (l.val * e.val - e.val * y)
      rw [sub_add_sub_cancel] at this; linarith
    have hp := abs_le.1 d2
    have hx := abs_le.1 h2
    obtain ⟨rf, rv⟩ : (exp1 t p).isFinite = true ∧ |(exp1 t p).val - Real.exp p.val| ≤ 3e-7 * Real.exp p.val :=
      simd_exp_accurate_partial t (V4.splat p) 0 pf (by change -86 ≤ p.val; linarith) (by change p.val ≤ 88.7228; linarith)
    generalize exp1 t p = r at *
    have hsel : sel (mask s) (ofRat (-1)) (ofRat 1) = if s then ofRat (-1) else ofRat 1 := by cases s <;> rfl
    rw [hsel]
    obtain ⟨mf, mv⟩ := mul_sign rf s
    refine ⟨mf, ?_⟩
    rw [mv]
    have key : |r.val - Real.exp (e.val * y)| ≤ (6.1e-5 * |e.val| + 6e-6) * Real.exp (e.val * y) := by
      generalize e.val * y = x at *
      have hd : |p.val - x| ≤ 1 := by linarith
      have h3 := Real.abs_exp_sub_one_sub_id_le hd
      have e1 : Real.exp p.val = Real.exp (p.val - x) * Real.exp x := by rw [← Real.exp_add, sub_add_cancel]
      have hE := Real.exp_pos x
      generalize Real.exp x = E at *
      have h4 : |Real.exp (p.val - x) - 1| ≤ 6.04e-5 * |e.val| + 5.2e-6 := by
        have h5 := abs_add_le (Real.exp (p.val - x) - 1 - (p.val - x)) (p.val - x)
        rw [sub_add_cancel] at h5
        have h6 : (p.val - x) ^ 2 ≤ 0.0061 * (6e-5 * |e.val| + 5.1e-6) := by
          rw [← sq_abs, sq]
          exact mul_le_mul (by linarith) d2 (abs_nonneg _) (by norm_num)
        linarith
      generalize Real.exp (p.val - x) = D at *
      have hD := abs_le.1 h4
      have h7 : |r.val - E| ≤ |r.val - D * E| + |(D - 1) * E| := by
        have := abs_add_le (r.val - D * E) ((D - 1) * E)
        rw [show r.val - D * E + (D - 1) * E = r.val - E by ring] at this; exact this
      rw [abs_mul, abs_of_pos hE] at h7
      rw [e1] at rv
      have h8 : |D - 1| * E ≤ (6.04e-5 * |e.val| + 5.2e-6) * E := by gcongr
      have h9 : D * E ≤ 1.01 * E := by gcongr; linarith
      have h10 : 0 ≤ |e.val| * E := by positivity
      nlinarith
    cases s
    · simpa using key
    · rw [if_pos rfl, if_pos rfl, show -r.val - -1 * Real.exp (e.val * y) = -(r.val - Real.exp (e.val * y)) by ring, abs_neg]; exact key

/-- The targets and arguments on which `log` works. -/
def LogOk (t : FTarget) (x : ℝ) : Prop := match t with | .sse _ => 0 < x | .neon _ => 0.7501 ≤ x

theorem log_ok (t : FTarget) {b : F32} (hb : b.isFinite = true) (h : LogOk t |b.val|) : Approx (log1 t (fabs b)) (Real.log |b.val|) 6e-5 := by
  obtain ⟨f, v⟩ := fabs_val b hb
  rw [← v] at h ⊢
  cases t with
  | sse c => exact log1_sse c f h
  | neon c => exact log1_neon c f h

theorem LogOk.pos {t : FTarget} {x : ℝ} (h : LogOk t x) : 0 < x := by
  cases t with
  | sse c => exact h
  | neon c => unfold LogOk at h; simp at h; linarith

theorem map2_get (f : F32 → F32 → F32) (a b : V4 F32) (i : Fin 4) : (V4.map2 f a b).get i = f (a.get i) (b.get i) := by fin_cases i <;> rfl

/-- Positive base: relative error at most `6.1e-5 * |e| + 6e-6`. Partial: the exponent is limited to a hundred and the result to
`exp(±85)`, and on NEON the base to at least 0.7501 (see `simd_fastPow_neon_wrong`). -/
theorem simd_fastPow_accurate_partial (t : FTarget) (b e : V4 F32) (i : Fin 4) (hb : (b.get i).isFinite = true) (hb0 : LogOk t (b.get i).val)
    (he : (e.get i).isFinite = true) (h1 : |(e.get i).val| ≤ 100) (h2 : |(e.get i).val * Real.log (b.get i).val| ≤ 85) :
    ((fastPow t b e).get i).isFinite = true ∧
    |((fastPow t b e).get i).val - (b.get i).val ^ (e.get i).val| ≤ (6.1e-5 * |(e.get i).val| + 6e-6) * (b.get i).val ^ (e.get i).val := by
  unfold fastPow; rw [map2_get]
  generalize b.get i = b at *
  generalize e.get i = e at *
  have hpos := hb0.pos
  have ha : |b.val| = b.val := abs_of_pos hpos
  have hw : powW t b e = mask false := by
    rw [powW_eq, ltb_val hb zero_val.1, zero_val.2, decide_eq_false (not_lt.2 hpos.le), Bool.false_and]
  have := pow_core t hb hpos.ne' he (log_ok t hb (by rw [ha]; exact hb0)) h1 (by rw [ha]; exact h2) false hw (by simp)
  rw [ha] at this
  rw [Real.rpow_def_of_pos hpos, mul_comm (Real.log b.val)]
  rw [if_neg (by simp), one_mul] at this
  exact this

theorem odd_word (n : Int) : decide (BitVec.ofInt 32 n &&& 1#32 ≠ 0#32) = decide (n % 2 = 1) := by
  rw [decide_eq_decide]
  rw [ne_eq, ← BitVec.toNat_inj, BitVec.toNat_and, BitVec.toNat_ofInt]
  have : (1#32).toNat = 1 := rfl
  rw [this, Nat.and_one_is_mod, show (0#32).toNat = 0 from rfl]
  omega

theorem lit24 : (ofNat (2 ^ 24)).isFinite = true ∧ (ofNat (2 ^ 24)).val = 2 ^ 24 := by
  have : ofNat (2 ^ 24) = ofInt (2 ^ 24) := by decide +kernel
  rw [this]; have := ofInt_exact (2 ^ 24) (by decide); exact_mod_cast this

/-- Negative base and an integer exponent: the sign follows the parity, with the same relative error. -/
theorem simd_fastPow_negative_partial (t : FTarget) (b e : V4 F32) (i : Fin 4) (n : Int) (hb : (b.get i).isFinite = true) (hb0 : LogOk t (-(b.get i).val))
    (he : (e.get i).isFinite = true) (hn : (e.get i).val = n) (h1 : |(n : ℝ)| ≤ 100) (h2 : |(n : ℝ) * Real.log (-(b.get i).val)| ≤ 85) :
    ((fastPow t b e).get i).isFinite = true ∧
    |((fastPow t b e).get i).val - (b.get i).val ^ n| ≤ (6.1e-5 * |(n : ℝ)| + 6e-6) * |(b.get i).val ^ n| := by
  unfold fastPow; rw [map2_get]
  generalize b.get i = b at *
  generalize e.get i = e at *
  have hneg : b.val < 0 := by have := hb0.pos; linarith
  have ha : |b.val| = -b.val := abs_of_neg hneg
  have hti : e.truncInt = n := by
    obtain ⟨a1, a2⟩ := truncInt_val e
    rw [hn] at a1 a2
    rcases le_total (0 : ℝ) n with h | h
    · obtain ⟨c, d⟩ := a1 h
      have c' : e.truncInt ≤ n := by exact_mod_cast c
      have d' : n < e.truncInt + 1 := by exact_mod_cast d
      omega
    · obtain ⟨c, d⟩ := a2 h
      have c' : e.truncInt - 1 < n := by exact_mod_cast c
      have d' : n ≤ e.truncInt := by exact_mod_cast d
      omega
  have hI : toI t e = BitVec.ofInt 32 n := by
    rw [← hti]; exact (toI_small t he (by rw [hn]; linarith)).1
  have hnI : |n| ≤ 100 := by rw [← Int.cast_abs] at h1; exact_mod_cast h1
  obtain ⟨of, ov⟩ := ofI_small (q := n) (by linarith)
  obtain ⟨ef, ev⟩ := fabs_val e he
  have hw : powW t b e = mask (decide (n % 2 = 1)) := by
    rw [powW_eq, hI, odd_word, eqb_val he of, ov, hn, ltb_val hb zero_val.1, zero_val.2, ltb_val ef lit24.1, lit24.2, ev, hn, decide_eq_true hneg,
      decide_eq_true rfl, decide_eq_true (by linarith : |(n : ℝ)| < 2 ^ 24)]
    simp
  have := pow_core t hb hneg.ne he (log_ok t hb (by rw [ha]; exact hb0)) (by rw [hn]; exact h1) (by rw [ha, hn]; exact h2) _ hw (by
    intro h hc
    rw [hn] at hc
    have hc' : n = 0 := by exact_mod_cast hc
    rw [hc'] at h; simp at h)
  rw [ha, hn] at this
  have hexp : Real.exp (n * Real.log (-b.val)) = (-b.val) ^ n := by
    rw [mul_comm, ← Real.rpow_def_of_pos (by linarith), Real.rpow_intCast]
  rw [hexp] at this
  have hsgn : (if decide (n % 2 = 1) = true then (-1 : ℝ) else 1) * (-b.val) ^ n = b.val ^ n := by
    by_cases hp : n % 2 = 1
    · rw [if_pos (by simpa using hp), Odd.neg_zpow (Int.odd_iff.2 hp)]; ring
    · rw [if_neg (by simpa using hp), Even.neg_zpow (Int.even_iff.2 (by omega))]; ring
  rw [hsgn] at this
  have habs : |b.val ^ n| = (-b.val) ^ n := by rw [abs_zpow, ha]
  rw [habs]
  exact this

/-- Any base to the power zero is one, as for `pow`. -/
theorem simd_fastPow_exponent_zero (t : FTarget) (b e : V4 F32) (i : Fin 4) (h : ∃ s, e.get i = zero s) : (fastPow t b e).get i = ofRat 1 := by
  unfold fastPow; rw [map2_get, fastPow1_eq]
  obtain ⟨s, h⟩ := h
  rw [h, show eqb (zero s) (zero false) = true by cases s <;> decide, sel_true]

/-- Zero to any other power is plus zero: right for a positive exponent. For a negative exponent it should be infinite, and for NaN it
should be NaN. -/
theorem simd_fastPow_base_zero (t : FTarget) (b e : V4 F32) (i : Fin 4) (h : ∃ s, b.get i = zero s) (he : eqb (e.get i) (zero false) = false) :
    (fastPow t b e).get i = zero false := by
  unfold fastPow; rw [map2_get, fastPow1_eq]
  obtain ⟨s, h⟩ := h
  rw [h, he, sel_false, show eqb (zero s) (zero false) = true by cases s <;> decide]
  have : ~~~(mask true) = 0#32 := by decide
  rw [this, BitVec.and_zero]; rfl

/-- Wrong results: `0` to the power `-1` is zero instead of infinity; the power `1/3` of `-8` is a number near two instead of NaN; infinity
squared is zero instead of infinity. -/
theorem simd_fastPow_wrong (b : Bool) : fastPow1 (.sse b) (zero false) (ofInt (-1)) = zero false ∧
    (fastPow1 (.sse b) (ofInt (-8)) (fdiv (ofRat 1) (ofRat 3))).isFinite = true ∧
    fastPow1 (.sse b) (inf false) (ofInt 2) = zero false := by cases b <;> decide +kernel

/-- On NEON the power of a base below 0.75 overflows: one half to the power one is infinite. -/
theorem simd_fastPow_neon_wrong (b : Bool) : fastPow1 (.neon b) ⟨0x3F000000⟩ (ofInt 1) = inf false := by cases b <;> decide +kernel

/-! ## Gamma correction -/

theorem gamma_lit : fdiv (ofRat 1) (ofRat 2.2) = ⟨0x3EE8BA2E⟩ := by decide +kernel

theorem gamma_default (t : FTarget) (c : V4 F32) : fastGammaDefault t c = fastGamma t c (fdiv (ofRat 1) (ofRat 2.2)) := rfl
theorem gamma_w (t : FTarget) (c : V4 F32) (g : F32) : (fastGamma t c g).w = c.w := rfl
theorem gamma_lane (t : FTarget) (c : V4 F32) (g : F32) (i : Fin 4) (hi : i ≠ 3) : (fastGamma t c g).get i = fastPow1 t (c.get i) g := by
  unfold fastGamma
  fin_cases i
  · rfl
  · rfl
  · rfl
  · exact absurd rfl hi

theorem gamma_val : (⟨0x3EE8BA2E⟩ : F32).isFinite = true ∧ |(⟨0x3EE8BA2E⟩ : F32).val - 1 / 2.2| ≤ 1.7e-8 := by
  obtain ⟨f, v⟩ := val_of_bits (v := ⟨0x3EE8BA2E⟩) (E := 125) (f := 6863406) (by decide) (by norm_num) (by norm_num) (by norm_num)
  refine ⟨f, ?_⟩
  rw [v, abs_le]; norm_num

/-- The logarithm of a binary32 number. -/
theorem log_range {b : F32} (hb : b.isFinite = true) (h0 : 0 < b.val) : |Real.log b.val| ≤ 104 := by
  have hl := abs_le.1 Real.log_two_near_10
  have hhi : b.val ≤ 2 ^ 128 := by
    have h1 := val_le_max hb
    have : |b.val| ≤ ((maxRat : Rat) : ℝ) := by unfold val; rw [← Rat.cast_abs]; exact_mod_cast h1
    rw [maxRat_val, abs_of_pos h0] at this
    exact this.trans (by norm_num)
  have hu0 : 0 < b.units := by
    have : (0 : ℝ) < (b.units : ℝ) := by rw [units_val]; positivity
    exact_mod_cast this
  have hlo : (1 : ℝ) / 2 ^ 149 ≤ b.val := by
    have h1 : (1 : ℝ) ≤ b.units := by exact_mod_cast hu0
    rw [val_units]; gcongr
  have l1 := Real.log_le_log h0 hhi
  have l2 := Real.log_le_log (by positivity) hlo
  rw [Real.log_pow] at l1
  rw [Real.log_div (by norm_num) (by positivity), Real.log_one, Real.log_pow] at l2
  push_cast at l1 l2
  rw [abs_le]
  constructor <;> linarith

/-- Gamma correction of any positive finite channel: within `4e-5` relative of `c ^ (1 / 2.2)`, on SSE for all of them. Partial: not on NEON,
see `gamma_neon_wrong`. -/
theorem gamma_accurate_partial (b : Bool) (c : V4 F32) (i : Fin 4) (hi : i ≠ 3) (hc : (c.get i).isFinite = true) (h0 : 0 < (c.get i).val) :
    ((fastGammaDefault (.sse b) c).get i).isFinite = true ∧
    |((fastGammaDefault (.sse b) c).get i).val - (c.get i).val ^ (1 / 2.2 : ℝ)| ≤ 4e-5 * (c.get i).val ^ (1 / 2.2 : ℝ) := by
  have hg : (fastGammaDefault (.sse b) c).get i = fastPow1 (.sse b) (c.get i) ⟨0x3EE8BA2E⟩ := by
    rw [gamma_default, gamma_lit, gamma_lane _ _ _ _ hi]
  rw [hg]
  have hlr := log_range hc h0
  obtain ⟨gf, gv⟩ := gamma_val
  have key := simd_fastPow_accurate_partial (.sse b) (V4.splat (c.get i)) (V4.splat ⟨0x3EE8BA2E⟩) 0 hc h0 gf
  change (|(⟨0x3EE8BA2E⟩ : F32).val| ≤ 100 → |(⟨0x3EE8BA2E⟩ : F32).val * Real.log (c.get i).val| ≤ 85 →
    (fastPow1 (.sse b) (c.get i) ⟨0x3EE8BA2E⟩).isFinite = true ∧ |(fastPow1 (.sse b) (c.get i) ⟨0x3EE8BA2E⟩).val -
    (c.get i).val ^ (⟨0x3EE8BA2E⟩ : F32).val| ≤ (6.1e-5 * |(⟨0x3EE8BA2E⟩ : F32).val| + 6e-6) * (c.get i).val ^ (⟨0x3EE8BA2E⟩ : F32).val) at key
  generalize fastPow1 (.sse b) (c.get i) ⟨0x3EE8BA2E⟩ = r at *
  generalize (⟨0x3EE8BA2E⟩ : F32).val = g at *
  have hg' := abs_le.1 gv
  have g0 : 0 < g := by norm_num at hg'; linarith [hg'.1]
  have g1 : g ≤ 0.45455 := by norm_num at hg'; linarith [hg'.2]
  rw [abs_of_pos g0] at key
  obtain ⟨rf, rv⟩ := key (by linarith) (by
    rw [abs_mul, abs_of_pos g0]
    calc g * |Real.log (c.get i).val| ≤ 0.45455 * 104 := by gcongr
      _ ≤ 85 := by norm_num)
  refine ⟨rf, ?_⟩
  rw [Real.rpow_def_of_pos h0] at rv ⊢
  rw [show Real.log (c.get i).val * g = Real.log (c.get i).val * (g - 1 / 2.2) + Real.log (c.get i).val * (1 / 2.2) by ring, Real.exp_add] at rv
  have hd : |Real.log (c.get i).val * (g - 1 / 2.2)| ≤ 1.8e-6 := by
    rw [abs_mul]
    calc |Real.log (c.get i).val| * |g - 1 / 2.2| ≤ 104 * 1.7e-8 := by gcongr
      _ ≤ 1.8e-6 := by norm_num
  generalize Real.log (c.get i).val * (g - 1 / 2.2) = d at *
  have hE := Real.exp_pos (Real.log (c.get i).val * (1 / 2.2))
  generalize Real.exp (Real.log (c.get i).val * (1 / 2.2)) = E at *
  have h3 := Real.abs_exp_sub_one_sub_id_le (hd.trans (by norm_num))
  have h4 : |Real.exp d - 1| ≤ 1.9e-6 := by
    have h5 := abs_add_le (Real.exp d - 1 - d) d
    rw [sub_add_cancel] at h5
    have h6 : d ^ 2 ≤ 1.8e-6 * 1.8e-6 := by
      rw [← sq_abs, sq]; exact mul_le_mul hd hd (abs_nonneg _) (by norm_num)
    linarith
  generalize Real.exp d = D at *
  have hD := abs_le.1 h4
  have h7 : |r.val - E| ≤ |r.val - D * E| + |(D - 1) * E| := by
    have := abs_add_le (r.val - D * E) ((D - 1) * E)
    rw [show r.val - D * E + (D - 1) * E = r.val - E by ring] at this; exact this
  rw [abs_mul, abs_of_pos hE] at h7
  have h8 : |D - 1| * E ≤ 1.9e-6 * E := by gcongr
  have h9 : (6.1e-5 * g + 6e-6) * (D * E) ≤ (6.1e-5 * 0.45455 + 6e-6) * (1.01 * E) := by
    have hD0 : 0 ≤ D * E := mul_nonneg (by linarith) hE.le
    exact mul_le_mul (by linarith) (mul_le_mul_of_nonneg_right (by linarith) hE.le) hD0 (by norm_num)
  linarith

/-- Alpha is kept, black stays black. -/
theorem gamma_alpha_zero (t : FTarget) (c : V4 F32) (g : F32) : (fastGamma t c g).w = c.w ∧ (fastGammaDefault t c).w = c.w ∧
    (∀ i : Fin 4, i ≠ 3 → c.get i = zero false → (fastGammaDefault t c).get i = zero false) := by
  refine ⟨gamma_w t c g, by rw [gamma_default, gamma_w], ?_⟩
  intro i hi h
  have hg : (fastGammaDefault t c).get i = fastPow1 t (c.get i) ⟨0x3EE8BA2E⟩ := by
    rw [gamma_default, gamma_lit, gamma_lane _ _ _ _ hi]
  rw [hg]
  exact simd_fastPow_base_zero t (V4.splat (c.get i)) (V4.splat ⟨0x3EE8BA2E⟩) 0 ⟨false, h⟩ (by decide)

/-- On NEON mid grey becomes infinite. -/
theorem gamma_neon_wrong (b : Bool) : (fastGammaDefault (.neon b) ⟨⟨0x3F000000⟩, ⟨0x3F000000⟩, ⟨0x3F000000⟩, ⟨0x3F800000⟩⟩).x = inf false := by
  cases b <;> decide +kernel

/-- Hypotheses met: a grey of one half, `2^3` and `(-3)^3`. -/
example : (fastGammaDefault (.sse false) ⟨⟨0x3F000000⟩, ⟨0x3F000000⟩, ⟨0x3F000000⟩, ⟨0x3F800000⟩⟩).x = ⟨0x3F3AD03E⟩ ∧
    LogOk (.neon true) 2 ∧ LogOk (.sse true) 0.5 ∧ (⟨0xC0400000⟩ : F32).isFinite = true := by
  refine ⟨by decide +kernel, ?_, ?_, by decide⟩
  · change (0.7501 : ℝ) ≤ 2; norm_num
  · change (0 : ℝ) < 0.5; norm_num

end F32x4
end Verif
