import Verif.Proofs.F32

/-!
# Arithmetic of finite binary32 values: results as roundings, monotonicity
-/

namespace Verif
namespace F32

theorem finite_not_nan {a : F32} (h : a.isFinite) : a.isNaN = false := by
  simp only [isFinite, decide_eq_true_eq] at h
  simp [isNaN]; omega

theorem finite_not_inf {a : F32} (h : a.isFinite) : a.isInf = false := by
  simp only [isFinite, decide_eq_true_eq] at h
  simp [isInf]; omega

theorem finite_iff_key {a : F32} : a.isFinite = true ↔ -(infMag : Int) < a.key ∧ a.key < infMag := by
  simp only [isFinite, decide_eq_true_eq, key]
  cases a.signBit <;> simp <;> omega

theorem units_le_iff (a b : F32) : a.units ≤ b.units ↔ a.key ≤ b.key := by
  rw [← not_lt, units_lt_iff, not_lt]

theorem units_eq_iff (a b : F32) : a.units = b.units ↔ a.key = b.key := by
  rw [le_antisymm_iff, le_antisymm_iff, units_le_iff, units_le_iff]

theorem roundUnits_zero (d : Nat) (hd : 0 < d) : (roundUnits 0 d).key = 0 := by
  rw [roundUnits_key]
  have := roundMag_exact 0 d hd (by decide)
  rw [magUnits_zero, Nat.zero_mul] at this
  simp [this]

theorem zero_key (s : Bool) : (zero s).key = 0 := by
  cases s <;> decide

theorem zero_not_nan (s : Bool) : (zero s).isNaN = false := by
  cases s <;> decide

theorem fadd_finite {a b : F32} (ha : a.isFinite) (hb : b.isFinite) :
    (fadd a b).isNaN = false ∧ (fadd a b).key = (roundUnits (a.units + b.units) 1).key := by
  unfold fadd
  rw [finite_not_nan ha, finite_not_nan hb, finite_not_inf ha, finite_not_inf hb]
  simp only [Bool.or_self, Bool.false_eq_true, if_false]
  by_cases h : a.units + b.units = 0
  · simp only [h, if_true, zero_not_nan, zero_key, true_and]
    rw [roundUnits_zero 1 (by decide)]
  · simp only [h, if_false, roundUnits_not_nan, true_and]

theorem fmul_finite {a b : F32} (ha : a.isFinite) (hb : b.isFinite) :
    (fmul a b).isNaN = false ∧ (fmul a b).key = (roundUnits (a.units * b.units) (2 ^ 149)).key := by
  unfold fmul
  rw [finite_not_nan ha, finite_not_nan hb, finite_not_inf ha, finite_not_inf hb]
  simp only [Bool.or_self, Bool.false_eq_true, if_false]
  by_cases h : a.units * b.units = 0
  · rw [if_pos h]
    refine ⟨zero_not_nan _, ?_⟩
    rw [zero_key, h, roundUnits_zero _ (by positivity)]
  · rw [if_neg h]
    exact ⟨roundUnits_not_nan _ _, rfl⟩

theorem ffma_finite {a b c : F32} (ha : a.isFinite) (hb : b.isFinite) (hc : c.isFinite) :
    (ffma a b c).isNaN = false ∧
      (ffma a b c).key = (roundUnits (a.units * b.units + c.units * 2 ^ 149) (2 ^ 149)).key := by
  unfold ffma
  rw [finite_not_nan ha, finite_not_nan hb, finite_not_nan hc, finite_not_inf ha, finite_not_inf hb,
    finite_not_inf hc]
  simp only [Bool.or_self, Bool.false_eq_true, if_false]
  by_cases h : a.units * b.units + c.units * 2 ^ 149 = 0
  · rw [if_pos h]
    refine ⟨by split <;> exact zero_not_nan _, ?_⟩
    rw [h, roundUnits_zero _ (by positivity)]
    split <;> exact zero_key _
  · rw [if_neg h]
    exact ⟨roundUnits_not_nan _ _, rfl⟩

theorem mag_testBit (a : F32) (i : Nat) : a.mag.testBit i = (decide (i < 31) && a.bits.getLsbD i) := by
  rw [mag, Nat.testBit_mod_two_pow, BitVec.getLsbD]

theorem fneg_parts (a : F32) : (fneg a).mag = a.mag ∧ (fneg a).signBit = !a.signBit := by
  constructor
  · apply Nat.eq_of_testBit_eq
    intro i
    rw [mag_testBit, mag_testBit]
    by_cases h : i < 31
    · have : (0x80000000#32).getLsbD i = false := by
        have hd : ∀ j < 31, (0x80000000#32).getLsbD j = false := by decide
        exact hd i h
      simp [fneg, BitVec.getLsbD_xor, this]
    · simp [h]
  · simp [signBit, fneg]

theorem fabs_parts (a : F32) : (fabs a).mag = a.mag ∧ (fabs a).signBit = false := by
  constructor
  · apply Nat.eq_of_testBit_eq
    intro i
    rw [mag_testBit, mag_testBit]
    by_cases h : i < 31
    · have : (0x7FFFFFFF#32).getLsbD i = true := by
        have hd : ∀ j < 31, (0x7FFFFFFF#32).getLsbD j = true := by decide
        exact hd i h
      simp [fabs, BitVec.getLsbD_and, this]
    · simp [h]
  · simp [signBit, fabs]

theorem fneg_key (a : F32) : (fneg a).key = -a.key := by
  unfold key; rw [(fneg_parts a).1, (fneg_parts a).2]
  cases a.signBit <;> simp

theorem fneg_units (a : F32) : (fneg a).units = -a.units := by
  unfold units; rw [(fneg_parts a).1, (fneg_parts a).2]
  cases a.signBit <;> simp

theorem fneg_finite (a : F32) : (fneg a).isFinite = a.isFinite := by
  simp [isFinite, (fneg_parts a).1]

theorem fneg_isNaN (a : F32) : (fneg a).isNaN = a.isNaN := by
  simp [isNaN, (fneg_parts a).1]

theorem fsub_finite {a b : F32} (ha : a.isFinite) (hb : b.isFinite) :
    (fsub a b).isNaN = false ∧ (fsub a b).key = (roundUnits (a.units - b.units) 1).key := by
  unfold fsub
  rw [finite_not_nan hb]
  have := fadd_finite ha (b := fneg b) (by rw [fneg_finite]; exact hb)
  rw [fneg_units, ← sub_eq_add_neg] at this
  simpa using this

theorem fadd_mono {a b c : F32} (ha : a.isFinite) (hb : b.isFinite) (hc : c.isFinite)
    (h : a.key ≤ b.key) : (fadd a c).key ≤ (fadd b c).key := by
  rw [(fadd_finite ha hc).2, (fadd_finite hb hc).2]
  apply roundUnits_mono (by decide) (by decide)
  have := (units_le_iff a b).2 h
  omega

theorem fmul_mono {a b c : F32} (ha : a.isFinite) (hb : b.isFinite) (hc : c.isFinite)
    (h0 : 0 ≤ c.key) (h : a.key ≤ b.key) : (fmul a c).key ≤ (fmul b c).key := by
  rw [(fmul_finite ha hc).2, (fmul_finite hb hc).2]
  apply roundUnits_mono (by positivity) (by positivity)
  have h1 := (units_le_iff a b).2 h
  have h2 : 0 ≤ c.units := by
    have := (units_le_iff (zero false) c).2 (by rw [zero_key]; exact h0)
    have hz : (zero false).units = 0 := by decide
    omega
  exact Int.mul_le_mul_of_nonneg_right (Int.mul_le_mul_of_nonneg_right h1 h2) (by positivity)

theorem ffma_mono {a b c d : F32} (ha : a.isFinite) (hb : b.isFinite) (hc : c.isFinite) (hd : d.isFinite)
    (h0 : 0 ≤ c.key) (h : a.key ≤ b.key) : (ffma a c d).key ≤ (ffma b c d).key := by
  rw [(ffma_finite ha hc hd).2, (ffma_finite hb hc hd).2]
  apply roundUnits_mono (by positivity) (by positivity)
  have h1 := (units_le_iff a b).2 h
  have h2 : 0 ≤ c.units := by
    have := (units_le_iff (zero false) c).2 (by rw [zero_key]; exact h0)
    have hz : (zero false).units = 0 := by decide
    omega
  refine Int.mul_le_mul_of_nonneg_right ?_ (by positivity)
  have := Int.mul_le_mul_of_nonneg_right h1 h2
  omega

theorem truncInt_mono {a b : F32} (h : a.key ≤ b.key) : truncInt a ≤ truncInt b :=
  Int.tdiv_le_tdiv (by positivity) ((units_le_iff a b).2 h)

theorem finite_between {a b c : F32} (ha : a.isFinite) (hc : c.isFinite) (h1 : a.key ≤ b.key)
    (h2 : b.key ≤ c.key) : b.isFinite = true := by
  rw [finite_iff_key] at *
  omega

end F32
end Verif
