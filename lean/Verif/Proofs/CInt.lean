import Verif.Spec.IntOps
import Mathlib.Tactic.Ring
import Mathlib.Tactic.Linarith
import Mathlib.Data.Int.Order.Basic

/-! # The scalar operations against their specification -/

namespace Verif

theorem W.toInt_bounds (a : W) : -2147483648 ≤ a.toInt ∧ a.toInt ≤ 2147483647 := by
  have h1 := BitVec.le_toInt a
  have h2 := BitVec.toInt_lt (x := a)
  norm_num at h1 h2; omega

theorem S32.ofInt?_iff (z : Int) (r : W) : S32.ofInt? z = some r ↔ r.toInt = z := by
  unfold S32.ofInt?
  have hr := W.toInt_bounds r
  split
  · rename_i h
    have : (BitVec.ofInt 32 z).toInt = z := by
      rw [BitVec.toInt_ofInt]; apply Int.bmod_eq_of_le_mul_two <;> simp <;> omega
    simp only [Option.some.injEq]
    constructor
    · rintro rfl; exact this
    · intro h; apply BitVec.eq_of_toInt_eq; rw [this, h]
  · rename_i h
    simp only [reduceCtorEq, false_iff]
    intro h'; apply h; omega

theorem W.toNat_of_toInt_nonneg {b : W} (h : 0 ≤ b.toInt) : (b.toNat : Int) = b.toInt := by
  have := b.isLt
  rw [BitVec.toInt_eq_toNat_cond] at *
  split <;> rename_i hh <;> simp only [hh, if_true, if_false] at h <;> omega

theorem W.eq_iff_bits (r s : W) : s = r ↔ ∀ k < 32, r.getLsbD k = s.getLsbD k := by
  constructor
  · rintro rfl; intros; rfl
  · intro h; apply BitVec.eq_of_getLsbD_eq; intro i hi; exact (h i hi).symm

theorem S32.tmod_bounds (a b : W) (h : b.toInt ≠ 0) : -2147483648 ≤ a.toInt.tmod b.toInt ∧ a.toInt.tmod b.toInt ≤ 2147483647 := by
  have hb := W.toInt_bounds b
  have h1 := Int.tmod_lt_of_pos
  have h3 : (a.toInt.tmod b.toInt).natAbs < b.toInt.natAbs := by
    rw [Int.natAbs_tmod]; apply Nat.mod_lt; omega
  omega

theorem S32.tdiv_lt_iff (a b : W) (h : b.toInt ≠ 0) :
    a.toInt.tdiv b.toInt < 2 ^ 31 ↔ ¬(a.toInt = -2147483648 ∧ b.toInt = -1) := by
  have ha := W.toInt_bounds a
  constructor
  · rintro h1 ⟨h2, h3⟩; rw [h2, h3] at h1; revert h1; decide
  · intro h1
    have h3 : (a.toInt.tdiv b.toInt).natAbs = a.toInt.natAbs / b.toInt.natAbs := Int.natAbs_tdiv ..
    have h4 : a.toInt.natAbs / b.toInt.natAbs ≤ a.toInt.natAbs := Nat.div_le_self ..
    by_cases h5 : a.toInt = -2147483648
    · have h6 : b.toInt ≠ -1 := fun h => h1 ⟨h5, h⟩
      by_cases h7 : b.toInt = 1
      · rw [h7, h5]; decide
      · have : 2 ≤ b.toInt.natAbs := by omega
        have : a.toInt.natAbs / b.toInt.natAbs ≤ a.toInt.natAbs / 2 := Nat.div_le_div_left this (by norm_num)
        omega
    · omega

theorem S32.bin_iff (op : BinOp) (a b r : W) : S32.bin op a b = some r ↔ Spec.sBin op a b r := by
  cases op <;> simp only [S32.bin, Spec.sBin]
  · exact S32.ofInt?_iff _ _
  · exact S32.ofInt?_iff _ _
  · exact S32.ofInt?_iff _ _
  · split <;> rename_i h
    · simp [h]
    · rw [S32.ofInt?_iff]; simp [h]
  · by_cases h : b.toInt = 0
    · simp [h]
    · have h2 := S32.tdiv_lt_iff a b h
      have h3 : a.toInt.tmod b.toInt = a.toInt - b.toInt * a.toInt.tdiv b.toInt := Int.tmod_def ..
      split <;> rename_i h'
      · have : (a.toInt = -2147483648 ∧ b.toInt = -1) := by tauto
        have : ¬ a.toInt.tdiv b.toInt < 2 ^ 31 := by rw [h2]; tauto
        simp only [reduceCtorEq, false_iff]; tauto
      · rw [S32.ofInt?_iff, h3]
        have : a.toInt.tdiv b.toInt < 2 ^ 31 := by rw [h2]; tauto
        tauto
  · rw [Option.some.injEq, W.eq_iff_bits]; simp
  · rw [Option.some.injEq, W.eq_iff_bits]; simp
  · rw [Option.some.injEq, W.eq_iff_bits]; simp
  · split <;> rename_i h
    · have hb := W.toNat_of_toInt_nonneg h.1
      have key : (a.sshiftRight b.toNat).toInt = a.toInt / 2 ^ b.toNat := by
        rw [BitVec.toInt_sshiftRight, Int.shiftRight_eq_div_pow]; norm_cast
      rw [Option.some.injEq]
      constructor
      · rintro rfl; exact ⟨b.toNat, by omega, hb.symm, key⟩
      · rintro ⟨n, hn, h1, h2⟩
        have : n = b.toNat := by omega
        subst this
        apply BitVec.eq_of_toInt_eq; rw [key, h2]
    · simp only [reduceCtorEq, false_iff]
      rintro ⟨n, hn, h1, h2⟩; omega
  · by_cases hA : 0 ≤ a.toInt
    · have ha := W.toNat_of_toInt_nonneg hA
      split <;> rename_i h
      · have hb := W.toNat_of_toInt_nonneg h.1
        have hlt : a.toNat * 2 ^ b.toNat < 4294967296 := by
          have := h.2.2.2; rw [← ha] at this; exact_mod_cast this
        have key : (a <<< b.toNat).toNat = a.toNat * 2 ^ b.toNat := by
          rw [BitVec.toNat_shiftLeft, Nat.shiftLeft_eq]; exact Nat.mod_eq_of_lt hlt
        rw [Option.some.injEq]
        constructor
        · rintro rfl; refine ⟨b.toNat, by omega, hb.symm, hA, ?_⟩; rw [key, ← ha]; push_cast; rfl
        · rintro ⟨n, hn, h1, _, h2⟩
          have : n = b.toNat := by omega
          subst this
          apply BitVec.eq_of_toNat_eq; rw [key]; rw [← ha] at h2; exact_mod_cast h2.symm
      · simp only [reduceCtorEq, false_iff]
        rintro ⟨n, hn, h1, _, h2⟩
        apply h
        have : (b.toNat : Int) = b.toInt := W.toNat_of_toInt_nonneg (by omega)
        have e : b.toNat = n := by omega
        have := r.isLt
        refine ⟨by omega, by omega, hA, ?_⟩
        rw [e, ← h2]; norm_num at this ⊢; omega
    · have : ¬ (0 ≤ b.toInt ∧ b.toInt < 32 ∧ 0 ≤ a.toInt ∧ a.toInt * 2 ^ b.toNat < 4294967296) := by tauto
      rw [if_neg this]
      simp only [reduceCtorEq, false_iff]
      rintro ⟨n, hn, h1, h2, _⟩; exact hA h2

theorem U32.bin_iff (op : BinOp) (a b r : W) : U32.bin op a b = some r ↔ Spec.uBin op a b r := by
  have ha := a.isLt
  have hb := b.isLt
  have hr := r.isLt
  cases op <;> simp only [U32.bin, Spec.uBin]
  · rw [Option.some.injEq, BitVec.toNat_eq, BitVec.toNat_add, eq_comm]
  · rw [Option.some.injEq, BitVec.toNat_eq, BitVec.toNat_sub]; omega
  · rw [Option.some.injEq, BitVec.toNat_eq, BitVec.toNat_mul, eq_comm]
  · have e : b = 0#32 ↔ b.toNat = 0 := by simp [BitVec.toNat_eq]
    split <;> rename_i h
    · simp [h]
    · rw [e] at h
      rw [Option.some.injEq, BitVec.toNat_eq]
      have : (a.udiv b).toNat = a.toNat / b.toNat := BitVec.toNat_udiv
      rw [this]; tauto
  · have e : b = 0#32 ↔ b.toNat = 0 := by simp [BitVec.toNat_eq]
    split <;> rename_i h
    · simp [h]
    · rw [e] at h
      rw [Option.some.injEq, BitVec.toNat_eq]
      have : (a.umod b).toNat = a.toNat % b.toNat := BitVec.toNat_umod
      rw [this]; tauto
  · rw [Option.some.injEq, W.eq_iff_bits]; simp
  · rw [Option.some.injEq, W.eq_iff_bits]; simp
  · rw [Option.some.injEq, W.eq_iff_bits]; simp
  · split <;> rename_i h
    · rw [Option.some.injEq, BitVec.toNat_eq, BitVec.toNat_ushiftRight, Nat.shiftRight_eq_div_pow]; tauto
    · simp [h]
  · split <;> rename_i h
    · rw [Option.some.injEq, BitVec.toNat_eq, BitVec.toNat_shiftLeft, Nat.shiftLeft_eq]; tauto
    · simp [h]

theorem S32.un_iff (op : UnOp) (a r : W) : S32.un op a = some r ↔ Spec.sUn op a r := by
  cases op <;> simp only [S32.un, Spec.sUn]
  · exact S32.ofInt?_iff _ _
  · have e : a = 0#32 ↔ a.toInt = 0 := by rw [← BitVec.toInt_inj]; simp
    rw [Option.some.injEq, ← BitVec.toInt_inj]
    by_cases h : a.toInt = 0
    · simp [e.2 h, eq_comm]
    · rw [if_neg h, if_neg (fun h' => h (e.1 h'))]; simp [eq_comm]
  · rw [Option.some.injEq, W.eq_iff_bits]
    constructor
    · intro h k hk; rw [h k hk]; simp [hk]
    · intro h k hk; rw [h k hk]; simp [hk]

theorem U32.un_iff (op : UnOp) (a r : W) : U32.un op a = some r ↔ Spec.uUn op a r := by
  have ha := a.isLt
  have hr := r.isLt
  cases op <;> simp only [U32.un, Spec.uUn]
  · rw [Option.some.injEq, BitVec.toNat_eq, BitVec.toNat_neg]; omega
  · have e : a = 0#32 ↔ a.toNat = 0 := by simp [BitVec.toNat_eq]
    rw [Option.some.injEq, BitVec.toNat_eq]
    by_cases h : a.toNat = 0
    · simp [e.2 h, eq_comm]
    · rw [if_neg h, if_neg (fun h' => h (e.1 h'))]; simp [eq_comm]
  · rw [Option.some.injEq, W.eq_iff_bits]
    constructor
    · intro h k hk; rw [h k hk]; simp [hk]
    · intro h k hk; rw [h k hk]; simp [hk]

theorem mask_isMask (b : Bool) (p : Prop) (h : b = true ↔ p) : Spec.isMask (mask b) p := by
  cases b <;> simp [Spec.isMask, mask] at * <;> assumption

theorem cmpI_isMask (c : Cmp) (a b : W) : Spec.isMask (mask (Cmp.onI c a b)) (Spec.cmpInt c a.toInt b.toInt) := by
  apply mask_isMask; cases c <;> simp [Cmp.onI, Spec.cmpInt, BitVec.slt, BitVec.sle, BitVec.toInt_inj]

theorem cmpU_isMask (c : Cmp) (a b : W) : Spec.isMask (mask (Cmp.onU c a b)) (Spec.cmpInt c a.toNat b.toNat) := by
  apply mask_isMask; cases c <;> simp [Cmp.onU, Spec.cmpInt, BitVec.ult, BitVec.ule, BitVec.toNat_eq]

end Verif
