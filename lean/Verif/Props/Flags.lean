import Verif.Model.Flags
import Mathlib.Tactic.Common

/-!
# C04, C05: enum class flag operators
-/

namespace Verif
open Flags

theorem Flags.getLsbD_toU64 {w : Nat} (hw : w ≤ 64) (s : Bool) (a : BitVec w) (i : Nat) (hi : i < w) :
    (toU64 s a).getLsbD i = a.getLsbD i := by
  unfold toU64
  split
  · rw [BitVec.getLsbD_signExtend, if_pos hi]; simp; omega
  · rw [BitVec.getLsbD_setWidth]
    have : i < 64 := by omega
    simp [this]

theorem Flags.toU64_inj {w : Nat} (hw : w ≤ 64) (s : Bool) (a b : BitVec w)
    (h : toU64 s a = toU64 s b) : a = b := by
  apply BitVec.eq_of_getLsbD_eq
  intro i hi
  rw [← getLsbD_toU64 hw s a i hi, h, getLsbD_toU64 hw s b i hi]

theorem Flags.toU64_zero {w : Nat} (s : Bool) : toU64 s (0#w) = 0#64 := by
  unfold toU64
  split
  · apply BitVec.eq_of_getLsbD_eq
    intro i hi
    rw [BitVec.getLsbD_signExtend]
    simp
  · simp

/-- **C04** (bitwise operators): membership of flag bit `i` in the union, intersection, symmetric
difference and complement is the Boolean combination of the memberships, for every underlying type of at
most 64 bits, signed or unsigned, and the compound assignments store those values. -/
theorem flags_bitwise {w : Nat} (hw : w ≤ 64) (s : Bool) (a b : BitVec w) (i : Nat) (hi : i < w) :
    (bor s a b).getLsbD i = (a.getLsbD i || b.getLsbD i) ∧
    (band s a b).getLsbD i = (a.getLsbD i && b.getLsbD i) ∧
    (bxor s a b).getLsbD i = (a.getLsbD i ^^ b.getLsbD i) ∧
    (compl s a).getLsbD i = !a.getLsbD i ∧
    (orAssign s a b).getLsbD i = (a.getLsbD i || b.getLsbD i) ∧
    (andAssign s a b).getLsbD i = (a.getLsbD i && b.getLsbD i) ∧
    (xorAssign s a b).getLsbD i = (a.getLsbD i ^^ b.getLsbD i) := by
  have h64 : i < 64 := by omega
  simp only [bor, band, bxor, compl, orAssign, andAssign, xorAssign, ofU64, BitVec.getLsbD_setWidth,
    BitVec.getLsbD_or, BitVec.getLsbD_and, BitVec.getLsbD_xor, BitVec.getLsbD_not, hi, h64, decide_true,
    Bool.true_and, getLsbD_toU64 hw s _ i hi, and_self]

theorem Flags.and_eq {w : Nat} (hw : w ≤ 64) (s : Bool) (a b : BitVec w) : band s a b = a &&& b := by
  apply BitVec.eq_of_getLsbD_eq
  intro i hi
  rw [(flags_bitwise hw s a b i hi).2.1, BitVec.getLsbD_and]

/-- **C04** (`hasAnyFlag`): true exactly when the two values share a set bit. -/
theorem flags_hasAnyFlag {w : Nat} (hw : w ≤ 64) (s : Bool) (a flags : BitVec w) :
    hasAnyFlag s a flags = true ↔ ∃ i, i < w ∧ a.getLsbD i = true ∧ flags.getLsbD i = true := by
  unfold hasAnyFlag
  rw [bne_iff_ne, and_eq hw]
  constructor
  · intro h
    by_contra hne
    apply h
    have : a &&& flags = 0#w := by
      apply BitVec.eq_of_getLsbD_eq
      intro i hi
      rw [BitVec.getLsbD_and, BitVec.getLsbD_zero]
      by_contra hc
      exact hne ⟨i, hi, by simpa using hc⟩
    rw [this, toU64_zero]
  · rintro ⟨i, hi, ha, hf⟩ h
    have := getLsbD_toU64 hw s (a &&& flags) i hi
    rw [h, BitVec.getLsbD_and, ha, hf] at this
    simp at this

/-- **C04** (`operator!`): `!a` is zero exactly when some flag is set in `a`. -/
theorem flags_lnot {w : Nat} (hw : w ≤ 64) (h0 : 0 < w) (s : Bool) (a : BitVec w) :
    lnot s a = 0#w ↔ ∃ i, i < w ∧ a.getLsbD i = true := by
  unfold lnot ofU64
  constructor
  · intro h
    by_contra hne
    have : a = 0#w := by
      apply BitVec.eq_of_getLsbD_eq
      intro i hi
      rw [BitVec.getLsbD_zero]
      by_contra hc
      exact hne ⟨i, hi, by simpa using hc⟩
    rw [this, toU64_zero, if_pos rfl] at h
    have := congrArg (fun x : BitVec w => x.getLsbD 0) h
    simp [h0] at this
  · rintro ⟨i, hi, ha⟩
    rw [if_neg, BitVec.setWidth_zero]
    intro h
    have := getLsbD_toU64 hw s a i hi
    rw [h, ha] at this
    simp at this

example : hasAnyFlag (w := 8) true 0x83#8 0x80#8 = true := by decide
example : bor (w := 8) true 0x80#8 0x01#8 = 0x81#8 := by decide

/-- Specification for C05: `a` contains the flag: every bit of `flag` is set in `a`. -/
def Spec.containsFlag {w : Nat} (a flag : BitVec w) : Prop :=
  ∀ i, i < w → flag.getLsbD i = true → a.getLsbD i = true

/-- **C05 fails**: `hasOneFlag` does not test for the flag. With flags `1|2` set, asking for flag `1`
answers `false`; with nothing set it answers `true`. -/
theorem flags_hasOneFlag_counterexample :
    ¬ (∀ a flag : BitVec 32, hasOneFlag false a flag = true ↔ Spec.containsFlag a flag) := by
  intro h
  have h1 : Spec.containsFlag (3#32) (1#32) := by
    intro i hi hf
    simp only [BitVec.getLsbD_one] at hf
    have : i = 0 := by simpa using hf
    subst this; decide
  have h2 := (h 3#32 1#32).2 h1
  revert h2; decide

/-- **C05** (what it computes): `hasOneFlag a flag` is true exactly when `a` has no bit outside `flag`. -/
theorem flags_hasOneFlag_meaning {w : Nat} (hw : w ≤ 64) (s : Bool) (a flag : BitVec w) :
    hasOneFlag s a flag = true ↔ Spec.containsFlag flag a := by
  unfold hasOneFlag Spec.containsFlag
  rw [beq_iff_eq, and_eq hw]
  constructor
  · intro h i hi ha
    have := congrArg (fun x : BitVec w => x.getLsbD i) (toU64_inj hw s _ _ h)
    simp only [BitVec.getLsbD_and, ha, Bool.true_and] at this
    exact this
  · intro h
    congr 1
    apply BitVec.eq_of_getLsbD_eq
    intro i hi
    rw [BitVec.getLsbD_and]
    cases ha : a.getLsbD i
    · rfl
    · simp [h i hi ha]

/-- **C05, partial**: when exactly one flag is set in `a` and one single flag is asked for, the answer is
right. Missing: values with no flag or several flags set. -/
theorem flags_hasOneFlag_partial {w : Nat} (hw : w ≤ 64) (s : Bool) (p q : Nat) (hp : p < w) (hq : q < w) :
    hasOneFlag s (BitVec.twoPow w p) (BitVec.twoPow w q) = true ↔
      Spec.containsFlag (BitVec.twoPow w p) (BitVec.twoPow w q) := by
  rw [flags_hasOneFlag_meaning hw]
  unfold Spec.containsFlag
  simp only [BitVec.getLsbD_twoPow, Bool.and_eq_true, decide_eq_true_eq]
  constructor
  · intro h i hi hqi
    have := h p hp ⟨hp, rfl⟩
    refine ⟨hp, ?_⟩; omega
  · intro h i hi hpi
    have := h q hq ⟨hq, rfl⟩
    refine ⟨hq, ?_⟩; omega

example : hasOneFlag false (BitVec.twoPow 32 5) (BitVec.twoPow 32 5) = true := by decide

end Verif
