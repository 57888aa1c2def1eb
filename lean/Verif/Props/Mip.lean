import Mathlib.Analysis.SpecialFunctions.Log.Deriv
import Mathlib.Analysis.Complex.ExponentialBounds
import Mathlib.Data.Fintype.EquivFin
import Verif.Model.Mip
import Verif.Spec.Mip
import Verif.Proofs.F32Err

/-!
# Mip chain arithmetic (C25)
-/

namespace Verif
open Mip Spec F32

theorem mipLevels_eq (s : Nat) (h : 1 ≤ s) : mipLevels s = Nat.log 2 s + 1 := by
  induction s using Nat.strong_induction_on with
  | _ s ih =>
    unfold mipLevels
    split
    · have : s = 1 := by omega
      subst this; simp
    · have e := Nat.log_of_one_lt_of_le (b := 2) (n := s) (by norm_num) (by omega)
      rw [ih (s / 2) (by omega) (by omega), e]
      omega

theorem sizeAfter_eq (s m : Nat) : sizeAfter s m = max 1 (s / 2 ^ m) := by
  induction m with
  | zero => simp [sizeAfter]
  | succ m ih =>
    simp only [sizeAfter, ih, Nat.pow_succ, ← Nat.div_div_eq_div_mul]
    generalize s / 2 ^ m = t
    omega

/-- The chain of the specification: the last level has size 1 and every earlier level is larger. -/
theorem mipChain_ends (s : Nat) (h : 1 ≤ s) :
    sizeAfter s (mipLevels s - 1) = 1 ∧ ∀ m, m < mipLevels s - 1 → 1 < sizeAfter s m := by
  rw [mipLevels_eq s h, Nat.add_sub_cancel]
  constructor
  · rw [sizeAfter_eq, Nat.div_eq_of_lt_le (k := 1)]
    · rfl
    · rw [Nat.one_mul]; exact Nat.pow_log_le_self 2 (by omega)
    · have := Nat.lt_pow_succ_log_self (b := 2) (by norm_num) s
      rw [Nat.pow_succ] at this
      omega
  · intro m hm
    rw [sizeAfter_eq]
    have h1 : 2 ^ (m + 1) ≤ s := (Nat.pow_le_pow_right (by norm_num) hm).trans (Nat.pow_log_le_self 2 (by omega))
    have : 2 ≤ s / 2 ^ m := by
      rw [Nat.le_div_iff_mul_le (by positivity)]
      rw [Nat.pow_succ] at h1
      omega
    omega

private theorem floorUnits (x : F32) (k : Int) (h1 : (k : ℝ) ≤ x.toRat) (h2 : (x.toRat : ℝ) < k + 1) :
    x.units / 2 ^ 149 = k := by
  have e : ((x.toRat : ℚ) : ℝ) * 2 ^ 149 = (x.units : ℝ) := by
    have := toRat_mul x
    exact_mod_cast congrArg (Rat.cast : ℚ → ℝ) this
  have p : (0 : ℝ) < 2 ^ 149 := by positivity
  have a : (k * 2 ^ 149 : Int) ≤ x.units := by
    have : (k : ℝ) * 2 ^ 149 ≤ (x.units : ℝ) := by rw [← e]; exact mul_le_mul_of_nonneg_right h1 p.le
    exact_mod_cast this
  have b : x.units < ((k + 1) * 2 ^ 149 : Int) := by
    have : (x.units : ℝ) < ((k : ℝ) + 1) * 2 ^ 149 := by rw [← e]; exact mul_lt_mul_of_pos_right h2 p
    exact_mod_cast this
  generalize x.units = u at a b
  rw [Int.ediv_eq_iff_of_pos (by positivity)]
  constructor <;> linarith

private theorem count_of_floor (L : F32 → F32) (s : BitVec 32) (k : Nat) (hk : k < 255)
    (hf : (L (F32.ofNat s.toNat)).isFinite = true)
    (h1 : (k : ℝ) ≤ (L (F32.ofNat s.toNat)).toRat) (h2 : ((L (F32.ofNat s.toNat)).toRat : ℝ) < k + 1) :
    calcMipCount L s = some (BitVec.ofNat 8 (k + 1)) := by
  unfold calcMipCount floorToUint8
  have := floorUnits _ (k : Int) (by exact_mod_cast h1) (by exact_mod_cast h2)
  rw [this]
  simp only [hf, true_and]
  rw [if_pos (by omega)]
  simp only [Option.map_some, Option.some.injEq]
  rw [show BitVec.ofInt 8 (k : Int) = BitVec.ofNat 8 k from BitVec.ofInt_natCast ..]
  rw [BitVec.ofNat_add]
  rfl

/-- The value `j - 2^-19` for an integer `j` between 1 and 31. -/
private theorem below_exists (j : Nat) (h1 : 1 ≤ j) (h2 : j ≤ 31) :
    ∃ y : F32, y.isFinite = true ∧ (y.toRat : ℝ) = j - 1 / 2 ^ 19 := by
  obtain ⟨m, e, hm⟩ := exists_mag 130 (j * 2 ^ 19 - 1) (by omega)
  have hm' : m < infMag := by unfold infMag; omega
  have hm31 : m < 2 ^ 31 := by unfold infMag at hm'; omega
  refine ⟨ofParts false m, by simp [isFinite, ofParts_mag _ _ hm31, hm'], ?_⟩
  unfold toRat units
  rw [ofParts_signBit _ _ hm31, ofParts_mag _ _ hm31, e]
  have : 1 ≤ j * 2 ^ 19 := by omega
  have c : ((j * 2 ^ 19 - 1 : Nat) : ℝ) = j * 2 ^ 19 - 1 := by rw [Nat.cast_sub this]; push_cast; ring
  push_cast at c ⊢
  norm_num at c ⊢
  rw [c]
  ring

private theorem logb_bounds (s k : Nat) (hs : 1 ≤ s) (h1 : 2 ^ k ≤ s) (h2 : s < 2 ^ (k + 1)) :
    (k : ℝ) ≤ Real.logb 2 s ∧ Real.logb 2 s < k + 1 := by
  have hs0 : (0 : ℝ) < s := by exact_mod_cast hs
  constructor
  · rw [Real.le_logb_iff_rpow_le (by norm_num) hs0, Real.rpow_natCast]
    exact_mod_cast h1
  · rw [Real.logb_lt_iff_lt_rpow (by norm_num) hs0]
    rw [show (k : ℝ) + 1 = ((k + 1 : Nat) : ℝ) by push_cast; rfl, Real.rpow_natCast]
    exact_mod_cast h2

/-- C25, partial: with a correctly rounded `log2`, `calcMipCount` is the number of halvings for every size from 1 to
`2^21 - 2`. What is missing: larger sizes, where it is wrong (`mipCount_wrong`, `mipCount_wrong_top`). -/
theorem mipCount_partial (L : F32 → F32) (hL : CorrectlyRoundedLog2 L) (s : BitVec 32) (h1 : 1 ≤ s.toNat)
    (h2 : s.toNat ≤ 2 ^ 21 - 2) : calcMipCount L s = some (BitVec.ofNat 8 (mipLevels s.toNat)) := by
  set n := s.toNat with hn
  rw [mipLevels_eq n h1]
  set k := Nat.log 2 n with hk
  have l1 : 2 ^ k ≤ n := Nat.pow_log_le_self 2 (by omega)
  have l2 : n < 2 ^ (k + 1) := Nat.lt_pow_succ_log_self (by norm_num) n
  have hk20 : k ≤ 20 := by
    by_contra hc
    have : 2 ^ 21 ≤ 2 ^ k := Nat.pow_le_pow_right (by norm_num) (by omega)
    omega
  obtain ⟨fx, vx⟩ := toRat_ofNat (n := n) (by omega)
  have npos : (0 : ℝ) < n := by exact_mod_cast h1
  obtain ⟨fL, near⟩ := hL (F32.ofNat n) fx (by rw [vx]; exact_mod_cast h1)
  have vx' : (((F32.ofNat n).toRat : ℚ) : ℝ) = n := by rw [vx]; simp
  rw [vx'] at near
  obtain ⟨b1, b2⟩ := logb_bounds n k h1 l1 l2
  apply count_of_floor L s k (by omega) fL
  · -- not below k
    obtain ⟨fk, vk⟩ := toRat_ofNat (n := k) (by omega)
    have := near _ fk
    rw [vk] at this
    by_contra hc
    push Not at hc
    push_cast at this
    rw [abs_of_nonpos (by linarith), abs_of_nonpos (by linarith)] at this
    linarith
  · -- not k + 1 or more
    obtain ⟨y, fy, vy⟩ := below_exists (k + 1) (by omega) (by omega)
    have := near y fy
    rw [vy] at this
    by_contra hc
    push Not at hc
    -- the exact logarithm is below k + 1 - 2^-20
    have key : Real.logb 2 n < k + 1 - 1 / 2 ^ 20 := by
      have hr : (n : ℝ) ≤ 2 ^ (k + 1) * (1 - 1 / 2 ^ 20) := by
        have hN : n * 2 ^ 20 ≤ 2 ^ (k + 1) * (2 ^ 20 - 1) := by
          have hle : 2 ^ (k + 1) ≤ 2 ^ 20 ∨ k + 1 = 21 := by
            by_cases h : k + 1 ≤ 20
            · exact Or.inl (Nat.pow_le_pow_right (by norm_num) h)
            · omega
          rcases hle with h | h
          · have : n + 1 ≤ 2 ^ (k + 1) := l2
            generalize 2 ^ (k + 1) = P at *
            omega
          · rw [h]; omega
        have : ((n * 2 ^ 20 : Nat) : ℝ) ≤ ((2 ^ (k + 1) * (2 ^ 20 - 1) : Nat) : ℝ) := by exact_mod_cast hN
        push_cast at this
        norm_num at this ⊢
        linarith
      have : Real.logb 2 n ≤ Real.logb 2 (2 ^ (k + 1) * (1 - 1 / 2 ^ 20)) :=
        Real.logb_le_logb_of_le (by norm_num) npos hr
      rw [Real.logb_mul (by positivity) (by norm_num), Real.logb_pow, Real.logb_self_eq_one (by norm_num)] at this
      have hlog : Real.logb 2 (1 - 1 / 2 ^ 20 : ℝ) < -(1 / 2 ^ 20) := by
        unfold Real.logb
        have l2p : 0 < Real.log 2 := Real.log_pos (by norm_num)
        have l2l : Real.log 2 < 1 := by have := Real.log_two_lt_d9; linarith
        have hle : Real.log (1 - 1 / 2 ^ 20 : ℝ) ≤ -(1 / 2 ^ 20) := by
          have := Real.log_le_sub_one_of_pos (show (0 : ℝ) < 1 - 1 / 2 ^ 20 by norm_num)
          linarith
        rw [div_lt_iff₀ l2p]
        nlinarith
      push_cast at this
      linarith
    push_cast at this
    rw [abs_of_nonneg (by linarith)] at this
    rcases abs_cases ((k : ℝ) + 1 - 1 / 2 ^ 19 - Real.logb 2 n) with ⟨e, _⟩ | ⟨e, _⟩ <;> rw [e] at this
    · have : (0 : ℝ) < 1 / 2 ^ 19 := by positivity
      linarith
    · have : (1 : ℝ) / 2 ^ 19 = 2 * (1 / 2 ^ 20) := by norm_num
      linarith

/-- C25, the code violates the claim: with any correctly rounded `log2`, size `2^21 - 1` gets 22 levels instead of
21. -/
theorem mipCount_wrong (L : F32 → F32) (hL : CorrectlyRoundedLog2 L) :
    calcMipCount L (BitVec.ofNat 32 (2 ^ 21 - 1)) = some 22 ∧ mipLevels (2 ^ 21 - 1) = 21 := by
  refine ⟨?_, by rw [mipLevels_eq _ (by norm_num)]; decide +kernel⟩
  have hn : (BitVec.ofNat 32 (2 ^ 21 - 1)).toNat = 2 ^ 21 - 1 := by decide
  obtain ⟨fx, vx⟩ := toRat_ofNat (n := 2 ^ 21 - 1) (by norm_num)
  obtain ⟨fL, near⟩ := hL (F32.ofNat (2 ^ 21 - 1)) fx (by rw [vx]; norm_num)
  have vx' : (((F32.ofNat (2 ^ 21 - 1)).toRat : ℚ) : ℝ) = 2 ^ 21 - 1 := by rw [vx]; norm_num
  rw [vx'] at near
  have lb : (21 : ℝ) - 1 / 2 ^ 20 < Real.logb 2 (2 ^ 21 - 1) := by
    have e : (2 : ℝ) ^ 21 - 1 = 2 ^ 21 * (1 - 1 / 2 ^ 21) := by norm_num
    rw [e, Real.logb_mul (by positivity) (by norm_num), Real.logb_pow, Real.logb_self_eq_one (by norm_num)]
    have l2p : 0.69 < Real.log 2 := by have := Real.log_two_gt_d9; linarith
    have hle : -(1 / (2 ^ 21 - 1 : ℝ)) ≤ Real.log (1 - 1 / 2 ^ 21 : ℝ) := by
      have := Real.one_sub_inv_le_log_of_pos (show (0 : ℝ) < 1 - 1 / 2 ^ 21 by norm_num)
      refine le_trans ?_ this
      norm_num
    have : -(1 / 2 ^ 20) < Real.logb 2 (1 - 1 / 2 ^ 21 : ℝ) := by
      unfold Real.logb
      rw [lt_div_iff₀ (by linarith)]
      have : -(1 / 2 ^ 20) * Real.log 2 < -(1 / (2 ^ 21 - 1 : ℝ)) := by
        norm_num at l2p ⊢
        linarith
      linarith
    push_cast
    linarith
  have ub : Real.logb 2 (2 ^ 21 - 1 : ℝ) < 21 := by
    rw [Real.logb_lt_iff_lt_rpow (by norm_num) (by norm_num)]
    rw [show (21 : ℝ) = ((21 : Nat) : ℝ) by norm_num, Real.rpow_natCast]
    norm_num
  generalize Real.logb 2 (2 ^ 21 - 1 : ℝ) = t at *
  have := count_of_floor L (BitVec.ofNat 32 (2 ^ 21 - 1)) 21 (by norm_num) (by rw [hn]; exact fL) ?_ ?_
  · exact this
  · -- 21 is closer than anything below it
    rw [hn]
    generalize L (F32.ofNat (2 ^ 21 - 1)) = R at *
    obtain ⟨f21, v21⟩ := toRat_ofNat (n := 21) (by norm_num)
    have n21 := near _ f21
    rw [v21] at n21
    push_cast at n21
    rw [abs_of_pos (by linarith : (0 : ℝ) < 21 - t)] at n21
    by_contra hc
    push Not at hc
    push_cast at hc
    -- then the result is at most the predecessor of 21
    obtain ⟨y, fy, vy⟩ := below_exists 21 (by norm_num) (by norm_num)
    have hlt : R.toRat < (F32.ofNat 21).toRat := by
      rw [v21]; exact_mod_cast hc
    have hle : R.toRat ≤ y.toRat := by
      rw [toRat_lt_iff] at hlt
      rw [toRat_le_iff]
      have ky : y.key + 1 = (F32.ofNat 21).key := by
        let p : F32 := ⟨BitVec.ofNat 32 ((F32.ofNat 21).bits.toNat - 1)⟩
        have hp : (p.toRat : ℝ) = y.toRat := by
          have : p.toRat = 21 - 1 / 2 ^ 19 := by decide +kernel
          rw [this, vy]; norm_num
        have hp' : p.toRat = y.toRat := by exact_mod_cast hp
        have hpk : p.key = y.key := le_antisymm ((toRat_le_iff _ _).1 hp'.le) ((toRat_le_iff _ _).1 hp'.ge)
        rw [← hpk]
        decide +kernel
      omega
    have hle' : (R.toRat : ℝ) ≤ 21 - 1 / 2 ^ 19 := by
      rw [show (21 : ℝ) = ((21 : Nat) : ℝ) by norm_num, ← vy]; exact_mod_cast hle
    have e19 : (1 : ℝ) / 2 ^ 19 = 2 * (1 / 2 ^ 20) := by norm_num
    rw [abs_of_neg (by linarith)] at n21
    linarith
  · rw [hn]
    generalize L (F32.ofNat (2 ^ 21 - 1)) = R at *
    obtain ⟨f22, v22⟩ := toRat_ofNat (n := 21) (by norm_num)
    have n22 := near _ f22
    rw [v22] at n22
    by_contra hc
    push Not at hc
    push_cast at n22 hc
    rw [abs_of_pos (by linarith), abs_of_pos (by linarith)] at n22
    linarith

/-- C25, the code violates the claim whatever the accuracy of `log2`: it only has to give `log2(2^32) = 32`. The
conversion of the size to `float` rounds `2^32 - 1` up, and the largest size gets 33 levels instead of 32. -/
theorem mipCount_wrong_top (L : F32 → F32) (h : L (F32.ofRat (2 ^ 32)) = F32.ofNat 32) :
    calcMipCount L (BitVec.allOnes 32) = some 33 ∧ mipLevels (2 ^ 32 - 1) = 32 := by
  refine ⟨?_, by rw [mipLevels_eq _ (by norm_num)]; decide +kernel⟩
  have e : F32.ofNat (BitVec.allOnes 32).toNat = F32.ofRat (2 ^ 32) := by decide +kernel
  unfold calcMipCount
  rw [e, h]
  decide +kernel

/-- Size zero: `log2(0)` is minus infinity, whose conversion to an integer is undefined. -/
theorem mipCount_zero (L : F32 → F32) (h : L (F32.ofNat 0) = F32.inf true) : calcMipCount L 0 = none := by
  unfold calcMipCount
  rw [show (0 : BitVec 32).toNat = 0 from rfl, h]
  decide +kernel

private theorem max_toNat (a b : BitVec 32) : (maxBy BitVec.ult a b).toNat = max a.toNat b.toNat := by
  unfold maxBy BitVec.ult
  by_cases h : a.toNat < b.toNat <;> simp [h] <;> omega

/-- C25, partial (same bound): two and three dimensions use the largest side; on every backend. -/
theorem mipCount_vec_partial (L : F32 → F32) (hL : CorrectlyRoundedLog2 L) (x y z w : BitVec 32) (k : Backend)
    (hx : 1 ≤ x.toNat ∧ x.toNat ≤ 2 ^ 21 - 2) (hy : 1 ≤ y.toNat ∧ y.toNat ≤ 2 ^ 21 - 2)
    (hz : 1 ≤ z.toNat ∧ z.toNat ≤ 2 ^ 21 - 2) :
    calcMipCount2 L ⟨x, y⟩ = some (BitVec.ofNat 8 (mipLevels (max x.toNat y.toNat))) ∧
    calcMipCount3 L ⟨x, y, z⟩ = some (BitVec.ofNat 8 (mipLevels (max (max x.toNat y.toNat) z.toNat))) ∧
    calcMipCount3Simd k L ⟨x, y, z, w⟩ = some (BitVec.ofNat 8 (mipLevels (max (max x.toNat y.toNat) z.toNat))) := by
  have e2 := max_toNat x y
  have e3 := max_toNat (maxBy BitVec.ult x y) z
  rw [e2] at e3
  have es : (Backend.max3U k ⟨x, y, z, w⟩).toNat = max (max x.toNat y.toNat) z.toNat := by
    have s : ∀ a b : BitVec 32, a.toNat < 2 ^ 31 → b.toNat < 2 ^ 31 →
        maxBy BitVec.slt a b = maxBy BitVec.ult a b := by
      intro a b ha hb
      unfold maxBy
      have : BitVec.slt a b = BitVec.ult a b := by
        unfold BitVec.slt BitVec.ult BitVec.toInt
        simp only [show 2 * a.toNat < 2 ^ 32 by omega, show 2 * b.toNat < 2 ^ 32 by omega, if_true]
        simp
      rw [this]
    cases k
    all_goals
      simp only [Backend.max3U, Backend.maxU, V4.max, V4.map2, V4.swizzle, V4.get]
      try rw [s x y (by omega) (by omega), s z z (by omega) (by omega),
        s _ _ (by rw [max_toNat]; omega) (by rw [max_toNat]; omega)]
      rw [max_toNat, max_toNat, max_toNat, max_self]
  refine ⟨?_, ?_, ?_⟩
  · unfold calcMipCount2
    rw [mipCount_partial L hL _ (by rw [e2]; omega) (by rw [e2]; omega), e2]
  · unfold calcMipCount3
    rw [mipCount_partial L hL _ (by rw [e3]; omega) (by rw [e3]; omega), e3]
  · unfold calcMipCount3Simd
    rw [mipCount_partial L hL _ (by rw [es]; omega) (by rw [es]; omega), es]

private theorem divisor (E : F32 → F32) (hE : ExactExp2 E) (mip : BitVec 8) :
    mipDivisor E mip = if mip.toNat < 32 then some (BitVec.ofNat 32 (2 ^ mip.toNat)) else none := by
  have h := hE mip.toNat mip.isLt
  unfold mipDivisor toUint32
  by_cases h128 : mip.toNat < 128
  · rw [if_pos h128] at h
    obtain ⟨hf, hv⟩ := h
    have hu : (E (F32.ofNat mip.toNat)).units = 2 ^ mip.toNat * 2 ^ 149 := by
      have := toRat_mul (E (F32.ofNat mip.toNat))
      rw [hv] at this
      exact_mod_cast this.symm
    have ht : (E (F32.ofNat mip.toNat)).truncInt = 2 ^ mip.toNat := by
      unfold truncInt
      rw [hu, Int.mul_tdiv_cancel _ (by positivity)]
    rw [ht, hf]
    by_cases h32 : mip.toNat < 32
    · have hp : 2 ^ mip.toNat < 2 ^ 32 := Nat.pow_lt_pow_right (by norm_num) h32
      have hp' : (2 : Int) ^ mip.toNat < 2 ^ 32 := by exact_mod_cast hp
      rw [if_pos ⟨rfl, by positivity, hp'⟩, if_pos h32]
      have e : BitVec.ofInt 32 (2 ^ mip.toNat) = BitVec.ofNat 32 (2 ^ mip.toNat) := by
        rw [show (2 : Int) ^ mip.toNat = ((2 ^ mip.toNat : Nat) : Int) by push_cast; rfl, BitVec.ofInt_natCast]
      rw [e, Option.bind_some, if_neg]
      intro hc
      have := congrArg BitVec.toNat hc
      rw [BitVec.toNat_ofNat, Nat.mod_eq_of_lt hp] at this
      have hpos : 0 < 2 ^ mip.toNat := by positivity
      simp at this
    · have hp : (2 : Int) ^ 32 ≤ 2 ^ mip.toNat := pow_le_pow_right₀ (by norm_num) (by omega)
      rw [if_neg (by omega), if_neg h32]
      rfl
  · rw [if_neg h128] at h
    rw [if_neg (by simp [h]), if_neg (by omega)]
    rfl

private theorem size_lane (s : BitVec 32) (m : Nat) (hm : m < 32) :
    (maxBy BitVec.ult (s / BitVec.ofNat 32 (2 ^ m)) 1).toNat = sizeAfter s.toNat m := by
  have hp : 2 ^ m < 2 ^ 32 := Nat.pow_lt_pow_right (by norm_num) hm
  rw [max_toNat, sizeAfter_eq, BitVec.toNat_udiv, BitVec.toNat_ofNat, Nat.mod_eq_of_lt hp]
  simp [max_comm]

/-- C25: for every size and every mip below 32, `calcSizeAtMip` is the size after that many halvings, never below 1;
for every higher mip the conversion of `2^mip` to a 32-bit integer is undefined. -/
theorem sizeAtMip_correct (E : F32 → F32) (hE : ExactExp2 E) (s : BitVec 32) (mip : BitVec 8) :
    (mip.toNat < 32 → ∃ r, calcSizeAtMip E s mip = some r ∧ r.toNat = sizeAfter s.toNat mip.toNat ∧
      r.toNat = max 1 (s.toNat / 2 ^ mip.toNat)) ∧
    (32 ≤ mip.toNat → calcSizeAtMip E s mip = none) := by
  unfold calcSizeAtMip
  rw [divisor E hE]
  constructor
  · intro h
    rw [if_pos h]
    exact ⟨_, rfl, size_lane s _ h, by rw [← sizeAfter_eq]; exact size_lane s _ h⟩
  · intro h
    rw [if_neg (by omega)]
    rfl

/-- C25: the same for every component of the vector overloads; the SIMD overload on the backends other than SSE4.1
for all sizes, on SSE4.1 for sizes whose quotient is below `2^31`. -/
theorem sizeAtMip_vec (E : F32 → F32) (hE : ExactExp2 E) (x y z w : BitVec 32) (mip : BitVec 8)
    (h : mip.toNat < 32) (k : Backend)
    (hk : k = .sse41 → 1 ≤ mip.toNat ∨ x.toNat < 2 ^ 31 ∧ y.toNat < 2 ^ 31 ∧ z.toNat < 2 ^ 31 ∧ w.toNat < 2 ^ 31) :
    (∃ r, calcSizeAtMip2 E ⟨x, y⟩ mip = some r ∧ r.x.toNat = sizeAfter x.toNat mip.toNat ∧
      r.y.toNat = sizeAfter y.toNat mip.toNat) ∧
    (∃ r, calcSizeAtMip3 E ⟨x, y, z⟩ mip = some r ∧ r.x.toNat = sizeAfter x.toNat mip.toNat ∧
      r.y.toNat = sizeAfter y.toNat mip.toNat ∧ r.z.toNat = sizeAfter z.toNat mip.toNat) ∧
    (∃ r, calcSizeAtMip3Simd k E ⟨x, y, z, w⟩ mip = some r ∧ r.x.toNat = sizeAfter x.toNat mip.toNat ∧
      r.y.toNat = sizeAfter y.toNat mip.toNat ∧ r.z.toNat = sizeAfter z.toNat mip.toNat) := by
  unfold calcSizeAtMip2 calcSizeAtMip3 calcSizeAtMip3Simd
  rw [divisor E hE, if_pos h]
  refine ⟨⟨_, rfl, size_lane _ _ h, size_lane _ _ h⟩, ⟨_, rfl, size_lane _ _ h, size_lane _ _ h, size_lane _ _ h⟩, ?_⟩
  refine ⟨_, rfl, ?_⟩
  have hp : 2 ^ mip.toNat < 2 ^ 32 := Nat.pow_lt_pow_right (by norm_num) h
  have small : ∀ a : BitVec 32, (1 ≤ mip.toNat ∨ a.toNat < 2 ^ 31) →
      maxBy BitVec.slt (a / BitVec.ofNat 32 (2 ^ mip.toNat)) 1 =
        maxBy BitVec.ult (a / BitVec.ofNat 32 (2 ^ mip.toNat)) 1 := by
    intro a ha
    have hq : (a / BitVec.ofNat 32 (2 ^ mip.toNat)).toNat < 2 ^ 31 := by
      rw [BitVec.toNat_udiv, BitVec.toNat_ofNat, Nat.mod_eq_of_lt hp]
      rcases ha with ha | ha
      · have h2 : 2 ≤ 2 ^ mip.toNat := by
          calc 2 = 2 ^ 1 := rfl
            _ ≤ _ := Nat.pow_le_pow_right (by norm_num) ha
        have : a.toNat / 2 ^ mip.toNat ≤ a.toNat / 2 := Nat.div_le_div_left h2 (by norm_num)
        have := a.isLt
        omega
      · exact lt_of_le_of_lt (Nat.div_le_self _ _) ha
    generalize a / BitVec.ofNat 32 (2 ^ mip.toNat) = q at *
    unfold maxBy
    have : BitVec.slt q 1 = BitVec.ult q 1 := by
      unfold BitVec.slt BitVec.ult BitVec.toInt
      simp only [show 2 * q.toNat < 2 ^ 32 by omega, if_true]
      simp
    rw [this]
  cases k
  case sse41 =>
    have := hk rfl
    simp only [Backend.maxU, V4.map2]
    rw [small x (by tauto), small y (by tauto), small z (by tauto)]
    exact ⟨size_lane _ _ h, size_lane _ _ h, size_lane _ _ h⟩
  all_goals
    simp only [Backend.maxU, V4.max, V4.map2]
    exact ⟨size_lane _ _ h, size_lane _ _ h, size_lane _ _ h⟩

/-- A correctly rounded logarithm and an exact exponential exist, so the hypotheses above can be met. -/
theorem mip_functions_exist : (∃ L, CorrectlyRoundedLog2 L) ∧ ∃ E, ExactExp2 E := by
  constructor
  · have hfin : Finite {y : F32 // y.isFinite = true} := by
      apply Finite.of_injective (fun y : {y : F32 // y.isFinite = true} => y.1.bits.toFin)
      rintro ⟨⟨a⟩, _⟩ ⟨⟨b⟩, _⟩ h
      simp only [Subtype.mk.injEq, F32.mk.injEq]
      exact BitVec.toFin_inj.1 h
    have hne : Nonempty {y : F32 // y.isFinite = true} := ⟨⟨F32.ofNat 0, by decide +kernel⟩⟩
    have : ∀ x : F32, ∃ r : {y : F32 // y.isFinite = true}, ∀ y : {y : F32 // y.isFinite = true},
        |(r.1.toRat : ℝ) - Real.logb 2 (x.toRat : ℝ)| ≤ |(y.1.toRat : ℝ) - Real.logb 2 (x.toRat : ℝ)| :=
      fun x => Finite.exists_min _
    choose f hf using this
    exact ⟨fun x => (f x).1, fun x _ _ => ⟨(f x).2, fun y hy => hf x ⟨y, hy⟩⟩⟩
  · refine ⟨fun x => if x.truncInt < 128 then F32.ofRat (2 ^ x.truncInt.toNat) else F32.inf false, ?_⟩
    unfold ExactExp2
    decide +kernel

/-- Concrete case: sizes 5 and `2^21 - 2` satisfy the bounds, and their chains have 3 and 21 levels. -/
example : mipLevels 5 = 3 ∧ mipLevels (2 ^ 21 - 2) = 21 ∧ sizeAfter 5 1 = 2 ∧ sizeAfter 5 2 = 1 := by
  refine ⟨?_, ?_, by decide, by decide⟩ <;> rw [mipLevels_eq _ (by norm_num)] <;> decide +kernel

end Verif
