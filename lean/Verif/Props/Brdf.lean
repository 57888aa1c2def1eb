import Mathlib.Algebra.BigOperators.Intervals
import Mathlib.Algebra.BigOperators.Field
import Mathlib.Tactic.IntervalCases
import Mathlib.Tactic.Positivity
import Verif.Model.Brdf
import Verif.Spec.Sampling
import Verif.Proofs.F32Arith

/-!
# Reflectance helpers (C66, C67)
-/

namespace Verif
open Brdf Spec

set_option linter.unusedSimpArgs false

/-! ## Bit reversal and Hammersley points -/

set_option maxRecDepth 4000 in
set_option maxHeartbeats 4000000 in
private theorem reverse_bit (x : BitVec 32) (i : Nat) (h : i < 32) :
    (reverseBits x).getLsbD i = x.getLsbD (31 - i) := by
  interval_cases i <;>
    simp [reverseBits, BitVec.getLsbD_or, BitVec.getLsbD_and, BitVec.getLsbD_shiftLeft,
      BitVec.getLsbD_ushiftRight]

/-- C66: bit `i` of the reversed word is bit `31 - i` of the index, for every 32-bit index; so reversing twice
returns the index, and distinct indices have distinct reversals. -/
theorem hammersley_reverse :
    (∀ (x : BitVec 32) (i : Nat), i < 32 → (reverseBits x).getLsbD i = x.getLsbD (31 - i)) ∧
    (∀ x : BitVec 32, reverseBits (reverseBits x) = x) ∧
    (∀ x y : BitVec 32, reverseBits x = reverseBits y → x = y) := by
  have inv : ∀ x : BitVec 32, reverseBits (reverseBits x) = x := by
    intro x
    apply BitVec.eq_of_getLsbD_eq
    intro i h
    rw [reverse_bit _ i h, reverse_bit _ (31 - i) (by omega), show 31 - (31 - i) = i by omega]
  exact ⟨reverse_bit, inv, fun x y h => by rw [← inv x, ← inv y, h]⟩

private theorem toNat_sum (x : BitVec 32) :
    (x.toNat : ℝ) = ∑ k ∈ Finset.range 32, if x.getLsbD k then (2 : ℝ) ^ k else 0 := by
  have h : ∀ (n m : Nat), m < 2 ^ n → (m : ℝ) = ∑ k ∈ Finset.range n, if m.testBit k then (2 : ℝ) ^ k else 0 := by
    intro n
    induction n with
    | zero => intro m hm; have : m = 0 := by simpa using hm
              simp [this]
    | succ n ih =>
      intro m hm
      rw [Finset.sum_range_succ]
      have e : m = m % 2 ^ n + (if m.testBit n then 2 ^ n else 0) := by
        rw [Nat.testBit_eq_decide_div_mod_eq]
        have h1 := Nat.div_add_mod m (2 ^ n)
        have h2 : m / 2 ^ n < 2 := by rw [Nat.div_lt_iff_lt_mul (by positivity)]; rw [pow_succ] at hm; omega
        rcases (show m / 2 ^ n = 0 ∨ m / 2 ^ n = 1 by generalize m / 2 ^ n = q at h2; omega) with h3 | h3 <;> rw [h3] at h1 ⊢ <;> simp <;> omega
      have i1 := ih (m % 2 ^ n) (Nat.mod_lt _ (by positivity))
      have i2 : ∑ k ∈ Finset.range n, (if (m % 2 ^ n).testBit k then (2 : ℝ) ^ k else 0) =
          ∑ k ∈ Finset.range n, if m.testBit k then (2 : ℝ) ^ k else 0 := by
        apply Finset.sum_congr rfl
        intro k hk
        rw [Nat.testBit_mod_two_pow]
        simp [Finset.mem_range.1 hk]
      rw [← i2, ← i1]
      conv_lhs => rw [e]
      split <;> simp
  exact h 32 x.toNat x.isLt

/-- C66: in exact arithmetic the first coordinate is `index / n` and the second one is the base-2 radical inverse
of the index, which lies in [0, 1). -/
theorem hammersley_radical (index : BitVec 32) (n : ℝ) :
    (hammersley index (1 / n)).x = index.toNat / n ∧
    (hammersley index (1 / n)).y = radicalInverse index ∧
    0 ≤ (hammersley index (1 / n)).y ∧ (hammersley index (1 / n)).y < 1 := by
  have hy : (hammersley index (1 / n)).y = (reverseBits index).toNat / 2 ^ 32 := by
    simp only [hammersley, vec]
    show ((reverseBits index).toNat : ℤ) * (_ / ((0x80000000 : ℤ) : ℝ)) = _
    push_cast
    norm_num
    ring
  refine ⟨?_, ?_, ?_, ?_⟩
  · simp only [hammersley, vec]
    show (((index.toNat : ℤ) : ℝ)) * (1 / n) = _
    push_cast; ring
  · rw [hy, toNat_sum, radicalInverse, Finset.sum_div, ← Finset.sum_range_reflect]
    apply Finset.sum_congr rfl
    intro k hk
    have hk' := Finset.mem_range.1 hk
    rw [reverse_bit _ _ (by omega)]
    rw [show 31 - (32 - 1 - k) = k by omega]
    split
    · rw [show 32 - 1 - k = 31 - k by omega, div_eq_iff (by positivity), div_pow, one_pow, div_mul_eq_mul_div,
        eq_div_iff (by positivity), ← pow_add, show 31 - k + (k + 1) = 32 by omega, one_mul]
    · simp
  · rw [hy]; positivity
  · rw [hy, div_lt_one (by positivity)]
    exact_mod_cast (reverseBits index).isLt

/-- The second coordinate as the `float` arithmetic computes it. -/
private theorem y_eq (index : BitVec 32) (c : F32) :
    (hammersley index c).y =
      F32.fmul (F32.roundUnits (((reverseBits index).toNat : Int) * 2 ^ 149) 1) ⟨0x2F800000⟩ := by
  have : (Flt.lit 0.5 /. FltB.ofInt 0x80000000 : F32) = ⟨0x2F800000⟩ := by decide +kernel
  show F32.fmul _ (Flt.lit 0.5 /. FltB.ofInt 0x80000000 : F32) = _
  rw [this]; rfl

private theorem ofNat_mono {a b : Nat} (h : a ≤ b) :
    (F32.roundUnits ((a : Int) * 2 ^ 149) 1).key ≤ (F32.roundUnits ((b : Int) * 2 ^ 149) 1).key := by
  apply F32.roundUnits_mono (by decide) (by decide)
  have : (a : Int) ≤ b := by exact_mod_cast h
  nlinarith

private theorem nat_finite (a : Nat) (h : a < 2 ^ 32) :
    (F32.roundUnits ((a : Int) * 2 ^ 149) 1).isFinite = true := by
  apply F32.finite_between (a := F32.roundUnits (((0 : Nat) : Int) * 2 ^ 149) 1)
    (c := F32.roundUnits (((2 ^ 32 : Nat) : Int) * 2 ^ 149) 1) (by decide +kernel) (by decide +kernel)
  · exact ofNat_mono (Nat.zero_le _)
  · exact ofNat_mono (le_of_lt h)

private theorem y_mono {a b : Nat} (ha : a < 2 ^ 32) (hb : b < 2 ^ 32) (h : a ≤ b) :
    (F32.fmul (F32.roundUnits ((a : Int) * 2 ^ 149) 1) ⟨0x2F800000⟩).key ≤
    (F32.fmul (F32.roundUnits ((b : Int) * 2 ^ 149) 1) ⟨0x2F800000⟩).key :=
  F32.fmul_mono (nat_finite a ha) (nat_finite b hb) (by decide +kernel) (by decide +kernel) (ofNat_mono h)

/-- C66, in `float` arithmetic: for every index the second coordinate is a number in [0, 1], and it is below one
exactly when the reversed index is below 2^32 - 128. -/
theorem hammersley_float_range (index : BitVec 32) (c : F32) :
    (hammersley index c).y.isFinite = true ∧ 0 ≤ (hammersley index c).y.toRat ∧ (hammersley index c).y.toRat ≤ 1 ∧
    ((hammersley index c).y.toRat < 1 ↔ (reverseBits index).toNat < 2 ^ 32 - 128) := by
  rw [y_eq]
  have hlt := (reverseBits index).isLt
  generalize (reverseBits index).toNat = n at hlt
  have z : F32.toRat ⟨0⟩ = 0 := by decide +kernel
  have o : F32.toRat ⟨0x3F800000⟩ = 1 := by decide +kernel
  have lo := y_mono (a := 0) (by decide) hlt (Nat.zero_le _)
  have hi := y_mono (b := 2 ^ 32 - 1) hlt (by decide) (by omega)
  have kz : (F32.fmul (F32.roundUnits (((0 : Nat) : Int) * 2 ^ 149) 1) ⟨0x2F800000⟩).key = 0 := by decide +kernel
  have ko : (F32.fmul (F32.roundUnits (((2 ^ 32 - 1 : Nat) : Int) * 2 ^ 149) 1) ⟨0x2F800000⟩).key =
    (⟨0x3F800000⟩ : F32).key := by decide +kernel
  rw [kz] at lo
  rw [ko] at hi
  refine ⟨?_, ?_, ?_, ?_⟩
  · exact F32.finite_between (a := ⟨0⟩) (c := ⟨0x3F800000⟩) (by decide +kernel) (by decide +kernel) lo hi
  · rw [← z, F32.toRat_le_iff]; exact lo
  · rw [← o, F32.toRat_le_iff]; exact hi
  · rw [← o, F32.toRat_lt_iff]
    constructor
    · intro h
      by_contra hc
      have := y_mono (a := 2 ^ 32 - 128) (by decide) hlt (by omega)
      have k2 : (F32.fmul (F32.roundUnits (((2 ^ 32 - 128 : Nat) : Int) * 2 ^ 149) 1) ⟨0x2F800000⟩).key =
        (⟨0x3F800000⟩ : F32).key := by decide +kernel
      omega
    · intro h
      have := y_mono (b := 2 ^ 32 - 129) hlt (by decide) (by omega)
      have k2 : (F32.fmul (F32.roundUnits (((2 ^ 32 - 129 : Nat) : Int) * 2 ^ 149) 1) ⟨0x2F800000⟩).key <
        (⟨0x3F800000⟩ : F32).key := by decide +kernel
      omega

/-- C66, the code violates the half-open range: index 0xFFFFFFFF gives exactly 1.0 as second coordinate. (So does
index 0x01FFFFFF: all its reversed top 25 bits are set.) -/
theorem hammersley_reaches_one :
    (∀ c : F32, (hammersley 0xFFFFFFFF#32 c).y = F32.ofRat 1) ∧
    (∀ c : F32, (hammersley 0x01FFFFFF#32 c).y = F32.ofRat 1) := by
  constructor <;> intro c <;> rw [y_eq] <;> decide +kernel

/-- C66, partial: every index below 2^24 gives a second coordinate in [0, 1). What is missing: the indices whose
reversal rounds up to 2^32 (`hammersley_reaches_one`). -/
theorem hammersley_range_partial (index : BitVec 32) (c : F32) (h : index.toNat < 2 ^ 24) :
    0 ≤ (hammersley index c).y.toRat ∧ (hammersley index c).y.toRat < 1 := by
  have r := hammersley_float_range index c
  refine ⟨r.2.1, r.2.2.2.2 ?_⟩
  by_contra hc
  have hb : (reverseBits index).getLsbD 7 = true := by
    rw [BitVec.getLsbD, Nat.testBit_eq_decide_div_mod_eq, decide_eq_true_eq]
    have := (reverseBits index).isLt
    omega
  rw [reverse_bit _ 7 (by decide), BitVec.getLsbD,
    Nat.testBit_lt_two_pow (lt_of_lt_of_le h (by decide))] at hb
  exact Bool.noConfusion hb

/-- Concrete case: index 6 = 110b has radical inverse 0.011b = 3/8. -/
example : reverseBits 6#32 = 0x60000000#32 ∧ (hammersley 6#32 (F32.ofRat 1)).y = F32.ofRat (3/8) := by
  decide +kernel

/-! ## GGX and importance sampling -/

private theorem den_pos {noh r : ℝ} (hr : 0 < r) (h1 : noh * noh ≤ 1) :
    0 < (r - 1) * ((r + 1) * (noh * noh)) + 1 := by
  have e : (r - 1) * ((r + 1) * (noh * noh)) + 1 = (1 - noh * noh) + r * r * (noh * noh) := by ring
  rw [e]
  have hrr : 0 < r * r := mul_pos hr hr
  rcases eq_or_lt_of_le h1 with h | h
  · rw [h]; linarith
  · nlinarith [mul_nonneg hrr.le (mul_self_nonneg noh)]

/-- C67: the distribution is never negative, for any arguments; it is positive for positive roughness and
`|n.h| <= 1`; for `n.h = 1` it is `1 / (pi r^2)`, and for roughness one it is the constant `1 / pi`. -/
theorem ggx_range (noh r : ℝ) :
    0 ≤ ggx noh r ∧ (0 < r → |noh| ≤ 1 → 0 < ggx noh r) ∧ (r ≠ 0 → ggx 1 r = 1 / (Real.pi * r ^ 2)) ∧
    ggx noh 1 = 1 / Real.pi := by
  have hp := Real.pi_pos
  simp only [vec]; push_cast
  refine ⟨?_, ?_, ?_, ?_⟩
  · rw [mul_assoc Real.pi]
    exact div_nonneg (mul_self_nonneg r) (mul_nonneg hp.le (mul_self_nonneg _))
  · intro hr h
    have h1 : noh * noh ≤ 1 := by
      have := abs_le.1 h; nlinarith
    have := den_pos hr h1
    positivity
  · intro hr
    rw [show (r - 1) * ((r + 1) * (1 * 1)) + 1 = r ^ 2 by ring]
    field_simp
  · norm_num

/-- C67: GGX increases with `n.h` on [0, 1] for roughness at most one: the lobe is centered on the normal. -/
theorem ggx_mono {a b r : ℝ} (ha : 0 ≤ a) (hab : a ≤ b) (hb : b ≤ 1) (hr : 0 < r) (hr1 : r ≤ 1) :
    ggx a r ≤ ggx b r := by
  simp only [vec]; push_cast
  have fb := den_pos (noh := b) hr (by nlinarith)
  have fa := den_pos (noh := a) hr (by nlinarith)
  have : (r - 1) * ((r + 1) * (b * b)) + 1 ≤ (r - 1) * ((r + 1) * (a * a)) + 1 := by
    have : 0 ≤ (1 - r) * (1 + r) := by nlinarith
    nlinarith [mul_le_mul hab hab ha (by linarith : 0 ≤ b)]
  have hp := Real.pi_pos
  rw [mul_assoc Real.pi, mul_assoc Real.pi]
  apply div_le_div_of_nonneg_left (mul_self_nonneg r) (by positivity)
  exact mul_le_mul_of_nonneg_left (mul_le_mul this this fb.le (by linarith)) hp.le

/-- C67: for `u` in the unit square and any roughness, the sampled direction is a unit vector in the upper
hemisphere (`z >= 0`); the excluded corner is `u.y = 1` with roughness zero. The fourth lane repeats `z`. -/
theorem importanceSample_unit (u : V2 ℝ) (a : ℝ) (h0 : 0 ≤ u.y) (h1 : u.y ≤ 1) (ha : u.y < 1 ∨ a ≠ 0) :
    let d := importanceSamplingNdfDggx u a
    d.x ^ 2 + d.y ^ 2 + d.z ^ 2 = 1 ∧ 0 ≤ d.z ∧ d.w = d.z := by
  simp only [vec]; push_cast
  have hden : 0 < 1 + (a + 1) * ((a - 1) * u.y) := by
    rcases ha with h | h
    · nlinarith [mul_nonneg (mul_self_nonneg a) h0]
    · have : 0 < a * a := mul_self_pos.2 h
      rcases eq_or_lt_of_le h0 with e | e
      · rw [← e]; norm_num
      · nlinarith [mul_pos this e]
  have c0 : 0 ≤ (1 - u.y) / (1 + (a + 1) * ((a - 1) * u.y)) := div_nonneg (by linarith) hden.le
  have c1 : (1 - u.y) / (1 + (a + 1) * ((a - 1) * u.y)) ≤ 1 := by
    rw [div_le_one hden]; nlinarith [mul_nonneg (mul_self_nonneg a) h0]
  generalize (1 - u.y) / (1 + (a + 1) * ((a - 1) * u.y)) = c at c0 c1
  refine ⟨?_, Real.sqrt_nonneg _, trivial⟩
  rw [mul_pow, mul_pow, Real.sq_sqrt c0, Real.sq_sqrt (by linarith : 0 ≤ 1 - c)]
  have := Real.sin_sq_add_cos_sq (2 * Real.pi * u.x)
  linear_combination (1 - c) * this

/-- C67: roughness zero samples only the normal; the polar angle grows with `u.y`. -/
theorem importanceSample_polar (u v : V2 ℝ) (a : ℝ) (h0 : 0 ≤ u.y) (huv : u.y ≤ v.y) (h1 : v.y < 1) :
    (importanceSamplingNdfDggx v a).z ≤ (importanceSamplingNdfDggx u a).z ∧
    (importanceSamplingNdfDggx u 0).z = 1 := by
  simp only [vec]; push_cast
  have d : ∀ t : ℝ, 0 ≤ t → t < 1 → 0 < 1 + (a + 1) * ((a - 1) * t) := fun t h2 h3 => by
    nlinarith [mul_nonneg (mul_self_nonneg a) h2]
  constructor
  · apply Real.sqrt_le_sqrt
    rw [div_le_div_iff₀ (d _ (by linarith) h1) (d _ h0 (by linarith))]
    nlinarith [mul_nonneg (mul_self_nonneg a) (sub_nonneg.2 huv)]
  · rw [show (1 - u.y) / (1 + (0 + 1) * ((0 - 1) * u.y)) = 1 by
      rw [div_eq_one_iff_eq (by nlinarith)]; ring]
    exact Real.sqrt_one

/-- C67: the reflectance of an index of refraction and of its reciprocal are equal; it is `2.5 |n-1| / |n+1|`, zero
exactly at `n = 1`. -/
theorem ior_symmetric (n : ℝ) (h : 0 < n) :
    iorToReflectance (1 / n) = iorToReflectance n ∧ iorToReflectance n = 2.5 * |n - 1| / (n + 1) ∧
    (iorToReflectance n = 0 ↔ n = 1) := by
  have e : ∀ n : ℝ, 0 < n → iorToReflectance n = 2.5 * |n - 1| / (n + 1) := by
    intro n h
    simp only [vec]; push_cast
    rw [show (n - 1) * (n - 1) / ((n + 1) * (n + 1)) * (1 / 0.16) = (2.5 * |n - 1| / (n + 1)) ^ 2 by
      rw [div_pow, mul_pow, sq_abs]; field_simp; norm_num; ring]
    exact Real.sqrt_sq (by positivity)
  have hn : n ≠ 0 := h.ne'
  refine ⟨?_, e n h, ?_⟩
  · rw [e n h, e _ (by positivity)]
    have : |1 / n - 1| = |n - 1| / n := by
      rw [show 1 / n - 1 = -((n - 1) / n) by field_simp; ring, abs_neg, abs_div, abs_of_pos h]
    rw [this]; field_simp; ring
  · rw [e n h, div_eq_zero_iff]
    constructor
    · rintro (h1 | h1)
      · have := abs_eq_zero.1 (by linarith : |n - 1| = 0); linarith
      · linarith
    · rintro rfl; left; norm_num

/-- Concrete case: a sample in the middle of the square at roughness one half, and the reflectance of glass. -/
example : (let d := importanceSamplingNdfDggx (⟨0.5, 0.5⟩ : V2 ℝ) 0.5; d.x ^ 2 + d.y ^ 2 + d.z ^ 2 = 1) ∧
    iorToReflectance (1.5 : ℝ) = 0.5 := by
  refine ⟨(importanceSample_unit _ _ (by norm_num) (by norm_num) (Or.inl (by norm_num))).1, ?_⟩
  rw [(ior_symmetric 1.5 (by norm_num)).2.1]; norm_num [abs_of_pos]

end Verif
