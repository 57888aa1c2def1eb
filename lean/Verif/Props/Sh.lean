import Mathlib.Analysis.Real.Pi.Bounds
import Mathlib.Analysis.SpecialFunctions.Trigonometric.Bounds
import Mathlib.Tactic.IntervalCases
import Mathlib.Tactic.LinearCombination
import Verif.Model.Sh
import Verif.Spec.Sh

/-!
# Spherical harmonics: indexing and basis (C69)
-/

namespace Verif
open Sh Spec Polynomial

/-- C69: for every number of bands `n`, the index of an order `|m| <= l` of a band `l < n` lies in `0 .. n^2 - 1`,
and every such position is the index of exactly one order of one band. -/
theorem shIndex_bijective (n : Nat) :
    (∀ m l : Int, |m| ≤ l → l < n → 0 ≤ shIndex m l ∧ shIndex m l < (n : Int) ^ 2) ∧
    (∀ k : Int, 0 ≤ k → k < (n : Int) ^ 2 → ∃! p : Int × Int, |p.1| ≤ p.2 ∧ p.2 < n ∧ shIndex p.1 p.2 = k) := by
  constructor
  · intro m l h hl
    rw [abs_le] at h
    unfold shIndex
    constructor
    · nlinarith
    · nlinarith
  · intro k h0 hk
    obtain ⟨j, rfl⟩ := Int.eq_ofNat_of_zero_le h0
    have s1 := Nat.sqrt_le j
    have s2 := Nat.lt_succ_sqrt j
    have s3 : Nat.sqrt j < n := by
      by_contra h
      have : n * n ≤ Nat.sqrt j * Nat.sqrt j := Nat.mul_le_mul (not_lt.1 h) (not_lt.1 h)
      have : (j : Int) < n * n := by rw [← sq]; exact hk
      norm_cast at this
      omega
    generalize hq : Nat.sqrt j = q at s1 s2 s3
    have s1' : (q : Int) * q ≤ j := by exact_mod_cast s1
    have s2' : (j : Int) < (q + 1) * (q + 1) := by exact_mod_cast s2
    refine ⟨((j : Int) - q * (q + 1), (q : Int)), ⟨?_, by show (q : Int) < n; exact_mod_cast s3, ?_⟩, ?_⟩
    · rw [abs_le]; constructor <;> simp only <;> nlinarith
    · unfold shIndex; ring
    · rintro ⟨m, l⟩ ⟨h1, h2, h3⟩
      simp only [abs_le] at h1 h2 h3
      unfold shIndex at h3
      have l0 : 0 ≤ l := by linarith [h1.1, h1.2]
      have e : l = q := by
        apply le_antisymm
        · by_contra hc
          have : (q : Int) + 1 ≤ l := by omega
          nlinarith
        · by_contra hc
          have : l + 1 ≤ q := by omega
          nlinarith
      subst e
      rw [Prod.mk.injEq]
      exact ⟨by linarith, rfl⟩

/-- C69: indices up to band 46339 are computed without leaving the range of a 32-bit integer. -/
theorem shIndex_fits (m l : Int) (h : |m| ≤ l) (hl : l ≤ 46339) :
    0 ≤ l * (l + 1) ∧ l * (l + 1) < 2 ^ 31 ∧ 0 ≤ shIndex m l ∧ shIndex m l < 2 ^ 31 := by
  rw [abs_le] at h
  unfold shIndex
  have l0 : 0 ≤ l := by linarith [h.1, h.2]
  refine ⟨by positivity, by nlinarith, by nlinarith, by nlinarith⟩

/-- C69: `computeShBasis` stays inside the nine-element array, does not depend on its previous contents, and writes
these polynomials of the direction. -/
theorem shBasis_polynomials (s : V3 ℝ) (a0 : List ℝ) (h : a0.length = 9) :
    computeShBasis s a0 = some
      [1, -s.y, s.z, -s.x, 6 * s.x * s.y, -3 * s.y * s.z, (3 * s.z ^ 2 - 1) / 2, -3 * s.x * s.z,
       3 * (s.x ^ 2 - s.y ^ 2)] := by
  match a0, h with
  | [b0, b1, b2, b3, b4, b5, b6, b7, b8], _ =>
    simp [computeShBasis, store, load, scale, basisLoop0, basisLoop1, basisLoop2, basisScale, shIndex,
      Ibl.shBandCount, List.range', FltB.ofInt]
    ring_nf
    trivial

private theorem legendre0 : legendre 0 = 1 := by simp [legendre]
private theorem legendre1 : legendre 1 = X := by
  simp only [legendre, Function.iterate_one, pow_one, derivative_sub, derivative_X_pow, derivative_one, sub_zero]
  rw [← mul_assoc]
  simp only [← C_mul, Nat.cast_ofNat, Nat.factorial]
  norm_num
private theorem legendre2 : legendre 2 = C (3 / 2) * X ^ 2 - C (1 / 2) := by
  have e : derivative^[2] ((X ^ 2 - 1 : ℝ[X]) ^ 2) = C 12 * X ^ 2 - C 4 := by
    rw [show ((X ^ 2 - 1 : ℝ[X]) ^ 2) = X ^ 4 - C 2 * X ^ 2 + 1 by
      rw [show (C 2 : ℝ[X]) = 2 from rfl]; ring]
    simp only [Function.iterate_succ, Function.iterate_zero, Function.comp, id, derivative_add, derivative_sub,
      derivative_C_mul, derivative_X_pow, derivative_one, add_zero]
    simp only [map_ofNat, Nat.cast_ofNat, derivative_mul, derivative_X_pow, derivative_ofNat]
    push_cast
    simp
    rw [show (C 3 : ℝ[X]) = 3 from rfl]
    ring
  unfold legendre
  rw [e, mul_sub, ← mul_assoc, ← C_mul, ← C_mul]
  norm_num [Nat.factorial]

/-- C69: for every direction, given by its polar angle and azimuth, entry `shIndex(m, l)` of the computed basis is
the real spherical harmonic of degree `l` and order `m`: all nine entries of the three bands. -/
theorem shBasis_spherical (θ φ : ℝ) (a0 : List ℝ) (h : a0.length = 9) :
    ∃ b, computeShBasis (sphericalDir θ φ) a0 = some b ∧ b.length = 9 ∧
      ∀ (l : Nat) (m : Int), l < 3 → |m| ≤ l → b[(shIndex m l).toNat]? = some (shValue l m θ φ) := by
  refine ⟨_, shBasis_polynomials _ a0 h, rfl, ?_⟩
  intro l m hl hm
  rw [abs_le] at hm
  have sc := Real.sin_sq_add_cos_sq φ
  have st := Real.sin_sq_add_cos_sq θ
  interval_cases l
  · obtain rfl : m = 0 := by omega
    simp [shValue, shIndex, legendre0]
  · obtain rfl | rfl | rfl : m = -1 ∨ m = 0 ∨ m = 1 := by omega
    all_goals simp [shValue, shIndex, legendre1, sphericalDir]
  · obtain rfl | rfl | rfl | rfl | rfl : m = -2 ∨ m = -1 ∨ m = 0 ∨ m = 1 ∨ m = 2 := by omega
    all_goals simp [shValue, shIndex, legendre2, sphericalDir, Real.sin_two_mul, Real.cos_two_mul']
    all_goals ring

/-- C69, the addition theorem: for two unit directions, the sums over each band of the products of the basis values,
weighted with the squared normalisation constants, are the Legendre polynomials of the inner product (times
`(2l+1)/4pi`). With `u = v` the sum of squares over a band does not depend on the direction. -/
theorem shBasis_addition (u v : V3 ℝ) (hu : inner3 u u = 1) (hv : inner3 v v = 1) (a0 : List ℝ)
    (h : a0.length = 9) :
    ∃ p q, computeShBasis u a0 = some p ∧ computeShBasis v a0 = some q ∧
      ∀ l : Nat, l < 3 →
        ∑ m ∈ Finset.Icc (-l : Int) l,
          shNormSq l m * (p.getD (shIndex m l).toNat 0 * q.getD (shIndex m l).toNat 0) =
        (2 * l + 1) / (4 * Real.pi) * (legendre l).eval (inner3 u v) := by
  refine ⟨_, _, shBasis_polynomials _ a0 h, shBasis_polynomials _ a0 h, ?_⟩
  intro l hl
  have hp := Real.pi_ne_zero
  simp only [inner3] at hu hv
  interval_cases l
  · rw [show Finset.Icc (-(0 : Nat) : Int) (0 : Nat) = {0} by decide]
    simp [shIndex, legendre0, shNormSq]
  · rw [show Finset.Icc (-(1 : Nat) : Int) (1 : Nat) = {-1, 0, 1} by decide]
    simp [shIndex, legendre1, shNormSq, inner3, Nat.factorial]
    field_simp; ring
  · rw [show Finset.Icc (-(2 : Nat) : Int) (2 : Nat) = {-2, -1, 0, 1, 2} by decide]
    simp [shIndex, legendre2, shNormSq, inner3, Nat.factorial]
    field_simp
    have h1 : u.x * u.x = 1 - u.y * u.y - u.z * u.z := by linarith
    have h2 : v.x * v.x = 1 - v.y * v.y - v.z * v.z := by linarith
    grind

/-- C69: the precomputed constants are, in index order, the normalisation constant of each harmonic times the
coefficient of the cosine lobe of its band: each is within 1e-14 of the exact value. -/
theorem shKi_exact (l : Nat) (m : Int) (hl : l < 3) (hm : |m| ≤ l) :
    ∃ k : Rat, ki[(shIndex m l).toNat]? = some k ∧
      |(k : ℝ) - Real.sqrt (shNormSq l m) * cosineLobe l| ≤ 1e-14 := by
  have hp := Real.pi_pos
  have p1 := Real.pi_gt_d20
  have p2 := Real.pi_lt_d20
  have key : ∀ (k : ℝ) (n c q : ℝ), 0 < c → 0.1 ≤ k → n * c ^ 2 = q * Real.pi →
      k ^ 2 - 1e-15 ≤ q * Real.pi → q * Real.pi ≤ k ^ 2 + 1e-15 → 0 ≤ n → |k - Real.sqrt n * c| ≤ 1e-14 := by
    intro k n c q hc hk e b1 b2 hn
    have ht : (Real.sqrt n * c) ^ 2 = q * Real.pi := by rw [mul_pow, Real.sq_sqrt hn, e]
    have h0 : 0 ≤ Real.sqrt n * c := mul_nonneg (Real.sqrt_nonneg _) hc.le
    generalize Real.sqrt n * c = t at ht h0
    rw [← ht] at b1 b2
    rw [abs_le]
    constructor
    · by_contra hcon; nlinarith
    · by_contra hcon; nlinarith
  rw [abs_le] at hm
  interval_cases l
  · obtain rfl : m = 0 := by omega
    refine ⟨_, rfl, key _ _ _ (1 / 4) hp (by norm_num) ?_ ?_ ?_ ?_⟩
    · simp [shNormSq, cosineLobe]; field_simp
    · push_cast; norm_num; linarith
    · push_cast; norm_num; linarith
    · simp [shNormSq]; positivity
  · obtain rfl | rfl | rfl : m = -1 ∨ m = 0 ∨ m = 1 := by omega
    all_goals
      refine ⟨_, rfl, key _ _ _ (1 / 3) (by simp only [cosineLobe]; positivity) (by norm_num) ?_ ?_ ?_ ?_⟩
      · simp [shNormSq, cosineLobe, Nat.factorial]; field_simp; try norm_num
      · push_cast; norm_num; linarith
      · push_cast; norm_num; linarith
      · simp [shNormSq, Nat.factorial]; positivity
  · obtain rfl | rfl | rfl | rfl | rfl : m = -2 ∨ m = -1 ∨ m = 0 ∨ m = 1 ∨ m = 2 := by omega
    · refine ⟨_, rfl, key _ _ _ (5 / 768) (by simp only [cosineLobe]; positivity) (by norm_num) ?_ ?_ ?_ ?_⟩
      · simp [shNormSq, cosineLobe, Nat.factorial]; field_simp; try norm_num
      · push_cast; norm_num; linarith
      · push_cast; norm_num; linarith
      · simp [shNormSq, Nat.factorial]; positivity
    · refine ⟨_, rfl, key _ _ _ (5 / 192) (by simp only [cosineLobe]; positivity) (by norm_num) ?_ ?_ ?_ ?_⟩
      · simp [shNormSq, cosineLobe, Nat.factorial]; field_simp; try norm_num
      · push_cast; norm_num; linarith
      · push_cast; norm_num; linarith
      · simp [shNormSq, Nat.factorial]; positivity
    · refine ⟨_, rfl, key _ _ _ (5 / 64) (by simp only [cosineLobe]; positivity) (by norm_num) ?_ ?_ ?_ ?_⟩
      · simp [shNormSq, cosineLobe, Nat.factorial]; field_simp; try norm_num
      · push_cast; norm_num; linarith
      · push_cast; norm_num; linarith
      · simp [shNormSq, Nat.factorial]; positivity
    · refine ⟨_, rfl, key _ _ _ (5 / 192) (by simp only [cosineLobe]; positivity) (by norm_num) ?_ ?_ ?_ ?_⟩
      · simp [shNormSq, cosineLobe, Nat.factorial]; field_simp; try norm_num
      · push_cast; norm_num; linarith
      · push_cast; norm_num; linarith
      · simp [shNormSq, Nat.factorial]; positivity
    · refine ⟨_, rfl, key _ _ _ (5 / 768) (by simp only [cosineLobe]; positivity) (by norm_num) ?_ ?_ ?_ ?_⟩
      · simp [shNormSq, cosineLobe, Nat.factorial]; field_simp; try norm_num
      · push_cast; norm_num; linarith
      · push_cast; norm_num; linarith
      · simp [shNormSq, Nat.factorial]; positivity

/-- Concrete case: a tilted unit direction. -/
example : computeShBasis (⟨3/5, 0, 4/5⟩ : V3 ℝ) (List.replicate 9 0) =
    some [1, 0, 4/5, -(3/5), 0, 0, 23/50, -(36/25), 27/25] := by
  rw [shBasis_polynomials _ _ (by simp)]; norm_num

end Verif
