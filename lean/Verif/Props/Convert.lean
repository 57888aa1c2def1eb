import Verif.Model.Convert
import Verif.Model.IntVec
import Verif.Spec.Convert
import Verif.Props.SimdExp

/-!
# C98: conversions between integer and float vectors
-/

namespace Verif
open F32 Spec

namespace Conv

theorem trunc_unique {q : ℝ} {m n : ℤ} (h1 : Trunc q m) (h2 : Trunc q n) : m = n := by
  rcases le_total 0 q with h | h
  · obtain ⟨a, b⟩ := h1.1 h
    obtain ⟨c, d⟩ := h2.1 h
    have e1 : (m : ℝ) < n + 1 := by linarith
    have e2 : (n : ℝ) < m + 1 := by linarith
    have e1 : m < n + 1 := by exact_mod_cast e1
    have e2 : n < m + 1 := by exact_mod_cast e2
    omega
  · obtain ⟨a, b⟩ := h1.2 h
    obtain ⟨c, d⟩ := h2.2 h
    have e1 : (m : ℝ) - 1 < n := by linarith
    have e2 : (n : ℝ) - 1 < m := by linarith
    have e1 : m - 1 < n := by exact_mod_cast e1
    have e2 : n - 1 < m := by exact_mod_cast e2
    omega

theorem truncInt_trunc (x : F32) : Trunc (rv x) x.truncInt := truncInt_val x

theorem toInt_ofInt {n : ℤ} (h1 : -2 ^ 31 ≤ n) (h2 : n < 2 ^ 31) : (BitVec.ofInt 32 n).toInt = n := by
  rw [BitVec.toInt_ofInt, Int.bmod_def]; omega

theorem toNat_ofInt {n : ℤ} (h1 : 0 ≤ n) (h2 : n < 2 ^ 32) : ((BitVec.ofInt 32 n).toNat : ℤ) = n := by
  rw [BitVec.toNat_ofInt]; omega

theorem castI_iff (x : F32) (w : W) : castI x = some w ↔ TruncI x w := by
  unfold castI TruncI
  constructor
  · intro h
    split at h
    · rename_i hc
      simp only [Bool.and_eq_true, decide_eq_true_eq] at hc
      cases h
      rw [toInt_ofInt hc.1.2 hc.2]
      exact ⟨hc.1.1, truncInt_trunc x⟩
    · cases h
  · rintro ⟨hf, ht⟩
    have e := trunc_unique (truncInt_trunc x) ht
    have b1 := w.toInt_lt
    have b2 := w.le_toInt
    rw [if_pos (by simp only [hf, Bool.true_and, Bool.and_eq_true, decide_eq_true_eq]; rw [e]; constructor <;> omega), e, BitVec.ofInt_toInt]

theorem castU_iff (x : F32) (w : W) : castU x = some w ↔ TruncU x w := by
  unfold castU TruncU
  constructor
  · intro h
    split at h
    · rename_i hc
      simp only [Bool.and_eq_true, decide_eq_true_eq] at hc
      cases h
      have := toNat_ofInt hc.1.2 hc.2
      refine ⟨hc.1.1, ?_⟩
      rw [this]
      exact truncInt_trunc x
    · cases h
  · rintro ⟨hf, ht⟩
    have e := trunc_unique (truncInt_trunc x) ht
    have b1 := w.isLt
    rw [if_pos (by simp only [hf, Bool.true_and, Bool.and_eq_true, decide_eq_true_eq]; rw [e]; constructor <;> omega), e, BitVec.ofInt_natCast,
      BitVec.ofNat_toNat, BitVec.setWidth_eq]

end Conv

open Conv List

/-- **C98** (float to integer): the cast of each vector type is defined exactly when every component that is converted fits
without its fraction, and then gives those integers in order. -/
theorem float_to_int (a : V2 F32) (b : V3 F32) (c : V4 F32) (r2 : V2 W) (r3 : V3 W) (r4 : V4 W) (n : W) :
    (a.toInt2 = some r2 ↔ Forall₂ TruncI a.toList r2.toList) ∧ (a.toUint2 = some r2 ↔ Forall₂ TruncU a.toList r2.toList) ∧
    (a.toInt = some n ↔ TruncI a.x n) ∧ (a.toUint = some n ↔ TruncU a.x n) ∧
    (b.toInt3 = some r3 ↔ Forall₂ TruncI b.toList r3.toList) ∧ (b.toUint3 = some r3 ↔ Forall₂ TruncU b.toList r3.toList) ∧
    (b.toInt2 = some r2 ↔ Forall₂ TruncI (b.toList.take 2) r2.toList) ∧ (b.toUint2 = some r2 ↔ Forall₂ TruncU (b.toList.take 2) r2.toList) ∧
    (b.toInt = some n ↔ TruncI b.x n) ∧ (b.toUint = some n ↔ TruncU b.x n) ∧
    (c.toInt4 = some r4 ↔ Forall₂ TruncI c.toList r4.toList) ∧ (c.toUint4 = some r4 ↔ Forall₂ TruncU c.toList r4.toList) ∧
    (c.toInt3 = some r3 ↔ Forall₂ TruncI (c.toList.take 3) r3.toList) ∧ (c.toUint3 = some r3 ↔ Forall₂ TruncU (c.toList.take 3) r3.toList) ∧
    (c.toInt2 = some r2 ↔ Forall₂ TruncI (c.toList.take 2) r2.toList) ∧ (c.toUint2 = some r2 ↔ Forall₂ TruncU (c.toList.take 2) r2.toList) ∧
    (c.toInt = some n ↔ TruncI c.x n) ∧ (c.toUint = some n ↔ TruncU c.x n) := by
  obtain ⟨p2, q2⟩ := r2
  obtain ⟨p3, q3, s3⟩ := r3
  obtain ⟨p4, q4, s4, t4⟩ := r4
  simp only [V2.toInt2, V2.toUint2, V2.toInt, V2.toUint, V3.toInt3, V3.toUint3, V3.toInt2, V3.toUint2, V3.toInt, V3.toUint, V4.toInt4,
    V4.toUint4, V4.toInt3, V4.toUint3, V4.toInt2, V4.toUint2, V4.toInt, V4.toUint, V2.toList, V3.toList, V4.toList, take, forall₂_cons,
    forall₂_nil_left_iff, ← castI_iff, ← castU_iff, and_true, bind, Option.bind_eq_some_iff, pure, Option.some.injEq, V2.mk.injEq,
    V3.mk.injEq, V4.mk.injEq]
  refine ⟨?_, ?_, trivial, trivial, ?_, ?_, ?_, ?_, trivial, trivial, ?_, ?_, ?_, ?_, ?_, ?_⟩ <;>
  · constructor
    · intro h; simp_all
    · intro h; simp_all

namespace Conv

theorem ofInt_nearest {z : ℤ} (h : |(z : ℝ)| ≤ 2 ^ 32) : (ofInt z).IsNearest (z : ℝ) := by
  have hq : quo (z * 2 ^ 149) 1 = (z : Rat) := by
    unfold quo; push_cast; field_simp; norm_num
  have hk : (ofInt z).key = (roundUnits (z * 2 ^ 149) 1).key := by
    unfold ofInt
    split
    · rename_i h0; rw [h0, zero_mul, roundUnits_zero 1 one_pos]; rfl
    · rfl
  have := nearest_of_key (r := ofInt z) one_pos hk (by rw [hq]; exact rat_le_max (M := 2 ^ 32) (by exact_mod_cast h) (by norm_num))
  rw [hq] at this
  exact_mod_cast this

theorem abs_toInt (w : W) : |(w.toInt : ℝ)| ≤ 2 ^ 31 := by
  have b1 := w.toInt_lt
  have b2 := w.le_toInt
  rw [abs_le]
  constructor
  · have : (-2 ^ 31 : ℤ) ≤ w.toInt := by omega
    exact_mod_cast this
  · have : w.toInt ≤ (2 ^ 31 : ℤ) := by omega
    exact_mod_cast this

theorem abs_toNat (w : W) : |((w.toNat : ℤ) : ℝ)| ≤ 2 ^ 32 := by
  have b1 := w.isLt
  rw [abs_of_nonneg (by exact_mod_cast Nat.zero_le _)]
  exact_mod_cast b1.le

theorem castFI_round (w : W) : RoundI w (castFI w) := ofInt_nearest ((abs_toInt w).trans (by norm_num))
theorem castFU_round (w : W) : RoundU w (castFU w) := by
  have := ofInt_nearest (abs_toNat w)
  unfold RoundU castFU
  exact_mod_cast this

end Conv

/-- **C98** (integer to float): each component becomes a float closest to the integer. -/
theorem int_to_float (a : V2 W) (b : V3 W) (c : V4 W) :
    Forall₂ RoundI a.toList (V2.ofInt2 a).toList ∧ Forall₂ RoundU a.toList (V2.ofUint2 a).toList ∧
    Forall₂ RoundI b.toList (V3.ofInt3 b).toList ∧ Forall₂ RoundU b.toList (V3.ofUint3 b).toList ∧
    Forall₂ RoundI c.toList (V4.ofInt4 c).toList ∧ Forall₂ RoundU c.toList (V4.ofUint4 c).toList := by
  simp only [V2.ofInt2, V2.ofUint2, V3.ofInt3, V3.ofUint3, V4.ofInt4, V4.ofUint4, V2.toList, V3.toList, V4.toList, forall₂_cons, castFI_round,
    castFU_round, Forall₂.nil, and_self]

namespace Conv

theorem castI_castFI {w : W} (h : |w.toInt| ≤ 2 ^ 24) : castI (castFI w) = some w := by
  obtain ⟨h1, h2⟩ := ofInt_exact w.toInt (by rw [abs_le] at h; omega)
  refine (castI_iff _ _).2 ⟨h1, ?_⟩
  show Trunc (castFI w).val _
  unfold castFI
  rw [h2]
  exact ⟨fun _ => ⟨le_rfl, by linarith⟩, fun _ => ⟨by linarith, le_rfl⟩⟩

theorem castU_castFU {w : W} (h : w.toNat ≤ 2 ^ 24) : castU (castFU w) = some w := by
  obtain ⟨h1, h2⟩ := ofInt_exact w.toNat (by omega)
  refine (castU_iff _ _).2 ⟨h1, ?_⟩
  show Trunc (castFU w).val _
  unfold castFU
  rw [h2]
  exact ⟨fun _ => ⟨le_rfl, by linarith⟩, fun _ => ⟨by linarith, le_rfl⟩⟩

/-- The float nearest to a word is at most 64 away. -/
theorem castFI_near (w : W) : (castFI w).isFinite = true ∧ |(castFI w).val - w.toInt| ≤ 64 := by
  have hn := castFI_round w
  refine ⟨hn.1, ?_⟩
  -- a multiple of 128 next to the integer is a float
  obtain ⟨y, hyf, hyu⟩ := representable ((w.toInt + 64) / 128) (149 + 7) (by have := w.toInt_lt; have := w.le_toInt; omega) (by norm_num)
  have hy : y.val = ((w.toInt + 64) / 128 : ℤ) * 128 := by
    rw [val_units, hyu]; push_cast; field_simp; norm_num; ring
  have := hn.2 y hyf
  change |(castFI w).val - w.toInt| ≤ |y.val - w.toInt| at this
  refine this.trans ?_
  rw [hy]
  have h1 : |((w.toInt + 64) / 128) * 128 - w.toInt| ≤ 64 := by rw [abs_le]; omega
  exact_mod_cast h1

end Conv

/-- **C98** (round trip, integers): integers of at most 24 bits come back unchanged through every vector type, and any
signed word up to `2^31 - 65` comes back with an error of at most 64. -/
theorem int_round_trip_partial (a : V2 W) (b : V3 W) (c : V4 W) (w : W) :
    ((∀ n ∈ a.toList, |n.toInt| ≤ 2 ^ 24) → (V2.ofInt2 a).toInt2 = some a) ∧
    ((∀ n ∈ b.toList, |n.toInt| ≤ 2 ^ 24) → (V3.ofInt3 b).toInt3 = some b) ∧
    ((∀ n ∈ c.toList, |n.toInt| ≤ 2 ^ 24) → (V4.ofInt4 c).toInt4 = some c) ∧
    ((∀ n ∈ a.toList, n.toNat ≤ 2 ^ 24) → (V2.ofUint2 a).toUint2 = some a) ∧
    ((∀ n ∈ b.toList, n.toNat ≤ 2 ^ 24) → (V3.ofUint3 b).toUint3 = some b) ∧
    ((∀ n ∈ c.toList, n.toNat ≤ 2 ^ 24) → (V4.ofUint4 c).toUint4 = some c) ∧
    (w.toInt ≤ 2 ^ 31 - 65 → ∃ r, (V2.ofInt2 ⟨w, w⟩).toInt = some r ∧ |r.toInt - w.toInt| ≤ 64) := by
  refine ⟨?_, ?_, ?_, ?_, ?_, ?_, ?_⟩
  · intro h; simp only [V2.toList, mem_cons, not_mem_nil, or_false, forall_eq_or_imp, forall_eq] at h
    simp [V2.ofInt2, V2.toInt2, castI_castFI h.1, castI_castFI h.2]
  · intro h; simp only [V3.toList, mem_cons, not_mem_nil, or_false, forall_eq_or_imp, forall_eq] at h
    simp [V3.ofInt3, V3.toInt3, castI_castFI h.1, castI_castFI h.2.1, castI_castFI h.2.2]
  · intro h; simp only [V4.toList, mem_cons, not_mem_nil, or_false, forall_eq_or_imp, forall_eq] at h
    simp [V4.ofInt4, V4.toInt4, castI_castFI h.1, castI_castFI h.2.1, castI_castFI h.2.2.1, castI_castFI h.2.2.2]
  · intro h; simp only [V2.toList, mem_cons, not_mem_nil, or_false, forall_eq_or_imp, forall_eq] at h
    simp [V2.ofUint2, V2.toUint2, castU_castFU h.1, castU_castFU h.2]
  · intro h; simp only [V3.toList, mem_cons, not_mem_nil, or_false, forall_eq_or_imp, forall_eq] at h
    simp [V3.ofUint3, V3.toUint3, castU_castFU h.1, castU_castFU h.2.1, castU_castFU h.2.2]
  · intro h; simp only [V4.toList, mem_cons, not_mem_nil, or_false, forall_eq_or_imp, forall_eq] at h
    simp [V4.ofUint4, V4.toUint4, castU_castFU h.1, castU_castFU h.2.1, castU_castFU h.2.2.1, castU_castFU h.2.2.2]
  · intro h
    obtain ⟨hf, hn⟩ := castFI_near w
    have ht := truncInt_trunc (castFI w)
    change Trunc (castFI w).val _ at ht
    rw [abs_le] at hn
    have b1 := w.toInt_lt
    have b2 := w.le_toInt
    -- not below the smallest word
    have hlow : (-2 ^ 31 : ℝ) ≤ (castFI w).val := by
      obtain ⟨y, hyf, hyu⟩ := representable (-1) (149 + 31) (by norm_num) (by norm_num)
      have hy : y.val = -2 ^ 31 := by rw [val_units, hyu]; push_cast; field_simp; norm_num
      have h1 := (castFI_round w).2 y hyf
      change |(castFI w).val - w.toInt| ≤ |y.val - w.toInt| at h1
      have hw : (-2 ^ 31 : ℝ) ≤ w.toInt := by
        have : (-2 ^ 31 : ℤ) ≤ w.toInt := by omega
        exact_mod_cast this
      rw [hy, abs_of_nonpos (by linarith : (-2 ^ 31 : ℝ) - w.toInt ≤ 0)] at h1
      have := (abs_le.1 h1).1
      linarith
    have hhigh : (w.toInt : ℝ) ≤ 2 ^ 31 - 65 := by exact_mod_cast h
    generalize (castFI w).truncInt = n at ht
    have key : (n : ℝ) - w.toInt < 65 ∧ -65 < (n : ℝ) - w.toInt ∧ (-2 ^ 31 - 1 : ℝ) < n ∧ (n : ℝ) < 2 ^ 31 := by
      rcases le_total 0 (castFI w).val with h0 | h0
      · obtain ⟨c1, c2⟩ := ht.1 h0
        exact ⟨by linarith, by linarith, by linarith, by linarith⟩
      · obtain ⟨c1, c2⟩ := ht.2 h0
        exact ⟨by linarith, by linarith, by linarith, by linarith⟩
    obtain ⟨k1, k2, k3, k4⟩ := key
    have k1 : n - w.toInt < 65 := by exact_mod_cast k1
    have k2 : -65 < n - w.toInt := by exact_mod_cast k2
    have k3 : -2 ^ 31 - 1 < n := by exact_mod_cast k3
    have k4 : n < 2 ^ 31 := by exact_mod_cast k4
    have e := toInt_ofInt (n := n) (by omega) (by omega)
    refine ⟨BitVec.ofInt 32 n, (castI_iff _ _).2 ⟨hf, ?_⟩, ?_⟩
    · rw [e]; exact ht
    · rw [e, abs_le]; omega

/-- **C98** (round trip, floats): a float that is a whole number and fits comes back with the same value. -/
theorem float_round_trip (x : F32) (w : W) :
    (castI x = some w → (∃ n : ℤ, rv x = n) → rv (castFI w) = rv x) ∧ (castU x = some w → (∃ n : ℤ, rv x = n) → rv (castFU w) = rv x) := by
  have tr (m n : ℤ) (h : rv x = n) (ht : Trunc (rv x) m) : rv x = m := by
    rw [trunc_unique ht (n := n)]
    · exact h
    · rw [h]; exact ⟨fun _ => ⟨le_rfl, by linarith⟩, fun _ => ⟨by linarith, le_rfl⟩⟩
  constructor
  · rintro h ⟨n, hn⟩
    obtain ⟨hf, ht⟩ := (castI_iff _ _).1 h
    have e := tr _ _ hn ht
    rw [e]
    exact nearest_exact (castFI_round w) hf e
  · rintro h ⟨n, hn⟩
    obtain ⟨hf, ht⟩ := (castU_iff _ _).1 h
    have e := tr _ _ hn ht
    rw [e]
    have := nearest_exact (castFU_round w) hf (by rw [← Int.cast_natCast]; exact e)
    rw [← Int.cast_natCast] at this
    exact this

/-- The largest signed word becomes `2^31` as a float, and the cast back is undefined. -/
theorem int_round_trip_counterexample : (V4.ofInt4 (V4.splat 0x7FFFFFFF#32)).toInt4 = none ∧
    (V4.ofUint4 (V4.splat 0xFFFFFFFF#32)).toUint4 = none := by
  constructor <;> decide +kernel

namespace Conv

theorem cvtt_of_trunc {x : F32} {w : W} (h : TruncI x w) : cvtt x = w := by
  have h := (castI_iff x w).2 h
  unfold castI at h
  unfold cvtt
  split at h
  · rename_i hc; rw [if_pos hc]; exact Option.some.inj h
  · cases h

theorem vcvtS_of_trunc {x : F32} {w : W} (h : TruncI x w) : vcvtS x = w := by
  have h := (castI_iff x w).2 h
  unfold castI at h
  split at h
  · rename_i hc
    simp only [Bool.and_eq_true, decide_eq_true_eq] at hc
    obtain ⟨e1, e2⟩ := finite_notNaN hc.1.1
    unfold vcvtS
    rw [e1, e2, ← Option.some.inj h]
    simp only [Bool.false_eq_true, if_false]
    congr 1
    omega
  · cases h

theorem vcvtU_of_trunc {x : F32} {w : W} (h : TruncU x w) : vcvtU x = w := by
  have h := (castU_iff x w).2 h
  unfold castU at h
  split at h
  · rename_i hc
    simp only [Bool.and_eq_true, decide_eq_true_eq] at hc
    obtain ⟨e1, e2⟩ := finite_notNaN hc.1.1
    unfold vcvtU
    rw [e1, e2, ← Option.some.inj h]
    simp only [Bool.false_eq_true, if_false]
    congr 1
    omega
  · cases h

theorem truncI_of_U {x : F32} {w : W} (h : TruncU x w) (hw : w.toNat < 2 ^ 31) : TruncI x w := by
  refine ⟨h.1, ?_⟩
  rw [BitVec.toInt_eq_toNat_of_lt (by omega)]
  exact h.2

theorem truncU_of_I {x : F32} {w : W} (h : TruncI x w) (hw : 0 ≤ w.toInt) : TruncU x w := by
  refine ⟨h.1, ?_⟩
  have : w.toInt = w.toNat := by
    rw [BitVec.toInt_eq_toNat_cond] at hw ⊢
    have := w.isLt
    split <;> omega
  rw [← this]
  exact h.2

end Conv

/-- **C98** (SIMD): `(i32x4)` and `(u32x4)` of a float vector drop the fraction in every lane. Missing: without SIMD `(i32x4)` is
undefined for negative lanes, and with SSE `(u32x4)` is wrong from `2^31` on. -/
theorem simd_float_to_int_partial (k : Backend) (v : V4 F32) (r : V4 W) :
    (Forall₂ TruncI v.toList r.toList → k ≠ .scalar ∨ (∀ n ∈ r.toList, 0 ≤ n.toInt) → k.toI32x4 v = some r) ∧
    (Forall₂ TruncU v.toList r.toList → (k = .neon ∨ k = .scalar) ∨ (∀ n ∈ r.toList, n.toNat < 2 ^ 31) → k.toU32x4 v = some r) := by
  obtain ⟨x, y, z, w⟩ := v
  obtain ⟨a, b, c, d⟩ := r
  simp only [V4.toList, forall₂_cons, Forall₂.nil, and_true, mem_cons, not_mem_nil, or_false, forall_eq_or_imp, forall_eq]
  constructor
  · rintro ⟨h1, h2, h3, h4⟩ hk
    cases k with
    | sse2 => simp [Backend.toI32x4, V4.map, cvtt_of_trunc h1, cvtt_of_trunc h2, cvtt_of_trunc h3, cvtt_of_trunc h4]
    | sse41 => simp [Backend.toI32x4, V4.map, cvtt_of_trunc h1, cvtt_of_trunc h2, cvtt_of_trunc h3, cvtt_of_trunc h4]
    | neon => simp [Backend.toI32x4, V4.map, vcvtS_of_trunc h1, vcvtS_of_trunc h2, vcvtS_of_trunc h3, vcvtS_of_trunc h4]
    | scalar =>
      obtain ⟨p1, p2, p3, p4⟩ := hk.resolve_left (by simp)
      simp [Backend.toI32x4, V4.toUint4, (castU_iff _ _).2 (truncU_of_I h1 p1), (castU_iff _ _).2 (truncU_of_I h2 p2),
        (castU_iff _ _).2 (truncU_of_I h3 p3), (castU_iff _ _).2 (truncU_of_I h4 p4)]
  · rintro ⟨h1, h2, h3, h4⟩ hk
    have sse (hk : k ≠ .neon ∧ k ≠ .scalar) : V4.map cvtt (⟨x, y, z, w⟩ : V4 F32) = ⟨a, b, c, d⟩ := by
      obtain ⟨p1, p2, p3, p4⟩ := hk |> fun h => (‹(k = .neon ∨ k = .scalar) ∨ _›).resolve_left (by rintro (e | e) <;> simp_all)
      simp [V4.map, cvtt_of_trunc (truncI_of_U h1 p1), cvtt_of_trunc (truncI_of_U h2 p2), cvtt_of_trunc (truncI_of_U h3 p3),
        cvtt_of_trunc (truncI_of_U h4 p4)]
    cases k with
    | sse2 => exact congrArg some (sse (by simp))
    | sse41 => exact congrArg some (sse (by simp))
    | neon => simp [Backend.toU32x4, V4.map, vcvtU_of_trunc h1, vcvtU_of_trunc h2, vcvtU_of_trunc h3, vcvtU_of_trunc h4]
    | scalar => simp [Backend.toU32x4, V4.toUint4, (castU_iff _ _).2 h1, (castU_iff _ _).2 h2, (castU_iff _ _).2 h3, (castU_iff _ _).2 h4]

/-- Without SIMD the signed conversion of `-1` is undefined; with SSE the unsigned conversion of `3 * 2^30` is `2^31`; NaN gives
`0x80000000` with SSE and 0 with NEON. -/
theorem simd_float_to_int_counterexample :
    (TruncI (ofInt (-1)) (-1) ∧ Backend.scalar.toI32x4 (V4.splat (ofInt (-1))) = none) ∧
    (TruncU (ofInt (3 * 2 ^ 30)) (BitVec.ofNat 32 (3 * 2 ^ 30)) ∧
      Backend.sse41.toU32x4 (V4.splat (ofInt (3 * 2 ^ 30))) = some (V4.splat 0x80000000#32)) ∧
    (Backend.sse41.toI32x4 (V4.splat ⟨0x7FC00000⟩) = some (V4.splat 0x80000000#32) ∧
      Backend.neon.toI32x4 (V4.splat ⟨0x7FC00000⟩) = some (V4.splat 0)) := by
  refine ⟨⟨(castI_iff _ _).1 (by decide +kernel), by decide +kernel⟩, ⟨(castU_iff _ _).1 (by decide +kernel), by decide +kernel⟩,
    by decide +kernel, by decide +kernel⟩

/-- A vector with fractions and a negative component: the hypotheses are met. -/
example : Forall₂ TruncI [ofRat (5 / 2), ofRat (-7 / 2), ofInt 0, ofInt (2 ^ 30)] [2#32, -3#32, 0#32, BitVec.ofNat 32 (2 ^ 30)] := by
  simp only [forall₂_cons, Forall₂.nil, and_true, ← castI_iff]
  refine ⟨?_, ?_, ?_, ?_⟩ <;> decide +kernel

end Verif
