import Verif.Spec.Order
import Verif.Proofs.F32Arith
import Mathlib.Tactic.FinCases

/-!
# C20 - C24: comparison masks, min/max/clamp, unsigned SIMD lanes, constructors, binary order
-/

namespace Verif
open Spec

/-! ## C20 -/

theorem onU_holds (c : Cmp) (a b : W) : c.onU a b = true ↔ Holds c a.toNat b.toNat := by
  cases c <;> simp [Cmp.onU, Holds, BitVec.ult, BitVec.ule, BitVec.toNat_eq]

theorem onI_holds (c : Cmp) (a b : W) : c.onI a b = true ↔ Holds c a.toInt b.toInt := by
  cases c <;> simp [Cmp.onI, Holds, BitVec.slt, BitVec.sle, BitVec.toInt_inj]

theorem onF_holds (c : Cmp) (a b : F32) (ha : a.isNaN = false) (hb : b.isNaN = false) :
    c.onF a b = true ↔ Holds c a.toRat b.toRat := by
  have hlt : (Flt.lt a b = true) ↔ a.toRat < b.toRat := by
    rw [F32.toRat_lt_iff]; exact F32.ltb_iff.trans (by simp [ha, hb])
  have hgt : (Flt.lt b a = true) ↔ b.toRat < a.toRat := by
    rw [F32.toRat_lt_iff]; exact F32.ltb_iff.trans (by simp [ha, hb])
  have hle : (Flt.le a b = true) ↔ a.toRat ≤ b.toRat := by
    rw [F32.toRat_le_iff]; exact F32.leb_iff.trans (by simp [ha, hb])
  have hge : (Flt.le b a = true) ↔ b.toRat ≤ a.toRat := by
    rw [F32.toRat_le_iff]; exact F32.leb_iff.trans (by simp [ha, hb])
  have heq : (Flt.eq a b = true) ↔ a.toRat = b.toRat := by
    have : a.toRat = b.toRat ↔ a.key = b.key := by
      rw [le_antisymm_iff, F32.toRat_le_iff, F32.toRat_le_iff, ← le_antisymm_iff]
    rw [this]
    exact F32.eqb_iff.trans (by simp [ha, hb])
  cases c
  · exact hlt
  · exact hgt
  · exact hle
  · exact hge
  · exact heq
  · simp only [Cmp.onF, Holds, Bool.not_eq_true', Ne]
    rw [← heq]; simp

theorem onF_nan (c : Cmp) (a b : F32) (h : a.isNaN = true ∨ b.isNaN = true) :
    c.onF a b = decide (c = .ne) := by
  have hlt : Flt.lt a b = false := by
    show F32.ltb a b = false
    rcases h with h | h <;> simp [F32.ltb, h]
  have hgt : Flt.lt b a = false := by
    show F32.ltb b a = false
    rcases h with h | h <;> simp [F32.ltb, h]
  have hle : Flt.le a b = false := by
    show F32.leb a b = false
    rcases h with h | h <;> simp [F32.leb, h]
  have hge : Flt.le b a = false := by
    show F32.leb b a = false
    rcases h with h | h <;> simp [F32.leb, h]
  have heq : Flt.eq a b = false := by
    show F32.eqb a b = false
    rcases h with h | h <;> simp [F32.eqb, h]
  cases c <;> simp [Cmp.onF, hlt, hgt, hle, hge, heq]

/-- **C20** (meaning of a lane comparison): on unsigned and signed integers and on binary32 values the
comparison is the one of the represented numbers; a NaN operand makes every comparison false except
"not equal". -/
theorem lane_comparison (c : Cmp) :
    (∀ a b : W, c.onU a b = true ↔ Holds c a.toNat b.toNat) ∧
    (∀ a b : W, c.onI a b = true ↔ Holds c a.toInt b.toInt) ∧
    (∀ a b : F32, a.isNaN = false → b.isNaN = false → (c.onF a b = true ↔ Holds c a.toRat b.toRat)) ∧
    (∀ a b : F32, a.isNaN = true ∨ b.isNaN = true → c.onF a b = decide (c = .ne)) :=
  ⟨onU_holds c, onI_holds c, onF_holds c, onF_nan c⟩

/-- **C20** (two components). `p` is any comparison of two components. -/
theorem mask2_tests {α β : Type} (p : α → α → Bool) (a b : V2 α) (t f : V2 β) :
    (∀ i, (V2.cmp p a b).get i = if p (a.get i) (b.get i) then 0xFFFFFFFF#32 else 0#32) ∧
    (∀ i, (V2.select (V2.cmp p a b) t f).get i = if p (a.get i) (b.get i) then t.get i else f.get i) ∧
    (V2.areAllTrue (V2.cmp p a b) = true ↔ ∀ i, p (a.get i) (b.get i) = true) ∧
    (V2.areAnyTrue (V2.cmp p a b) = true ↔ ∃ i, p (a.get i) (b.get i) = true) ∧
    (V2.areAllFalse (V2.cmp p a b) = true ↔ ∀ i, p (a.get i) (b.get i) = false) ∧
    (V2.areAnyFalse (V2.cmp p a b) = true ↔ ∃ i, p (a.get i) (b.get i) = false) ∧
    (∀ i : Fin 2, (V2.getTrues (V2.cmp p a b)).getLsbD i = p (a.get i) (b.get i)) ∧
    (V2.getTrues (V2.cmp p a b)).toNat < 4 := by
  simp only [Fin.forall_fin_two, Fin.exists_fin_two]
  cases hx : p a.x b.x <;> cases hy : p a.y b.y <;>
    simp [V2.cmp, V2.map2, V2.select, V2.get, V2.areAllTrue, V2.areAnyTrue, V2.areAllFalse, V2.areAnyFalse,
      V2.getTrues, mask, top, hx, hy]

/-- **C20** (three components). -/
theorem mask3_tests {α β : Type} (p : α → α → Bool) (a b : V3 α) (t f : V3 β) :
    (∀ i, (V3.cmp p a b).get i = if p (a.get i) (b.get i) then 0xFFFFFFFF#32 else 0#32) ∧
    (∀ i, (V3.select (V3.cmp p a b) t f).get i = if p (a.get i) (b.get i) then t.get i else f.get i) ∧
    (V3.areAllTrue (V3.cmp p a b) = true ↔ ∀ i, p (a.get i) (b.get i) = true) ∧
    (V3.areAnyTrue (V3.cmp p a b) = true ↔ ∃ i, p (a.get i) (b.get i) = true) ∧
    (V3.areAllFalse (V3.cmp p a b) = true ↔ ∀ i, p (a.get i) (b.get i) = false) ∧
    (V3.areAnyFalse (V3.cmp p a b) = true ↔ ∃ i, p (a.get i) (b.get i) = false) ∧
    (∀ i : Fin 3, (V3.getTrues (V3.cmp p a b)).getLsbD i = p (a.get i) (b.get i)) ∧
    (V3.getTrues (V3.cmp p a b)).toNat < 8 := by
  simp only [Fin.forall_fin_succ, Fin.exists_fin_succ, Fin.forall_fin_zero, Fin.exists_fin_zero]
  cases hx : p a.x b.x <;> cases hy : p a.y b.y <;> cases hz : p a.z b.z <;>
    simp [V3.cmp, V3.map2, V3.select, V3.get, V3.areAllTrue, V3.areAnyTrue, V3.areAllFalse, V3.areAnyFalse,
      V3.getTrues, mask, top, hx, hy, hz]

/-- **C20** (four components, scalar backend). -/
theorem mask4_tests {α β : Type} (p : α → α → Bool) (a b : V4 α) (t f : V4 β) :
    (∀ i, (V4.cmp p a b).get i = if p (a.get i) (b.get i) then 0xFFFFFFFF#32 else 0#32) ∧
    (∀ i, (V4.select (V4.cmp p a b) t f).get i = if p (a.get i) (b.get i) then t.get i else f.get i) ∧
    (V4.areAllTrue (V4.cmp p a b) = true ↔ ∀ i, p (a.get i) (b.get i) = true) ∧
    (V4.areAnyTrue (V4.cmp p a b) = true ↔ ∃ i, p (a.get i) (b.get i) = true) ∧
    (V4.areAllFalse (V4.cmp p a b) = true ↔ ∀ i, p (a.get i) (b.get i) = false) ∧
    (V4.areAnyFalse (V4.cmp p a b) = true ↔ ∃ i, p (a.get i) (b.get i) = false) ∧
    (∀ i : Fin 4, (V4.getTrues (V4.cmp p a b)).getLsbD i = p (a.get i) (b.get i)) ∧
    (V4.getTrues (V4.cmp p a b)).toNat < 16 := by
  simp only [Fin.forall_fin_succ, Fin.exists_fin_succ, Fin.forall_fin_zero, Fin.exists_fin_zero]
  cases hx : p a.x b.x <;> cases hy : p a.y b.y <;> cases hz : p a.z b.z <;> cases hw : p a.w b.w <;>
    simp [V4.cmp, V4.map2, V4.select, V4.get, V4.areAllTrue, V4.areAnyTrue, V4.areAllFalse, V4.areAnyFalse,
      V4.getTrues, mask, top, hx, hy, hz, hw]

/-- **C20** (four lanes, SSE backend, both the SSE4.1 and the SSE2 variants of the tests). -/
theorem maskSse_tests {α : Type} (p : α → α → Bool) (a b : V4 α) :
    (Sse.areAllTrue (V4.cmp p a b) = true ↔ ∀ i, p (a.get i) (b.get i) = true) ∧
    (Sse.areAnyTrue (V4.cmp p a b) = true ↔ ∃ i, p (a.get i) (b.get i) = true) ∧
    (Sse.areAnyTrue2 (V4.cmp p a b) = true ↔ ∃ i, p (a.get i) (b.get i) = true) ∧
    (Sse.areAllFalse (V4.cmp p a b) = true ↔ ∀ i, p (a.get i) (b.get i) = false) ∧
    (Sse.areAllFalse2 (V4.cmp p a b) = true ↔ ∀ i, p (a.get i) (b.get i) = false) ∧
    (Sse.areAnyFalse (V4.cmp p a b) = true ↔ ∃ i, p (a.get i) (b.get i) = false) ∧
    (∀ i : Fin 4, (Sse.getTrues (V4.cmp p a b)).testBit i = p (a.get i) (b.get i)) ∧
    Sse.getTrues (V4.cmp p a b) < 16 := by
  simp only [Fin.forall_fin_succ, Fin.exists_fin_succ, Fin.forall_fin_zero, Fin.exists_fin_zero]
  cases hx : p a.x b.x <;> cases hy : p a.y b.y <;> cases hz : p a.z b.z <;> cases hw : p a.w b.w <;>
    simp [V4.cmp, V4.map2, V4.get, Sse.areAllTrue, Sse.areAnyTrue, Sse.areAnyTrue2, Sse.areAllFalse,
      Sse.areAllFalse2, Sse.areAnyFalse, Sse.getTrues, Sse.movemask8, Sse.laneBytes, bit, mask, top, hx, hy, hz, hw]
    <;> decide

example : V2.getTrues (V2.cmp Cmp.lt.onU ⟨1, 0xFFFFFFFF⟩ ⟨2, 3⟩) = 1 := by decide
example : Sse.areAnyTrue (V4.cmp Cmp.lt.onI ⟨1, 0xFFFFFFFF#32, 7, 7⟩ ⟨1, 0, 7, 7⟩) = true := by decide

/-! ## C21 -/

/-- A component order that is the order of a rank: unsigned value, signed value, or (for non-NaN
binary32) the represented number. -/
structure Ranked {α : Type} (ok : α → Prop) (lt : α → α → Bool) (rank : α → ℚ) : Prop where
  lt_iff : ∀ a b, ok a → ok b → (lt a b = true ↔ rank a < rank b)

theorem ranked_u : Ranked (fun _ => True) BitVec.ult (fun a : W => (a.toNat : ℚ)) :=
  ⟨fun a b _ _ => by simp [BitVec.ult]⟩
theorem ranked_i : Ranked (fun _ => True) BitVec.slt (fun a : W => (a.toInt : ℚ)) :=
  ⟨fun a b _ _ => by simp [BitVec.slt]⟩
theorem ranked_f : Ranked (fun a : F32 => a.isNaN = false) Flt.lt F32.toRat :=
  ⟨fun a b ha hb => onF_holds .lt a b ha hb⟩

section
variable {α : Type} {ok : α → Prop} {lt : α → α → Bool} {rank : α → ℚ}

theorem Ranked.min (h : Ranked ok lt rank) {a b : α} (ha : ok a) (hb : ok b) :
    rank (minBy lt a b) = Min.min (rank a) (rank b) ∧ ok (minBy lt a b) := by
  unfold minBy
  by_cases hc : lt b a = true
  · rw [if_pos hc]
    exact ⟨(min_eq_right ((h.lt_iff b a hb ha).1 hc).le).symm, hb⟩
  · rw [if_neg hc]
    rw [h.lt_iff b a hb ha, not_lt] at hc
    exact ⟨(min_eq_left hc).symm, ha⟩

theorem Ranked.max (h : Ranked ok lt rank) {a b : α} (ha : ok a) (hb : ok b) :
    rank (maxBy lt a b) = Max.max (rank a) (rank b) ∧ ok (maxBy lt a b) := by
  unfold maxBy
  by_cases hc : lt a b = true
  · rw [if_pos hc]
    exact ⟨(max_eq_right ((h.lt_iff a b ha hb).1 hc).le).symm, hb⟩
  · rw [if_neg hc]
    rw [h.lt_iff a b ha hb, not_lt] at hc
    exact ⟨(max_eq_left hc).symm, ha⟩

theorem Ranked.mmMin (h : Ranked ok lt rank) {a b : α} (ha : ok a) (hb : ok b) :
    rank (if lt a b then a else b) = Min.min (rank a) (rank b) ∧ ok (if lt a b then a else b) := by
  by_cases hc : lt a b = true
  · rw [if_pos hc]
    exact ⟨(min_eq_left ((h.lt_iff a b ha hb).1 hc).le).symm, ha⟩
  · rw [if_neg hc]
    rw [h.lt_iff a b ha hb, not_lt] at hc
    exact ⟨(min_eq_right hc).symm, hb⟩

theorem Ranked.mmMax (h : Ranked ok lt rank) {a b : α} (ha : ok a) (hb : ok b) :
    rank (if lt b a then a else b) = Max.max (rank a) (rank b) ∧ ok (if lt b a then a else b) := by
  by_cases hc : lt b a = true
  · rw [if_pos hc]
    exact ⟨(max_eq_left ((h.lt_iff b a hb ha).1 hc).le).symm, ha⟩
  · rw [if_neg hc]
    rw [h.lt_iff b a hb ha, not_lt] at hc
    exact ⟨(max_eq_right hc).symm, hb⟩

theorem Ranked.clamp (h : Ranked ok lt rank) {v lo hi : α} (hv : ok v) (hl : ok lo) (hh : ok hi)
    (hle : rank lo ≤ rank hi) :
    rank lo ≤ rank (clampBy lt v lo hi) ∧ rank (clampBy lt v lo hi) ≤ rank hi ∧
    (rank lo ≤ rank v → rank v ≤ rank hi → clampBy lt v lo hi = v) := by
  unfold clampBy
  by_cases h1 : lt v lo = true
  · rw [if_pos h1]
    have := (h.lt_iff v lo hv hl).1 h1
    exact ⟨le_rfl, hle, fun h' => absurd this (not_lt.2 h')⟩
  · rw [if_neg h1]
    rw [h.lt_iff v lo hv hl, not_lt] at h1
    by_cases h2 : lt hi v = true
    · rw [if_pos h2]
      have := (h.lt_iff hi v hh hv).1 h2
      exact ⟨hle, le_rfl, fun _ h' => absurd this (not_lt.2 h')⟩
    · rw [if_neg h2]
      rw [h.lt_iff hi v hh hv, not_lt] at h2
      exact ⟨h1, h2, fun _ _ => rfl⟩

/-- What C21 asks of `min`, `max` and `clamp` on the component `i`: greatest lower bound, least upper
bound, and clamping into `[lo, hi]`, in terms of the numbers the components represent. -/
def LatticeOps (rank : α → ℚ) (mn mx : α → α → α) (cl : α → α → α → α) (ok : α → Prop) : Prop :=
  (∀ a b, ok a → ok b → rank (mn a b) ≤ rank a ∧ rank (mn a b) ≤ rank b ∧
      ∀ c, rank c ≤ rank a → rank c ≤ rank b → rank c ≤ rank (mn a b)) ∧
  (∀ a b, ok a → ok b → rank a ≤ rank (mx a b) ∧ rank b ≤ rank (mx a b) ∧
      ∀ c, rank a ≤ rank c → rank b ≤ rank c → rank (mx a b) ≤ rank c) ∧
  (∀ v lo hi, ok v → ok lo → ok hi → rank lo ≤ rank hi →
      rank lo ≤ rank (cl v lo hi) ∧ rank (cl v lo hi) ≤ rank hi ∧
      (rank lo ≤ rank v → rank v ≤ rank hi → rank (cl v lo hi) = rank v))

theorem Ranked.lattice (h : Ranked ok lt rank) : LatticeOps rank (minBy lt) (maxBy lt) (clampBy lt) ok := by
  refine ⟨fun a b ha hb => ?_, fun a b ha hb => ?_, fun v lo hi hv hl hh hle => ?_⟩
  · rw [(h.min ha hb).1]; exact ⟨min_le_left _ _, min_le_right _ _, fun c => le_min⟩
  · rw [(h.max ha hb).1]; exact ⟨le_max_left _ _, le_max_right _ _, fun c => max_le⟩
  · obtain ⟨h1, h2, h3⟩ := h.clamp hv hl hh hle
    exact ⟨h1, h2, fun a b => by rw [h3 a b]⟩

end

/-- **C21** (components): on unsigned, signed and non-NaN binary32 components `std::min`, `std::max` and
`std::clamp` are the lattice operations of the represented numbers. -/
theorem scalar_min_max_clamp :
    LatticeOps (fun a : W => (a.toNat : ℚ)) (minBy BitVec.ult) (maxBy BitVec.ult) (clampBy BitVec.ult) (fun _ => True) ∧
    LatticeOps (fun a : W => (a.toInt : ℚ)) (minBy BitVec.slt) (maxBy BitVec.slt) (clampBy BitVec.slt) (fun _ => True) ∧
    LatticeOps F32.toRat (minBy Flt.lt) (maxBy Flt.lt) (clampBy Flt.lt) (fun a => a.isNaN = false) :=
  ⟨ranked_u.lattice, ranked_i.lattice, ranked_f.lattice⟩

/-- **C21** (vectors): the vector functions act on every component by the scalar function, whatever the
component order. -/
theorem vector_min_max_clamp {α : Type} (lt : α → α → Bool) :
    (∀ (a b : V2 α) i, (V2.min lt a b).get i = minBy lt (a.get i) (b.get i) ∧
      (V2.max lt a b).get i = maxBy lt (a.get i) (b.get i)) ∧
    (∀ (a b c : V2 α) i, (V2.clamp lt a b c).get i = clampBy lt (a.get i) (b.get i) (c.get i)) ∧
    (∀ (a b : V3 α) i, (V3.min lt a b).get i = minBy lt (a.get i) (b.get i) ∧
      (V3.max lt a b).get i = maxBy lt (a.get i) (b.get i)) ∧
    (∀ (a b c : V3 α) i, (V3.clamp lt a b c).get i = clampBy lt (a.get i) (b.get i) (c.get i)) ∧
    (∀ (a b : V4 α) i, (V4.min lt a b).get i = minBy lt (a.get i) (b.get i) ∧
      (V4.max lt a b).get i = maxBy lt (a.get i) (b.get i)) ∧
    (∀ (a b c : V4 α) i, (V4.clamp lt a b c).get i = clampBy lt (a.get i) (b.get i) (c.get i)) := by
  refine ⟨?_, ?_, ?_, ?_, ?_, ?_⟩ <;> intros <;> rename_i i <;> fin_cases i <;>
    first | exact ⟨rfl, rfl⟩ | rfl

/-- **C21** (SIMD float lanes): `min`, `max`, `clamp` of `f32x4` on non-NaN lanes, and the horizontal
`min3`, `max3`, `min4`, `max4`, which return one of the first three (four) lanes and bound all of them. -/
theorem simd_float_min_max_clamp :
    LatticeOps F32.toRat Flt.mmMin Flt.mmMax (fun v lo hi => Flt.mmMax (Flt.mmMin v hi) lo) (fun a => a.isNaN = false) ∧
    (∀ (a b : V4 F32) i, (Simd.min a b).get i = Flt.mmMin (a.get i) (b.get i) ∧
      (Simd.max a b).get i = Flt.mmMax (a.get i) (b.get i)) ∧
    (∀ (v lo hi : V4 F32) i,
      (Simd.clamp v lo hi).get i = Flt.mmMax (Flt.mmMin (v.get i) (hi.get i)) (lo.get i)) ∧
    (∀ v : V4 F32, (∀ i, (v.get i).isNaN = false) →
      (Simd.min3 v).toRat = min (min v.x.toRat v.y.toRat) v.z.toRat ∧
      (Simd.max3 v).toRat = max (max v.x.toRat v.y.toRat) v.z.toRat ∧
      (Simd.min4 v).toRat = min (min (min v.x.toRat v.y.toRat) v.z.toRat) v.w.toRat ∧
      (Simd.max4 v).toRat = max (max (max v.x.toRat v.y.toRat) v.z.toRat) v.w.toRat) := by
  have hmin := @Ranked.mmMin _ _ _ _ ranked_f
  have hmax := @Ranked.mmMax _ _ _ _ ranked_f
  refine ⟨⟨fun a b ha hb => ?_, fun a b ha hb => ?_, fun v lo hi hv hl hh hle => ?_⟩, ?_, ?_, ?_⟩
  · rw [show (Flt.mmMin a b).toRat = _ from (hmin ha hb).1]
    exact ⟨min_le_left _ _, min_le_right _ _, fun c => le_min⟩
  · rw [show (Flt.mmMax a b).toRat = _ from (hmax ha hb).1]
    exact ⟨le_max_left _ _, le_max_right _ _, fun c => max_le⟩
  · have h1 := hmin hv hh
    have h2 := hmax (show (Flt.mmMin v hi).isNaN = false from h1.2) hl
    show lo.toRat ≤ (Flt.mmMax (Flt.mmMin v hi) lo).toRat ∧ (Flt.mmMax (Flt.mmMin v hi) lo).toRat ≤ hi.toRat ∧ _
    have h3 : (Flt.mmMax (Flt.mmMin v hi) lo).toRat = max (min v.toRat hi.toRat) lo.toRat := by
      rw [show (Flt.mmMax (Flt.mmMin v hi) lo).toRat = _ from h2.1, show (Flt.mmMin v hi).toRat = _ from h1.1]
    rw [h3]
    exact ⟨le_max_right _ _, max_le (min_le_right _ _) hle, fun a b => by rw [min_eq_left b, max_eq_left a]⟩
  · intro a b i; fin_cases i <;> exact ⟨rfl, rfl⟩
  · intro v lo hi i; fin_cases i <;> rfl
  · intro v hv
    have hx := hv 0; have hy := hv 1; have hz := hv 2; have hw := hv 3
    simp only [V4.get] at hx hy hz hw
    have e1 : ∀ {a b : F32}, a.isNaN = false → b.isNaN = false →
        (Flt.mmMin a b).toRat = min a.toRat b.toRat ∧ (Flt.mmMin a b).isNaN = false := fun ha hb => hmin ha hb
    have e2 : ∀ {a b : F32}, a.isNaN = false → b.isNaN = false →
        (Flt.mmMax a b).toRat = max a.toRat b.toRat ∧ (Flt.mmMax a b).isNaN = false := fun ha hb => hmax ha hb
    refine ⟨?_, ?_, ?_, ?_⟩
    · show (Flt.mmMin (Flt.mmMin v.x v.y) (Flt.mmMin v.z v.z)).toRat = _
      rw [(e1 (e1 hx hy).2 (e1 hz hz).2).1, (e1 hx hy).1, (e1 hz hz).1, min_self]
    · show (Flt.mmMax (Flt.mmMax v.x v.y) (Flt.mmMax v.z v.z)).toRat = _
      rw [(e2 (e2 hx hy).2 (e2 hz hz).2).1, (e2 hx hy).1, (e2 hz hz).1, max_self]
    · show (Flt.mmMin (Flt.mmMin v.x v.y) (Flt.mmMin v.z v.w)).toRat = _
      rw [(e1 (e1 hx hy).2 (e1 hz hw).2).1, (e1 hx hy).1, (e1 hz hw).1, min_assoc (min _ _)]
    · show (Flt.mmMax (Flt.mmMax v.x v.y) (Flt.mmMax v.z v.w)).toRat = _
      rw [(e2 (e2 hx hy).2 (e2 hz hw).2).1, (e2 hx hy).1, (e2 hz hw).1, max_assoc (max _ _)]

/-- **C21** (SIMD signed lanes), on every backend: lane-wise and horizontal. -/
theorem simd_int_min_max (k : Backend) (a b : V4 W) :
    (∀ i, ((k.minI a b).get i).toInt = min (a.get i).toInt (b.get i).toInt ∧
      ((k.maxI a b).get i).toInt = max (a.get i).toInt (b.get i).toInt) ∧
    (∀ v : V4 W,
      (k.min3I v).toInt = min (min v.x.toInt v.y.toInt) v.z.toInt ∧
      (k.max3I v).toInt = max (max v.x.toInt v.y.toInt) v.z.toInt ∧
      (k.min4I v).toInt = min (min (min v.x.toInt v.y.toInt) v.z.toInt) v.w.toInt ∧
      (k.max4I v).toInt = max (max (max v.x.toInt v.y.toInt) v.z.toInt) v.w.toInt) := by
  have e1 : ∀ a b : W, (minBy BitVec.slt a b).toInt = min a.toInt b.toInt := by
    intro a b; have := (ranked_i.min (a := a) (b := b) trivial trivial).1; exact_mod_cast this
  have e2 : ∀ a b : W, (maxBy BitVec.slt a b).toInt = max a.toInt b.toInt := by
    intro a b; have := (ranked_i.max (a := a) (b := b) trivial trivial).1; exact_mod_cast this
  refine ⟨fun i => ?_, fun v => ⟨?_, ?_, ?_, ?_⟩⟩
  · fin_cases i <;> exact ⟨e1 _ _, e2 _ _⟩
  · show (minBy BitVec.slt (minBy BitVec.slt v.x v.y) (minBy BitVec.slt v.z v.z)).toInt = _
    simp only [e1, min_self]
  · show (maxBy BitVec.slt (maxBy BitVec.slt v.x v.y) (maxBy BitVec.slt v.z v.z)).toInt = _
    simp only [e2, max_self]
  · show (minBy BitVec.slt (minBy BitVec.slt v.x v.y) (minBy BitVec.slt v.z v.w)).toInt = _
    simp only [e1, min_assoc]
  · show (maxBy BitVec.slt (maxBy BitVec.slt v.x v.y) (maxBy BitVec.slt v.z v.w)).toInt = _
    simp only [e2, max_assoc]

/-- Non-vacuity of C21: 1.0 and 2.0 are non-NaN, and a horizontal minimum. -/
example : (F32.mk 0x3F800000).isNaN = false ∧ (F32.mk 0x40000000).isNaN = false := by decide
example : Backend.min3I .sse41 ⟨3, 0xFFFFFFFE, 5, 0x80000000⟩ = 0xFFFFFFFE#32 := by decide

/-! ## C22 -/

/-- What C22 asks: the SIMD result is the scalar unsigned result. -/
def UnsignedOk (k : Backend) (a b : V4 W) : Prop :=
  (∀ c, k.cmpU c a b = V4.cmp c.onU a b) ∧
  k.minU a b = V4.min BitVec.ult a b ∧ k.maxU a b = V4.max BitVec.ult a b

theorem slt_of_small {a b : W} (ha : a.toNat < 2 ^ 31) (hb : b.toNat < 2 ^ 31) : a.slt b = a.ult b := by
  have h1 : a.toInt = a.toNat := BitVec.toInt_eq_toNat_of_lt (by omega)
  have h2 : b.toInt = b.toNat := BitVec.toInt_eq_toNat_of_lt (by omega)
  simp [BitVec.slt, BitVec.ult, h1, h2]

theorem sseLane_small (c : Cmp) {a b : W} (ha : a.toNat < 2 ^ 31) (hb : b.toNat < 2 ^ 31) :
    Backend.sseLane c a b = mask (c.onU a b) := by
  have h1 := slt_of_small ha hb
  have h2 := slt_of_small hb ha
  have mor : ∀ p q : Bool, mask p ||| mask q = mask (p || q) := by decide
  have mnot : ∀ p : Bool, mask p ^^^ 0xFFFFFFFF#32 = mask (!p) := by decide
  have hle : a.ule b = (a.ult b || a == b) := by
    rw [Bool.eq_iff_iff]; simp [BitVec.ule, BitVec.ult, BitVec.toNat_eq]; omega
  have hge : b.ule a = (b.ult a || a == b) := by
    rw [Bool.eq_iff_iff]; simp [BitVec.ule, BitVec.ult, BitVec.toNat_eq]; omega
  cases c <;> simp [Backend.sseLane, Cmp.onU, h1, h2, mor, mnot, hle, hge, bne]

/-- **C22** (partial): NEON and the scalar fallback are unsigned for all values. With SSE, all results are
unsigned when every lane is below 2^31. Missing: SSE lanes with the top bit set, which
`simd_uint_counterexample` refutes. -/
theorem simd_uint_partial (a b : V4 W) :
    UnsignedOk .neon a b ∧ UnsignedOk .scalar a b ∧
    (∀ k, (∀ i, (a.get i).toNat < 2 ^ 31) → (∀ i, (b.get i).toNat < 2 ^ 31) → UnsignedOk k a b) := by
  refine ⟨⟨fun c => rfl, rfl, rfl⟩, ⟨fun c => rfl, rfl, rfl⟩, fun k ha hb => ?_⟩
  have hx := ha 0; have hy := ha 1; have hz := ha 2; have hw := ha 3
  have gx := hb 0; have gy := hb 1; have gz := hb 2; have gw := hb 3
  simp only [V4.get] at hx hy hz hw gx gy gz gw
  have hc : ∀ c, V4.map2 (Backend.sseLane c) a b = V4.cmp c.onU a b := by
    intro c
    simp only [V4.map2, V4.cmp, sseLane_small c hx gx, sseLane_small c hy gy, sseLane_small c hz gz,
      sseLane_small c hw gw]
  have hmin : V4.map2 (minBy BitVec.slt) a b = V4.min BitVec.ult a b := by
    simp only [V4.map2, V4.min, minBy, slt_of_small gx hx, slt_of_small gy hy, slt_of_small gz hz, slt_of_small gw hw]
  have hmax : V4.map2 (maxBy BitVec.slt) a b = V4.max BitVec.ult a b := by
    simp only [V4.map2, V4.max, maxBy, slt_of_small hx gx, slt_of_small hy gy, slt_of_small hz gz, slt_of_small hw gw]
  cases k
  · exact ⟨hc, rfl, rfl⟩
  · exact ⟨hc, hmin, hmax⟩
  · exact ⟨fun c => rfl, rfl, rfl⟩
  · exact ⟨fun c => rfl, rfl, rfl⟩

/-- **C22** (horizontal, partial): minimum and maximum of the first three and of all four lanes are the unsigned ones on
every backend but SSE4.1, and with SSE4.1 when every lane is below 2^31. Missing: SSE4.1 lanes with the top bit set. -/
theorem simd_uint_reduce_partial (k : Backend) (v : V4 W) (h : k ≠ .sse41 ∨ ∀ i, (v.get i).toNat < 2 ^ 31) :
    (k.min3U v).toNat = min (min v.x.toNat v.y.toNat) v.z.toNat ∧
    (k.max3U v).toNat = max (max v.x.toNat v.y.toNat) v.z.toNat ∧
    (k.min4U v).toNat = min (min (min v.x.toNat v.y.toNat) v.z.toNat) v.w.toNat ∧
    (k.max4U v).toNat = max (max (max v.x.toNat v.y.toNat) v.z.toNat) v.w.toNat := by
  have e1 : ∀ a b : W, (minBy BitVec.ult a b).toNat = min a.toNat b.toNat := by
    intro a b; have := (ranked_u.min (a := a) (b := b) trivial trivial).1; exact_mod_cast this
  have e2 : ∀ a b : W, (maxBy BitVec.ult a b).toNat = max a.toNat b.toNat := by
    intro a b; have := (ranked_u.max (a := a) (b := b) trivial trivial).1; exact_mod_cast this
  have u : (minBy BitVec.ult (minBy BitVec.ult v.x v.y) (minBy BitVec.ult v.z v.z)).toNat =
        min (min v.x.toNat v.y.toNat) v.z.toNat ∧
      (maxBy BitVec.ult (maxBy BitVec.ult v.x v.y) (maxBy BitVec.ult v.z v.z)).toNat =
        max (max v.x.toNat v.y.toNat) v.z.toNat ∧
      (minBy BitVec.ult (minBy BitVec.ult v.x v.y) (minBy BitVec.ult v.z v.w)).toNat =
        min (min (min v.x.toNat v.y.toNat) v.z.toNat) v.w.toNat ∧
      (maxBy BitVec.ult (maxBy BitVec.ult v.x v.y) (maxBy BitVec.ult v.z v.w)).toNat =
        max (max (max v.x.toNat v.y.toNat) v.z.toNat) v.w.toNat := by
    simp only [e1, e2, min_self, max_self, min_assoc, max_assoc, and_self]
  cases k
  · exact u
  · have hs : ∀ i, (v.get i).toNat < 2 ^ 31 := by simpa using h
    have hx : v.x.toNat < 2 ^ 31 := hs 0
    have hy : v.y.toNat < 2 ^ 31 := hs 1
    have hz : v.z.toNat < 2 ^ 31 := hs 2
    have hw : v.w.toNat < 2 ^ 31 := hs 3
    have m1 : ∀ {a b : W}, a.toNat < 2 ^ 31 → b.toNat < 2 ^ 31 →
        minBy BitVec.slt a b = minBy BitVec.ult a b ∧ (minBy BitVec.ult a b).toNat < 2 ^ 31 := by
      intro a b ha hb
      refine ⟨by simp only [minBy, slt_of_small hb ha], by rw [e1]; omega⟩
    have m2 : ∀ {a b : W}, a.toNat < 2 ^ 31 → b.toNat < 2 ^ 31 →
        maxBy BitVec.slt a b = maxBy BitVec.ult a b ∧ (maxBy BitVec.ult a b).toNat < 2 ^ 31 := by
      intro a b ha hb
      refine ⟨by simp only [maxBy, slt_of_small ha hb], by rw [e2]; omega⟩
    refine ⟨?_, ?_, ?_, ?_⟩
    · show (minBy BitVec.slt (minBy BitVec.slt v.x v.y) (minBy BitVec.slt v.z v.z)).toNat = _
      rw [(m1 hx hy).1, (m1 hz hz).1, (m1 (m1 hx hy).2 (m1 hz hz).2).1]; exact u.1
    · show (maxBy BitVec.slt (maxBy BitVec.slt v.x v.y) (maxBy BitVec.slt v.z v.z)).toNat = _
      rw [(m2 hx hy).1, (m2 hz hz).1, (m2 (m2 hx hy).2 (m2 hz hz).2).1]; exact u.2.1
    · show (minBy BitVec.slt (minBy BitVec.slt v.x v.y) (minBy BitVec.slt v.z v.w)).toNat = _
      rw [(m1 hx hy).1, (m1 hz hw).1, (m1 (m1 hx hy).2 (m1 hz hw).2).1]; exact u.2.2.1
    · show (maxBy BitVec.slt (maxBy BitVec.slt v.x v.y) (maxBy BitVec.slt v.z v.w)).toNat = _
      rw [(m2 hx hy).1, (m2 hz hw).1, (m2 (m2 hx hy).2 (m2 hz hw).2).1]; exact u.2.2.2
  · exact u
  · exact u

example : Backend.max3U .sse41 ⟨3, 9, 5, 0x80000000⟩ = 9#32 ∧ Backend.max3U .sse41 ⟨3, 0x80000000, 5, 0⟩ = 5#32 := by
  decide

/-- **C22** (conversion, partial): NEON converts every unsigned lane correctly; SSE does when every lane is
below 2^31. -/
theorem simd_uint_to_float_partial (v : V4 W) :
    (Backend.toFloatU .neon v = v.map fun n => Backend.ofInt n.toNat) ∧
    ((∀ i, (v.get i).toNat < 2 ^ 31) →
      Backend.toFloatU .sse41 v = v.map (fun n => Backend.ofInt n.toNat) ∧
      Backend.toFloatU .sse2 v = v.map (fun n => Backend.ofInt n.toNat)) := by
  refine ⟨rfl, fun h => ?_⟩
  have hx := h 0; have hy := h 1; have hz := h 2; have hw := h 3
  simp only [V4.get] at hx hy hz hw
  have e : ∀ n : W, n.toNat < 2 ^ 31 → n.toInt = (n.toNat : Int) :=
    fun n hn => BitVec.toInt_eq_toNat_of_lt (by omega)
  constructor <;> simp only [Backend.toFloatU, V4.map, e _ hx, e _ hy, e _ hz, e _ hw]

/-- **C22** is false of the code: with SSE, `1 < 0x80000000` is reported false, with SSE4.1 the minimum of
1 and 0x80000000 is 0x80000000, `f32x4(u32x4(0xFFFFFFFF))` is -1.0 with SSE, and in the scalar fallback
`f32x4(u32x4(1))` is the smallest denormal instead of 1.0. -/
theorem simd_uint_counterexample :
    Backend.cmpU .sse41 .lt (V4.splat 1) (V4.splat 0x80000000) ≠ V4.cmp Cmp.lt.onU (V4.splat 1) (V4.splat 0x80000000) ∧
    Backend.cmpU .sse2 .lt (V4.splat 1) (V4.splat 0x80000000) ≠ V4.cmp Cmp.lt.onU (V4.splat 1) (V4.splat 0x80000000) ∧
    Backend.minU .sse41 (V4.splat 1) (V4.splat 0x80000000) = V4.splat 0x80000000 ∧
    Backend.toFloatU .sse41 (V4.splat 0xFFFFFFFF) = V4.splat ⟨0xBF800000⟩ ∧
    Backend.toFloatU .scalar (V4.splat 1) = V4.splat ⟨1⟩ ∧ Backend.ofInt 1 = ⟨0x3F800000⟩ := by
  refine ⟨by decide, by decide, by decide, by decide +kernel, by decide, by decide +kernel⟩

example : UnsignedOk .sse41 ⟨1, 2, 3, 0x7FFFFFFF⟩ ⟨5, 1, 3, 0⟩ :=
  (simd_uint_partial _ _).2.2 _ (by decide) (by decide)

/-! ## C23 -/

/-- **C23** (partial): every composite constructor of `uint3`, `uint4`, `float3`, `float4`, `int4`, and
`int3(int32, int2)`, stores the given parts in order, so the parts can be read back. Missing:
`int3(int2, int32)`, see `int3_ctor_counterexample`. -/
theorem ctors_partial {α : Type} (x y z w : α) (p q : V2 α) (t : V3 α) :
    (Ctor.v3_21 p z).toList = p.toList ++ [z] ∧
    (Ctor.v3_12 x p).toList = [x] ++ p.toList ∧
    (Ctor.v4_211 p z w).toList = p.toList ++ [z, w] ∧
    (Ctor.v4_121 x p w).toList = [x] ++ p.toList ++ [w] ∧
    (Ctor.v4_112 x y p).toList = [x, y] ++ p.toList ∧
    (Ctor.v4_22 p q).toList = p.toList ++ q.toList ∧
    (Ctor.v4_31 t w).toList = t.toList ++ [w] ∧
    (Ctor.v4_13 x t).toList = [x] ++ t.toList ∧
    Ctor.v3_to2 (Ctor.v3_21 p z) = p ∧ Ctor.v4_to3 (Ctor.v4_31 t w) = t ∧ Ctor.v4_to2 (Ctor.v4_22 p q) = p :=
  ⟨rfl, rfl, rfl, rfl, rfl, rfl, rfl, rfl, rfl, rfl, rfl⟩

/-- **C23** is false of the code: `int3(int2(1, 2), 3)` stores `(1, 2, 1)`; the third argument is ignored
for all inputs. -/
theorem int3_ctor_counterexample :
    (Ctor.int3_21 (⟨1, 2⟩ : V2 Int) 3).toList ≠ [1, 2, 3] ∧
    (∀ (p : V2 Int) (z z' : Int), Ctor.int3_21 p z = Ctor.int3_21 p z') :=
  ⟨by decide, fun _ _ _ => rfl⟩

/-! ## C24 -/

theorem memcmp_irrefl : ∀ a, Bin.memcmpLt a a = false
  | [] => rfl
  | a :: as => by simp [Bin.memcmpLt, memcmp_irrefl as]

theorem memcmp_trans : ∀ a b c, Bin.memcmpLt a b = true → Bin.memcmpLt b c = true → Bin.memcmpLt a c = true
  | [], _, _, h, _ => by simp [Bin.memcmpLt] at h
  | a :: as, [], _, h, _ => by simp [Bin.memcmpLt] at h
  | a :: as, b :: bs, [], _, h => by simp [Bin.memcmpLt] at h
  | a :: as, b :: bs, c :: cs, h1, h2 => by
    have ih := memcmp_trans as bs cs
    simp only [Bin.memcmpLt] at *
    split_ifs at * <;> first | rfl | omega | exact ih h1 h2

theorem memcmp_total : ∀ a b : List Nat, a.length = b.length → a ≠ b →
    Bin.memcmpLt a b = true ∨ Bin.memcmpLt b a = true
  | [], [], _, h => absurd rfl h
  | [], _ :: _, h, _ => by simp at h
  | _ :: _, [], h, _ => by simp at h
  | a :: as, b :: bs, hl, h => by
    have ih := memcmp_total as bs (by simpa using hl)
    simp only [Bin.memcmpLt]
    by_cases h1 : a < b
    · simp [h1]
    · by_cases h2 : b < a
      · simp [h2]
      · have : a = b := by omega
        subst this
        simpa using ih (by simpa using h)

theorem bytes_inj {a b : W} (h : Bin.bytes a = Bin.bytes b) : a = b := by
  have ha := a.isLt; have hb := b.isLt
  apply BitVec.eq_of_toNat_eq
  simp only [Bin.bytes, List.cons.injEq] at h
  omega

theorem word64_inj {a b : V2 W} (h : Bin.word64 a = Bin.word64 b) : a = b := by
  have h1 : (Bin.word64 a).toNat = (Bin.word64 b).toNat := by rw [h]
  have ha := a.x.isLt; have hb := b.x.isLt
  simp only [Bin.word64, BitVec.toNat_append] at h1
  rw [← Nat.shiftLeft_add_eq_or_of_lt ha, ← Nat.shiftLeft_add_eq_or_of_lt hb] at h1
  simp only [Nat.shiftLeft_eq] at h1
  have e1 : a.x.toNat = b.x.toNat := by omega
  have e2 : a.y.toNat = b.y.toNat := by omega
  cases a; cases b
  simp only [V2.mk.injEq]
  exact ⟨BitVec.eq_of_toNat_eq e1, BitVec.eq_of_toNat_eq e2⟩

/-- **C24**: on two, three and four components, unsigned, signed or float bit patterns, `isBinaryLess` is a
strict total order on the stored bits (`Color`: see `color_isBinaryLess`). -/
theorem isBinaryLess_total :
    StrictTotal Bin.lessU2 ∧ StrictTotal Bin.lessI2 ∧ StrictTotal Bin.less3 ∧ StrictTotal Bin.less4 := by
  refine ⟨⟨?_, ?_, ?_⟩, ⟨?_, ?_, ?_⟩, ⟨?_, ?_, ?_⟩, ⟨?_, ?_, ?_⟩⟩
  · intro a; simp [Bin.lessU2, BitVec.ult]
  · intro a b c; simp only [Bin.lessU2, BitVec.ult, decide_eq_true_eq]; omega
  · intro a b h
    have : (Bin.word64 a).toNat ≠ (Bin.word64 b).toNat := fun h' => h (word64_inj (BitVec.eq_of_toNat_eq h'))
    simp only [Bin.lessU2, BitVec.ult, decide_eq_true_eq]; omega
  · intro a; simp [Bin.lessI2, BitVec.slt]
  · intro a b c; simp only [Bin.lessI2, BitVec.slt, decide_eq_true_eq]; omega
  · intro a b h
    have : (Bin.word64 a).toInt ≠ (Bin.word64 b).toInt := fun h' => h (word64_inj (BitVec.eq_of_toInt_eq h'))
    simp only [Bin.lessI2, BitVec.slt, decide_eq_true_eq]; omega
  · intro a; exact memcmp_irrefl _
  · intro a b c; exact memcmp_trans _ _ _
  · intro a b h
    refine memcmp_total _ _ (by simp [V3.toList, Bin.bytes]) (fun h' => h ?_)
    cases a; cases b
    simp only [V3.toList, List.flatMap_cons, List.flatMap_nil, List.append_nil] at h'
    have l : ∀ v, (Bin.bytes v).length = 4 := fun _ => rfl
    obtain ⟨h1, h'⟩ := List.append_inj h' (by simp [l])
    obtain ⟨h2, h3⟩ := List.append_inj h' (by simp [l])
    simp [bytes_inj h1, bytes_inj h2, bytes_inj h3]
  · intro a; exact memcmp_irrefl _
  · intro a b c; exact memcmp_trans _ _ _
  · intro a b h
    refine memcmp_total _ _ (by simp [V4.toList, Bin.bytes]) (fun h' => h ?_)
    cases a; cases b
    simp only [V4.toList, List.flatMap_cons, List.flatMap_nil, List.append_nil] at h'
    have l : ∀ v, (Bin.bytes v).length = 4 := fun _ => rfl
    obtain ⟨h1, h'⟩ := List.append_inj h' (by simp [l])
    obtain ⟨h2, h'⟩ := List.append_inj h' (by simp [l])
    obtain ⟨h3, h4⟩ := List.append_inj h' (by simp [l])
    simp [bytes_inj h1, bytes_inj h2, bytes_inj h3, bytes_inj h4]

example : Bin.less3 ⟨256, 0, 0⟩ ⟨1, 0, 0⟩ = true := by decide

end Verif
