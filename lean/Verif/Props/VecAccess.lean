import Verif.Model.VecAccess
import Verif.Spec.Access
import Verif.Proofs.F32

/-! # C120: component access, integer conversions and three-way minima -/

namespace Verif
open Spec F32

/-- C120: reading a component by index. -/
theorem index_reads {α : Type} (u : V2 α) (v : V3 α) (w : V4 α) (m : M4 α) :
    Reads (comp2 u) u.index ∧ Reads (comp3 v) v.index ∧ Reads (comp4 w) w.index ∧ Reads (cols4 m) m.colAt := by
  refine ⟨?_, ?_, ?_, ?_⟩ <;> intro i
  · rcases i with _ | _ | i <;> simp [V2.index, V2.toList, comp2]
  · rcases i with _ | _ | _ | i <;> simp [V3.index, V3.toList, comp3]
  · rcases i with _ | _ | _ | _ | i <;> simp [V4.index, V4.toList, comp4]
  · rcases i with _ | _ | _ | _ | i <;> simp [M4.colAt, cols4]

/-- C120: writing a component by index. -/
theorem index_writes {α : Type} (u : V2 α) (v : V3 α) (w : V4 α) (m : M4 α) :
    Writes comp2 u u.setIndex ∧ Writes comp3 v v.setIndex ∧ Writes comp4 w w.setIndex ∧ Writes cols4 m m.setColAt := by
  refine ⟨?_, ?_, ?_, ?_⟩ <;> intro i a
  · rcases i with _ | _ | i <;> simp [V2.setIndex, V2.toList, comp2, Fin.forall_fin_succ]
  · rcases i with _ | _ | _ | i <;> simp [V3.setIndex, V3.toList, comp3, Fin.forall_fin_succ]
  · rcases i with _ | _ | _ | _ | i <;> simp [V4.setIndex, V4.toList, comp4, Fin.forall_fin_succ]
  · rcases i with _ | _ | _ | _ | i <;> simp [M4.setColAt, cols4, Fin.forall_fin_succ]

/-- C120: a vector from one value has it in every component. -/
theorem fill_all {α : Type} (a : α) : (∀ i, comp2 (V2.fill a) i = a) ∧ (∀ i, comp3 (V3.fill a) i = a) ∧ ∀ i, comp4 (V4.fill a) i = a := by
  simp [comp2, comp3, comp4, V2.fill, V3.fill, V4.fill, Fin.forall_fin_succ]

/-- The signed word of an unsigned one is congruent to it modulo 2^32, and equal to it below 2^31. -/
theorem signedOf_value (u : W) : (signedOf u).toInt % 2 ^ 32 = u.toNat ∧ (u.toNat < 2 ^ 31 → (signedOf u).toInt = u.toNat) := by
  have e : signedOf u = u := by unfold signedOf; simp
  rw [e, BitVec.toInt_eq_toNat_cond]
  have := u.isLt
  refine ⟨?_, ?_⟩
  · split <;> omega
  · intro h; split <;> omega

/-- The unsigned word of a signed one is congruent to it modulo 2^32, and equal to it if it is not negative. -/
theorem unsignedOf_value (n : W) : ((unsignedOf n).toNat : ℤ) = n.toInt % 2 ^ 32 ∧ (0 ≤ n.toInt → ((unsignedOf n).toNat : ℤ) = n.toInt) := by
  have e : unsignedOf n = n := by unfold unsignedOf; exact BitVec.ofInt_toInt
  rw [e, BitVec.toInt_eq_toNat_cond]
  have := n.isLt
  refine ⟨?_, ?_⟩
  · split <;> omega
  · split <;> omega

theorem signedOf_unsignedOf (n : W) : signedOf (unsignedOf n) = n ∧ unsignedOf (signedOf n) = n := by
  unfold signedOf unsignedOf; simp

/-- C120: conversions between signed and unsigned vectors keep the components in place, change them modulo 2^32 and are
undone by the conversion back. -/
theorem int_uint_convert (u : V2 W) (v : V3 W) (w : V4 W) :
    (∀ i, (comp2 (Ctor.int2_uint2 u) i).toInt % 2 ^ 32 = (comp2 u i).toNat) ∧
    (∀ i, (comp3 (Ctor.int3_uint3 v) i).toInt % 2 ^ 32 = (comp3 v i).toNat) ∧
    (∀ i, (comp4 (Ctor.int4_uint4 w) i).toInt % 2 ^ 32 = (comp4 w i).toNat) ∧
    (∀ i, ((comp2 (Ctor.uint2_int2 u) i).toNat : ℤ) = (comp2 u i).toInt % 2 ^ 32) ∧
    (∀ i, ((comp3 (Ctor.uint3_int3 v) i).toNat : ℤ) = (comp3 v i).toInt % 2 ^ 32) ∧
    (∀ i, ((comp4 (Ctor.uint4_int4 w) i).toNat : ℤ) = (comp4 w i).toInt % 2 ^ 32) ∧
    (Ctor.uint2_int2 (Ctor.int2_uint2 u) = u ∧ Ctor.uint3_int3 (Ctor.int3_uint3 v) = v ∧ Ctor.uint4_int4 (Ctor.int4_uint4 w) = w) ∧
    (Ctor.int2_uint2 (Ctor.uint2_int2 u) = u ∧ Ctor.int3_uint3 (Ctor.uint3_int3 v) = v ∧ Ctor.int4_uint4 (Ctor.uint4_int4 w) = w) := by
  have s := fun x => (signedOf_value x).1
  have t := fun x => (unsignedOf_value x).1
  have r1 := fun x => (signedOf_unsignedOf x).1
  have r2 := fun x => (signedOf_unsignedOf x).2
  refine ⟨?_, ?_, ?_, ?_, ?_, ?_, ?_, ?_⟩
  · simp only [Fin.forall_fin_succ]; exact ⟨s _, s _, fun i => i.elim0⟩
  · simp only [Fin.forall_fin_succ]; exact ⟨s _, s _, s _, fun i => i.elim0⟩
  · simp only [Fin.forall_fin_succ]; exact ⟨s _, s _, s _, s _, fun i => i.elim0⟩
  · simp only [Fin.forall_fin_succ]; exact ⟨t _, t _, fun i => i.elim0⟩
  · simp only [Fin.forall_fin_succ]; exact ⟨t _, t _, t _, fun i => i.elim0⟩
  · simp only [Fin.forall_fin_succ]; exact ⟨t _, t _, t _, t _, fun i => i.elim0⟩
  · simp only [Ctor.uint2_int2, Ctor.int2_uint2, Ctor.uint3_int3, Ctor.int3_uint3, Ctor.uint4_int4, Ctor.int4_uint4, r2, and_self]
  · simp only [Ctor.uint2_int2, Ctor.int2_uint2, Ctor.uint3_int3, Ctor.int3_uint3, Ctor.uint4_int4, Ctor.int4_uint4, r1, and_self]

/-- C120: narrowing an integer vector keeps the first components. -/
theorem int_narrow (v : V3 W) (w : V4 W) :
    (∀ i, comp2 (Ctor.int2_int3 v) i = comp3 v i.castSucc) ∧ (∀ i, comp3 (Ctor.int3_int4 w) i = comp4 w i.castSucc) ∧
    (∀ i, comp2 (Ctor.int2_int4 w) i = comp4 w i.castSucc.castSucc) ∧
    (∀ i, ((comp2 (Ctor.uint2_int3 v) i).toNat : ℤ) = (comp3 v i.castSucc).toInt % 2 ^ 32) ∧
    (∀ i, ((comp3 (Ctor.uint3_int4 w) i).toNat : ℤ) = (comp4 w i.castSucc).toInt % 2 ^ 32) ∧
    (∀ i, ((comp2 (Ctor.uint2_int4 w) i).toNat : ℤ) = (comp4 w i.castSucc.castSucc).toInt % 2 ^ 32) ∧
    ((Ctor.uint_int w.x).toNat : ℤ) = (comp4 w 0).toInt % 2 ^ 32 ∧ Ctor.same_int w.x = comp4 w 0 := by
  have t := fun x => (unsignedOf_value x).1
  refine ⟨?_, ?_, ?_, ?_, ?_, ?_, t _, rfl⟩
  · simp only [Fin.forall_fin_succ]; exact ⟨rfl, rfl, fun i => i.elim0⟩
  · simp only [Fin.forall_fin_succ]; exact ⟨rfl, rfl, rfl, fun i => i.elim0⟩
  · simp only [Fin.forall_fin_succ]; exact ⟨rfl, rfl, fun i => i.elim0⟩
  · simp only [Fin.forall_fin_succ]; exact ⟨t _, t _, fun i => i.elim0⟩
  · simp only [Fin.forall_fin_succ]; exact ⟨t _, t _, t _, fun i => i.elim0⟩
  · simp only [Fin.forall_fin_succ]; exact ⟨t _, t _, fun i => i.elim0⟩

/-- Non-vacuity: minus one and the largest unsigned word. -/
example : Ctor.uint2_int2 ⟨BitVec.ofInt 32 (-1), 7#32⟩ = ⟨4294967295#32, 7#32⟩ ∧ (comp2 (Ctor.int2_uint2 ⟨4294967295#32, 7#32⟩) 0).toInt = -1 := by
  decide +kernel

theorem stdMin_pick (a b : F32) (ha : a.isNaN = false) (hb : b.isNaN = false) :
    (Flt.stdMin a b = a ∨ Flt.stdMin a b = b) ∧ (Flt.stdMin a b).isNaN = false ∧ (Flt.stdMin a b).key ≤ a.key ∧ (Flt.stdMin a b).key ≤ b.key := by
  change ((if ltb b a = true then b else a) = a ∨ (if ltb b a = true then b else a) = b) ∧ (if ltb b a = true then b else a).isNaN = false ∧
    (if ltb b a = true then b else a).key ≤ a.key ∧ (if ltb b a = true then b else a).key ≤ b.key
  by_cases h : ltb b a = true
  · rw [if_pos h]; rw [ltb_iff] at h; exact ⟨Or.inr rfl, hb, h.2.2.le, le_rfl⟩
  · rw [if_neg h]; rw [ltb_iff] at h
    exact ⟨Or.inl rfl, ha, le_rfl, by by_contra hc; exact h ⟨hb, ha, by omega⟩⟩

theorem stdMax_pick (a b : F32) (ha : a.isNaN = false) (hb : b.isNaN = false) :
    (Flt.stdMax a b = a ∨ Flt.stdMax a b = b) ∧ (Flt.stdMax a b).isNaN = false ∧ a.key ≤ (Flt.stdMax a b).key ∧ b.key ≤ (Flt.stdMax a b).key := by
  change ((if ltb a b = true then b else a) = a ∨ (if ltb a b = true then b else a) = b) ∧ (if ltb a b = true then b else a).isNaN = false ∧
    a.key ≤ (if ltb a b = true then b else a).key ∧ b.key ≤ (if ltb a b = true then b else a).key
  by_cases h : ltb a b = true
  · rw [if_pos h]; rw [ltb_iff] at h; exact ⟨Or.inr rfl, hb, h.2.2.le, le_rfl⟩
  · rw [if_neg h]; rw [ltb_iff] at h
    exact ⟨Or.inl rfl, ha, le_rfl, by by_contra hc; exact h ⟨ha, hb, by omega⟩⟩

/-- C120: the minimum and the maximum of three floats are among the three and bound all three, infinities included. -/
theorem three_way (a b c : F32) (ha : a.isNaN = false) (hb : b.isNaN = false) (hc : c.isNaN = false) :
    (minThree a b c ∈ [a, b, c] ∧ ∀ x ∈ [a, b, c], leb (minThree a b c) x = true) ∧
    (maxThree a b c ∈ [a, b, c] ∧ ∀ x ∈ [a, b, c], leb x (maxThree a b c) = true) := by
  constructor
  · obtain ⟨p1, n1, l1, l2⟩ := stdMin_pick a b ha hb
    obtain ⟨p2, n2, l3, l4⟩ := stdMin_pick (Flt.stdMin a b) c n1 hc
    unfold minThree
    generalize Flt.stdMin (Flt.stdMin a b) c = r at *
    generalize Flt.stdMin a b = s at *
    refine ⟨?_, ?_⟩
    · rcases p2 with rfl | rfl
      · rcases p1 with rfl | rfl <;> simp
      · simp
    · simp only [List.mem_cons, List.not_mem_nil, or_false, forall_eq_or_imp, forall_eq, leb_iff]
      exact ⟨⟨n2, ha, l3.trans l1⟩, ⟨n2, hb, l3.trans l2⟩, n2, hc, l4⟩
  · obtain ⟨p1, n1, l1, l2⟩ := stdMax_pick a b ha hb
    obtain ⟨p2, n2, l3, l4⟩ := stdMax_pick (Flt.stdMax a b) c n1 hc
    unfold maxThree
    generalize Flt.stdMax (Flt.stdMax a b) c = r at *
    generalize Flt.stdMax a b = s at *
    refine ⟨?_, ?_⟩
    · rcases p2 with rfl | rfl
      · rcases p1 with rfl | rfl <;> simp
      · simp
    · simp only [List.mem_cons, List.not_mem_nil, or_false, forall_eq_or_imp, forall_eq, leb_iff]
      exact ⟨⟨ha, n2, l1.trans l3⟩, ⟨hb, n2, l2.trans l3⟩, hc, n2, l4⟩

/-- C120: the same for signed words. -/
theorem three_way_int (a b c : W) :
    (minThreeI a b c).toInt = min (min a.toInt b.toInt) c.toInt ∧ (maxThreeI a b c).toInt = max (max a.toInt b.toInt) c.toInt := by
  have mn : ∀ x y : W, (stdMinI x y).toInt = min x.toInt y.toInt := by
    intro x y; unfold stdMinI; simp only [BitVec.slt, decide_eq_true_eq]; split <;> omega
  have mx : ∀ x y : W, (stdMaxI x y).toInt = max x.toInt y.toInt := by
    intro x y; unfold stdMaxI; simp only [BitVec.slt, decide_eq_true_eq]; split <;> omega
  unfold minThreeI maxThreeI
  rw [mn, mn, mx, mx]
  exact ⟨rfl, rfl⟩

/-- Non-vacuity: an infinity and two zeros of different sign. -/
example : minThree (ofRat 1) ⟨0xFF800000#32⟩ (ofRat 2) = ⟨0xFF800000#32⟩ ∧ (⟨0xFF800000#32⟩ : F32).isNaN = false ∧
    maxThree (ofRat 1) ⟨0xFF800000#32⟩ (ofRat 2) = ofRat 2 := by decide +kernel

end Verif
