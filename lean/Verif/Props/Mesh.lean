import Verif.Props.BvhCases
import Verif.Model.Mesh
import Verif.Spec.Mesh
import Verif.Props.Bvh
import Verif.Model.RealBvh
import Mathlib.Algebra.BigOperators.Fin
import Mathlib.Tactic.IntervalCases

/-!
# C96, C97: hierarchies over meshes in memory, and over used objects
-/

namespace Verif
open Bvh Spec

namespace MeshP

theorem bytes32 (a b c d : BitVec 8) :
    d ++ c ++ b ++ a = BitVec.ofNat 32 (a.toNat + b.toNat * 256 + c.toNat * 65536 + d.toNat * 16777216) := by
  have l0 := a.isLt
  have l1 := b.isLt
  have l2 := c.isLt
  have l3 := d.isLt
  apply BitVec.eq_of_toNat_eq
  rw [BitVec.toNat_append, BitVec.toNat_append, BitVec.toNat_append, BitVec.toNat_ofNat,
    ← Nat.shiftLeft_add_eq_or_of_lt l2, ← Nat.shiftLeft_add_eq_or_of_lt l1, ← Nat.shiftLeft_add_eq_or_of_lt l0,
    Nat.mod_eq_of_lt (by omega)]
  simp only [Nat.shiftLeft_eq]
  omega

theorem bytes16 (a b : BitVec 8) : (b ++ a).setWidth 32 = BitVec.ofNat 32 (a.toNat + b.toNat * 256) := by
  have l0 := a.isLt
  have l1 := b.isLt
  apply BitVec.eq_of_toNat_eq
  rw [BitVec.toNat_setWidth, BitVec.toNat_append, BitVec.toNat_ofNat, ← Nat.shiftLeft_add_eq_or_of_lt l0]
  congr 1
  simp only [Nat.shiftLeft_eq]
  omega

theorem read32_of_stores {m : Bytes} {o : ℕ} {v : ℕ} (h : Stores m o 4 v) : read32 m o = some (BitVec.ofNat 32 v) ∧ v < 2 ^ 32 := by
  obtain ⟨b, hb, rfl⟩ := h
  have h0 : m[o]? = some (b 0) := hb 0
  have h1 : m[o + 1]? = some (b 1) := hb 1
  have h2 : m[o + 2]? = some (b 2) := hb 2
  have h3 : m[o + 3]? = some (b 3) := hb 3
  have e : (List.ofFn fun i : Fin 4 => (b i).toNat * 256 ^ i.val).sum =
      (b 0).toNat + (b 1).toNat * 256 + (b 2).toNat * 65536 + (b 3).toNat * 16777216 := by
    rw [List.sum_ofFn, Fin.sum_univ_four]; norm_num
  rw [e, ← bytes32]
  refine ⟨?_, ?_⟩
  · unfold read32; rw [h0, h1, h2, h3]; rfl
  · have l0 := (b 0).isLt
    have l1 := (b 1).isLt
    have l2 := (b 2).isLt
    have l3 := (b 3).isLt
    omega

theorem read16_of_stores {m : Bytes} {o : ℕ} {v : ℕ} (h : Stores m o 2 v) : read16 m o = some (BitVec.ofNat 32 v) ∧ v < 2 ^ 32 := by
  obtain ⟨b, hb, rfl⟩ := h
  have h0 : m[o]? = some (b 0) := hb 0
  have h1 : m[o + 1]? = some (b 1) := hb 1
  have e : (List.ofFn fun i : Fin 2 => (b i).toNat * 256 ^ i.val).sum = (b 0).toNat + (b 1).toNat * 256 := by
    rw [List.sum_ofFn, Fin.sum_univ_two]; norm_num
  rw [e, ← bytes16]
  refine ⟨?_, ?_⟩
  · unfold read16; rw [h0, h1]; rfl
  · have l0 := (b 0).isLt
    have l1 := (b 1).isLt
    omega

theorem readFloat3_of_stores {m : Bytes} {o : ℕ} {p : V3 F32} (h : Stores m o 4 p.x.bits.toNat ∧ Stores m (o + 4) 4 p.y.bits.toNat ∧
    Stores m (o + 8) 4 p.z.bits.toNat) : readFloat3 m o = some p := by
  unfold readFloat3
  rw [(read32_of_stores h.1).1, (read32_of_stores h.2.1).1, (read32_of_stores h.2.2).1]
  simp

theorem mapM_some {α β : Type} (f : α → Option β) (g : α → β) : ∀ l : List α, (∀ k ∈ l, f k = some (g k)) → l.mapM f = some (l.map g)
  | [], _ => by simp
  | a :: l, h => by
    rw [List.mapM_cons, h a (by simp), mapM_some f g l fun k hk => h k (by simp [hk])]
    rfl

theorem addr_mul {v : ℕ} {s : BitVec 32} (h : v * s.toNat < 2 ^ 32) : (BitVec.ofNat 32 v * s).toNat = v * s.toNat := by
  rw [BitVec.toNat_mul, BitVec.toNat_ofNat, Nat.mod_mul_mod, Nat.mod_eq_of_lt h]

theorem offset_eq (k c : ℕ) : BitVec.ofNat 32 k * 3#32 + BitVec.ofNat 32 c = BitVec.ofNat 32 (3 * k + c) := by
  rw [BitVec.ofNat_add, BitVec.ofNat_mul, BitVec.mul_comm]

/-- The index function reads stored numbers. -/
theorem getIndex_of_stores {s : BitVec 32} {g : Bytes → ℕ → Option (BitVec 32)} (hg : getIndex? s = some g) {m : Bytes} {o v : ℕ}
    (h : Stores m o s.toNat v) : g m o = some (BitVec.ofNat 32 v) := by
  unfold getIndex? at hg
  split at hg
  · rename_i e; subst e; cases hg; exact (read16_of_stores h).1
  · split at hg
    · cases hg
    · rename_i e; rw [not_not] at e; subst e; cases hg; exact (read32_of_stores h).1

/-- The corner of the mesh named by entry `j` of the index list. -/
def corner (pos : List (V3 F32)) (idx : List ℕ) (j : ℕ) : V3 F32 := ((idx[j]?).bind fun i => pos[i]?).getD ⟨⟨0⟩, ⟨0⟩, ⟨0⟩⟩

theorem meshTri_eq {vertices indices : Bytes} {vs is : BitVec 32} {pos : List (V3 F32)} {idx : List ℕ} {g : Bytes → ℕ → Option (BitVec 32)}
    (hm : MeshOf vertices indices vs.toNat is.toNat pos idx) (hg : getIndex? is = some g) (h0 : vs ≠ 0)
    (hi : ∀ v ∈ idx, v < pos.length) (hv : pos.length * vs.toNat ≤ 2 ^ 32) (hs : idx.length * is.toNat ≤ 2 ^ 32)
    {k : ℕ} (hk : 3 * k + 2 < idx.length) :
    meshTri g vertices indices vs is (BitVec.ofNat 32 k) =
      some ⟨V4.ofV3 (corner pos idx (3 * k)), V4.ofV3 (corner pos idx (3 * k + 1)), V4.ofV3 (corner pos idx (3 * k + 2))⟩ := by
  have vp : 0 < vs.toNat := Nat.pos_of_ne_zero fun h => h0 (BitVec.eq_of_toNat_eq (by simpa using h))
  have isp : 0 < is.toNat := by
    refine Nat.pos_of_ne_zero fun h => ?_
    have : is = 0#32 := BitVec.eq_of_toNat_eq (by simpa using h)
    subst this
    rw [show getIndex? 0#32 = none from rfl] at hg; cases hg
  have key (c : ℕ) (hc : c ≤ 2) : ∃ v, g indices ((BitVec.ofNat 32 k * 3#32 + BitVec.ofNat 32 c) * is).toNat = some (BitVec.ofNat 32 v) ∧
      readFloat3 vertices (BitVec.ofNat 32 v * vs).toNat = some (corner pos idx (3 * k + c)) := by
    have hj : 3 * k + c < idx.length := by omega
    have hv' : idx[3 * k + c] < pos.length := hi _ (List.getElem_mem hj)
    refine ⟨idx[3 * k + c], ?_, ?_⟩
    · rw [offset_eq, addr_mul ((Nat.mul_lt_mul_of_pos_right hj isp).trans_le hs)]
      exact getIndex_of_stores hg (hm.index _ _ (List.getElem?_eq_getElem hj))
    · rw [addr_mul ((Nat.mul_lt_mul_of_pos_right hv' vp).trans_le hv)]
      have e : corner pos idx (3 * k + c) = pos[idx[3 * k + c]] := by
        unfold corner
        rw [List.getElem?_eq_getElem hj, Option.bind_some, List.getElem?_eq_getElem hv']; rfl
      rw [e]
      exact readFloat3_of_stores (hm.vertex _ _ (List.getElem?_eq_getElem hv'))
  obtain ⟨a, a1, a2⟩ := key 0 (by omega)
  obtain ⟨b, b1, b2⟩ := key 1 (by omega)
  obtain ⟨c, c1, c2⟩ := key 2 (by omega)
  unfold meshTri
  simp only [BitVec.add_zero] at a1
  simp only [a1, b1, c1, Option.bind_eq_bind, Option.bind_some, a2, b2, c2]
  rfl

end MeshP

/-- **C96**, partial: a hierarchy built over vertex and index memory is the hierarchy over the triangles whose corners are the
positions named by three consecutive indices; one or two indices left over are ignored. Missing: meshes whose vertex or index
memory exceeds `2^32` bytes, where the addresses wrap around. -/
theorem mesh_triangles_partial (old : Bvh.Tree F32) (vertices indices : Bytes) (root : Aabb F32) (indexCount vertexSize indexSize : BitVec 32)
    (cents : Option (Array (V4 F32))) (pos : List (V3 F32)) (idx : List ℕ)
    (hm : MeshOf vertices indices vertexSize.toNat indexSize.toNat pos idx) (hn : idx.length = indexCount.toNat) (h1 : 1 ≤ idx.length)
    (hi : ∀ v ∈ idx, v < pos.length) (h24 : indexSize.toNat = 2 ∨ indexSize.toNat = 4) (h0 : 0 < vertexSize.toNat)
    (hv : pos.length * vertexSize.toNat ≤ 2 ^ 32) (hs : idx.length * indexSize.toNat ≤ 2 ^ 32) :
    ∃ tris : Array (Triangle F32),
      recreateMesh old vertices indices root indexCount vertexSize indexSize cents = some (recreate old (Source.ofTriangles tris cents) root) ∧
      tris.size = idx.length / 3 ∧
      ∀ k t, tris[k]? = some t → ∃ i j l p q r, idx[3 * k]? = some i ∧ idx[3 * k + 1]? = some j ∧ idx[3 * k + 2]? = some l ∧
        pos[i]? = some p ∧ pos[j]? = some q ∧ pos[l]? = some r ∧ t = ⟨V4.ofV3 p, V4.ofV3 q, V4.ofV3 r⟩ := by
  have hne : ¬ (indexCount = 0 ∨ vertexSize = 0 ∨ indexSize = 0) := by
    rintro (h | h | h)
    · rw [h, show (0 : BitVec 32).toNat = 0 from rfl] at hn; omega
    · subst h; simp at h0
    · subst h; simp at h24
  have hg : ∃ g, getIndex? indexSize = some g := by
    unfold getIndex?
    rcases h24 with h | h
    · have : indexSize = 2#32 := BitVec.eq_of_toNat_eq h
      subst this; exact ⟨_, rfl⟩
    · have : indexSize = 4#32 := BitVec.eq_of_toNat_eq h
      subst this; exact ⟨_, rfl⟩
  obtain ⟨g, hg⟩ := hg
  have h0' : vertexSize ≠ 0 := fun h => hne (Or.inr (Or.inl h))
  have hN : (indexCount / 3#32).toNat = idx.length / 3 := by rw [BitVec.toNat_udiv, hn]; rfl
  let T := (List.range (idx.length / 3)).map fun k => (⟨V4.ofV3 (MeshP.corner pos idx (3 * k)), V4.ofV3 (MeshP.corner pos idx (3 * k + 1)),
    V4.ofV3 (MeshP.corner pos idx (3 * k + 2))⟩ : Triangle F32)
  have hT : meshTris g vertices indices vertexSize indexSize indexCount = some T := by
    unfold meshTris
    rw [hN]
    refine MeshP.mapM_some _ _ _ fun k hk => ?_
    rw [List.mem_range] at hk
    exact MeshP.meshTri_eq hm hg h0' hi hv hs (by omega)
  refine ⟨T.toArray, ?_, by simp [T], ?_⟩
  · unfold recreateMesh
    rw [if_neg hne, hg]
    simp only [hT]
  · intro k t hk
    have hk' : k < idx.length / 3 := by
      obtain ⟨h, -⟩ := Array.getElem?_eq_some_iff.1 hk
      simpa [T] using h
    have e : T.toArray[k]? = some ⟨V4.ofV3 (MeshP.corner pos idx (3 * k)), V4.ofV3 (MeshP.corner pos idx (3 * k + 1)),
      V4.ofV3 (MeshP.corner pos idx (3 * k + 2))⟩ := by simp [T, hk']
    rw [e] at hk
    have key (c : ℕ) (hc : c ≤ 2) : ∃ i, idx[3 * k + c]? = some i ∧ pos[i]? = some (MeshP.corner pos idx (3 * k + c)) := by
      have hj : 3 * k + c < idx.length := by omega
      have hv' : idx[3 * k + c] < pos.length := hi _ (List.getElem_mem hj)
      refine ⟨_, List.getElem?_eq_getElem hj, ?_⟩
      unfold MeshP.corner
      rw [List.getElem?_eq_getElem hj, Option.bind_some, List.getElem?_eq_getElem hv']; rfl
    obtain ⟨i, i1, i2⟩ := key 0 (by omega)
    obtain ⟨j, j1, j2⟩ := key 1 (by omega)
    obtain ⟨l, l1, l2⟩ := key 2 (by omega)
    exact ⟨i, j, l, _, _, _, i1, j1, l1, i2, j2, l2, by cases hk; rfl⟩

/-- The address of a vertex is computed in 32 bits: in a mesh with records of sixteen bytes the index `2^28` names the first
record, whatever the vertex memory holds. -/
theorem mesh_address_counterexample : ∃ indices zeros : Bytes, Stores indices 0 4 (2 ^ 28) ∧ Stores indices 4 4 (2 ^ 28) ∧
    Stores indices 8 4 (2 ^ 28) ∧ Stores zeros 0 4 0 ∧ Stores zeros 4 4 0 ∧ Stores zeros 8 4 0 ∧
    ∀ vertices, meshTri read32 vertices indices 16#32 4#32 0#32 = meshTri read32 vertices zeros 16#32 4#32 0#32 := by
  refine ⟨#[0, 0, 0, 16, 0, 0, 0, 16, 0, 0, 0, 16], #[0, 0, 0, 0, 0, 0, 0, 0, 0, 0, 0, 0], ⟨![0, 0, 0, 16], by decide, by decide⟩,
    ⟨![0, 0, 0, 16], by decide, by decide⟩, ⟨![0, 0, 0, 16], by decide, by decide⟩, ⟨![0, 0, 0, 0], by decide, by decide⟩,
    ⟨![0, 0, 0, 0], by decide, by decide⟩, ⟨![0, 0, 0, 0], by decide, by decide⟩, fun vertices => rfl⟩

/-- **C96**: any index size other than two and four bytes ends the program. -/
theorem mesh_abort_iff (old : Bvh.Tree F32) (vertices indices : Bytes) (root : Aabb F32) (indexCount vertexSize indexSize : BitVec 32)
    (cents : Option (Array (V4 F32))) (h1 : indexCount ≠ 0) (h2 : vertexSize ≠ 0) (h3 : indexSize ≠ 0) :
    recreateMesh old vertices indices root indexCount vertexSize indexSize cents = none ↔ indexSize.toNat ≠ 2 ∧ indexSize.toNat ≠ 4 := by
  have e2 : indexSize.toNat = 2 ↔ indexSize = 2#32 := ⟨fun h => BitVec.eq_of_toNat_eq h, fun h => by rw [h]; rfl⟩
  have e4 : indexSize.toNat = 4 ↔ indexSize = 4#32 := ⟨fun h => BitVec.eq_of_toNat_eq h, fun h => by rw [h]; rfl⟩
  unfold recreateMesh getIndex?
  rw [if_neg (by rintro (h | h | h) <;> contradiction)]
  have e : (indexSize.toNat ≠ 2 ∧ indexSize.toNat ≠ 4) ↔ (indexSize ≠ 2#32 ∧ indexSize ≠ 4#32) := by
    exact and_congr (not_congr e2) (not_congr e4)
  rw [e]
  by_cases a : indexSize = 2#32
  · rw [if_pos a]; simp only [a]; split <;> simp
  · by_cases b : indexSize = 4#32
    · rw [if_neg a, if_neg (not_not.2 b)]; simp only [b]; split <;> simp
    · rw [if_neg a, if_pos b]; simp [a, b]

/-- One or two indices make no triangle, and the build reads outside its arrays. -/
theorem mesh_too_few_counterexample (old : Bvh.Tree F32) (root : Aabb F32) :
    recreateMesh old #[] #[0, 0, 0, 0] root 2#32 12#32 2#32 none = some (.error .outOfRange) := rfl

/-- A mesh with four vertices and two triangles meets the hypotheses of `mesh_triangles_partial`. -/
example : MeshOf (Array.replicate 48 1) #[0, 0, 1, 0, 2, 0, 2, 0, 1, 0, 3, 0] 12 2 (List.replicate 4 ⟨⟨0x01010101⟩, ⟨0x01010101⟩, ⟨0x01010101⟩⟩)
    [0, 1, 2, 2, 1, 3] := by
  constructor
  · intro j p hp
    obtain ⟨hj, rfl⟩ := List.getElem?_eq_some_iff.1 hp
    rw [List.length_replicate] at hj
    rw [List.getElem_replicate]
    interval_cases j <;> exact ⟨⟨fun _ => 1, by decide, by decide⟩, ⟨fun _ => 1, by decide, by decide⟩, ⟨fun _ => 1, by decide, by decide⟩⟩
  · intro j v hv
    obtain ⟨hj, rfl⟩ := List.getElem?_eq_some_iff.1 hv
    simp only [List.length_cons, List.length_nil] at hj
    interval_cases j
    · exact ⟨![0, 0], by decide, rfl⟩
    · exact ⟨![1, 0], by decide, rfl⟩
    · exact ⟨![2, 0], by decide, rfl⟩
    · exact ⟨![2, 0], by decide, rfl⟩
    · exact ⟨![1, 0], by decide, rfl⟩
    · exact ⟨![3, 0], by decide, rfl⟩

/-! ## C97 -/

namespace MeshP
variable {F : Type} [Flt F] [FltB F]

/-- Two states of the build that differ only in nodes not yet created. -/
structure Sim (s t : State F) : Prop where
  size : s.nodes.size = t.nodes.size
  same : ∀ i, i < s.nodeCount → s.nodes[i]? = t.nodes[i]?
  prims : s.prims = t.prims
  count : s.nodeCount = t.nodeCount
  stack : s.stack = t.stack
  cur : s.cur = t.cur
  curLt : s.cur < s.nodeCount
  stackLt : ∀ k ∈ s.stack, k < s.nodeCount

/-- The same fault, or related states and the same decision to go on. -/
def SimOut : Except Fault (State F × Bool) → Except Fault (State F × Bool) → Prop
  | .error e, .error e' => e = e'
  | .ok (s, b), .ok (t, b') => b = b' ∧ Sim s t
  | _, _ => False

theorem pop_sim {s t : State F} (h : Sim s t) : (pop s).2 = (pop t).2 ∧ Sim (pop s).1 (pop t).1 := by
  unfold pop
  rw [← h.stack]
  cases e : s.stack with
  | nil => exact ⟨rfl, h⟩
  | cons a l =>
    refine ⟨rfl, ⟨h.size, h.same, h.prims, h.count, rfl, rfl, h.stackLt a (by rw [e]; simp), fun k hk => h.stackLt k (by rw [e]; simp [hk])⟩⟩

theorem write_sim {a b : Array (Node F)} {n : ℕ} (hs : a.size = b.size) (h : ∀ i, i < n → a[i]? = b[i]?) (k : ℕ) (nd : Node F) :
    (∃ e, writeNode a k nd = .error e ∧ writeNode b k nd = .error e) ∨
    ∃ a' b', writeNode a k nd = .ok a' ∧ writeNode b k nd = .ok b' ∧ a'.size = b'.size ∧ (∀ i, i < n ∨ i = k → a'[i]? = b'[i]?) := by
  unfold writeNode
  rw [← hs]
  split
  · refine Or.inr ⟨_, _, rfl, rfl, by simp [hs], fun i hi => ?_⟩
    rw [Array.getElem?_setIfInBounds, Array.getElem?_setIfInBounds, ← hs]
    split
    · rfl
    · rename_i hk
      rcases hi with hi | hi
      · exact h i hi
      · exact absurd hi.symm hk
  · exact Or.inl ⟨_, rfl, rfl⟩

theorem split_sim (src : Source F) {s t : State F} (h : Sim s t) (node : Node F) (prims : Array ℕ) (first count i : ℕ) :
    SimOut (splitNode src s node prims first count i) (splitNode src t node prims first count i) := by
  unfold splitNode
  rw [← h.count, ← h.cur, ← h.stack]
  simp only [bind, Except.bind]
  cases node.setLeftNode s.nodeCount with
  | error e => exact rfl
  | ok n1 =>
  simp only
  cases n1.setPrimitiveCount 0 with
  | error e => exact rfl
  | ok n2 =>
  simp only
  rcases write_sim h.size h.same s.cur n2 with ⟨e, e1, e2⟩ | ⟨a, b, e1, e2, hs, ha⟩
  · rw [e1, e2]; exact rfl
  rw [e1, e2]
  simp only
  cases makeChild src prims first (i - first) with
  | error e => exact rfl
  | ok c1 =>
  simp only
  rcases write_sim (n := s.nodeCount) hs (fun i hi => ha i (Or.inl hi)) s.nodeCount c1 with ⟨e, e1, e2⟩ | ⟨a, b, e1, e2, hs, ha⟩
  · rw [e1, e2]; exact rfl
  rw [e1, e2]
  simp only
  cases makeChild src prims i (count - (i - first)) with
  | error e => exact rfl
  | ok c2 =>
  simp only
  rcases write_sim (n := s.nodeCount + 1) hs (fun i hi => ha i (by omega)) (s.nodeCount + 1) c2 with ⟨e, e1, e2⟩ | ⟨a, b, e1, e2, hs, ha⟩
  · rw [e1, e2]; exact rfl
  rw [e1, e2]
  simp only
  have hstack : ∀ k ∈ s.stack, k < s.nodeCount + 2 := fun k hk => (h.stackLt k hk).trans (by omega)
  have tail (big small nbig nsmall : ℕ) (hb : big < s.nodeCount + 2) (hsm : small < s.nodeCount + 2) :
      SimOut (if nbig > 2 then .ok (⟨a, prims, s.nodeCount + 2, if nsmall > 2 then small :: s.stack else s.stack, big⟩, true)
        else .ok (pop ⟨a, prims, s.nodeCount + 2, s.stack, s.cur⟩))
      (if nbig > 2 then .ok (⟨b, prims, s.nodeCount + 2, if nsmall > 2 then small :: s.stack else s.stack, big⟩, true)
        else .ok (pop ⟨b, prims, s.nodeCount + 2, s.stack, s.cur⟩)) := by
    split
    · refine ⟨rfl, ⟨hs, fun i hi => ha i (by simp only at hi; omega), rfl, rfl, rfl, rfl, hb, ?_⟩⟩
      intro k hk
      show k < s.nodeCount + 2
      simp only at hk
      split at hk
      · rcases List.mem_cons.1 hk with rfl | hk
        · exact hsm
        · exact hstack k hk
      · exact hstack k hk
    · exact pop_sim (s := ⟨a, prims, s.nodeCount + 2, s.stack, s.cur⟩) (t := ⟨b, prims, s.nodeCount + 2, s.stack, s.cur⟩)
        ⟨hs, fun i hi => ha i (by simp only at hi; omega), rfl, rfl, rfl, rfl, h.curLt.trans (by simp), hstack⟩
  split
  · exact tail (s.nodeCount + 1) s.nodeCount _ _ (by omega) (by omega)
  · exact tail s.nodeCount (s.nodeCount + 1) _ _ (by omega) (by omega)

theorem step_sim (src : Source F) {s t : State F} (h : Sim s t) : SimOut (step src s) (step src t) := by
  have hpop (p : Array ℕ) : SimOut (.ok (pop { s with prims := p })) (.ok (pop { t with prims := p })) :=
    pop_sim ⟨h.size, h.same, rfl, h.count, h.stack, h.cur, h.curLt, h.stackLt⟩
  unfold step
  rw [← h.cur, ← h.same _ h.curLt, ← h.prims]
  cases s.nodes[s.cur]? with
  | none => exact rfl
  | some node =>
  simp only
  cases findBestSplitPlane src s.prims node.getFirstPrimitive node.getPrimitiveCount with
  | error e => exact rfl
  | ok best =>
  simp only
  split
  · exact pop_sim h
  split
  · exact rfl
  · split
    · have := hpop; rw [← h.cur] at this; exact this _
    · exact split_sim src h _ _ _ _ _

theorem loop_sim (src : Source F) : ∀ (n : ℕ) {s t : State F}, Sim s t →
    (∃ e, loop src n s = .error e ∧ loop src n t = .error e) ∨ ∃ s' t', loop src n s = .ok s' ∧ loop src n t = .ok t' ∧ Sim s' t'
  | 0, _, _, _ => Or.inl ⟨_, rfl, rfl⟩
  | n + 1, s, t, h => by
    have := step_sim src h
    unfold loop
    cases h1 : step src s with
    | error e =>
      cases h2 : step src t with
      | error e' => rw [h1, h2] at this; cases this; exact Or.inl ⟨_, rfl, rfl⟩
      | ok p => rw [h1, h2] at this; exact this.elim
    | ok p =>
      cases h2 : step src t with
      | error e' => rw [h1, h2] at this; exact this.elim
      | ok q =>
        rw [h1, h2] at this
        obtain ⟨s', b⟩ := p
        obtain ⟨t', b'⟩ := q
        obtain ⟨rfl, hs⟩ := this
        cases b
        · exact Or.inr ⟨_, _, rfl, rfl, hs⟩
        · exact loop_sim src n hs

end MeshP

section
variable {F : Type} [Flt F] [FltB F]

/-- **C97**: `recreate` gives the same nodes and primitives, or fails in the same way, whatever the object held before. -/
theorem bvh_history_independent (old old' : Bvh.Tree F) (src : Source F) (root : Aabb F) :
    recreate old src root = recreate old' src root := by
  unfold recreate
  split
  · rfl
  simp only [bind, Except.bind]
  cases (Node.mk root).setPrimitiveCount src.count with
  | error e => rfl
  | ok n1 =>
  simp only
  cases n1.setFirstPrimitive 0 with
  | error e => rfl
  | ok n2 =>
  simp only
  have sz (o : Bvh.Tree F) (d : Node F) : (resize o.nodes (2 * src.count - 1) d).size = 2 * src.count - 1 := by
    unfold resize; simp; omega
  rcases MeshP.write_sim (n := 0) ((sz old _).trans (sz old' _).symm) (fun i hi => absurd hi (by omega)) 0 n2 with
    ⟨e, e1, e2⟩ | ⟨a, b, e1, e2, hs, ha⟩
  · rw [e1, e2]
  rw [e1, e2]
  simp only
  rcases MeshP.loop_sim src (2 * src.count - 1) (s := ⟨a, (List.range src.count).toArray, 1, [], 0⟩)
    (t := ⟨b, (List.range src.count).toArray, 1, [], 0⟩)
    ⟨hs, fun i hi => ha i (by simp only at hi; omega), rfl, rfl, rfl, rfl, by simp, by simp⟩ with ⟨e, e1, e2⟩ | ⟨s, t, e1, e2, h⟩
  · rw [e1, e2]
  · rw [e1, e2]
    simp only
    rw [← h.prims, ← h.count]
    congr 2
    apply Array.ext_getElem?
    intro i
    rw [Array.getElem?_extract, Array.getElem?_extract, ← h.size]
    split
    · rename_i hi
      apply h.same; omega
    · rfl

/-- **C97** (part): after `recreate` without given centroids, nodes, primitives and centroids are those of a new object built
from the same arguments. Missing: with given centroids `getCentroids` does not follow, see `bvh_stale_centroids_counterexample`. -/
theorem bvh_recreate_fresh_partial (old : Object F) (boxes : Array (Aabb F)) (tris : Array (Triangle F)) (root : Aabb F) :
    old.ofBoxes boxes root none = Object.new.ofBoxes boxes root none ∧
    old.ofTriangles tris root none = Object.new.ofTriangles tris root none := by
  unfold Object.ofBoxes Object.ofTriangles
  rw [bvh_history_independent old.tree Object.new.tree, bvh_history_independent old.tree Object.new.tree]
  exact ⟨rfl, rfl⟩

end

/-- **C97** (part): the reported centroids over the reals, when none are given: one per primitive and in order, the centre of each
box, the mean of the corners of each triangle. -/
theorem bvh_centroids_partial (old : Object ℝ) (boxes : Array (Aabb ℝ)) (tris : Array (Triangle ℝ)) (root : Aabb ℝ) (o : Object ℝ) :
    (old.ofBoxes boxes root none = .ok o →
      o.cents.toList = boxes.toList.map fun b => ⟨(b.min.x + b.max.x) / 2, (b.min.y + b.max.y) / 2, (b.min.z + b.max.z) / 2,
        (b.min.w + b.max.w) / 2⟩) ∧
    (old.ofTriangles tris root none = .ok o →
      o.cents.toList = tris.toList.map fun t => ⟨(t.p0.x + t.p1.x + t.p2.x) / 3, (t.p0.y + t.p1.y + t.p2.y) / 3,
        (t.p0.z + t.p1.z + t.p2.z) / 3, (t.p0.w + t.p1.w + t.p2.w) / 3⟩) := by
  unfold Object.ofBoxes Object.ofTriangles
  constructor
  · intro h
    simp only [bind, Except.bind] at h
    split at h
    · cases h
    · cases h
      simp only [Object.centroids, Array.toList_map]
      congr 1
      funext b
      simp [vec, div_eq_mul_inv]
  · intro h
    simp only [bind, Except.bind] at h
    split at h
    · cases h
    · cases h
      simp only [Object.centroids, Array.toList_map]
      congr 1
      funext b
      simp [triCentroid, vec, div_eq_mul_inv]

/-- **C97** (negation): when centroids are given, `getCentroids` keeps what the object held before. Two objects that get the same
call differ, and the number of centroids need not be the number of primitives. -/
theorem bvh_stale_centroids_counterexample : ∃ (boxes : Array (Aabb F32)) (root : Aabb F32) (cents : Array (V4 F32)) (old o o' : Object F32),
    old.ofBoxes boxes root (some cents) = .ok o ∧ Object.new.ofBoxes boxes root (some cents) = .ok o' ∧
    o.tree.prims.size = 5 ∧ cents.size = 5 ∧ o.cents.size = 1 ∧ o'.cents.size = 0 := by
  have h (old : Object F32) : ∃ t, old.ofBoxes BvhCases.row (BvhCases.box 0 0 0 22 1 1) (some (BvhCases.row.map (·.getPosition))) =
      .ok ⟨t, old.cents⟩ ∧ t.prims.size = 5 := by
    have hr : ((recreate BvhCases.fresh (Source.ofAabbs BvhCases.row (some (BvhCases.row.map (·.getPosition))))
        (BvhCases.box 0 0 0 22 1 1)).toOption.any fun t => decide (t.prims.size = 5)) = true := by decide +kernel
    unfold Object.ofBoxes
    rw [bvh_history_independent old.tree BvhCases.fresh]
    cases he : recreate BvhCases.fresh (Source.ofAabbs BvhCases.row (some (BvhCases.row.map (·.getPosition))))
        (BvhCases.box 0 0 0 22 1 1) with
    | error e => rw [he] at hr; cases hr
    | ok t =>
      rw [he] at hr
      have h' : decide (t.prims.size = 5) = true := hr
      exact ⟨t, rfl, of_decide_eq_true h'⟩
  obtain ⟨t, ht, h5⟩ := h ⟨⟨#[], #[]⟩, #[V4.splat (Flt.lit 7)]⟩
  obtain ⟨t', ht', _⟩ := h Object.new
  exact ⟨_, _, _, _, _, _, ht, ht', h5, (Array.size_map ..).trans rfl, rfl, rfl⟩

/-- Non-vacuity: a call without centroids succeeds. -/
example : ∃ o : Object F32, Object.new.ofBoxes BvhCases.row (BvhCases.box 0 0 0 22 1 1) none = .ok o ∧ o.cents.size = 5 := by
  obtain ⟨t, ht, _⟩ := row_builds
  refine ⟨⟨t, BvhCases.row.map (·.getPosition)⟩, ?_, (Array.size_map ..).trans rfl⟩
  · unfold Object.ofBoxes
    rw [bvh_history_independent _ BvhCases.fresh, ht]
    rfl

end Verif
