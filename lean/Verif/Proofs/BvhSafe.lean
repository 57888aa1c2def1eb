import Verif.Proofs.BvhBuild
import Verif.Props.Bvh

/-! # A build whose steps succeed succeeds -/

set_option linter.unusedSectionVars false

namespace Verif.Bvh
open FltB Verif.Spec
variable {F : Type} [Flt F] [FltB F]

theorem loop_total {src : Source F} {root : Aabb F} (hn : src.count ≤ 2 ^ 31)
    (hs : ∀ s : State F, Core src root s → Work s → ∃ r, step src s = .ok r) : ∀ (fuel : Nat) (s : State F),
    Core src root s → Work s → potential s ≤ fuel → 1 ≤ fuel → ∃ s', loop src fuel s = .ok s' := by
  intro fuel
  induction fuel with
  | zero => intro s _ _ _ h; omega
  | succ fuel ih =>
    intro s hc hw hp _
    obtain ⟨h1, -⟩ := step_spec hn hc hw
    unfold loop
    obtain ⟨⟨s1, b⟩, e⟩ := hs s hc hw
    rw [e]
    obtain ⟨c1, c2⟩ := h1 s1 b e
    cases b with
    | true =>
      obtain ⟨w1, p1⟩ := c2 rfl
      have hpos : 1 ≤ potential s1 := by
        obtain ⟨_, nd, hnn, hl⟩ := w1.2 s1.cur List.mem_cons_self
        have := IsTree.leaf_count_pos hl
        unfold potential
        simp only [List.map_cons, List.sum_cons]
        have : 1 ≤ weight s1.nodes s1.cur := by unfold weight; rw [hnn]; dsimp only; omega
        omega
      exact ih s1 c1 w1 (by omega) (by omega)
    | false => exact ⟨s1, rfl⟩

theorem setPrimitiveCount_total {n : Node F} (k : Nat) (h : Aabb.ordered n.aabb.min n.aabb.max = true) :
    ∃ n', n.setPrimitiveCount k = .ok n' ∧ Aabb.ordered n'.aabb.min n'.aabb.max = true := by
  have ho : Aabb.ordered (n.aabb.min.withW (ofBits (BitVec.ofNat 32 k))) n.aabb.max = true := h
  unfold Node.setPrimitiveCount Aabb.setMin
  rw [ho]
  exact ⟨_, rfl, ho⟩

theorem setLeftNode_total {n : Node F} (k : Nat) (h : Aabb.ordered n.aabb.min n.aabb.max = true) :
    ∃ n', n.setLeftNode k = .ok n' ∧ Aabb.ordered n'.aabb.min n'.aabb.max = true := by
  have ho : Aabb.ordered n.aabb.min (n.aabb.max.withW (ofBits (BitVec.ofNat 32 k))) = true := h
  unfold Node.setLeftNode Aabb.setMax
  rw [ho]
  exact ⟨_, rfl, ho⟩

theorem recreate_total (old : Bvh.Tree F) {src : Source F} {root : Aabb F} (h0 : 1 ≤ src.count) (hn : src.count ≤ 2 ^ 31)
    (ho : Aabb.ordered root.min root.max = true)
    (hs : ∀ s : State F, Core src root s → Work s → ∃ r, step src s = .ok r) : ∃ t, recreate old src root = .ok t := by
  unfold recreate
  rw [if_neg (by omega)]
  simp only [bind, Except.bind]
  have hrs : (resize old.nodes (2 * src.count - 1) (⟨⟨V4.splat (Flt.lit 0), V4.splat (Flt.lit 0)⟩⟩ : Node F)).size =
      2 * src.count - 1 := by
    unfold resize
    simp only [Array.size_append, Array.size_extract, Array.size_replicate]
    omega
  generalize resize old.nodes (2 * src.count - 1) (⟨⟨V4.splat (Flt.lit 0), V4.splat (Flt.lit 0)⟩⟩ : Node F) = nodes at hrs ⊢
  obtain ⟨n1, e1, o1⟩ := setPrimitiveCount_total (n := Node.mk root) src.count ho
  obtain ⟨n2, e2, o2⟩ := setLeftNode_total (n := n1) 0 o1
  have e2' : n1.setFirstPrimitive 0 = .ok n2 := e2
  rw [e1]
  dsimp only
  rw [e2']
  dsimp only
  obtain ⟨a1, a2⟩ := setPrimitiveCount_ok e1
  obtain ⟨b1, b2⟩ := setLeftNode_ok e2
  have hw : writeNode nodes 0 n2 = .ok (nodes.setIfInBounds 0 n2) := by
    unfold writeNode; rw [if_pos (by omega)]
  rw [hw]
  dsimp only
  obtain ⟨c1, c2, c3⟩ := init_core (root := root) (n := n2) h0 hn hrs (by rw [b1, a2]) (by rw [b2, a1]) hw
  obtain ⟨s', e⟩ := loop_total hn hs (2 * src.count - 1) _ c1 c2 (by omega) (by omega)
  rw [e]
  exact ⟨_, rfl⟩

/-- Splitting a node succeeds when its box and those of the two groups are ordered and two nodes are left. -/
theorem splitNode_total {src : Source F} {s : State F} {node : Node F} {prims : Array Nat} {first count i : Nat}
    (ho : Aabb.ordered node.aabb.min node.aabb.max = true) (hcur : s.cur < s.nodes.size) (hroom : s.nodeCount + 1 < s.nodes.size)
    (h1 : ∃ n, makeChild src prims first (i - first) = .ok n)
    (h2 : ∃ n, makeChild src prims i (count - (i - first)) = .ok n) :
    ∃ r, splitNode src s node prims first count i = .ok r := by
  obtain ⟨na, e1, o1⟩ := setLeftNode_total (n := node) s.nodeCount ho
  obtain ⟨nb, e2, o2⟩ := setPrimitiveCount_total (n := na) 0 o1
  obtain ⟨n1, f1⟩ := h1
  obtain ⟨n2, f2⟩ := h2
  unfold splitNode
  simp only [bind, Except.bind]
  rw [e1]; dsimp only
  rw [e2]; dsimp only
  have w1 : writeNode s.nodes s.cur nb = .ok (s.nodes.setIfInBounds s.cur nb) := by unfold writeNode; rw [if_pos hcur]
  rw [w1]; dsimp only
  rw [f1]; dsimp only
  have w2 : writeNode (s.nodes.setIfInBounds s.cur nb) s.nodeCount n1 =
      .ok ((s.nodes.setIfInBounds s.cur nb).setIfInBounds s.nodeCount n1) := by
    unfold writeNode; rw [if_pos (by simp; omega)]
  rw [w2]; dsimp only
  rw [f2]; dsimp only
  have w3 : writeNode ((s.nodes.setIfInBounds s.cur nb).setIfInBounds s.nodeCount n1) (s.nodeCount + 1) n2 =
      .ok (((s.nodes.setIfInBounds s.cur nb).setIfInBounds s.nodeCount n1).setIfInBounds (s.nodeCount + 1) n2) := by
    unfold writeNode; rw [if_pos (by simpa using hroom)]
  rw [w3]; dsimp only
  split_ifs <;> exact ⟨_, rfl⟩

theorem growRange_total (src : Source F) (prims : Array Nat) : ∀ (is : List Nat) (c : V4 F × V4 F),
    (∀ i ∈ is, ∃ it, fetch src prims i = .ok it) →
    ∃ its : List (Item F), its.map some = is.map (itemAt src prims) ∧ growRange src prims is c = .ok (cornersOf its c) := by
  intro is
  induction is with
  | nil => intro c _; exact ⟨[], rfl, rfl⟩
  | cons i is ih =>
    intro c h
    obtain ⟨it, hf⟩ := h i (by simp)
    obtain ⟨its, h1, h2⟩ := ih (growItem it c) fun j hj => h j (by simp [hj])
    refine ⟨it :: its, by rw [List.map_cons, List.map_cons, h1, (fetch_ok_iff src prims i it).mp hf], ?_⟩
    unfold growRange
    rw [List.foldlM_cons, hf]
    exact h2

theorem makeChild_total {src : Source F} {prims : Array Nat} {first count : Nat}
    (hf : ∀ i, first ≤ i → i < first + count → ∃ it, fetch src prims i = .ok it)
    (ho : ∀ its : List (Item F), its.map some = (List.range' first count).map (itemAt src prims) →
      Aabb.ordered (cornersOf its emptyCorners).1 (cornersOf its emptyCorners).2 = true) :
    ∃ n, makeChild src prims first count = .ok n := by
  obtain ⟨its, h1, h2⟩ := growRange_total src prims (List.range' first count) emptyCorners fun i hi => by
    rw [List.mem_range'_1] at hi
    exact hf i hi.1 hi.2
  have ho' := ho its h1
  have hb : calculateNodeAabb src prims first count = .ok ⟨(cornersOf its emptyCorners).1, (cornersOf its emptyCorners).2⟩ := by
    unfold calculateNodeAabb
    rw [h2]
    dsimp only
    unfold Aabb.ctor
    rw [if_pos ho']
  unfold makeChild
  simp only [bind, Except.bind]
  rw [hb]
  dsimp only
  obtain ⟨n1, e1, o1⟩ := setLeftNode_total (n := Node.mk ⟨(cornersOf its emptyCorners).1, (cornersOf its emptyCorners).2⟩) first ho'
  have e1' : (Node.mk (F := F) ⟨(cornersOf its emptyCorners).1, (cornersOf its emptyCorners).2⟩).setFirstPrimitive first = .ok n1 := e1
  rw [e1']
  dsimp only
  obtain ⟨n2, e2, o2⟩ := setPrimitiveCount_total (n := n1) count o1
  exact ⟨n2, e2⟩

end Verif.Bvh
