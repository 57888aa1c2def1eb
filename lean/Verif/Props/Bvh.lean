import Verif.Proofs.BvhBuild
import Verif.Model.RealBvh

/-!
# Bounding volume hierarchy: building

C43 termination and node budget, C44 permutation, C45 tree, C46 partition, C47 bounds, C48 node encoding.
The theorems hold for every scalar type with the operations of `Flt` (no laws), so for every rounding behaviour; C47
needs comparisons to be those of numbers (`Valued`: binary32 without NaN, or reals).
-/

set_option linter.unusedSectionVars false

namespace Verif
open Bvh Spec FltB
variable {F : Type} [Flt F] [FltB F]

/-! ## C48 -/

/-- C48: the integers stored in a node are read back, each store leaves the other integer and the box alone, and a
node is a leaf exactly when its count is not zero. The stores assert the order of the corners; they succeed
exactly when the box is ordered. -/
theorem bvh_node_encoding (n : Node F) (c k : Nat) (hc : c < 2 ^ 32) (hk : k < 2 ^ 32) :
    (∀ n', n.setPrimitiveCount c = .ok n' → n'.getPrimitiveCount = c ∧ n'.getLeftNode = n.getLeftNode ∧
      (n'.isLeaf = true ↔ c ≠ 0) ∧ n'.aabb.min.xyz = n.aabb.min.xyz ∧ n'.aabb.max.xyz = n.aabb.max.xyz) ∧
    (∀ n', n.setLeftNode k = .ok n' → n'.getLeftNode = k ∧ n'.getFirstPrimitive = k ∧
      n'.getPrimitiveCount = n.getPrimitiveCount ∧ n'.isLeaf = n.isLeaf ∧
      n'.aabb.min.xyz = n.aabb.min.xyz ∧ n'.aabb.max.xyz = n.aabb.max.xyz) ∧
    n.setFirstPrimitive k = n.setLeftNode k ∧ n.getFirstPrimitive = n.getLeftNode ∧
    (n.isLeaf = true ↔ n.getPrimitiveCount ≠ 0) ∧
    ((∃ n', n.setPrimitiveCount c = .ok n') ↔ Aabb.ordered n.aabb.min n.aabb.max = true) ∧
    ((∃ n', n.setLeftNode k = .ok n') ↔ Aabb.ordered n.aabb.min n.aabb.max = true) := by
  refine ⟨fun n' h => ?_, fun n' h => ?_, rfl, rfl, IsTree.isLeaf_iff n, ?_, ?_⟩
  · obtain ⟨h1, h2⟩ := setPrimitiveCount_ok h
    have e1 : n'.getPrimitiveCount = c := by
      unfold Node.getPrimitiveCount; rw [h2]
      show (toBits (ofBits (F := F) (BitVec.ofNat 32 c))).toNat = c
      rw [toBits_ofBits, BitVec.toNat_ofNat, Nat.mod_eq_of_lt hc]
    refine ⟨e1, by unfold Node.getLeftNode; rw [h1], ?_, by rw [h2]; rfl, by rw [h1]⟩
    rw [IsTree.isLeaf_iff, e1]
  · obtain ⟨h1, h2⟩ := setLeftNode_ok h
    have e1 : n'.getLeftNode = k := by
      unfold Node.getLeftNode; rw [h2]
      show (toBits (ofBits (F := F) (BitVec.ofNat 32 k))).toNat = k
      rw [toBits_ofBits, BitVec.toNat_ofNat, Nat.mod_eq_of_lt hk]
    exact ⟨e1, e1, by unfold Node.getPrimitiveCount; rw [h1], by unfold Node.isLeaf; rw [h1], by rw [h1], by rw [h2]; rfl⟩
  · have ho : Aabb.ordered (n.aabb.min.withW (ofBits (BitVec.ofNat 32 c))) n.aabb.max = Aabb.ordered n.aabb.min n.aabb.max := rfl
    unfold Node.setPrimitiveCount Aabb.setMin
    rw [ho]
    by_cases h : Aabb.ordered n.aabb.min n.aabb.max = true <;> simp [h]
  · have ho : Aabb.ordered n.aabb.min (n.aabb.max.withW (ofBits (BitVec.ofNat 32 k))) = Aabb.ordered n.aabb.min n.aabb.max := rfl
    unfold Node.setLeftNode Aabb.setMax
    rw [ho]
    by_cases h : Aabb.ordered n.aabb.min n.aabb.max = true <;> simp [h]

/-- Non-vacuity: a unit box can hold a count with a NaN pattern and a child index. -/
example : ((Node.mk (⟨V4.splat ⟨0⟩, V4.splat ⟨0x3F800000⟩⟩ : Aabb F32)).setPrimitiveCount 0x7FC00001).toOption.map
    (·.getPrimitiveCount) = some 0x7FC00001 := by decide +kernel

/-! ## The result of a build -/

theorem init_core {src : Source F} {root : Aabb F} {nodes nodes' : Array (Node F)} {n : Node F} (hpos : 1 ≤ src.count)
    (hn : src.count ≤ 2 ^ 31) (hsz : nodes.size = 2 * src.count - 1)
    (h1 : n.aabb.min = root.min.withW (ofBits (BitVec.ofNat 32 src.count)))
    (h2 : n.aabb.max = root.max.withW (ofBits (BitVec.ofNat 32 0))) (hw : writeNode nodes 0 n = .ok nodes') :
    Core src root ⟨nodes', (List.range src.count).toArray, 1, [], 0⟩ ∧
    Work (⟨nodes', (List.range src.count).toArray, 1, [], 0⟩ : State F) ∧
    potential (⟨nodes', (List.range src.count).toArray, 1, [], 0⟩ : State F) = 2 * src.count - 1 := by
  obtain ⟨h0, rfl⟩ := writeNode_ok hw
  have hget : (nodes.setIfInBounds 0 n)[0]? = some n := by simp [h0]
  obtain ⟨f1, f2, f3, f4⟩ := node_fields (n := n) (c := src.count) (k := 0) (by rw [h1]; rfl) (by rw [h2]; rfl)
    (by omega) (by omega)
  have hl : n.isLeaf = true := f4.mpr (by omega)
  refine ⟨⟨by simpa using hsz, by simp, [(0, 0, src.count)], ?_, by simp, ?_⟩, ⟨by simp, ?_⟩, ?_⟩
  · have := IsTree.leaf (nodes := nodes.setIfInBounds 0 n) hget hl
    rw [f3, f1] at this
    exact this
  · intro e he
    rw [List.mem_singleton] at he
    subst he
    exact ⟨n, hget, Or.inl ⟨rfl, by rw [h1]; rfl, by rw [h2]; rfl⟩⟩
  · intro k hk
    simp only [List.mem_singleton] at hk
    subst hk
    exact ⟨by simp, n, hget, hl⟩
  · unfold potential weight
    dsimp only
    simp only [List.map_cons, List.map_nil, List.sum_cons, List.sum_nil]
    rw [hget]
    dsimp only
    rw [f1]
    omega

/-- Everything the build guarantees about its result. -/
theorem recreate_result (old : Bvh.Tree F) (src : Source F) (root : Aabb F) (hn : src.count ≤ 2 ^ 31) :
    recreate old src root ≠ .error .diverges ∧
    ∀ t, recreate old src root = .ok t → 1 ≤ src.count ∧ t.prims.toList.Perm (List.range src.count) ∧
      ∃ rs, IsTree t.nodes 0 0 src.count rs ∧ (rs.map (·.1)).Perm (List.range t.nodes.size) ∧
        t.nodes.size + 1 ≤ 2 * src.count ∧
        ∀ e ∈ rs, ∃ nd, t.nodes[e.1]? = some nd ∧
          ((e.1 = 0 ∧ nd.aabb.min.xyz = root.min.xyz ∧ nd.aabb.max.xyz = root.max.xyz) ∨
            (e.1 ≠ 0 ∧ Hull src t.prims nd e.2.1 e.2.2)) := by
  by_cases h0 : src.count = 0
  · unfold recreate
    rw [if_pos h0]
    exact ⟨by simp, fun t h => by cases h⟩
  · unfold recreate
    rw [if_neg h0]
    simp only [bind, Except.bind]
    have hrs : (resize old.nodes (2 * src.count - 1) (⟨⟨V4.splat (Flt.lit 0), V4.splat (Flt.lit 0)⟩⟩ : Node F)).size =
        2 * src.count - 1 := by
      unfold resize
      simp only [Array.size_append, Array.size_extract, Array.size_replicate]
      omega
    generalize resize old.nodes (2 * src.count - 1) (⟨⟨V4.splat (Flt.lit 0), V4.splat (Flt.lit 0)⟩⟩ : Node F) = nodes at hrs ⊢
    cases hs1 : (Node.mk root).setPrimitiveCount src.count with
    | error e =>
      have := setPrimitiveCount_err hs1
      subst this
      exact ⟨by simp, fun t h => by cases h⟩
    | ok n1 =>
      dsimp only
      cases hs2 : n1.setFirstPrimitive 0 with
      | error e =>
        have := setLeftNode_err hs2
        subst this
        exact ⟨by simp, fun t h => by cases h⟩
      | ok n2 =>
        dsimp only
        obtain ⟨a1, a2⟩ := setPrimitiveCount_ok hs1
        obtain ⟨b1, b2⟩ := setLeftNode_ok hs2
        cases hw : writeNode nodes 0 n2 with
        | error e =>
          obtain ⟨rfl, _⟩ := writeNode_err hw
          exact ⟨by simp, fun t h => by cases h⟩
        | ok nodes' =>
          dsimp only
          obtain ⟨c1, c2, c3⟩ := init_core (root := root) (n := n2) (by omega) hn hrs (by rw [b1, a2]) (by rw [b2, a1]) hw
          obtain ⟨l1, l2⟩ := loop_spec hn (2 * src.count - 1) _ c1 c2 (by omega) (by omega)
          cases hlp : loop src (2 * src.count - 1) ⟨nodes', (List.range src.count).toArray, 1, [], 0⟩ with
          | error e =>
            refine ⟨?_, fun t h => by cases h⟩
            intro h
            cases h
            exact l2 _ hlp rfl
          | ok s =>
            refine ⟨by simp, fun t h => ?_⟩
            cases h
            have hc := l1 s hlp
            obtain ⟨rs, t1, t2, t3⟩ := hc.tree
            have hb := t1.length_bound
            have hlen : rs.length = s.nodeCount := by simpa using t2.length_eq
            have hsz : (s.nodes.extract 0 s.nodeCount).size = s.nodeCount := by
              rw [Array.size_extract, hc.size]; omega
            have hget : ∀ k, k < s.nodeCount → (s.nodes.extract 0 s.nodeCount)[k]? = s.nodes[k]? := by
              intro k hk
              rw [Array.getElem?_extract]
              rw [if_pos (by rw [hc.size]; omega)]
              simp
            have hlt : ∀ e ∈ rs, e.1 < s.nodeCount := by
              intro e he
              have := (t2.mem_iff (a := e.1)).mp (List.mem_map_of_mem he)
              rwa [List.mem_range] at this
            refine ⟨by omega, hc.prims, rs, t1.frame fun e he => hget _ (hlt e he), by rw [hsz]; exact t2, by rw [hsz]; omega, ?_⟩
            intro e he
            obtain ⟨nd, h1, h2⟩ := t3 e he
            exact ⟨nd, by rw [hget _ (hlt e he)]; exact h1, h2⟩

/-! ## C43, C44, C45 -/

/-- C43: a build over any number of primitives up to `2^31` never runs out of its budget of `2n - 1` loop iterations (nor its
partition loop out of one iteration per primitive and two more), whatever the floating-point comparisons answer; when it
succeeds the tree has at least one and at most `2n - 1` nodes. -/
theorem bvh_terminates (old : Bvh.Tree F) (src : Source F) (root : Aabb F) (hn : src.count ≤ 2 ^ 31) :
    recreate old src root ≠ .error .diverges ∧
    ∀ t, recreate old src root = .ok t → 1 ≤ t.nodes.size ∧ t.nodes.size ≤ 2 * src.count - 1 := by
  obtain ⟨h1, h2⟩ := recreate_result old src root hn
  refine ⟨h1, fun t h => ?_⟩
  obtain ⟨h3, h4, rs, t1, t2, t3, t4⟩ := h2 t h
  refine ⟨?_, by omega⟩
  have := (t2.mem_iff (a := 0)).mp (List.mem_map.mpr ⟨_, t1.head_mem, rfl⟩)
  rw [List.mem_range] at this
  omega

/-- C44: after a build the index array is a rearrangement of `0 .. n-1`. -/
theorem bvh_permutation (old : Bvh.Tree F) (src : Source F) (root : Aabb F) (hn : src.count ≤ 2 ^ 31) (t : Bvh.Tree F)
    (h : recreate old src root = .ok t) : t.prims.toList.Perm (List.range src.count) :=
  ((recreate_result old src root hn).2 t h).2.1

/-- C45: the nodes form one binary tree whose leaves partition the positions of the index array: every position is in the
range of exactly one leaf; the two children of an interior node exist and come after it; every node but the first is
a child of exactly one node; every node is reached from the first one; and ranges split between children. -/
theorem bvh_tree (old : Bvh.Tree F) (src : Source F) (root : Aabb F) (hn : src.count ≤ 2 ^ 31) (t : Bvh.Tree F)
    (h : recreate old src root = .ok t) :
    (∀ k, k < src.count → ∃! id : Nat, ∃ nd : Node F, t.nodes[id]? = some nd ∧ nd.isLeaf = true ∧ nd.getFirstPrimitive ≤ k ∧
      k < nd.getFirstPrimitive + nd.getPrimitiveCount) ∧
    (∀ (id : Nat) (nd : Node F), t.nodes[id]? = some nd → nd.isLeaf = true →
      nd.getFirstPrimitive + nd.getPrimitiveCount ≤ src.count) ∧
    (∀ (id : Nat) (nd : Node F), t.nodes[id]? = some nd → nd.isLeaf = false → id < nd.getLeftNode ∧ nd.getLeftNode + 1 < t.nodes.size) ∧
    (∀ id, 0 < id → id < t.nodes.size → ∃! p : Nat, ∃ nd : Node F, t.nodes[p]? = some nd ∧ nd.isLeaf = false ∧
      (id = nd.getLeftNode ∨ id = nd.getLeftNode + 1)) ∧
    (∀ id, id < t.nodes.size → Reach t.nodes 0 id) ∧
    ∃ rs, IsTree t.nodes 0 0 src.count rs ∧ (rs.map (·.1)).Perm (List.range t.nodes.size) := by
  obtain ⟨_, h4, rs, t1, t2, t3, t4⟩ := (recreate_result old src root hn).2 t h
  have hmem : ∀ (id : Nat) (nd : Node F), t.nodes[id]? = some nd → ∃ e ∈ rs, e.1 = id := by
    intro id nd hid
    have hlt : id < t.nodes.size := (Array.getElem?_eq_some_iff.mp hid).1
    have := (t2.mem_iff (a := id)).mpr (List.mem_range.mpr hlt)
    obtain ⟨e, he, hh⟩ := List.mem_map.mp this
    exact ⟨e, he, hh⟩
  have hin : ∀ e ∈ rs, e.1 < t.nodes.size := by
    intro e he
    have := (t2.mem_iff (a := e.1)).mp (List.mem_map_of_mem he)
    rwa [List.mem_range] at this
  have hnd : (rs.map (·.1)).Nodup := t2.nodup_iff.mpr List.nodup_range
  have hfield : ∀ e ∈ rs, ∀ nd, t.nodes[e.1]? = some nd → nd.isLeaf = true →
      e.2.1 = nd.getFirstPrimitive ∧ e.2.2 = nd.getPrimitiveCount := by
    intro e he nd hn hl
    obtain ⟨nd', h1, h2⟩ := t1.node_of_mem e he
    rw [hn] at h1; cases h1
    exact h2 hl
  refine ⟨?_, ?_, ?_, ?_, ?_, rs, t1, t2⟩
  · intro k hk
    obtain ⟨e, he, nd, a1, a2, a3, a4⟩ := t1.leaf_exists k (by omega) (by omega)
    obtain ⟨e1, e2⟩ := hfield e he nd a1 a2
    refine ⟨e.1, ⟨nd, a1, a2, by omega, by omega⟩, ?_⟩
    rintro id ⟨nd', b1, b2, b3, b4⟩
    obtain ⟨g, hg, rfl⟩ := hmem id nd' b1
    obtain ⟨g1, g2⟩ := hfield g hg nd' b1 b2
    exact congrArg (·.1) (t1.leaf_unique k g hg e he nd' nd b1 b2 a1 a2 (by omega) (by omega) (by omega) (by omega))
  · intro id nd hid hl
    obtain ⟨g, hg, rfl⟩ := hmem id nd hid
    obtain ⟨g1, g2⟩ := hfield g hg nd hid hl
    have := t1.range_sub g hg
    omega
  · intro id nd hid hl
    obtain ⟨g, hg, rfl⟩ := hmem id nd hid
    obtain ⟨c1, c2, _, _, _, hlt, _, hr⟩ := t1.children g hg hid hl
    exact ⟨hlt, hin _ hr⟩
  · intro id h0 hlt
    obtain ⟨e, he, hh⟩ := List.mem_map.mp ((t2.mem_iff (a := id)).mpr (List.mem_range.mpr hlt))
    obtain ⟨g, hg, nd, a1, a2, a3⟩ := t1.parent_exists e he (by omega)
    rw [hh] at a3
    refine ⟨g.1, ⟨nd, a1, a2, a3⟩, ?_⟩
    rintro p ⟨nd', b1, b2, b3⟩
    obtain ⟨g', hg', rfl⟩ := hmem p nd' b1
    exact congrArg (·.1) (t1.parent_unique hnd id g' hg' g hg nd' nd b1 b2 a1 a2 b3 a3)
  · intro id hlt
    obtain ⟨e, he, rfl⟩ := List.mem_map.mp ((t2.mem_iff (a := id)).mpr (List.mem_range.mpr hlt))
    exact t1.reach 0 .here e he

/-! ## C46 -/

/-- C46, what holds of one partition step: the loop over the primitives at positions `first .. first + count - 1` (all of
which exist) rearranges exactly these positions and puts the primitives whose centroid is below the split before the
others, whatever the comparisons answer, when the range does not start at position zero or some primitive is below the
split. Otherwise the loop leaves the index array.
Missing from C46: the last case can occur (`bvh_partition_underflow`), and so can an undefined conversion while searching the
split (`bvh_bin_overflow`). -/
theorem bvh_partition_partial (src : Source F) (axis : Fin 4) (split : F) (first count : Nat) (prims : Array Nat)
    (hc : 1 ≤ count) (hsz : first + count ≤ prims.size) (h32 : prims.size < 2 ^ 32)
    (hit : ∀ k, first ≤ k → k < first + count → ∃ p it, prims[k]? = some p ∧ src.item p = some it) :
    let below := fun (a : Array Nat) (k : Nat) => ∃ p it, a[k]? = some p ∧ src.item p = some it ∧
      (it.centroid.get axis <. split) = true
    ((0 < first ∨ ∃ k, first ≤ k ∧ k < first + count ∧ below prims k) →
      ∃ i prims', partition src axis split (count + 2) first ((first + count + (2 ^ 32 - 1)) % 2 ^ 32) prims = .ok (i, prims') ∧
        first ≤ i ∧ i ≤ first + count ∧
        (∃ σ : Equiv.Perm Nat, (∀ k, k < first ∨ first + count ≤ k → σ k = k) ∧ ∀ k, prims'[k]? = prims[σ k]?) ∧
        (∀ k, first ≤ k → k < i → below prims' k) ∧ ∀ k, i ≤ k → k < first + count → ¬ below prims' k) ∧
    (first = 0 → (∀ k, k < count → ¬ below prims k) →
      partition src axis split (count + 2) first ((first + count + (2 ^ 32 - 1)) % 2 ^ 32) prims = .error .outOfRange) := by
  intro below
  have hmod : (first + count + (2 ^ 32 - 1)) % 2 ^ 32 = first + count - 1 := by omega
  rw [hmod]
  have hbel : ∀ a k, Below src a axis split k ↔ below a k := by
    intro a k
    unfold Below
    constructor
    · rintro ⟨it, h1, h2⟩
      rw [fetch_ok_iff] at h1
      unfold itemAt at h1
      rw [Option.bind_eq_some_iff] at h1
      obtain ⟨p, h3, h4⟩ := h1
      exact ⟨p, it, h3, h4, h2⟩
    · rintro ⟨p, it, h1, h2, h3⟩
      exact ⟨it, (fetch_ok_iff _ _ _ _).mpr (by unfold itemAt; rw [h1]; exact h2), h3⟩
  have hnb : ∀ a k, NotBelow src a axis split k → ¬ below a k := by
    rintro a k ⟨it, h1, h2⟩ hb
    obtain ⟨it', h3, h4⟩ := (hbel a k).mpr hb
    rw [h1] at h3; cases h3
    rw [h4] at h2; cases h2
  have hfetch : ∀ k, first ≤ k → k < first + count → ∃ it, fetch src prims k = .ok it := by
    intro k h1 h2
    obtain ⟨p, it, h3, h4⟩ := hit k h1 h2
    exact ⟨it, (fetch_ok_iff _ _ _ _).mpr (by unfold itemAt; rw [h3]; exact h4)⟩
  have key := partition_spec src axis split first (first + count) (count + 2) first (first + count) prims le_rfl (by omega)
    le_rfl (by omega) hsz h32 (by omega) (fun k h1 h2 => by omega) (fun k h1 h2 => by omega)
  constructor
  · intro hor
    rcases key with ⟨⟨i, prims'⟩, h1, h2⟩ | ⟨h1, h2⟩
    · exact ⟨i, prims', h1, h2.lo, h2.hi, h2.perm, fun k a b => (hbel _ _).mp (h2.below k a b),
        fun k a b => hnb _ _ (h2.above k a b)⟩
    · exfalso
      rcases h2 with ⟨h3, h4⟩ | ⟨k, h3, h4, h5⟩
      · rcases hor with h | ⟨k, _, b, c⟩
        · omega
        · exact hnb _ _ (h4 k b) c
      · obtain ⟨it, h6⟩ := hfetch k h3 h4
        rw [h5] at h6; cases h6
  · rintro rfl hno
    exact partition_underflow src axis split count prims hc (by omega) (by omega) fun k hk => by
      obtain ⟨it, h1⟩ := hfetch k (by omega) (by omega)
      refine ⟨it, h1, ?_⟩
      rw [Bool.eq_false_iff]
      intro h2
      exact hno k hk ((hbel _ _).mp ⟨it, h1, h2⟩)

end Verif
