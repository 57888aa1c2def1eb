import Verif.Props.BvhCases
import Verif.Props.Frustum

/-!
# Bounding volume hierarchy: queries

C49 traversal, C50 frustum collection.
-/

set_option linter.unusedSectionVars false

namespace Verif
open Bvh Spec FltB
variable {F : Type} [Flt F] [FltB F]

/-- A built tree is well formed. -/
theorem wellFormed_recreate (old : Bvh.Tree F) (src : Source F) (root : Aabb F) (hn : src.count ≤ 2 ^ 31) (t : Bvh.Tree F)
    (h : recreate old src root = .ok t) : WellFormed t src.count :=
  ⟨bvh_permutation old src root hn t h, (bvh_tree old src root hn t h).2.2.2.2.2⟩

section
variable {nodes : Array (Node F)} {p : Nat → Node F → Bool}

theorem passed_step {id c k : Nat} {nd : Node F} (hid : nodes[id]? = some nd) (hp : p id nd = true) (hl : nd.isLeaf = false)
    (hc : c = nd.getLeftNode ∨ c = nd.getLeftNode + 1) (h : Passed nodes p c k) : Passed nodes p id k := by
  induction h with
  | here =>
    rcases hc with rfl | rfl
    · exact .left .here hid hp hl
    · exact .right .here hid hp hl
  | left _ a b c ih => exact .left ih a b c
  | right _ a b c ih => exact .right ih a b c

theorem passed_iff {id k : Nat} {nd : Node F} (hid : nodes[id]? = some nd) :
    Passed nodes p id k ↔ k = id ∨ (p id nd = true ∧ nd.isLeaf = false ∧
      (Passed nodes p nd.getLeftNode k ∨ Passed nodes p (nd.getLeftNode + 1) k)) := by
  constructor
  · intro h
    induction h with
    | here => exact Or.inl rfl
    | left _ hn hp hl ih =>
      right
      rcases ih with rfl | ⟨a, b, c⟩
      · rw [hid] at hn; cases hn
        exact ⟨hp, hl, Or.inl .here⟩
      · refine ⟨a, b, ?_⟩
        rcases c with c | c
        · exact Or.inl (.left c hn hp hl)
        · exact Or.inr (.left c hn hp hl)
    | right _ hn hp hl ih =>
      right
      rcases ih with rfl | ⟨a, b, c⟩
      · rw [hid] at hn; cases hn
        exact ⟨hp, hl, Or.inr .here⟩
      · refine ⟨a, b, ?_⟩
        rcases c with c | c
        · exact Or.inl (.right c hn hp hl)
        · exact Or.inr (.right c hn hp hl)
  · rintro (rfl | ⟨a, b, c⟩)
    · exact .here
    · rcases c with c | c
      · exact passed_step hid a b (Or.inl rfl) c
      · exact passed_step hid a b (Or.inr rfl) c

/-- What follows when the current subtree is finished. -/
def contLoop (nodes : Array (Node F)) (p : Nat → Node F → Bool) (m : Nat) (stack : List Nat) (tr : Trace) : Except Fault Trace :=
  match stack with
  | [] => .ok tr
  | t :: rest => traverseLoop nodes p m t rest tr

/-- The ranges the traversal reports below `id`. -/
def LeafRange (nodes : Array (Node F)) (p : Nat → Node F → Bool) (id : Nat) (x : Nat × Nat) : Prop :=
  ∃ k nd, Passed nodes p id k ∧ nodes[k]? = some nd ∧ p k nd = true ∧ nd.isLeaf = true ∧
    x = (nd.getFirstPrimitive, nd.getPrimitiveCount)

theorem leafRange_inner {id : Nat} {nd : Node F} {x : Nat × Nat} (hid : nodes[id]? = some nd) (hp : p id nd = true)
    (hl : nd.isLeaf = false) : LeafRange nodes p id x ↔
      LeafRange nodes p nd.getLeftNode x ∨ LeafRange nodes p (nd.getLeftNode + 1) x := by
  unfold LeafRange
  constructor
  · rintro ⟨k, nd', h1, h2, h3, h4, h5⟩
    rcases (passed_iff hid).mp h1 with rfl | ⟨_, _, h | h⟩
    · rw [hid] at h2; cases h2; rw [hl] at h4; cases h4
    · exact Or.inl ⟨k, nd', h, h2, h3, h4, h5⟩
    · exact Or.inr ⟨k, nd', h, h2, h3, h4, h5⟩
  · rintro (⟨k, nd', h, r⟩ | ⟨k, nd', h, r⟩)
    · exact ⟨k, nd', passed_step hid hp hl (Or.inl rfl) h, r⟩
    · exact ⟨k, nd', passed_step hid hp hl (Or.inr rfl) h, r⟩

theorem leafRange_reject {id : Nat} {nd : Node F} {x : Nat × Nat} (hid : nodes[id]? = some nd) (hp : p id nd = false) :
    ¬ LeafRange nodes p id x := by
  rintro ⟨k, nd', h1, h2, h3, h4, h5⟩
  rcases (passed_iff hid).mp h1 with rfl | ⟨h, _⟩
  · rw [hid] at h2; cases h2; rw [hp] at h3; cases h3
  · rw [hp] at h; cases h

theorem leafRange_leaf {id : Nat} {nd : Node F} {x : Nat × Nat} (hid : nodes[id]? = some nd) (hp : p id nd = true)
    (hl : nd.isLeaf = true) : LeafRange nodes p id x ↔ x = (nd.getFirstPrimitive, nd.getPrimitiveCount) := by
  constructor
  · rintro ⟨k, nd', h1, h2, h3, h4, h5⟩
    rcases (passed_iff hid).mp h1 with rfl | ⟨_, h, _⟩
    · rw [hid] at h2; cases h2; exact h5
    · rw [hl] at h; cases h
  · intro h; exact ⟨id, nd, .here, hid, hp, hl, h⟩

theorem traverse_subtree {id f c : Nat} {rs} (h : IsTree nodes id f c rs) :
    ∃ (v : List Nat) (lv : List (Nat × Nat)), v.Sublist (rs.map (·.1)) ∧ (∀ k, k ∈ v ↔ Passed nodes p id k) ∧
      (∀ x, x ∈ lv ↔ LeafRange nodes p id x) ∧ lv.Pairwise (fun a b => a.1 + a.2 ≤ b.1) ∧
      (∀ x ∈ lv, f ≤ x.1 ∧ x.1 + x.2 ≤ f + c ∧ 1 ≤ x.2) ∧
      ∀ m stack tr, traverseLoop nodes p (v.length + m) id stack tr =
        contLoop nodes p m stack ⟨tr.visited ++ v, tr.leaves ++ lv⟩ := by
  have hrej : ∀ (id : Nat) (nd : Node F), nodes[id]? = some nd → p id nd = false → ∀ m stack tr,
      traverseLoop nodes p (([id] : List Nat).length + m) id stack tr =
        contLoop nodes p m stack ⟨tr.visited ++ [id], tr.leaves ++ []⟩ := by
    intro id nd hid hp m stack tr
    rw [List.length_singleton, Nat.add_comm]
    unfold traverseLoop
    rw [hid]
    dsimp only
    rw [hp]
    simp only [Bool.not_false, if_true, List.append_nil]
    rfl
  induction h with
  | @leaf id nd hid hl =>
    by_cases hp : p id nd = true
    · refine ⟨[id], [(nd.getFirstPrimitive, nd.getPrimitiveCount)], by simp, ?_, ?_, by simp, ?_, ?_⟩
      · intro k; rw [passed_iff hid, hl]; simp
      · intro x; rw [leafRange_leaf hid hp hl]; simp
      · intro x hx
        rw [List.mem_singleton] at hx; subst hx
        exact ⟨le_rfl, le_rfl, IsTree.leaf_count_pos hl⟩
      · intro m stack tr
        rw [List.length_singleton, Nat.add_comm]
        unfold traverseLoop
        rw [hid]
        dsimp only
        rw [hp, hl]
        simp only [Bool.not_true, Bool.false_eq_true, if_false, if_true]
        rfl
    · rw [Bool.not_eq_true] at hp
      refine ⟨[id], [], by simp, ?_, ?_, by simp, by simp, hrej id nd hid hp⟩
      · intro k; rw [passed_iff hid, hp]; simp
      · intro x; simp [leafRange_reject hid hp]
  | @inner id f c1 c2 nd r1 r2 hid hl hlt t1 t2 i1 i2 =>
    by_cases hp : p id nd = true
    · obtain ⟨v1, l1, a1, a2, a3, a4, a5, a6⟩ := i1
      obtain ⟨v2, l2, b1, b2, b3, b4, b5, b6⟩ := i2
      refine ⟨id :: (v1 ++ v2), l1 ++ l2, ?_, ?_, ?_, ?_, ?_, ?_⟩
      · rw [List.map_cons, List.map_append]
        exact (a1.append b1).cons_cons _
      · intro k
        rw [passed_iff hid, hp, hl, List.mem_cons, List.mem_append, a2, b2]
        simp
      · intro x
        rw [leafRange_inner hid hp hl, List.mem_append, a3, b3]
      · rw [List.pairwise_append]
        refine ⟨a4, b4, fun x hx y hy => ?_⟩
        have := a5 x hx
        have := b5 y hy
        omega
      · intro x hx
        rcases List.mem_append.mp hx with hx | hx
        · have := a5 x hx; omega
        · have := b5 x hx; omega
      · intro m stack tr
        have e : (id :: (v1 ++ v2)).length + m = (v1.length + (v2.length + m)) + 1 := by
          simp only [List.length_cons, List.length_append]; omega
        rw [e]
        conv_lhs => unfold traverseLoop
        rw [hid]
        dsimp only
        rw [hp, hl]
        simp only [Bool.not_true, Bool.false_eq_true, if_false]
        rw [a6]
        conv_lhs => unfold contLoop
        dsimp only
        rw [b6]
        simp only [List.append_assoc, List.nil_append, List.cons_append]
    · rw [Bool.not_eq_true] at hp
      refine ⟨[id], [], by simp, ?_, ?_, by simp, by simp, hrej id nd hid hp⟩
      · intro k; rw [passed_iff hid, hp]; simp
      · intro x; simp [leafRange_reject hid hp]

end

theorem wellFormed_facts {t : Bvh.Tree F} {n : Nat} (hw : WellFormed t n) : 1 ≤ t.nodes.size ∧ t.prims.size = n ∧
    t.prims.toList.Nodup ∧
    ∀ (id : Nat) (nd : Node F), t.nodes[id]? = some nd → nd.isLeaf = true → nd.getFirstPrimitive + nd.getPrimitiveCount ≤ n := by
  obtain ⟨h1, rs, h2, h3⟩ := hw
  refine ⟨?_, ?_, h1.nodup_iff.mpr List.nodup_range, ?_⟩
  · have := (h3.mem_iff (a := 0)).mp (List.mem_map.mpr ⟨_, h2.head_mem, rfl⟩)
    rw [List.mem_range] at this
    omega
  · simpa using h1.length_eq
  · intro id nd hid hl
    have hlt : id < t.nodes.size := (Array.getElem?_eq_some_iff.mp hid).1
    obtain ⟨e, he, rfl⟩ := List.mem_map.mp ((h3.mem_iff (a := id)).mpr (List.mem_range.mpr hlt))
    obtain ⟨nd', a1, a2⟩ := h2.node_of_mem e he
    rw [hid] at a1; cases a1
    have := a2 hl
    have := h2.range_sub e he
    omega

/-- C49: `traverse` on a well-formed tree ends within one step per node with an empty stack; it asks the predicate about each
node at most once, and about exactly the nodes all of whose proper ancestors were accepted; and it reports exactly the
ranges of the accepted leaves among them, in increasing order without overlap. -/
theorem bvh_traverse (t : Bvh.Tree F) (n : Nat) (hw : WellFormed t n) (p : Nat → Node F → Bool) :
    ∃ tr, Bvh.traverse t p = .ok tr ∧ tr.visited.Nodup ∧ (∀ k, k ∈ tr.visited ↔ Passed t.nodes p 0 k) ∧
      (∀ first count, (first, count) ∈ tr.leaves ↔ ∃ k nd, k ∈ tr.visited ∧ t.nodes[k]? = some nd ∧ p k nd = true ∧
        nd.isLeaf = true ∧ first = nd.getFirstPrimitive ∧ count = nd.getPrimitiveCount) ∧
      tr.leaves.Pairwise (fun a b => a.1 + a.2 ≤ b.1) ∧ ∀ x ∈ tr.leaves, 1 ≤ x.2 ∧ x.1 + x.2 ≤ n := by
  obtain ⟨hs, _, _, _⟩ := wellFormed_facts hw
  obtain ⟨_, rs, h2, h3⟩ := hw
  obtain ⟨v, lv, a1, a2, a3, a4, a5, a6⟩ := traverse_subtree (p := p) h2
  have hnd : (rs.map (·.1)).Nodup := h3.nodup_iff.mpr List.nodup_range
  have hlen : v.length ≤ t.nodes.size := by
    have := a1.length_le
    have h4 := h3.length_eq
    rw [List.length_range] at h4
    omega
  have := a6 (t.nodes.size - v.length) [] ⟨[], []⟩
  rw [Nat.add_sub_cancel' hlen] at this
  refine ⟨⟨v, lv⟩, ?_, a1.nodup hnd, a2, ?_, a4, ?_⟩
  · unfold Bvh.traverse
    rw [if_neg (by omega), this]
    rfl
  · intro first count
    rw [a3]
    unfold LeafRange
    constructor
    · rintro ⟨k, nd, b1, b2, b3, b4, b5⟩
      injection b5 with b5 b6
      exact ⟨k, nd, (a2 k).mpr b1, b2, b3, b4, b5, b6⟩
    · rintro ⟨k, nd, b1, b2, b3, b4, rfl, rfl⟩
      exact ⟨k, nd, (a2 k).mp b1, b2, b3, b4, rfl⟩
  · intro x hx
    have := a5 x hx
    omega

/-! ## C50 -/

theorem copyRange_ok (prims : Array Nat) : ∀ (c f : Nat) (out : List Nat), f + c ≤ prims.size →
    copyRange prims (List.range' f c) out = .ok (out ++ (prims.toList.drop f).take c) := by
  intro c
  induction c with
  | zero => intro f out _; simp [copyRange]; rfl
  | succ c ih =>
    intro f out h
    have hf : f < prims.size := by omega
    unfold copyRange
    rw [List.range'_succ, List.foldlM_cons, Array.getElem?_eq_getElem hf]
    show copyRange prims (List.range' (f + 1) c) (out ++ [prims[f]]) = _
    rw [ih (f + 1) _ (by omega)]
    have hd : prims.toList.drop f = prims[f] :: prims.toList.drop (f + 1) := by
      rw [List.drop_eq_getElem_cons (by simpa using hf)]
      simp
    rw [hd, List.take_succ_cons]
    simp

/-- The primitives of a list of ranges. -/
def gather (prims : Array Nat) (lv : List (Nat × Nat)) : List Nat := lv.flatMap fun x => (prims.toList.drop x.1).take x.2

theorem collect_sim (t : Bvh.Tree F) (planes : List (Plane F))
    (hl : ∀ (id : Nat) (nd : Node F), t.nodes[id]? = some nd → nd.isLeaf = true →
      nd.getFirstPrimitive + nd.getPrimitiveCount ≤ t.prims.size) :
    ∀ (fuel cur : Nat) (stack : List Nat) (tr : Trace),
      collectLoop t planes fuel cur stack (gather t.prims tr.leaves) =
        (traverseLoop t.nodes (fun _ nd => !nd.aabb.isBehindFrustum planes) fuel cur stack tr).map
          fun tr => gather t.prims tr.leaves := by
  intro fuel
  induction fuel with
  | zero => intro cur stack tr; rfl
  | succ fuel ih =>
    intro cur stack tr
    unfold collectLoop traverseLoop
    cases hn : t.nodes[cur]? with
    | none => rfl
    | some nd =>
      dsimp only
      rw [Bool.not_not]
      by_cases hb : nd.aabb.isBehindFrustum planes = true
      · rw [if_pos hb, if_pos hb]
        cases stack with
        | nil => rfl
        | cons k rest => exact ih k rest ⟨tr.visited ++ [cur], tr.leaves⟩
      · rw [if_neg hb, if_neg hb]
        by_cases hlf : nd.isLeaf = true
        · rw [if_pos hlf, if_pos hlf, copyRange_ok _ _ _ _ (hl cur nd hn hlf)]
          have hg : gather t.prims tr.leaves ++ (t.prims.toList.drop nd.getFirstPrimitive).take nd.getPrimitiveCount =
              gather t.prims (tr.leaves ++ [(nd.getFirstPrimitive, nd.getPrimitiveCount)]) := by
            unfold gather; simp
          dsimp only
          rw [hg]
          cases stack with
          | nil => rfl
          | cons k rest => exact ih k rest ⟨tr.visited ++ [cur], tr.leaves ++ [(nd.getFirstPrimitive, nd.getPrimitiveCount)]⟩
        · rw [if_neg hlf, if_neg hlf]
          exact ih _ _ ⟨tr.visited ++ [cur], tr.leaves⟩

theorem gather_nodup {l : Array Nat} (hnd : l.toList.Nodup) : ∀ lv : List (Nat × Nat),
    lv.Pairwise (fun a b => a.1 + a.2 ≤ b.1) → (gather l lv).Nodup := by
  intro lv
  induction lv with
  | nil => intro _; exact List.nodup_nil
  | cons x lv ih =>
    intro h
    rw [List.pairwise_cons] at h
    unfold gather
    rw [List.flatMap_cons, List.nodup_append]
    refine ⟨(hnd.sublist (List.drop_sublist _ _)).sublist (List.take_sublist _ _), ih h.2, ?_⟩
    intro a ha b hb heq
    subst heq
    obtain ⟨y, hy, hb⟩ := List.mem_flatMap.mp hb
    have hxy := h.1 y hy
    obtain ⟨i, hi, hi'⟩ := List.getElem_of_mem ha
    obtain ⟨j, hj, hj'⟩ := List.getElem_of_mem hb
    rw [List.getElem_take, List.getElem_drop] at hi' hj'
    have hi2 := hi
    have hj2 := hj
    rw [List.length_take, List.length_drop] at hi2 hj2
    have := (List.Nodup.getElem_inj_iff hnd).mp (hi'.trans hj'.symm)
    omega

/-- C50: on a well-formed tree `collectInFrustum` writes each primitive at most once, and exactly the primitives of the leaves
that are not reported behind the frustum and all of whose ancestors are not. -/
theorem bvh_collect (t : Bvh.Tree F) (n : Nat) (hw : WellFormed t n) (planes : List (Plane F)) :
    ∃ out, collectInFrustum t planes = .ok out ∧ out.Nodup ∧ (∀ q ∈ out, q < n) ∧
      ∀ q, q ∈ out ↔ ∃ (k : Nat) (nd : Node F) (pos : Nat),
        Passed t.nodes (fun _ nd => !nd.aabb.isBehindFrustum planes) 0 k ∧ t.nodes[k]? = some nd ∧
        nd.aabb.isBehindFrustum planes = false ∧ nd.isLeaf = true ∧ nd.getFirstPrimitive ≤ pos ∧
        pos < nd.getFirstPrimitive + nd.getPrimitiveCount ∧ t.prims[pos]? = some q := by
  obtain ⟨hs, hps, hnd, hlr⟩ := wellFormed_facts hw
  obtain ⟨tr, h1, h2, h3, h4, h5, h6⟩ := bvh_traverse t n hw (fun _ nd => !nd.aabb.isBehindFrustum planes)
  have hout : collectInFrustum t planes = .ok (gather t.prims tr.leaves) := by
    unfold collectInFrustum
    unfold Bvh.traverse at h1
    rw [if_neg (by omega)] at h1 ⊢
    have := collect_sim t planes (fun id nd a b => by rw [hps]; exact hlr id nd a b) t.nodes.size 0 [] ⟨[], []⟩
    rw [h1] at this
    exact this
  have hmem : ∀ q, q ∈ gather t.prims tr.leaves ↔ ∃ x ∈ tr.leaves, ∃ pos, x.1 ≤ pos ∧ pos < x.1 + x.2 ∧
      t.prims[pos]? = some q := by
    intro q
    unfold gather
    rw [List.mem_flatMap]
    constructor
    · rintro ⟨x, hx, hq⟩
      obtain ⟨i, hi, hi'⟩ := List.getElem_of_mem hq
      rw [List.getElem_take, List.getElem_drop] at hi'
      rw [List.length_take, List.length_drop, Array.length_toList] at hi
      refine ⟨x, hx, x.1 + i, by omega, by omega, ?_⟩
      rw [Array.getElem?_eq_getElem (by omega), ← hi']
      rfl
    · rintro ⟨x, hx, pos, a, b, c⟩
      refine ⟨x, hx, ?_⟩
      have hpos : pos < t.prims.size := (Array.getElem?_eq_some_iff.mp c).1
      rw [List.mem_iff_getElem]
      refine ⟨pos - x.1, by rw [List.length_take, List.length_drop, Array.length_toList]; omega, ?_⟩
      rw [List.getElem_take, List.getElem_drop]
      have hh : x.1 + (pos - x.1) = pos := by omega
      have hq := (Array.getElem?_eq_some_iff.mp c).2
      simp only [hh, Array.getElem_toList]
      exact hq
  refine ⟨_, hout, gather_nodup hnd _ h5, ?_, ?_⟩
  · intro q hq
    obtain ⟨x, _, pos, _, _, hp⟩ := (hmem q).mp hq
    have : q ∈ t.prims.toList := by
      rw [Array.mem_toList_iff]; exact Array.mem_of_getElem? hp
    have := (hw.1.mem_iff).mp this
    rwa [List.mem_range] at this
  · intro q
    rw [hmem]
    constructor
    · rintro ⟨⟨a, b⟩, hx, pos, c1, c2, c3⟩
      obtain ⟨k, nd, d1, d2, d3, d4, rfl, rfl⟩ := (h4 a b).mp hx
      exact ⟨k, nd, pos, (h3 k).mp d1, d2, by simpa using d3, d4, c1, c2, c3⟩
    · rintro ⟨k, nd, pos, d1, d2, d3, d4, c1, c2, c3⟩
      exact ⟨(nd.getFirstPrimitive, nd.getPrimitiveCount), (h4 _ _).mpr ⟨k, nd, (h3 k).mpr d1, d2, by simpa using d3, d4, rfl, rfl⟩,
        pos, c1, c2, c3⟩

theorem passed_of_range {nodes : Array (Node F)} {p : Nat → Node F → Bool} {id f c : Nat} {rs} (h : IsTree nodes id f c rs)
    (k : Nat) (h1 : f ≤ k) (h2 : k < f + c)
    (hp : ∀ e ∈ rs, e.2.1 ≤ k → k < e.2.1 + e.2.2 → ∀ nd, nodes[e.1]? = some nd → p e.1 nd = true) :
    ∃ (l : Nat) (nd : Node F), Passed nodes p id l ∧ nodes[l]? = some nd ∧ p l nd = true ∧ nd.isLeaf = true ∧
      nd.getFirstPrimitive ≤ k ∧ k < nd.getFirstPrimitive + nd.getPrimitiveCount := by
  induction h with
  | @leaf id nd hid hl =>
    exact ⟨id, nd, .here, hid, hp _ (List.mem_singleton.mpr rfl) h1 h2 nd hid, hl, h1, h2⟩
  | @inner id f c1 c2 nd r1 r2 hid hl hlt t1 t2 i1 i2 =>
    have hacc := hp _ List.mem_cons_self h1 h2 nd hid
    by_cases hk : k < f + c1
    · obtain ⟨l, nd', a, r⟩ := i1 h1 hk fun e he => hp e (List.mem_cons_of_mem _ (List.mem_append_left _ he))
      exact ⟨l, nd', passed_step hid hacc hl (Or.inl rfl) a, r⟩
    · obtain ⟨l, nd', a, r⟩ := i2 (by omega) (by omega) fun e he => hp e (List.mem_cons_of_mem _ (List.mem_append_right _ he))
      exact ⟨l, nd', passed_step hid hacc hl (Or.inr rfl) a, r⟩

/-- C50, in exact arithmetic: collecting from a tree built over boxes that the given root box contains never omits a
primitive whose box has a point on the inner side of every plane. -/
theorem bvh_collect_conservative (old : Bvh.Tree ℝ) (boxes : Array (Aabb ℝ)) (cents : Option (Array (V4 ℝ))) (root : Aabb ℝ)
    (hn : boxes.size ≤ 2 ^ 31) (hroot : ∀ b ∈ boxes, boxOf b ⊆ boxOf root) (t : Bvh.Tree ℝ)
    (h : recreate old (Source.ofAabbs boxes cents) root = .ok t) (planes : List (Plane ℝ)) :
    ∃ out, collectInFrustum t planes = .ok out ∧
      ∀ q b s, boxes[q]? = some b → s ∈ boxOf b → (∀ pl ∈ planes, 0 ≤ side pl s) → q ∈ out := by
  have hw := wellFormed_recreate old (Source.ofAabbs boxes cents) root hn t h
  obtain ⟨out, h1, h2, h3, h4⟩ := bvh_collect t _ hw planes
  refine ⟨out, h1, fun q b s hb hs hin => (h4 q).mpr ?_⟩
  have hbounds := (bvh_bounds_boxes okLimits_real old boxes cents root hn (fun b _ => ⟨⟨trivial, trivial, trivial⟩, trivial, trivial, trivial⟩) t h).1
  obtain ⟨hperm, rs, t1, t2⟩ := hw
  have hq : q < boxes.size := (Array.getElem?_eq_some_iff.mp hb).1
  have hqm : q ∈ t.prims.toList := (hperm.mem_iff).mpr (List.mem_range.mpr hq)
  obtain ⟨pos, hpos, hpq⟩ := List.getElem_of_mem hqm
  have hget : t.prims[pos]? = some q := by
    rw [Array.getElem?_eq_getElem (by simpa using hpos), ← hpq]; rfl
  have hsz : t.prims.size = (Source.ofAabbs boxes cents).count := by simpa using hperm.length_eq
  have hlt : pos < 0 + (Source.ofAabbs boxes cents).count := by
    rw [Nat.zero_add, ← hsz]; simpa using hpos
  obtain ⟨l, nd, a1, a2, a3, a4, a5, a6⟩ := passed_of_range (p := fun _ nd => !nd.aabb.isBehindFrustum planes) t1 pos
    (Nat.zero_le _) hlt (by
      intro e he e1 e2 nd hnd
      have hu : Under t e.1 q := (under_iff t1 e he q).mpr ⟨pos, e1, e2, hget⟩
      have hsub := hbounds e.1 q nd b hnd hu hb (fun _ => hroot b (Array.mem_of_getElem? hb))
      have hsn := hsub hs
      show (!nd.aabb.isBehindFrustum planes) = true
      rw [Bool.not_eq_true']
      by_contra hc
      rw [Bool.not_eq_false] at hc
      have hv : ValidBox nd.aabb := by
        obtain ⟨b1, b2⟩ := mem_iff_box.mp hsn
        exact le3_trans b1 b2
      exact isBehindFrustum_sound planes nd.aabb hv hc s hsn hin)
  exact ⟨l, nd, pos, a1, a2, by simpa using a3, a4, a5, a6, hget⟩

/-- Non-vacuity of C49 and C50: the tree over five boxes is well formed; two planes select some boxes and not others. -/
example : ∃ t, recreate BvhCases.fresh (Source.ofAabbs BvhCases.row none) (BvhCases.box 0 0 0 22 1 1) = .ok t ∧
    WellFormed t 5 := by
  obtain ⟨t, h, _⟩ := row_builds
  exact ⟨t, h, wellFormed_recreate _ _ _ (by decide) t h⟩

example : ((recreate BvhCases.fresh (Source.ofAabbs BvhCases.row none) (BvhCases.box 0 0 0 22 1 1)).bind fun t =>
    collectInFrustum t [⟨⟨F32.ofRat (-1), F32.ofRat 0, F32.ofRat 0, F32.ofRat 7⟩⟩]) = .ok [0, 1, 3] := by decide +kernel

end Verif
