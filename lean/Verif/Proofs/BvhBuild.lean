import Verif.Proofs.Bvh
import Verif.Proofs.Geom

/-! # The invariant of the BVH build loop -/

set_option linter.unusedSectionVars false

namespace Verif.Bvh
open FltB Verif.Spec
variable {F : Type} [Flt F] [FltB F]

/-! ## Node setters -/

theorem setLeftNode_ok {n n' : Node F} {k : Nat} (h : n.setLeftNode k = .ok n') :
    n'.aabb.min = n.aabb.min ∧ n'.aabb.max = n.aabb.max.withW (ofBits (BitVec.ofNat 32 k)) := by
  unfold Node.setLeftNode Aabb.setMax at h
  split at h
  · next b hb =>
    split at hb
    · cases hb; cases h; exact ⟨rfl, rfl⟩
    · cases hb
  · cases h

theorem setPrimitiveCount_ok {n n' : Node F} {k : Nat} (h : n.setPrimitiveCount k = .ok n') :
    n'.aabb.max = n.aabb.max ∧ n'.aabb.min = n.aabb.min.withW (ofBits (BitVec.ofNat 32 k)) := by
  unfold Node.setPrimitiveCount Aabb.setMin at h
  split at h
  · next b hb =>
    split at hb
    · cases hb; cases h; exact ⟨rfl, rfl⟩
    · cases hb
  · cases h

theorem setLeftNode_err {n : Node F} {k : Nat} {e : Fault} (h : n.setLeftNode k = .error e) : e = .assertion := by
  unfold Node.setLeftNode at h
  split at h <;> cases h; rfl

theorem setPrimitiveCount_err {n : Node F} {k : Nat} {e : Fault} (h : n.setPrimitiveCount k = .error e) :
    e = .assertion := by
  unfold Node.setPrimitiveCount at h
  split at h <;> cases h; rfl

/-- The two integers of a node. -/
theorem node_fields {n : Node F} {c k : Nat} (h1 : n.aabb.min.w = ofBits (BitVec.ofNat 32 c))
    (h2 : n.aabb.max.w = ofBits (BitVec.ofNat 32 k)) (hc : c < 2 ^ 32) (hk : k < 2 ^ 32) :
    n.getPrimitiveCount = c ∧ n.getLeftNode = k ∧ n.getFirstPrimitive = k ∧ (n.isLeaf = true ↔ c ≠ 0) := by
  have e1 : n.getPrimitiveCount = c := by
    unfold Node.getPrimitiveCount; rw [h1, toBits_ofBits, BitVec.toNat_ofNat, Nat.mod_eq_of_lt hc]
  have e2 : n.getLeftNode = k := by
    unfold Node.getLeftNode; rw [h2, toBits_ofBits, BitVec.toNat_ofNat, Nat.mod_eq_of_lt hk]
  refine ⟨e1, e2, e2, ?_⟩
  rw [IsTree.isLeaf_iff, e1]

/-! ## Boxes of ranges -/

/-- The primitive at position `k`. -/
def itemAt (src : Source F) (prims : Array Nat) (k : Nat) : Option (Item F) := prims[k]?.bind src.item

theorem fetch_ok_iff (src : Source F) (prims : Array Nat) (k : Nat) (it : Item F) :
    fetch src prims k = .ok it ↔ itemAt src prims k = some it := by
  unfold fetch itemAt
  cases prims[k]? with
  | none => simp
  | some p =>
    simp only [Option.bind_some]
    cases src.item p <;> simp

/-- The corners obtained by adding primitives one after the other. -/
def cornersOf (its : List (Item F)) (c : V4 F × V4 F) : V4 F × V4 F := its.foldl (fun c it => growItem it c) c

theorem growRange_ok (src : Source F) (prims : Array Nat) : ∀ (is : List Nat) (c r : V4 F × V4 F),
    growRange src prims is c = .ok r →
      ∃ its : List (Item F), its.map some = is.map (itemAt src prims) ∧ r = cornersOf its c := by
  intro is
  induction is with
  | nil => intro c r h; cases h; exact ⟨[], rfl, rfl⟩
  | cons i is ih =>
    intro c r h
    unfold growRange at h
    rw [List.foldlM_cons] at h
    cases hf : fetch src prims i with
    | error e => rw [hf] at h; cases h
    | ok it =>
      rw [hf] at h
      obtain ⟨its, h1, h2⟩ := ih (growItem it c) r h
      refine ⟨it :: its, ?_, h2⟩
      rw [List.map_cons, List.map_cons, h1, (fetch_ok_iff src prims i it).mp hf]

/-- The first three lanes of a box. -/
def corners3 (c : V4 F × V4 F) : V3 F × V3 F := (c.1.xyz, c.2.xyz)

/-- The box of the node is the one computed from the primitives at positions `f .. f + c - 1`, taken in some order. -/
def Hull (src : Source F) (prims : Array Nat) (nd : Node F) (f c : Nat) : Prop :=
  ∃ its : List (Item F), (its.map some).Perm ((List.range' f c).map (itemAt src prims)) ∧
    (nd.aabb.min.xyz, nd.aabb.max.xyz) = corners3 (cornersOf its emptyCorners)

theorem range'_perm (σ : Equiv.Perm Nat) (f c : Nat) (h : ∀ k, f ≤ k ∧ k < f + c → f ≤ σ k ∧ σ k < f + c) :
    ((List.range' f c).map σ).Perm (List.range' f c) := by
  have hn1 : (List.range' f c).Nodup := List.nodup_range'
  have hn2 : ((List.range' f c).map σ).Nodup := hn1.map σ.injective
  refine List.Subperm.perm_of_length_le (hn2.subperm ?_) (by simp)
  intro x hx
  rw [List.mem_map] at hx
  obtain ⟨k, hk, rfl⟩ := hx
  rw [List.mem_range'_1] at hk ⊢
  exact h k hk

/-- A rearrangement of the positions `a .. b - 1` keeps them among themselves. -/
theorem perm_inside (σ : Equiv.Perm Nat) (a b : Nat) (hfix : ∀ k, k < a ∨ b ≤ k → σ k = k) (k : Nat) (h1 : a ≤ k) (h2 : k < b) :
    a ≤ σ k ∧ σ k < b := by
  by_contra hc
  have hout : σ k < a ∨ b ≤ σ k := by omega
  have := σ.injective (hfix (σ k) hout)
  omega

theorem hull_perm {src : Source F} {prims prims' : Array Nat} {nd : Node F} {f c a b : Nat} (h : Hull src prims nd f c)
    (σ : Equiv.Perm Nat) (hfix : ∀ k, k < a ∨ b ≤ k → σ k = k) (hσ : ∀ k, prims'[k]? = prims[σ k]?)
    (hrange : (f ≤ a ∧ b ≤ f + c) ∨ b ≤ f ∨ f + c ≤ a) : Hull src prims' nd f c := by
  obtain ⟨its, h1, h2⟩ := h
  refine ⟨its, h1.trans ?_, h2⟩
  have hin : ∀ k, f ≤ k ∧ k < f + c → f ≤ σ k ∧ σ k < f + c := by
    intro k hk
    by_cases hab : a ≤ k ∧ k < b
    · have := perm_inside σ a b hfix k hab.1 hab.2
      omega
    · rw [hfix k (by omega)]; exact hk
  have he : (List.range' f c).map (itemAt src prims') = ((List.range' f c).map σ).map (itemAt src prims) := by
    rw [List.map_map]
    apply List.map_congr_left
    intro k _
    simp only [itemAt, Function.comp, hσ k]
  rw [he]
  exact ((range'_perm σ f c hin).symm).map _

theorem toList_perm {a b : Array Nat} (σ : Equiv.Perm Nat) (lo hi : Nat) (hsz : b.size = a.size) (hhi : hi ≤ a.size)
    (hfix : ∀ k, k < lo ∨ hi ≤ k → σ k = k) (hσ : ∀ k, b[k]? = a[σ k]?) : b.toList.Perm a.toList := by
  have key : ∀ x : Array Nat, x.toList.map some = (List.range' 0 x.size).map (fun k => x[k]?) := by
    intro x
    apply List.ext_getElem
    · simp
    · intro i h1 h2
      simp only [List.length_map, Array.length_toList] at h1
      simp [h1]
  have hp : (b.toList.map some).Perm (a.toList.map some) := by
    rw [key b, key a, hsz]
    have he : (List.range' 0 a.size).map (fun k => b[k]?) = ((List.range' 0 a.size).map σ).map (fun k => a[k]?) := by
      rw [List.map_map]
      apply List.map_congr_left
      intro k _
      simp only [Function.comp, hσ k]
    rw [he]
    refine (range'_perm σ 0 a.size ?_).map _
    intro k hk
    by_cases hab : lo ≤ k ∧ k < hi
    · have := perm_inside σ lo hi hfix k hab.1 hab.2
      omega
    · rw [hfix k (by omega)]; exact hk
  have := hp.filterMap id
  simpa using this

/-! ## Faults -/

theorem foldlM_no {α β : Type} (P : Fault → Prop) (f : β → α → Except Fault β)
    (hf : ∀ b a e, f b a = .error e → P e) : ∀ (l : List α) (b : β) (e : Fault), l.foldlM f b = .error e → P e := by
  intro l
  induction l with
  | nil => intro b e h; cases h
  | cons a l ih =>
    intro b e h
    rw [List.foldlM_cons] at h
    cases hb : f b a with
    | error e' => rw [hb] at h; cases h; exact hf b a e hb
    | ok b' => rw [hb] at h; exact ih b' e h

theorem growRange_err {src : Source F} {prims : Array Nat} {is : List Nat} {c : V4 F × V4 F} {e : Fault}
    (h : growRange src prims is c = .error e) : e = .outOfRange := by
  refine foldlM_no (· = .outOfRange) _ ?_ is c e h
  intro b a e h
  cases hf : fetch src prims a with
  | error e' => rw [hf] at h; cases h; exact fetch_error src prims a hf
  | ok it => rw [hf] at h; cases h

theorem calculateNodeAabb_err {src : Source F} {prims : Array Nat} {first count : Nat} {e : Fault}
    (h : calculateNodeAabb src prims first count = .error e) : e = .outOfRange ∨ e = .assertion := by
  unfold calculateNodeAabb at h
  split at h
  · next e' he => cases h; exact Or.inl (growRange_err he)
  · split at h
    · cases h
    · cases h; exact Or.inr rfl

theorem calculateNodeAabb_ok {src : Source F} {prims : Array Nat} {first count : Nat} {b : Aabb F}
    (h : calculateNodeAabb src prims first count = .ok b) :
    ∃ its : List (Item F), its.map some = (List.range' first count).map (itemAt src prims) ∧
      (b.min, b.max) = cornersOf its emptyCorners := by
  unfold calculateNodeAabb at h
  split at h
  · cases h
  · next c hc =>
    obtain ⟨its, h1, h2⟩ := growRange_ok src prims _ _ _ hc
    split at h
    · next b' hb =>
      cases h
      unfold Aabb.ctor at hb
      split at hb
      · cases hb; exact ⟨its, h1, by rw [← h2]⟩
      · cases hb
    · cases h

theorem axisBounds_err {src : Source F} {prims : Array Nat} {a : Fin 4} {is : List Nat} {e : Fault}
    (h : axisBounds src prims a is = .error e) : e = .outOfRange := by
  refine foldlM_no (· = .outOfRange) _ ?_ is _ e h
  intro b i e h
  cases hf : fetch src prims i with
  | error e' => rw [hf] at h; cases h; exact fetch_error src prims i hf
  | ok it => rw [hf] at h; cases h

theorem binIndex_err {v lo sc : F} {e : Fault} (h : binIndex v lo sc = .error e) : e = .badCast ∨ e = .outOfRange := by
  unfold binIndex at h
  split at h
  · cases h; exact Or.inl rfl
  · dsimp only at h
    split at h
    · cases h; exact Or.inr rfl
    · cases h

theorem binItem_err {src : Source F} {prims : Array Nat} {a : Fin 4} {lo sc : F} {bins : List (Bin F)} {i : Nat} {e : Fault}
    (h : binItem src prims a lo sc bins i = .error e) : e = .badCast ∨ e = .outOfRange := by
  unfold binItem at h
  split at h
  · next e' he => cases h; exact Or.inr (fetch_error src prims i he)
  · split at h
    · next e' he => cases h; exact binIndex_err he
    · cases h

theorem searchAxis_err {src : Source F} {prims : Array Nat} {is : List Nat} {best : Best F} {a : Fin 4} {e : Fault}
    (h : searchAxis src prims is best a = .error e) : e = .badCast ∨ e = .outOfRange := by
  unfold searchAxis at h
  split at h
  · next e' he => cases h; exact Or.inr (axisBounds_err he)
  · dsimp only at h
    split at h
    · cases h
    · split at h
      · next e' he =>
        cases h
        exact foldlM_no (fun e => e = .badCast ∨ e = .outOfRange) _ (fun b i e h => binItem_err h) _ _ _ he
      · cases h

theorem findBestSplitPlane_err {src : Source F} {prims : Array Nat} {first count : Nat} {e : Fault}
    (h : findBestSplitPlane src prims first count = .error e) : e = .badCast ∨ e = .outOfRange :=
  foldlM_no (fun e => e = .badCast ∨ e = .outOfRange) _ (fun _ _ _ h => searchAxis_err h) _ _ _ h

theorem writeNode_ok {nodes nodes' : Array (Node F)} {k : Nat} {n : Node F} (h : writeNode nodes k n = .ok nodes') :
    k < nodes.size ∧ nodes' = nodes.setIfInBounds k n := by
  unfold writeNode at h
  split at h
  · next hk => cases h; exact ⟨hk, rfl⟩
  · cases h

theorem writeNode_err {nodes : Array (Node F)} {k : Nat} {n : Node F} {e : Fault} (h : writeNode nodes k n = .error e) :
    e = .outOfRange ∧ nodes.size ≤ k := by
  unfold writeNode at h
  split at h
  · cases h
  · cases h; exact ⟨rfl, by omega⟩

theorem makeChild_err {src : Source F} {prims : Array Nat} {first count : Nat} {e : Fault}
    (h : makeChild src prims first count = .error e) : e = .outOfRange ∨ e = .assertion := by
  unfold makeChild at h
  simp only [bind, Except.bind] at h
  split at h
  · next e' he => cases h; exact calculateNodeAabb_err he
  · split at h
    · next e' he => cases h; exact Or.inr (setLeftNode_err he)
    · exact Or.inr (setPrimitiveCount_err h)

theorem makeChild_ok {src : Source F} {prims : Array Nat} {first count : Nat} {n : Node F}
    (h : makeChild src prims first count = .ok n) (hf : first < 2 ^ 32) (hc : count < 2 ^ 32) (hc0 : count ≠ 0) :
    n.getPrimitiveCount = count ∧ n.getFirstPrimitive = first ∧ n.isLeaf = true ∧ Hull src prims n first count := by
  unfold makeChild at h
  simp only [bind, Except.bind] at h
  split at h
  · cases h
  · next b hb =>
    split at h
    · cases h
    · next n1 h1 =>
      obtain ⟨e1, e2⟩ := setLeftNode_ok h1
      obtain ⟨e3, e4⟩ := setPrimitiveCount_ok h
      obtain ⟨its, i1, i2⟩ := calculateNodeAabb_ok hb
      have w1 : n.aabb.min.w = ofBits (BitVec.ofNat 32 count) := by rw [e4]; rfl
      have w2 : n.aabb.max.w = ofBits (BitVec.ofNat 32 first) := by rw [e3, e2]; rfl
      obtain ⟨g1, g2, g3, g4⟩ := node_fields w1 w2 hc hf
      refine ⟨g1, g3, g4.mpr hc0, its, by rw [i1], ?_⟩
      rw [← i2]
      unfold corners3
      rw [e4, e3, e1, e2]
      rfl

/-! ## The invariant -/

/-- The nodes built so far form a tree over all primitives, with the right boxes. -/
structure Core (src : Source F) (root : Aabb F) (s : State F) : Prop where
  size : s.nodes.size = 2 * src.count - 1
  prims : s.prims.toList.Perm (List.range src.count)
  tree : ∃ rs, IsTree s.nodes 0 0 src.count rs ∧ (rs.map (·.1)).Perm (List.range s.nodeCount) ∧
    ∀ e ∈ rs, ∃ nd, s.nodes[e.1]? = some nd ∧
      ((e.1 = 0 ∧ nd.aabb.min.xyz = root.min.xyz ∧ nd.aabb.max.xyz = root.max.xyz) ∨
        (e.1 ≠ 0 ∧ Hull src s.prims nd e.2.1 e.2.2))

/-- The current node and the nodes on the stack are distinct leaves. -/
def Work (s : State F) : Prop :=
  (s.cur :: s.stack).Nodup ∧
    ∀ k ∈ s.cur :: s.stack, k < s.nodeCount ∧ ∃ nd, s.nodes[k]? = some nd ∧ nd.isLeaf = true

/-- Twice the primitives of a node, minus one. -/
def weight (nodes : Array (Node F)) (k : Nat) : Nat :=
  match nodes[k]? with
  | some nd => 2 * nd.getPrimitiveCount - 1
  | none => 0

/-- An upper bound on the remaining iterations. -/
def potential (s : State F) : Nat := ((s.cur :: s.stack).map (weight s.nodes)).sum

theorem Core.prims_size {src : Source F} {root : Aabb F} {s : State F} (h : Core src root s) : s.prims.size = src.count := by
  have := h.prims.length_eq
  simpa using this

theorem Core.permute {src : Source F} {root : Aabb F} {s : State F} (h : Core src root s) {nd : Node F} {prims : Array Nat}
    (hcur : s.cur < s.nodeCount) (hnd : s.nodes[s.cur]? = some nd) (hleaf : nd.isLeaf = true)
    (σ : Equiv.Perm Nat) (hsz : prims.size = s.prims.size)
    (hfix : ∀ k, k < nd.getFirstPrimitive ∨ nd.getFirstPrimitive + nd.getPrimitiveCount ≤ k → σ k = k)
    (hσ : ∀ k, prims[k]? = s.prims[σ k]?) : Core src root { s with prims := prims } := by
  obtain ⟨rs, t1, t2, t3⟩ := h.tree
  have hmem : s.cur ∈ rs.map (·.1) := by rw [t2.mem_iff, List.mem_range]; exact hcur
  obtain ⟨e, he, hec⟩ := List.mem_map.mp hmem
  have hnd' : s.nodes[e.1]? = some nd := by rw [hec]; exact hnd
  obtain ⟨nd2, hn2, hr⟩ := t1.node_of_mem e he
  rw [hnd'] at hn2; cases hn2
  obtain ⟨r1, r2⟩ := hr hleaf
  have hsub := t1.range_sub e he
  refine ⟨h.size, ?_, rs, t1, t2, ?_⟩
  · refine (toList_perm σ _ _ hsz ?_ hfix hσ).trans h.prims
    rw [h.prims_size]
    omega
  · intro g hg
    obtain ⟨ndg, hg1, hg2⟩ := t3 g hg
    refine ⟨ndg, hg1, ?_⟩
    rcases hg2 with hg2 | hg2
    · exact Or.inl hg2
    · refine Or.inr ⟨hg2.1, hull_perm hg2.2 σ hfix hσ ?_⟩
      have := t1.leaf_range e he hnd' hleaf g hg
      rw [r1, r2] at this
      exact this

theorem pop_work {src : Source F} {root : Aabb F} {s s' : State F} (hc : Core src root s) (hw : Work s)
    (h : pop s = (s', true)) : Core src root s' ∧ Work s' ∧ potential s' + 1 ≤ potential s := by
  unfold pop at h
  split at h
  · cases h
  · next t rest hst =>
    cases h
    refine ⟨⟨hc.size, hc.prims, hc.tree⟩, ?_, ?_⟩
    · obtain ⟨h1, h2⟩ := hw
      rw [hst] at h1 h2
      exact ⟨(List.nodup_cons.mp h1).2, fun k hk => h2 k (List.mem_cons_of_mem _ hk)⟩
    · obtain ⟨_, nd, hn, hl⟩ := hw.2 s.cur List.mem_cons_self
      have := IsTree.leaf_count_pos hl
      unfold potential
      rw [hst]
      simp only [List.map_cons, List.sum_cons]
      have hwt : 1 ≤ weight s.nodes s.cur := by unfold weight; rw [hn]; dsimp only; omega
      omega

theorem pop_core {src : Source F} {root : Aabb F} {s s' : State F} {b : Bool} (hc : Core src root s)
    (h : pop s = (s', b)) : Core src root s' := by
  unfold pop at h
  split at h <;> cases h
  · exact hc
  · exact ⟨hc.size, hc.prims, hc.tree⟩

/-- What a successful split does. -/
theorem splitNode_ok {src : Source F} {s s' : State F} {node : Node F} {prims : Array Nat} {first count i : Nat} {b : Bool}
    (h : splitNode src s node prims first count i = .ok (s', b)) :
    ∃ (nd' n1 n2 : Node F) (s1 : State F), (nd'.aabb.min = node.aabb.min.withW (ofBits (BitVec.ofNat 32 0)) ∧
        nd'.aabb.max = node.aabb.max.withW (ofBits (BitVec.ofNat 32 s.nodeCount))) ∧
      makeChild src prims first (i - first) = .ok n1 ∧ makeChild src prims i (count - (i - first)) = .ok n2 ∧
      s.cur < s.nodes.size ∧ s.nodeCount + 1 < s.nodes.size ∧
      s1 = { s with nodes := ((s.nodes.setIfInBounds s.cur nd').setIfInBounds s.nodeCount n1).setIfInBounds (s.nodeCount + 1) n2,
                    prims := prims, nodeCount := s.nodeCount + 2 } ∧
      ((b = true ∧ ∃ big small nbig nsmall, ((big, small, nbig, nsmall) =
          if count - (i - first) > i - first then (s.nodeCount + 1, s.nodeCount, count - (i - first), i - first)
          else (s.nodeCount, s.nodeCount + 1, i - first, count - (i - first))) ∧
          s' = { s1 with cur := big, stack := if nsmall > 2 then small :: s.stack else s.stack }) ∨
       (s', b) = pop s1) := by
  unfold splitNode at h
  simp only [bind, Except.bind] at h
  split at h
  · cases h
  · next na ha =>
    split at h
    · cases h
    · next nb hb =>
      split at h
      · cases h
      · next nodes1 hw1 =>
        split at h
        · cases h
        · next n1 hn1 =>
          split at h
          · cases h
          · next nodes2 hw2 =>
            split at h
            · cases h
            · next n2 hn2 =>
              split at h
              · cases h
              · next nodes3 hw3 =>
                obtain ⟨a1, a2⟩ := setLeftNode_ok ha
                obtain ⟨b1, b2⟩ := setPrimitiveCount_ok hb
                obtain ⟨k1, rfl⟩ := writeNode_ok hw1
                obtain ⟨k2, rfl⟩ := writeNode_ok hw2
                obtain ⟨k3, rfl⟩ := writeNode_ok hw3
                refine ⟨nb, n1, n2, _, ⟨by rw [b2, a1], by rw [b1, a2]⟩, hn1, hn2, k1, by simpa using k3, rfl, ?_⟩
                by_cases hcmp : count - (i - first) > i - first
                · rw [if_pos hcmp] at h
                  dsimp only at h
                  by_cases hbig : count - (i - first) > 2
                  · rw [if_pos hbig] at h
                    cases h
                    left
                    refine ⟨rfl, _, _, _, _, (by rw [if_pos hcmp]), rfl⟩
                  · rw [if_neg hbig] at h
                    right
                    injection h with h
                    exact h.symm
                · rw [if_neg hcmp] at h
                  dsimp only at h
                  by_cases hbig : i - first > 2
                  · rw [if_pos hbig] at h
                    cases h
                    left
                    refine ⟨rfl, _, _, _, _, (by rw [if_neg hcmp]), rfl⟩
                  · rw [if_neg hbig] at h
                    right
                    injection h with h
                    exact h.symm

theorem set3 {α : Type} (a : Array α) (x y z : α) (i j k : Nat) (hi : i < a.size) (hj : j < a.size) (hk : k < a.size)
    (hij : i ≠ j) (hik : i ≠ k) (hjk : j ≠ k) :
    let a' := ((a.setIfInBounds i x).setIfInBounds j y).setIfInBounds k z
    a'[i]? = some x ∧ a'[j]? = some y ∧ a'[k]? = some z ∧ ∀ m, m ≠ i → m ≠ j → m ≠ k → a'[m]? = a[m]? := by
  dsimp only
  refine ⟨?_, ?_, ?_, ?_⟩
  · rw [Array.getElem?_setIfInBounds_ne (Ne.symm hik), Array.getElem?_setIfInBounds_ne (Ne.symm hij)]
    simp [hi]
  · rw [Array.getElem?_setIfInBounds_ne (Ne.symm hjk)]
    simp [hj]
  · simp [hk]
  · intro m h1 h2 h3
    rw [Array.getElem?_setIfInBounds_ne (Ne.symm h3), Array.getElem?_setIfInBounds_ne (Ne.symm h2),
      Array.getElem?_setIfInBounds_ne (Ne.symm h1)]

theorem sum_weight_congr {nodes nodes' : Array (Node F)} (l : List Nat) (h : ∀ k ∈ l, nodes'[k]? = nodes[k]?) :
    (l.map (weight nodes')).sum = (l.map (weight nodes)).sum := by
  congr 1
  apply List.map_congr_left
  intro k hk
  unfold weight
  rw [h k hk]

theorem split_core {src : Source F} {root : Aabb F} {s s' : State F} {nd : Node F} {prims : Array Nat} {i : Nat} {b : Bool}
    (hn : src.count ≤ 2 ^ 31) (hc : Core src root { s with prims := prims }) (hw : Work s)
    (hnd : s.nodes[s.cur]? = some nd) (hi1 : nd.getFirstPrimitive < i)
    (hi2 : i < nd.getFirstPrimitive + nd.getPrimitiveCount)
    (h : splitNode src s nd prims nd.getFirstPrimitive nd.getPrimitiveCount i = .ok (s', b)) :
    Core src root s' ∧ (b = true → Work s' ∧ potential s' + 1 ≤ potential s) := by
  obtain ⟨nd', n1, n2, s1, ⟨m1, m2⟩, c1, c2, hcs, hls, hs1, hres⟩ := splitNode_ok h
  obtain ⟨rs, t1, t2, t3⟩ := hc.tree
  dsimp only at t1 t2 t3
  obtain ⟨hcn, ndx, hx, hleaf⟩ := hw.2 s.cur List.mem_cons_self
  rw [hnd] at hx; cases hx
  have hsize : s.nodes.size = 2 * src.count - 1 := hc.size
  have hmem : s.cur ∈ rs.map (·.1) := by rw [t2.mem_iff, List.mem_range]; exact hcn
  obtain ⟨e, he, hec⟩ := List.mem_map.mp hmem
  have hnd' : s.nodes[e.1]? = some nd := by rw [hec]; exact hnd
  obtain ⟨nd2, hn2, hr⟩ := t1.node_of_mem e he
  rw [hnd'] at hn2; cases hn2
  obtain ⟨r1, r2⟩ := hr hleaf
  have hsub := t1.range_sub e he
  rw [r1, r2] at hsub
  generalize hfirst : nd.getFirstPrimitive = first at *
  generalize hcount : nd.getPrimitiveCount = count at *
  obtain ⟨g1, g2, g3, g4⟩ := makeChild_ok c1 (by omega) (by omega) (by omega)
  obtain ⟨k1, k2, k3, k4⟩ := makeChild_ok c2 (by omega) (by omega) (by omega)
  have hf := node_fields (n := nd') (c := 0) (k := s.nodeCount) (by rw [m1]; rfl) (by rw [m2]; rfl) (by omega) (by omega)
  obtain ⟨q1, q2, q3, q4⟩ := set3 s.nodes nd' n1 n2 s.cur s.nodeCount (s.nodeCount + 1) hcs (by omega) hls (by omega)
    (by omega) (by omega)
  generalize hN : ((s.nodes.setIfInBounds s.cur nd').setIfInBounds s.nodeCount n1).setIfInBounds (s.nodeCount + 1) n2 = N at *
  have hNs : N.size = s.nodes.size := by rw [← hN]; simp
  have hlt : ∀ k ∈ rs.map (·.1), k < s.nodeCount := fun k hk => by
    rw [t2.mem_iff, List.mem_range] at hk; exact hk
  have hsame : ∀ k, k < s.nodeCount → k ≠ s.cur → N[k]? = s.nodes[k]? := fun k hk hkc =>
    q4 k hkc (by omega) (by omega)
  obtain ⟨rs', u1, u2⟩ := t1.split (nodes' := N) (c1 := i - first) (c2 := count - (i - first)) (l := s.nodeCount)
    (nd' := nd') (n1 := n1) (n2 := n2) (t2.nodup_iff.mpr List.nodup_range) hmem hnd hleaf hfirst (by omega)
    (fun k hk hkc => hsame k (hlt k hk) hkc) q1
    (by rw [← Bool.not_eq_true, hf.2.2.2]; simp) hf.2.1 hcn q2 g3 g2 g1 q3 k3 (by rw [k2]; omega) k1
  have hcore : Core src root s1 := by
    refine ⟨?_, ?_, rs', ?_, ?_, ?_⟩
    · rw [hs1]; dsimp only; rw [hNs]; exact hsize
    · rw [hs1]; exact hc.prims
    · rw [hs1]; exact u1
    · rw [hs1]
      refine (u2.map _).trans ?_
      rw [List.map_append]
      refine (List.Perm.append_right _ t2).trans ?_
      dsimp only
      rw [List.range_succ, List.range_succ]
      simp
    · intro g hg
      rw [u2.mem_iff, List.mem_append] at hg
      rw [hs1]
      dsimp only
      rcases hg with hg | hg
      · obtain ⟨ndg, hg1, hg2⟩ := t3 g hg
        by_cases hgc : g.1 = s.cur
        · rw [hgc, hnd] at hg1
          cases hg1
          refine ⟨nd', by rw [hgc]; exact q1, ?_⟩
          have e1 : nd'.aabb.min.xyz = nd.aabb.min.xyz := by rw [m1]; rfl
          have e2 : nd'.aabb.max.xyz = nd.aabb.max.xyz := by rw [m2]; rfl
          unfold Hull
          rw [e1, e2]
          exact hg2
        · exact ⟨ndg, by rw [hsame g.1 (hlt g.1 (List.mem_map_of_mem hg)) hgc]; exact hg1, hg2⟩
      · simp only [List.mem_cons, List.not_mem_nil, or_false] at hg
        rcases hg with rfl | rfl
        · exact ⟨n1, q2, Or.inr ⟨show s.nodeCount ≠ 0 by omega, g4⟩⟩
        · have hii : first + (i - first) = i := by omega
          refine ⟨n2, q3, Or.inr ⟨show s.nodeCount + 1 ≠ 0 by omega, ?_⟩⟩
          dsimp only
          rw [hii]
          exact k4
  have hstk : ∀ k ∈ s.stack, k < s.nodeCount ∧ k ≠ s.cur := by
    intro k hk
    refine ⟨(hw.2 k (List.mem_cons_of_mem _ hk)).1, ?_⟩
    rintro rfl
    exact (List.nodup_cons.mp hw.1).1 hk
  have hstkw : (s.stack.map (weight N)).sum = (s.stack.map (weight s.nodes)).sum :=
    sum_weight_congr _ fun k hk => hsame k (hstk k hk).1 (hstk k hk).2
  have hstkleaf : ∀ k ∈ s.stack, k < s.nodeCount + 2 ∧ ∃ nd, N[k]? = some nd ∧ nd.isLeaf = true := by
    intro k hk
    obtain ⟨a1, a2⟩ := hw.2 k (List.mem_cons_of_mem _ hk)
    refine ⟨by omega, ?_⟩
    rw [hsame k (hstk k hk).1 (hstk k hk).2]
    exact a2
  have wl : weight N s.nodeCount = 2 * (i - first) - 1 := by unfold weight; rw [q2]; dsimp only; rw [g1]
  have wr : weight N (s.nodeCount + 1) = 2 * (count - (i - first)) - 1 := by unfold weight; rw [q3]; dsimp only; rw [k1]
  have wc : weight s.nodes s.cur = 2 * count - 1 := by unfold weight; rw [hnd]; dsimp only; rw [hcount]
  have hnotl : s.nodeCount ∉ s.stack := fun hk => absurd (hstk _ hk).1 (by omega)
  have hnotr : s.nodeCount + 1 ∉ s.stack := fun hk => absurd (hstk _ hk).1 (by omega)
  have hnd0 : s.stack.Nodup := (List.nodup_cons.mp hw.1).2
  rcases hres with ⟨hb, big, small, nbig, nsmall, hsel, hs'⟩ | hpop
  · have hbs : (big = s.nodeCount ∧ small = s.nodeCount + 1) ∨ (big = s.nodeCount + 1 ∧ small = s.nodeCount) := by
      split_ifs at hsel
      · injection hsel with h1 h2; injection h2 with h2 _; exact Or.inr ⟨h1, h2⟩
      · injection hsel with h1 h2; injection h2 with h2 _; exact Or.inl ⟨h1, h2⟩
    rw [hs', hs1]
    refine ⟨?_, fun _ => ⟨?_, ?_⟩⟩
    · have := hcore
      rw [hs1] at this
      exact ⟨this.size, this.prims, this.tree⟩
    · constructor
      · dsimp only
        rcases hbs with ⟨rfl, rfl⟩ | ⟨rfl, rfl⟩ <;> split_ifs <;> simp [hnotl, hnotr, hnd0]
      · dsimp only
        intro k hk
        have hk' : k = s.nodeCount ∨ k = s.nodeCount + 1 ∨ k ∈ s.stack := by
          rw [List.mem_cons] at hk
          rcases hk with rfl | hk
          · rcases hbs with h | h <;> omega
          · split_ifs at hk
            · rw [List.mem_cons] at hk
              rcases hk with rfl | hk
              · rcases hbs with h | h <;> omega
              · exact Or.inr (Or.inr hk)
            · exact Or.inr (Or.inr hk)
        rcases hk' with rfl | rfl | hk'
        · exact ⟨by omega, n1, q2, g3⟩
        · exact ⟨by omega, n2, q3, k3⟩
        · exact hstkleaf k hk'
    · unfold potential
      dsimp only
      rw [List.map_cons, List.map_cons, List.sum_cons, List.sum_cons, wc]
      rcases hbs with ⟨rfl, rfl⟩ | ⟨rfl, rfl⟩ <;> split_ifs <;>
        simp only [List.map_cons, List.sum_cons, hstkw, wl, wr] <;> omega
  · refine ⟨pop_core hcore hpop.symm, fun hb => ?_⟩
    subst hb
    unfold pop at hpop
    rw [hs1] at hpop hcore
    dsimp only at hpop
    split at hpop
    · cases hpop
    · next t rest hst =>
      cases hpop
      rw [hst] at hstkleaf hnd0 hstkw
      refine ⟨⟨hnd0, hstkleaf⟩, ?_⟩
      unfold potential
      dsimp only
      rw [hst]
      simp only [List.map_cons, List.sum_cons] at hstkw ⊢
      rw [wc]
      omega

theorem splitNode_err {src : Source F} {s : State F} {node : Node F} {prims : Array Nat} {first count i : Nat} {e : Fault}
    (h : splitNode src s node prims first count i = .error e) : e = .outOfRange ∨ e = .assertion := by
  unfold splitNode at h
  simp only [bind, Except.bind] at h
  split at h
  · next he => cases h; exact Or.inr (setLeftNode_err he)
  · split at h
    · next he => cases h; exact Or.inr (setPrimitiveCount_err he)
    · split at h
      · next he => cases h; exact Or.inl (writeNode_err he).1
      · split at h
        · next he => cases h; exact makeChild_err he
        · split at h
          · next he => cases h; exact Or.inl (writeNode_err he).1
          · split at h
            · next he => cases h; exact makeChild_err he
            · split at h
              · next he => cases h; exact Or.inl (writeNode_err he).1
              · split at h <;> dsimp only at h <;> split at h <;> cases h

theorem step_spec {src : Source F} {root : Aabb F} {s : State F} (hn : src.count ≤ 2 ^ 31) (hc : Core src root s) (hw : Work s) :
    (∀ s' b, step src s = .ok (s', b) → Core src root s' ∧ (b = true → Work s' ∧ potential s' + 1 ≤ potential s)) ∧
    (∀ e, step src s = .error e → e ≠ .diverges) := by
  obtain ⟨hcn, nd, hnd, hleaf⟩ := hw.2 s.cur List.mem_cons_self
  obtain ⟨rs, t1, t2, t3⟩ := hc.tree
  have hmem : s.cur ∈ rs.map (·.1) := by rw [t2.mem_iff, List.mem_range]; exact hcn
  obtain ⟨e, he, hec⟩ := List.mem_map.mp hmem
  have hnd' : s.nodes[e.1]? = some nd := by rw [hec]; exact hnd
  obtain ⟨nd2, hn2, hr⟩ := t1.node_of_mem e he
  rw [hnd'] at hn2; cases hn2
  obtain ⟨r1, r2⟩ := hr hleaf
  have hsub := t1.range_sub e he
  rw [r1, r2] at hsub
  have hps := hc.prims_size
  unfold step
  rw [hnd]
  dsimp only
  cases hfb : findBestSplitPlane src s.prims nd.getFirstPrimitive nd.getPrimitiveCount with
  | error e =>
    refine ⟨fun s' b h => (by cases h), fun e' h => ?_⟩
    cases h
    rcases findBestSplitPlane_err hfb with rfl | rfl <;> simp
  | ok best =>
    dsimp only
    by_cases hcost : Flt.le (Flt.mul (halfArea nd.aabb.min nd.aabb.max) (ofInt nd.getPrimitiveCount)) best.cost = true
    · rw [if_pos hcost]
      refine ⟨fun s' b h => ?_, fun e' h => by cases h⟩
      injection h with h
      exact ⟨pop_core hc h, fun hb => (pop_work hc hw (by rw [h, hb])).2⟩
    · rw [if_neg hcost]
      have hj : (nd.getFirstPrimitive + nd.getPrimitiveCount + (2 ^ 32 - 1)) % 2 ^ 32 =
          (nd.getFirstPrimitive + nd.getPrimitiveCount) - 1 := by omega
      rw [hj]
      rcases partition_spec src best.axis best.split nd.getFirstPrimitive (nd.getFirstPrimitive + nd.getPrimitiveCount)
        (nd.getPrimitiveCount + 2) nd.getFirstPrimitive (nd.getFirstPrimitive + nd.getPrimitiveCount) s.prims
        le_rfl (by omega) le_rfl (by omega) (by omega) (by omega) (by omega) (fun k h1 h2 => by omega)
        (fun k h1 h2 => by omega) with ⟨⟨i, prims⟩, hp, ok⟩ | ⟨hp, _⟩
      · rw [hp]
        dsimp only
        obtain ⟨σ, hs1, hs2⟩ := ok.perm
        have hc2 : Core src root { s with prims := prims } := hc.permute hcn hnd hleaf σ ok.size hs1 hs2
        have hw2 : Work { s with prims := prims } := hw
        have hlo := ok.lo
        have hhi := ok.hi
        dsimp only at hlo hhi
        by_cases hz : i - nd.getFirstPrimitive = 0 ∨ i - nd.getFirstPrimitive = nd.getPrimitiveCount
        · rw [if_pos hz]
          refine ⟨fun s' b h => ?_, fun e' h => by cases h⟩
          injection h with h
          exact ⟨pop_core hc2 h, fun hb => (pop_work hc2 hw2 (by rw [h, hb])).2⟩
        · rw [if_neg hz]
          refine ⟨fun s' b h => split_core hn hc2 hw hnd (by omega) (by omega) h, fun e' h => ?_⟩
          rcases splitNode_err h with rfl | rfl <;> simp
      · rw [hp]
        refine ⟨fun s' b h => (by cases h), fun e' h => ?_⟩
        cases h
        simp

theorem loop_spec {src : Source F} {root : Aabb F} (hn : src.count ≤ 2 ^ 31) : ∀ (fuel : Nat) (s : State F),
    Core src root s → Work s → potential s ≤ fuel → 1 ≤ fuel →
    (∀ s', loop src fuel s = .ok s' → Core src root s') ∧ (∀ e, loop src fuel s = .error e → e ≠ .diverges) := by
  intro fuel
  induction fuel with
  | zero => intro s _ _ _ h; omega
  | succ fuel ih =>
    intro s hc hw hp _
    obtain ⟨h1, h2⟩ := step_spec hn hc hw
    unfold loop
    cases hs : step src s with
    | error e =>
      refine ⟨fun s' h => (by cases h), fun e' h => ?_⟩
      cases h
      exact h2 e hs
    | ok r =>
      obtain ⟨s1, b⟩ := r
      obtain ⟨c1, c2⟩ := h1 s1 b hs
      cases b with
      | true =>
        obtain ⟨w1, p1⟩ := c2 rfl
        have hpos : 1 ≤ potential s1 := by
          obtain ⟨_, nd, hnn, hl⟩ := w1.2 s1.cur List.mem_cons_self
          have := IsTree.leaf_count_pos hl
          unfold potential
          simp only [List.map_cons, List.sum_cons]
          have : 1 ≤ weight s1.nodes s1.cur := by unfold weight; rw [hnn]; dsimp only; omega
          omega
        exact ih s1 c1 w1 (by omega) (by omega)
      | false =>
        refine ⟨fun s' h => ?_, fun e h => by cases h⟩
        cases h
        exact c1

end Verif.Bvh
