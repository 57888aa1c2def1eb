import Verif.Spec.Bvh
import Mathlib.Tactic.Linarith
import Mathlib.Data.List.Nodup
import Mathlib.Data.List.Range
import Mathlib.Logic.Equiv.Basic

/-! # Helper lemmas about BVH trees and the partition loop -/

set_option linter.unusedSectionVars false

namespace Verif.Spec.IsTree
open Verif Bvh
variable {F : Type} [Flt F] [FltB F] {nodes nodes' : Array (Node F)}

theorem leaf_count_pos {nd : Node F} (h : nd.isLeaf = true) : 1 ≤ nd.getPrimitiveCount := by
  unfold Node.isLeaf at h
  unfold Node.getPrimitiveCount
  by_contra hc
  have : (FltB.toBits nd.aabb.min.w).toNat = 0 := by omega
  have h0 : FltB.toBits nd.aabb.min.w = 0 := by
    apply BitVec.eq_of_toNat_eq; simpa using this
  simp [h0] at h

theorem isLeaf_iff (nd : Node F) : nd.isLeaf = true ↔ nd.getPrimitiveCount ≠ 0 := by
  constructor
  · intro h; have := leaf_count_pos h; omega
  · intro h
    unfold Node.isLeaf
    unfold Node.getPrimitiveCount at h
    simp only [bne_iff_ne, ne_eq]
    intro h0; rw [h0] at h; simp at h

theorem count_pos {id f c : Nat} {rs} (h : IsTree nodes id f c rs) : 1 ≤ c := by
  induction h with
  | leaf h hl => exact leaf_count_pos hl
  | inner _ _ _ _ _ i1 i2 => omega

theorem frame {id f c : Nat} {rs} (h : IsTree nodes id f c rs)
    (hf : ∀ e ∈ rs, nodes'[e.1]? = nodes[e.1]?) : IsTree nodes' id f c rs := by
  induction h with
  | leaf h hl => exact .leaf ((hf _ List.mem_cons_self).trans h) hl
  | inner h hl hlt h1 h2 i1 i2 =>
    refine .inner ((hf _ List.mem_cons_self).trans h) hl hlt (i1 fun e he => hf e ?_) (i2 fun e he => hf e ?_)
    · simp [he]
    · simp [he]

theorem head_mem {id f c : Nat} {rs} (h : IsTree nodes id f c rs) : (id, f, c) ∈ rs := by
  cases h <;> simp

theorem range_sub {id f c : Nat} {rs} (h : IsTree nodes id f c rs) :
    ∀ e ∈ rs, f ≤ e.2.1 ∧ e.2.1 + e.2.2 ≤ f + c ∧ 1 ≤ e.2.2 := by
  induction h with
  | leaf h hl => intro e he; simp only [List.mem_singleton] at he; subst he; exact ⟨le_rfl, le_rfl, leaf_count_pos hl⟩
  | inner h hl hlt h1 h2 i1 i2 =>
    intro e he
    simp only [List.mem_cons, List.mem_append] at he
    have p1 := h1.count_pos
    have p2 := h2.count_pos
    rcases he with rfl | he | he
    · exact ⟨le_rfl, le_rfl, by dsimp only; omega⟩
    · have := i1 e he; omega
    · have := i2 e he; omega

theorem node_of_mem {id f c : Nat} {rs} (h : IsTree nodes id f c rs) :
    ∀ e ∈ rs, ∃ nd, nodes[e.1]? = some nd ∧
      (nd.isLeaf = true → e.2.1 = nd.getFirstPrimitive ∧ e.2.2 = nd.getPrimitiveCount) := by
  induction h with
  | leaf h hl => intro e he; simp only [List.mem_singleton] at he; subst he; exact ⟨_, h, fun _ => ⟨rfl, rfl⟩⟩
  | inner h hl hlt h1 h2 i1 i2 =>
    intro e he
    simp only [List.mem_cons, List.mem_append] at he
    rcases he with rfl | he | he
    · exact ⟨_, h, fun hh => by rw [hl] at hh; cases hh⟩
    · exact i1 e he
    · exact i2 e he

theorem length_bound {id f c : Nat} {rs} (h : IsTree nodes id f c rs) : rs.length + 1 ≤ 2 * c := by
  induction h with
  | leaf h hl => have := leaf_count_pos hl; simp; omega
  | inner h hl hlt h1 h2 i1 i2 => simp; omega

theorem length_leaf {id f c : Nat} {rs} (h : IsTree nodes id f c rs) {nd : Node F} :
    ∀ e ∈ rs, nodes[e.1]? = some nd → nd.isLeaf = true → rs.length + 2 * e.2.2 ≤ 2 * c + 1 := by
  induction h with
  | leaf h hl => intro e he _ _; simp only [List.mem_singleton] at he; subst he; simp; omega
  | inner h hl hlt h1 h2 i1 i2 =>
    intro e he hn hle
    simp only [List.mem_cons, List.mem_append] at he
    have p1 := h1.length_bound
    have p2 := h2.length_bound
    rcases he with rfl | he | he
    · dsimp only at hn; rw [h] at hn; cases hn; rw [hl] at hle; cases hle
    · have := i1 e he hn hle; simp; omega
    · have := i2 e he hn hle; simp; omega

/-- The range of a leaf is inside the range of any other node or apart from it. -/
theorem leaf_range {id f c : Nat} {rs} (h : IsTree nodes id f c rs) {nd : Node F} :
    ∀ e ∈ rs, nodes[e.1]? = some nd → nd.isLeaf = true → ∀ g ∈ rs,
      (g.2.1 ≤ e.2.1 ∧ e.2.1 + e.2.2 ≤ g.2.1 + g.2.2) ∨ e.2.1 + e.2.2 ≤ g.2.1 ∨ g.2.1 + g.2.2 ≤ e.2.1 := by
  induction h with
  | leaf h hl =>
    intro e he _ _ g hg
    simp only [List.mem_singleton] at he hg
    subst he; subst hg; left; omega
  | inner h hl hlt h1 h2 i1 i2 =>
    intro e he hn hle g hg
    simp only [List.mem_cons, List.mem_append] at he hg
    have p1 := h1.range_sub
    have p2 := h2.range_sub
    rcases he with rfl | he | he
    · dsimp only at hn; rw [h] at hn; cases hn; rw [hl] at hle; cases hle
    · have q := p1 e he
      rcases hg with rfl | hg | hg
      · left; dsimp only; omega
      · exact i1 e he hn hle g hg
      · have := p2 g hg; right; left; omega
    · have q := p2 e he
      rcases hg with rfl | hg | hg
      · left; dsimp only; omega
      · have := p1 g hg; right; right; omega
      · exact i2 e he hn hle g hg

/-- Replacing a leaf by an interior node with two new leaves. -/
theorem split {id f c : Nat} {rs} (h : IsTree nodes id f c rs) {cur fc c1 c2 l : Nat} {nd nd' n1 n2 : Node F}
    (hnodup : (rs.map (·.1)).Nodup) (hcur : cur ∈ rs.map (·.1)) (hnd : nodes[cur]? = some nd) (hleaf : nd.isLeaf = true)
    (hfc : nd.getFirstPrimitive = fc) (hcc : nd.getPrimitiveCount = c1 + c2)
    (hsame : ∀ k ∈ rs.map (·.1), k ≠ cur → nodes'[k]? = nodes[k]?)
    (hcur' : nodes'[cur]? = some nd') (hin : nd'.isLeaf = false) (hl : nd'.getLeftNode = l) (hlt : cur < l)
    (h1 : nodes'[l]? = some n1) (hl1 : n1.isLeaf = true) (hf1 : n1.getFirstPrimitive = fc)
    (hc1 : n1.getPrimitiveCount = c1)
    (h2 : nodes'[l + 1]? = some n2) (hl2 : n2.isLeaf = true) (hf2 : n2.getFirstPrimitive = fc + c1)
    (hc2 : n2.getPrimitiveCount = c2) :
    ∃ rs', IsTree nodes' id f c rs' ∧ rs'.Perm (rs ++ [(l, fc, c1), (l + 1, fc + c1, c2)]) := by
  induction h with
  | @leaf id nd0 h hl0 =>
    simp only [List.map_cons, List.map_nil, List.mem_singleton] at hcur
    subst hcur
    rw [h] at hnd; cases hnd
    refine ⟨(cur, fc, c1 + c2) :: ([(l, fc, c1)] ++ [(l + 1, fc + c1, c2)]), ?_, ?_⟩
    · rw [hfc, hcc]
      refine IsTree.inner hcur' hin (by omega) ?_ ?_
      · rw [hl, ← hf1, ← hc1]; exact .leaf h1 hl1
      · rw [hl, ← hf2, ← hc2]; exact .leaf h2 hl2
    · rw [hfc, hcc]; simp
  | @inner id f a b nd0 r1 r2 h hl0 hlt0 t1 t2 i1 i2 =>
    simp only [List.map_cons, List.map_append, List.nodup_cons, List.mem_append, not_or] at hnodup
    obtain ⟨⟨hid1, hid2⟩, hnd12⟩ := hnodup
    rw [List.nodup_append] at hnd12
    obtain ⟨nd1, nd2, hdis⟩ := hnd12
    simp only [List.map_cons, List.map_append, List.mem_cons, List.mem_append] at hcur
    have hne : id ≠ cur := by
      rintro rfl; rw [h] at hnd; cases hnd; rw [hl0] at hleaf; cases hleaf
    have hid' : nodes'[id]? = some nd0 := by rw [hsame id (by simp) hne]; exact h
    rcases hcur with hcur | hcur | hcur
    · exact absurd hcur.symm hne
    · obtain ⟨r1', t1', p1⟩ := i1 nd1 hcur (fun k hk hkc => hsame k (by rw [List.map_cons, List.map_append]; exact List.mem_cons_of_mem _ (List.mem_append_left _ hk)) hkc)
      have t2' : IsTree nodes' (nd0.getLeftNode + 1) (f + a) b r2 := by
        refine t2.frame fun e he => hsame e.1 ?_ ?_
        · simp only [List.map_cons, List.map_append, List.mem_cons, List.mem_append]
          exact Or.inr (Or.inr (List.mem_map_of_mem he))
        · rintro rfl; exact hdis _ hcur _ (List.mem_map_of_mem he) rfl
      refine ⟨_, .inner hid' hl0 hlt0 t1' t2', ?_⟩
      simp only [List.cons_append, List.append_assoc]
      refine List.Perm.cons _ ?_
      refine (List.Perm.append_right r2 p1).trans ?_
      simp only [List.append_assoc]
      exact List.Perm.append_left _ List.perm_append_comm
    · obtain ⟨r2', t2', p2⟩ := i2 nd2 hcur (fun k hk hkc => hsame k (by rw [List.map_cons, List.map_append]; exact List.mem_cons_of_mem _ (List.mem_append_right _ hk)) hkc)
      have t1' : IsTree nodes' nd0.getLeftNode f a r1 := by
        refine t1.frame fun e he => hsame e.1 ?_ ?_
        · simp only [List.map_cons, List.map_append, List.mem_cons, List.mem_append]
          exact Or.inr (Or.inl (List.mem_map_of_mem he))
        · rintro rfl; exact hdis _ (List.mem_map_of_mem he) _ hcur rfl
      refine ⟨_, .inner hid' hl0 hlt0 t1' t2', ?_⟩
      simp only [List.cons_append, List.append_assoc]
      exact List.Perm.cons _ (List.Perm.append_left _ p2)

/-- Root to every node. -/
theorem reach {id f c : Nat} {rs} (h : IsTree nodes id f c rs) (root : Nat) (hr : Reach nodes root id) :
    ∀ e ∈ rs, Reach nodes root e.1 := by
  induction h with
  | leaf h hl => intro e he; simp only [List.mem_singleton] at he; subst he; exact hr
  | inner h hl hlt h1 h2 i1 i2 =>
    intro e he
    simp only [List.mem_cons, List.mem_append] at he
    rcases he with rfl | he | he
    · exact hr
    · exact i1 (.left hr h hl) e he
    · exact i2 (.right hr h hl) e he

theorem subtree {id f c : Nat} {rs} (h : IsTree nodes id f c rs) :
    ∀ e ∈ rs, ∃ rs', IsTree nodes e.1 e.2.1 e.2.2 rs' ∧ ∀ g ∈ rs', g ∈ rs := by
  induction h with
  | leaf h hl =>
    intro e he; simp only [List.mem_singleton] at he; subst he
    exact ⟨_, .leaf h hl, fun g hg => hg⟩
  | inner h hl hlt h1 h2 i1 i2 =>
    intro e he
    simp only [List.mem_cons, List.mem_append] at he
    rcases he with rfl | he | he
    · exact ⟨_, .inner h hl hlt h1 h2, fun g hg => hg⟩
    · obtain ⟨rs', a, b⟩ := i1 e he
      exact ⟨rs', a, fun g hg => List.mem_cons_of_mem _ (List.mem_append_left _ (b g hg))⟩
    · obtain ⟨rs', a, b⟩ := i2 e he
      exact ⟨rs', a, fun g hg => List.mem_cons_of_mem _ (List.mem_append_right _ (b g hg))⟩

/-- The children of an interior node of the tree are in the tree, and their ranges split its range. -/
theorem children {id f c : Nat} {rs} (h : IsTree nodes id f c rs) (e : Nat × Nat × Nat) (he : e ∈ rs) {nd : Node F}
    (hn : nodes[e.1]? = some nd) (hl : nd.isLeaf = false) :
    ∃ c1 c2, c1 + c2 = e.2.2 ∧ 1 ≤ c1 ∧ 1 ≤ c2 ∧ e.1 < nd.getLeftNode ∧ (nd.getLeftNode, e.2.1, c1) ∈ rs ∧
      (nd.getLeftNode + 1, e.2.1 + c1, c2) ∈ rs := by
  obtain ⟨rs', t, hsub⟩ := h.subtree e he
  obtain ⟨id, f, c⟩ := e
  dsimp only at t hn
  cases t with
  | leaf h' hl' => rw [h'] at hn; cases hn; rw [hl] at hl'; cases hl'
  | inner h' hl' hlt h1 h2 =>
    rw [h'] at hn; cases hn
    exact ⟨_, _, rfl, h1.count_pos, h2.count_pos, hlt,
      hsub _ (List.mem_cons_of_mem _ (List.mem_append_left _ h1.head_mem)),
      hsub _ (List.mem_cons_of_mem _ (List.mem_append_right _ h2.head_mem))⟩

theorem reach_mem {id f c : Nat} {rs} (h : IsTree nodes id f c rs) {k : Nat} (hr : Reach nodes id k) :
    ∃ e ∈ rs, e.1 = k := by
  induction hr with
  | here => exact ⟨_, h.head_mem, rfl⟩
  | left _ hn hl ih =>
    obtain ⟨e, he, rfl⟩ := ih
    obtain ⟨c1, c2, _, _, _, _, h1, _⟩ := h.children e he hn hl
    exact ⟨_, h1, rfl⟩
  | right _ hn hl ih =>
    obtain ⟨e, he, rfl⟩ := ih
    obtain ⟨c1, c2, _, _, _, _, _, h2⟩ := h.children e he hn hl
    exact ⟨_, h2, rfl⟩

theorem id_le {id f c : Nat} {rs} (h : IsTree nodes id f c rs) : ∀ e ∈ rs, id ≤ e.1 := by
  induction h with
  | leaf h hl => intro e he; simp only [List.mem_singleton] at he; subst he; exact le_rfl
  | inner h hl hlt h1 h2 i1 i2 =>
    intro e he
    simp only [List.mem_cons, List.mem_append] at he
    rcases he with rfl | he | he
    · exact le_rfl
    · have := i1 e he; omega
    · have := i2 e he; omega

/-- Every position of the range is in some leaf. -/
theorem leaf_exists {id f c : Nat} {rs} (h : IsTree nodes id f c rs) (k : Nat) (h1 : f ≤ k) (h2 : k < f + c) :
    ∃ e ∈ rs, ∃ nd, nodes[e.1]? = some nd ∧ nd.isLeaf = true ∧ e.2.1 ≤ k ∧ k < e.2.1 + e.2.2 := by
  induction h with
  | leaf h hl => exact ⟨_, List.mem_singleton.mpr rfl, _, h, hl, h1, h2⟩
  | @inner id f a b nd r1 r2 h hl hlt t1 t2 i1 i2 =>
    by_cases hk : k < f + a
    · obtain ⟨e, he, r⟩ := i1 h1 hk
      exact ⟨e, List.mem_cons_of_mem _ (List.mem_append_left _ he), r⟩
    · obtain ⟨e, he, r⟩ := i2 (by omega) (by omega)
      exact ⟨e, List.mem_cons_of_mem _ (List.mem_append_right _ he), r⟩

/-- Two leaves holding the same position are the same. -/
theorem leaf_unique {id f c : Nat} {rs} (h : IsTree nodes id f c rs) (k : Nat) :
    ∀ e ∈ rs, ∀ g ∈ rs, ∀ nd nd', nodes[e.1]? = some nd → nd.isLeaf = true → nodes[g.1]? = some nd' → nd'.isLeaf = true →
      e.2.1 ≤ k → k < e.2.1 + e.2.2 → g.2.1 ≤ k → k < g.2.1 + g.2.2 → e = g := by
  induction h with
  | leaf h hl =>
    intro e he g hg _ _ _ _ _ _ _ _ _ _
    rw [List.mem_singleton] at he hg
    rw [he, hg]
  | inner h hl hlt h1 h2 i1 i2 =>
    intro e he g hg nd nd' hn hle hn' hle' a1 a2 a3 a4
    have p1 := h1.range_sub
    have p2 := h2.range_sub
    simp only [List.mem_cons, List.mem_append] at he hg
    rcases he with rfl | he | he
    · dsimp only at hn; rw [h] at hn; cases hn; rw [hl] at hle; cases hle
    · rcases hg with rfl | hg | hg
      · dsimp only at hn'; rw [h] at hn'; cases hn'; rw [hl] at hle'; cases hle'
      · exact i1 e he g hg nd nd' hn hle hn' hle' a1 a2 a3 a4
      · have := p1 e he; have := p2 g hg; omega
    · rcases hg with rfl | hg | hg
      · dsimp only at hn'; rw [h] at hn'; cases hn'; rw [hl] at hle'; cases hle'
      · have := p2 e he; have := p1 g hg; omega
      · exact i2 e he g hg nd nd' hn hle hn' hle' a1 a2 a3 a4

/-- Every node of the tree but the root has a parent in the tree. -/
theorem parent_exists {id f c : Nat} {rs} (h : IsTree nodes id f c rs) :
    ∀ e ∈ rs, e.1 ≠ id → ∃ g ∈ rs, ∃ nd, nodes[g.1]? = some nd ∧ nd.isLeaf = false ∧
      (e.1 = nd.getLeftNode ∨ e.1 = nd.getLeftNode + 1) := by
  induction h with
  | leaf h hl => intro e he hne; rw [List.mem_singleton] at he; subst he; exact absurd rfl hne
  | @inner id f a b nd r1 r2 h hl hlt h1 h2 i1 i2 =>
    intro e he hne
    simp only [List.mem_cons, List.mem_append] at he
    rcases he with rfl | he | he
    · exact absurd rfl hne
    · by_cases hh : e.1 = nd.getLeftNode
      · exact ⟨_, List.mem_cons_self, nd, h, hl, Or.inl hh⟩
      · obtain ⟨g, hg, r⟩ := i1 e he hh
        exact ⟨g, List.mem_cons_of_mem _ (List.mem_append_left _ hg), r⟩
    · by_cases hh : e.1 = nd.getLeftNode + 1
      · exact ⟨_, List.mem_cons_self, nd, h, hl, Or.inr hh⟩
      · obtain ⟨g, hg, r⟩ := i2 e he hh
        exact ⟨g, List.mem_cons_of_mem _ (List.mem_append_right _ hg), r⟩

/-- No node of the tree has two parents in the tree. -/
theorem parent_unique {id f c : Nat} {rs} (h : IsTree nodes id f c rs) (hnd : (rs.map (·.1)).Nodup) (k : Nat) :
    ∀ g ∈ rs, ∀ g' ∈ rs, ∀ nd nd', nodes[g.1]? = some nd → nd.isLeaf = false → nodes[g'.1]? = some nd' →
      nd'.isLeaf = false → (k = nd.getLeftNode ∨ k = nd.getLeftNode + 1) → (k = nd'.getLeftNode ∨ k = nd'.getLeftNode + 1) →
      g = g' := by
  induction h with
  | leaf h hl => intro g hg g' hg' _ _ _ _ _ _ _ _; rw [List.mem_singleton] at hg hg'; rw [hg, hg']
  | @inner id f a b nd0 r1 r2 h hl hlt h1 h2 i1 i2 =>
    simp only [List.map_cons, List.map_append, List.nodup_cons, List.mem_append, not_or] at hnd
    obtain ⟨⟨hid1, hid2⟩, hnd12⟩ := hnd
    rw [List.nodup_append] at hnd12
    obtain ⟨nd1, nd2, hdis⟩ := hnd12
    have m1 : ∀ {j : Nat} {x y : Nat}, (j, x, y) ∈ r1 → j ∈ r1.map (·.1) := fun hm => List.mem_map.mpr ⟨_, hm, rfl⟩
    have m2 : ∀ {j : Nat} {x y : Nat}, (j, x, y) ∈ r2 → j ∈ r2.map (·.1) := fun hm => List.mem_map.mpr ⟨_, hm, rfl⟩
    -- a child of a node of a subtree is in the subtree, and is not its root
    have c1 : ∀ g ∈ r1, ∀ nd, nodes[g.1]? = some nd → nd.isLeaf = false →
        (k = nd.getLeftNode ∨ k = nd.getLeftNode + 1) → k ∈ r1.map (·.1) ∧ k ≠ nd0.getLeftNode := by
      intro g hg nd hn hle hk
      obtain ⟨x, y, _, _, _, hx, l1, l2⟩ := h1.children g hg hn hle
      have := h1.id_le g hg
      rcases hk with rfl | rfl
      · exact ⟨m1 l1, by omega⟩
      · exact ⟨m1 l2, by omega⟩
    have c2 : ∀ g ∈ r2, ∀ nd, nodes[g.1]? = some nd → nd.isLeaf = false →
        (k = nd.getLeftNode ∨ k = nd.getLeftNode + 1) → k ∈ r2.map (·.1) ∧ k ≠ nd0.getLeftNode + 1 := by
      intro g hg nd hn hle hk
      obtain ⟨x, y, _, _, _, hx, l1, l2⟩ := h2.children g hg hn hle
      have := h2.id_le g hg
      rcases hk with rfl | rfl
      · exact ⟨m2 l1, by omega⟩
      · exact ⟨m2 l2, by omega⟩
    have hd : ∀ j, j ∈ r1.map (·.1) → j ∈ r2.map (·.1) → False := fun j h1 h2 => hdis j h1 j h2 rfl
    have hl1 : nd0.getLeftNode ∈ r1.map (·.1) := m1 h1.head_mem
    have hl2 : nd0.getLeftNode + 1 ∈ r2.map (·.1) := m2 h2.head_mem
    -- the root of the whole tree and a node below it have no common child
    have mix : ∀ g, g ∈ r1 ∨ g ∈ r2 → ∀ nd, nodes[g.1]? = some nd → nd.isLeaf = false →
        (k = nd.getLeftNode ∨ k = nd.getLeftNode + 1) → (k = nd0.getLeftNode ∨ k = nd0.getLeftNode + 1) → False := by
      intro g hg nd hn hle hk hk0
      rcases hg with hg | hg
      · obtain ⟨x1, x2⟩ := c1 g hg nd hn hle hk
        rcases hk0 with rfl | rfl
        · exact x2 rfl
        · exact hd _ x1 hl2
      · obtain ⟨x1, x2⟩ := c2 g hg nd hn hle hk
        rcases hk0 with rfl | rfl
        · exact hd _ hl1 x1
        · exact x2 rfl
    intro g hg g' hg' nd nd' hn hle hn' hle' hk hk'
    simp only [List.mem_cons, List.mem_append] at hg hg'
    rcases hg with rfl | hg
    · rcases hg' with rfl | hg'
      · rfl
      · dsimp only at hn; rw [h] at hn; cases hn
        exact (mix g' hg' nd' hn' hle' hk' hk).elim
    · rcases hg' with rfl | hg'
      · dsimp only at hn'; rw [h] at hn'; cases hn'
        exact (mix g hg nd hn hle hk hk').elim
      · rcases hg with hg | hg <;> rcases hg' with hg' | hg'
        · exact i1 nd1 g hg g' hg' nd nd' hn hle hn' hle' hk hk'
        · exact (hd k (c1 g hg nd hn hle hk).1 (c2 g' hg' nd' hn' hle' hk').1).elim
        · exact (hd k (c1 g' hg' nd' hn' hle' hk').1 (c2 g hg nd hn hle hk).1).elim
        · exact i2 nd2 g hg g' hg' nd nd' hn hle hn' hle' hk hk'

end Verif.Spec.IsTree

namespace Verif.Bvh
open FltB
variable {F : Type} [Flt F] [FltB F]

/-! ## Partition -/

/-- The primitive at position `k` lies below the split. -/
def Below (src : Source F) (prims : Array Nat) (axis : Fin 4) (split : F) (k : Nat) : Prop :=
  ∃ it, fetch src prims k = .ok it ∧ Flt.lt (it.centroid.get axis) split = true
/-- The primitive at position `k` does not lie below the split. -/
def NotBelow (src : Source F) (prims : Array Nat) (axis : Fin 4) (split : F) (k : Nat) : Prop :=
  ∃ it, fetch src prims k = .ok it ∧ Flt.lt (it.centroid.get axis) split = false

theorem swap_getElem? (prims : Array Nat) (i j k : Nat) (hi : i < prims.size) (hj : j < prims.size) :
    (prims.swapIfInBounds i j)[k]? = prims[Equiv.swap i j k]? := by
  rw [Array.swapIfInBounds, dif_pos hi, dif_pos hj, Array.getElem?_swap]
  by_cases h1 : k = j
  · subst h1; simp [Equiv.swap_apply_right, Array.getElem?_eq_getElem hi]
  · by_cases h2 : k = i
    · subst h2; simp [Equiv.swap_apply_left, Array.getElem?_eq_getElem hj, Ne.symm h1]
    · rw [Equiv.swap_apply_of_ne_of_ne h2 h1, if_neg (Ne.symm h1), if_neg (Ne.symm h2)]

theorem fetch_swap (src : Source F) (prims : Array Nat) (i j k : Nat) (hi : i < prims.size) (hj : j < prims.size) :
    fetch src (prims.swapIfInBounds i j) k = fetch src prims (Equiv.swap i j k) := by
  unfold fetch; rw [swap_getElem? prims i j k hi hj]

theorem swapIfInBounds_size (prims : Array Nat) (i j : Nat) : (prims.swapIfInBounds i j).size = prims.size := by
  simp

theorem fetch_error (src : Source F) (prims : Array Nat) (k : Nat) {e : Fault} (h : fetch src prims k = .error e) :
    e = .outOfRange := by
  unfold fetch at h
  split at h
  · cases h; rfl
  · split at h
    · cases h; rfl
    · cases h

theorem fetch_lt (src : Source F) (prims : Array Nat) (k : Nat) {it : Item F} (h : fetch src prims k = .ok it) :
    k < prims.size := by
  unfold fetch at h
  split at h
  · cases h
  · next p hp => exact (Array.getElem?_eq_some_iff.mp hp).1

theorem swap_range (i j k lo hi : Nat) (hi1 : lo ≤ i) (hi2 : i < hi) (hj1 : lo ≤ j) (hj2 : j < hi)
    (h1 : lo ≤ k) (h2 : k < hi) : lo ≤ Equiv.swap i j k ∧ Equiv.swap i j k < hi := by
  unfold Equiv.swap
  simp only [Equiv.coe_fn_mk, Equiv.swapCore]
  split_ifs <;> omega

/-- The result of the partition loop on the positions `first .. last - 1`: the positions are rearranged, those below the
split come first, and the returned position separates the two groups. -/
structure PartOk (src : Source F) (axis : Fin 4) (split : F) (prims : Array Nat) (first last : Nat)
    (r : Nat × Array Nat) : Prop where
  lo : first ≤ r.1
  hi : r.1 ≤ last
  size : r.2.size = prims.size
  perm : ∃ σ : Equiv.Perm Nat, (∀ k, k < first ∨ last ≤ k → σ k = k) ∧ ∀ k, r.2[k]? = prims[σ k]?
  below : ∀ k, first ≤ k → k < r.1 → Below src r.2 axis split k
  above : ∀ k, r.1 ≤ k → k < last → NotBelow src r.2 axis split k

/-- The loop of the partition either ends as it should, or leaves the index array; the latter when the range starts at
position zero and has nothing below the split, or when a primitive is missing. -/
theorem partition_spec (src : Source F) (axis : Fin 4) (split : F) (first last : Nat) :
    ∀ (fuel i d : Nat) (prims : Array Nat), first ≤ i → i ≤ d → d ≤ last → 1 ≤ d → last ≤ prims.size →
      prims.size < 2 ^ 32 → d - i + 2 ≤ fuel →
      (∀ k, first ≤ k → k < i → Below src prims axis split k) →
      (∀ k, d ≤ k → k < last → NotBelow src prims axis split k) →
      (∃ r, partition src axis split fuel i (d - 1) prims = .ok r ∧ PartOk src axis split prims first last r) ∨
      (partition src axis split fuel i (d - 1) prims = .error .outOfRange ∧
        ((first = 0 ∧ ∀ k, k < last → NotBelow src prims axis split k) ∨
          ∃ k, first ≤ k ∧ k < last ∧ fetch src prims k = .error .outOfRange)) := by
  intro fuel
  induction fuel with
  | zero => intro i d prims; omega
  | succ fuel ih =>
    intro i d prims hfi hid hdl hd hl hsz hfuel hb hn
    unfold partition
    by_cases hc : i ≤ d - 1
    · rw [if_pos hc]
      cases hf : fetch src prims i with
      | error e =>
        right
        have := fetch_error src prims i hf
        subst this
        exact ⟨rfl, Or.inr ⟨i, hfi, by omega, hf⟩⟩
      | ok it =>
        dsimp only
        by_cases hlt : Flt.lt (it.centroid.get axis) split = true
        · rw [if_pos hlt]
          refine ih (i + 1) d prims (by omega) (by omega) hdl hd hl hsz (by omega) ?_ hn
          intro k h1 h2
          by_cases hk : k = i
          · subst hk; exact ⟨it, hf, hlt⟩
          · exact hb k h1 (by omega)
        · rw [if_neg hlt, if_pos (by omega)]
          have hlt' : Flt.lt (it.centroid.get axis) split = false := by simpa using hlt
          have hi : i < prims.size := by omega
          have hj : d - 1 < prims.size := by omega
          by_cases hd2 : 2 ≤ d
          · have hj' : (d - 1 + (2 ^ 32 - 1)) % 2 ^ 32 = (d - 1) - 1 := by omega
            rw [hj']
            have hsw : ∀ k, d - 1 ≠ k → i ≠ k → fetch src (prims.swapIfInBounds i (d - 1)) k = fetch src prims k := by
              intro k h1 h2
              rw [fetch_swap src prims i (d - 1) k hi hj, Equiv.swap_apply_of_ne_of_ne (Ne.symm h2) (Ne.symm h1)]
            have hnew : fetch src (prims.swapIfInBounds i (d - 1)) (d - 1) = .ok it := by
              rw [fetch_swap src prims i (d - 1) _ hi hj, Equiv.swap_apply_right]; exact hf
            rcases ih i (d - 1) (prims.swapIfInBounds i (d - 1)) hfi hc (by omega) (by omega) (by simpa using hl)
              (by simpa using hsz) (by omega)
              (fun k h1 h2 => by
                obtain ⟨it', h3, h4⟩ := hb k h1 h2
                exact ⟨it', by rw [hsw k (by omega) (by omega)]; exact h3, h4⟩)
              (fun k h1 h2 => by
                by_cases hk : k = d - 1
                · subst hk; exact ⟨it, hnew, hlt'⟩
                · obtain ⟨it', h3, h4⟩ := hn k (by omega) h2
                  exact ⟨it', by rw [hsw k (by omega) (by omega)]; exact h3, h4⟩) with ⟨r, h1, h2⟩ | ⟨h1, h2⟩
            · left
              refine ⟨r, h1, h2.lo, h2.hi, by rw [h2.size]; simp, ?_, h2.below, h2.above⟩
              obtain ⟨σ, hs1, hs2⟩ := h2.perm
              refine ⟨σ.trans (Equiv.swap i (d - 1)), ?_, ?_⟩
              · intro k hk
                simp only [Equiv.trans_apply]
                rw [hs1 k hk]
                exact Equiv.swap_apply_of_ne_of_ne (by omega) (by omega)
              · intro k
                rw [hs2 k, swap_getElem? prims i (d - 1) _ hi hj, Equiv.trans_apply]
            · right
              refine ⟨h1, ?_⟩
              rcases h2 with ⟨h3, h4⟩ | ⟨k, h3, h4, h5⟩
              · left
                refine ⟨h3, fun k hk => ?_⟩
                have hr := swap_range i (d - 1) k 0 last (by omega) (by omega) (by omega) (by omega) (by omega) hk
                obtain ⟨it', h6, h7⟩ := h4 (Equiv.swap i (d - 1) k) hr.2
                rw [fetch_swap src prims i (d - 1) _ hi hj, Equiv.swap_apply_self] at h6
                exact ⟨it', h6, h7⟩
              · right
                have hr := swap_range i (d - 1) k first last hfi (by omega) (by omega) (by omega) h3 h4
                rw [fetch_swap src prims i (d - 1) _ hi hj] at h5
                exact ⟨_, hr.1, hr.2, h5⟩
          · have hd1 : d = 1 := by omega
            have hi0 : i = 0 := by omega
            subst hd1; subst hi0
            right
            refine ⟨?_, Or.inl ⟨by omega, fun k hk => ?_⟩⟩
            · obtain ⟨fuel, rfl⟩ : ∃ m, fuel = m + 1 := ⟨fuel - 1, by omega⟩
              unfold partition
              rw [if_pos (by omega), fetch_swap src prims 0 (1 - 1) 0 hi hj, Equiv.swap_apply_left, hf]
              dsimp only
              rw [if_neg hlt, if_neg (by rw [swapIfInBounds_size]; omega)]
            · by_cases hk0 : k = 0
              · subst hk0; exact ⟨it, hf, hlt'⟩
              · exact hn k (by omega) hk
    · rw [if_neg hc]
      left
      refine ⟨_, rfl, hfi, by dsimp only; omega, rfl, ⟨Equiv.refl _, fun _ _ => rfl, fun _ => rfl⟩, hb, ?_⟩
      intro k h1 h2
      exact hn k (by dsimp only at h1; omega) h2

/-- With nothing below the split, a range that starts at position zero makes the loop leave the array. -/
theorem partition_underflow (src : Source F) (axis : Fin 4) (split : F) (count : Nat) (prims : Array Nat) (hc : 1 ≤ count)
    (hsz : count ≤ prims.size) (h32 : prims.size < 2 ^ 32)
    (hn : ∀ k, k < count → NotBelow src prims axis split k) :
    partition src axis split (count + 2) 0 (0 + count - 1) prims = .error .outOfRange := by
  have gen : ∀ (d fuel : Nat) (prims : Array Nat), 1 ≤ d → d ≤ prims.size → prims.size < 2 ^ 32 → d + 1 ≤ fuel →
      (∀ k, k < d → NotBelow src prims axis split k) → partition src axis split fuel 0 (d - 1) prims = .error .outOfRange := by
    intro d
    induction d with
    | zero => intro fuel prims h; omega
    | succ d ih =>
      intro fuel prims _ hs h32 hf hn
      obtain ⟨fuel, rfl⟩ : ∃ m, fuel = m + 1 := ⟨fuel - 1, by omega⟩
      obtain ⟨it, h1, h2⟩ := hn 0 (by omega)
      unfold partition
      rw [if_pos (by omega), h1]
      dsimp only
      rw [h2, if_neg (by simp), if_pos (by omega)]
      have hnb : ∀ k, k < d + 1 → NotBelow src (prims.swapIfInBounds 0 (d + 1 - 1)) axis split k := by
        intro k hk
        obtain ⟨it', g1, g2⟩ := hn (Equiv.swap 0 (d + 1 - 1) k) (by
          rw [Equiv.swap_apply_def]; split <;> [omega; split <;> omega])
        exact ⟨it', by rw [fetch_swap _ _ _ _ _ (by omega) (by omega)]; exact g1, g2⟩
      by_cases hd : d = 0
      · subst hd
        have hm : ((0 + 1 - 1 : Nat) + (2 ^ 32 - 1)) % 2 ^ 32 = 2 ^ 32 - 1 := by omega
        rw [hm]
        obtain ⟨fuel, rfl⟩ : ∃ m, fuel = m + 1 := ⟨fuel - 1, by omega⟩
        obtain ⟨it', g1, g2⟩ := hnb 0 (by omega)
        unfold partition
        rw [if_pos (by omega), g1]
        dsimp only
        rw [g2, if_neg (by simp), if_neg]
        rw [swapIfInBounds_size]
        omega
      · have hm : (d + 1 - 1 + (2 ^ 32 - 1)) % 2 ^ 32 = d - 1 := by omega
        rw [hm]
        exact ih fuel _ (by omega) (by rw [swapIfInBounds_size]; omega) (by rw [swapIfInBounds_size]; omega) (by omega)
          fun k hk => hnb k (by omega)
  have := gen count (count + 2) prims hc hsz h32 (by omega) hn
  rwa [Nat.zero_add]

end Verif.Bvh
