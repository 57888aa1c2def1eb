import Verif.Props.Bvh
import Verif.Proofs.Geom

/-!
# Bounding volume hierarchy: bounds

C47.
-/

set_option linter.unusedSectionVars false

namespace Verif
open Bvh Spec FltB
variable {F : Type} [Flt F] [FltB F]

theorem under_iff {t : Bvh.Tree F} {n : Nat} {rs} (h : IsTree t.nodes 0 0 n rs) (e : Nat × Nat × Nat) (he : e ∈ rs) (p : Nat) :
    Under t e.1 p ↔ ∃ k, e.2.1 ≤ k ∧ k < e.2.1 + e.2.2 ∧ t.prims[k]? = some p := by
  obtain ⟨rs', h', hsub⟩ := h.subtree e he
  constructor
  · rintro ⟨l, nd, k, h1, h2, h3, h4, h5, h6⟩
    obtain ⟨g, hg, rfl⟩ := h'.reach_mem h1
    obtain ⟨nd', a1, a2⟩ := h'.node_of_mem g hg
    rw [h2] at a1; cases a1
    obtain ⟨b1, b2⟩ := a2 h3
    have := h'.range_sub g hg
    exact ⟨k, by omega, by omega, h6⟩
  · rintro ⟨k, h1, h2, h3⟩
    obtain ⟨g, hg, nd, a1, a2, a3, a4⟩ := h'.leaf_exists k h1 h2
    obtain ⟨nd', b1, b2⟩ := h'.node_of_mem g hg
    rw [a1] at b1; cases b1
    obtain ⟨c1, c2⟩ := b2 a2
    exact ⟨g.1, nd, k, h'.reach _ .here g hg, a1, a2, by omega, by omega, h3⟩

/-- What the boxes of a built tree are computed from. -/
theorem node_hull {old : Bvh.Tree F} {src : Source F} {root : Aabb F} (hn : src.count ≤ 2 ^ 31) {t : Bvh.Tree F}
    (h : recreate old src root = .ok t) {id : Nat} {nd : Node F} (hid : t.nodes[id]? = some nd) :
    (id = 0 → nd.aabb.min.xyz = root.min.xyz ∧ nd.aabb.max.xyz = root.max.xyz) ∧
    (id ≠ 0 → ∃ its : List (Item F), (∀ it, it ∈ its ↔ ∃ p, Under t id p ∧ src.item p = some it) ∧
      (nd.aabb.min.xyz, nd.aabb.max.xyz) = corners3 (cornersOf its emptyCorners)) := by
  obtain ⟨_, _, rs, t1, t2, t3, t4⟩ := (recreate_result old src root hn).2 t h
  have hlt : id < t.nodes.size := (Array.getElem?_eq_some_iff.mp hid).1
  obtain ⟨e, he, rfl⟩ := List.mem_map.mp ((t2.mem_iff (a := id)).mpr (List.mem_range.mpr hlt))
  obtain ⟨nd', a1, a2⟩ := t4 e he
  rw [hid] at a1; cases a1
  rcases a2 with ⟨b1, b2⟩ | ⟨b1, its, b2, b3⟩
  · exact ⟨fun _ => b2, fun h0 => absurd b1 h0⟩
  · refine ⟨fun h0 => absurd h0 b1, fun _ => ⟨its, fun it => ?_, b3⟩⟩
    have hm : it ∈ its ↔ some it ∈ (List.range' e.2.1 e.2.2).map (itemAt src t.prims) := by
      rw [← b2.mem_iff, List.mem_map]
      constructor
      · intro h; exact ⟨it, h, rfl⟩
      · rintro ⟨x, h1, h2⟩; cases h2; exact h1
    rw [hm, List.mem_map]
    constructor
    · rintro ⟨k, h1, h2⟩
      rw [List.mem_range'_1] at h1
      unfold itemAt at h2
      cases hp : t.prims[k]? with
      | none => rw [hp] at h2; cases h2
      | some p =>
        rw [hp] at h2
        exact ⟨p, (under_iff t1 e he p).mpr ⟨k, h1.1, h1.2, hp⟩, h2⟩
    · rintro ⟨p, h1, h2⟩
      obtain ⟨k, c1, c2, c3⟩ := (under_iff t1 e he p).mp h1
      refine ⟨k, List.mem_range'_1.mpr ⟨c1, c2⟩, ?_⟩
      unfold itemAt
      rw [c3]
      exact h2

theorem under_child {t : Bvh.Tree F} {id p c : Nat} {nd : Node F} (hid : t.nodes[id]? = some nd) (hl : nd.isLeaf = false)
    (hc : c = nd.getLeftNode ∨ c = nd.getLeftNode + 1) (h : Under t c p) : Under t id p := by
  obtain ⟨l, ndl, k, h1, h2⟩ := h
  refine ⟨l, ndl, k, ?_, h2⟩
  clear h2
  induction h1 with
  | here => rcases hc with rfl | rfl
            · exact .left .here hid hl
            · exact .right .here hid hl
  | left _ a b ih => exact .left ih a b
  | right _ a b ih => exact .right ih a b

section
variable [Valued F]

theorem le3_refl (p : V3 ℝ) : Le3 p p := ⟨le_rfl, le_rfl, le_rfl⟩
theorem le3_trans {p q r : V3 ℝ} (h : Le3 p q) (h' : Le3 q r) : Le3 p r :=
  ⟨h.1.trans h'.1, h.2.1.trans h'.2.1, h.2.2.trans h'.2.2⟩

theorem fold_min (ps : List (V4 F)) : ∀ s : V4 F, Ok3 s → (∀ q ∈ ps, Ok3 q) →
    Ok3 (ps.foldl Simd.min s) ∧ Le3 (pt (ps.foldl Simd.min s)) (pt s) ∧
    (∀ q ∈ ps, Le3 (pt (ps.foldl Simd.min s)) (pt q)) ∧
    ∀ b, Le3 b (pt s) → (∀ q ∈ ps, Le3 b (pt q)) → Le3 b (pt (ps.foldl Simd.min s)) := by
  induction ps with
  | nil => intro s hs _; exact ⟨hs, le3_refl _, by simp, fun b h _ => h⟩
  | cons q ps ih =>
    intro s hs hq
    have hm := pt_min hs (hq q List.mem_cons_self)
    obtain ⟨i1, i2, i3, i4⟩ := ih (Simd.min s q) hm.1 fun r hr => hq r (List.mem_cons_of_mem _ hr)
    have e1 : Le3 (pt (Simd.min s q)) (pt s) := by
      rw [hm.2]; exact ⟨min_le_left _ _, min_le_left _ _, min_le_left _ _⟩
    have e2 : Le3 (pt (Simd.min s q)) (pt q) := by
      rw [hm.2]; exact ⟨min_le_right _ _, min_le_right _ _, min_le_right _ _⟩
    rw [List.foldl_cons]
    refine ⟨i1, le3_trans i2 e1, ?_, ?_⟩
    · intro r hr
      rcases List.mem_cons.mp hr with rfl | hr
      · exact le3_trans i2 e2
      · exact i3 r hr
    · intro b h1 h2
      refine i4 b ?_ fun r hr => h2 r (List.mem_cons_of_mem _ hr)
      have h3 := h2 q List.mem_cons_self
      rw [hm.2]
      exact ⟨le_min h1.1 h3.1, le_min h1.2.1 h3.2.1, le_min h1.2.2 h3.2.2⟩

theorem fold_max (ps : List (V4 F)) : ∀ s : V4 F, Ok3 s → (∀ q ∈ ps, Ok3 q) →
    Ok3 (ps.foldl Simd.max s) ∧ Le3 (pt s) (pt (ps.foldl Simd.max s)) ∧
    (∀ q ∈ ps, Le3 (pt q) (pt (ps.foldl Simd.max s))) ∧
    ∀ b, Le3 (pt s) b → (∀ q ∈ ps, Le3 (pt q) b) → Le3 (pt (ps.foldl Simd.max s)) b := by
  induction ps with
  | nil => intro s hs _; exact ⟨hs, le3_refl _, by simp, fun b h _ => h⟩
  | cons q ps ih =>
    intro s hs hq
    have hm := pt_max hs (hq q List.mem_cons_self)
    obtain ⟨i1, i2, i3, i4⟩ := ih (Simd.max s q) hm.1 fun r hr => hq r (List.mem_cons_of_mem _ hr)
    have e1 : Le3 (pt s) (pt (Simd.max s q)) := by
      rw [hm.2]; exact ⟨le_max_left _ _, le_max_left _ _, le_max_left _ _⟩
    have e2 : Le3 (pt q) (pt (Simd.max s q)) := by
      rw [hm.2]; exact ⟨le_max_right _ _, le_max_right _ _, le_max_right _ _⟩
    rw [List.foldl_cons]
    refine ⟨i1, le3_trans e1 i2, ?_, ?_⟩
    · intro r hr
      rcases List.mem_cons.mp hr with rfl | hr
      · exact le3_trans e2 i2
      · exact i3 r hr
    · intro b h1 h2
      refine i4 b ?_ fun r hr => h2 r (List.mem_cons_of_mem _ hr)
      have h3 := h2 q List.mem_cons_self
      rw [hm.2]
      exact ⟨max_le h1.1 h3.1, max_le h1.2.1 h3.2.1, max_le h1.2.2 h3.2.2⟩

theorem cornersOf_eq (its : List (Item F)) : ∀ c : V4 F × V4 F,
    cornersOf its c = ((its.flatMap (·.mins)).foldl Simd.min c.1, (its.flatMap (·.maxs)).foldl Simd.max c.2) := by
  induction its with
  | nil => intro c; rfl
  | cons it its ih =>
    intro c
    show cornersOf its (growItem it c) = _
    rw [ih]
    simp only [growItem, List.flatMap_cons, List.foldl_append]

/-- The largest finite value and its negation can be compared. -/
def OkLimits (F : Type) [Flt F] [Valued F] : Prop := Valued.ok (fltMax : F) ∧ Valued.ok (minusFltMax : F)

theorem corners_bounds (hfm : OkLimits F) {its : List (Item F)} {lo hi : V4 F}
    (hok : ∀ it ∈ its, (∀ q ∈ it.mins, Ok3 q) ∧ ∀ q ∈ it.maxs, Ok3 q)
    (h : (lo.xyz, hi.xyz) = corners3 (cornersOf its emptyCorners)) :
    (Ok3 lo ∧ Ok3 hi) ∧ (∀ it ∈ its, ∀ q ∈ it.mins, Le3 (pt lo) (pt q)) ∧
    (∀ it ∈ its, ∀ q ∈ it.maxs, Le3 (pt q) (pt hi)) ∧
    (∀ b, Le3 b (pt (V4.splat (fltMax : F))) → (∀ it ∈ its, ∀ q ∈ it.mins, Le3 b (pt q)) → Le3 b (pt lo)) ∧
    (∀ b, Le3 (pt (V4.splat (minusFltMax : F))) b → (∀ it ∈ its, ∀ q ∈ it.maxs, Le3 (pt q) b) → Le3 (pt hi) b) := by
  rw [cornersOf_eq] at h
  unfold corners3 at h
  injection h with h1 h2
  have hpt : ∀ a b : V4 F, a.xyz = b.xyz → (pt a = pt b ∧ (Ok3 b → Ok3 a)) := by
    rintro ⟨a1, a2, a3, a4⟩ ⟨b1, b2, b3, b4⟩ h
    simp only [V4.xyz] at h
    injection h with h1 h2 h3
    subst h1 h2 h3
    exact ⟨rfl, id⟩
  obtain ⟨a1, a2⟩ := hpt _ _ h1
  obtain ⟨b1, b2⟩ := hpt _ _ h2
  have f1 := fold_min (its.flatMap (·.mins)) (emptyCorners (F := F)).1 ⟨hfm.1, hfm.1, hfm.1⟩ (by
    intro q hq
    obtain ⟨it, hi, hq⟩ := List.mem_flatMap.mp hq
    exact (hok it hi).1 q hq)
  have f2 := fold_max (its.flatMap (·.maxs)) (emptyCorners (F := F)).2 ⟨hfm.2, hfm.2, hfm.2⟩ (by
    intro q hq
    obtain ⟨it, hi, hq⟩ := List.mem_flatMap.mp hq
    exact (hok it hi).2 q hq)
  rw [a1, b1]
  refine ⟨⟨a2 f1.1, b2 f2.1⟩, fun it hi q hq => f1.2.2.1 q (List.mem_flatMap.mpr ⟨it, hi, hq⟩),
    fun it hi q hq => f2.2.2.1 q (List.mem_flatMap.mpr ⟨it, hi, hq⟩), fun b h3 h4 => f1.2.2.2 b h3 ?_,
    fun b h3 h4 => f2.2.2.2 b h3 ?_⟩
  · intro q hq
    obtain ⟨it, hi, hq⟩ := List.mem_flatMap.mp hq
    exact h4 it hi q hq
  · intro q hq
    obtain ⟨it, hi, hq⟩ := List.mem_flatMap.mp hq
    exact h4 it hi q hq

theorem box_sub {l h l' h' : V3 ℝ} (h1 : Le3 l' l) (h2 : Le3 h h') : Box l h ⊆ Box l' h' := by
  rintro p ⟨⟨a1, a2⟩, ⟨b1, b2⟩, c1, c2⟩
  exact ⟨⟨h1.1.trans a1, a2.trans h2.1⟩, ⟨h1.2.1.trans b1, b2.trans h2.2.1⟩, h1.2.2.trans c1, c2.trans h2.2.2⟩

/-- The boxes a tree is built from: the array of boxes, or the corners of the triangles. `PrimIn src p lo hi`: every
point primitive `p` adds to a box is between `lo` and `hi`. -/
def PrimIn (src : Source F) (p : Nat) (lo hi : V3 ℝ) : Prop :=
  ∀ it, src.item p = some it → (∀ q ∈ it.mins, Le3 lo (pt q)) ∧ ∀ q ∈ it.maxs, Le3 (pt q) hi

/-- Bounds of the nodes of a built tree, for both kinds of primitives. -/
theorem node_bounds (hfm : OkLimits F) {old : Bvh.Tree F} {src : Source F} {root : Aabb F} (hn : src.count ≤ 2 ^ 31)
    {t : Bvh.Tree F} (h : recreate old src root = .ok t)
    (hok : ∀ p it, src.item p = some it → (∀ q ∈ it.mins, Ok3 q) ∧ ∀ q ∈ it.maxs, Ok3 q) {id : Nat} {nd : Node F}
    (hid : t.nodes[id]? = some nd) :
    (id = 0 → nd.aabb.min.xyz = root.min.xyz ∧ nd.aabb.max.xyz = root.max.xyz) ∧
    (id ≠ 0 → OkBox nd.aabb ∧ (∀ p, Under t id p → PrimIn src p (pt nd.aabb.min) (pt nd.aabb.max)) ∧
      ∀ lo hi, Le3 lo (pt (V4.splat (fltMax : F))) → Le3 (pt (V4.splat (minusFltMax : F))) hi →
        (∀ p, Under t id p → PrimIn src p lo hi) → Le3 lo (pt nd.aabb.min) ∧ Le3 (pt nd.aabb.max) hi) := by
  obtain ⟨h1, h2⟩ := node_hull hn h hid
  refine ⟨h1, fun h0 => ?_⟩
  obtain ⟨its, h3, h4⟩ := h2 h0
  obtain ⟨b1, b2, b3, b4, b5⟩ := corners_bounds hfm (fun it hit => by
    obtain ⟨p, _, hp⟩ := (h3 it).mp hit
    exact hok p it hp) h4
  refine ⟨b1, fun p hp it hit => ?_, fun lo hi l1 l2 hp => ⟨b4 lo l1 ?_, b5 hi l2 ?_⟩⟩
  · have := (h3 it).mpr ⟨p, hp, hit⟩
    exact ⟨b2 it this, b3 it this⟩
  · intro it hit
    obtain ⟨p, h5, h6⟩ := (h3 it).mp hit
    exact (hp p h5 it h6).1
  · intro it hit
    obtain ⟨p, h5, h6⟩ := (h3 it).mp hit
    exact (hp p h5 it h6).2

theorem pt_of_xyz {a b : V4 F} (h : a.xyz = b.xyz) : pt a = pt b := by
  obtain ⟨a1, a2, a3, a4⟩ := a
  obtain ⟨b1, b2, b3, b4⟩ := b
  simp only [V4.xyz] at h
  injection h with h1 h2 h3
  subst h1 h2 h3
  rfl

/-- The child of a node: the box of a child is inside the box of its parent (for the first node, whose box is given by
the caller: when that box holds all the primitives and the limits are not exceeded). -/
theorem child_bounds (hfm : OkLimits F) {old : Bvh.Tree F} {src : Source F} {root : Aabb F} (hn : src.count ≤ 2 ^ 31)
    {t : Bvh.Tree F} (h : recreate old src root = .ok t)
    (hok : ∀ p it, src.item p = some it → (∀ q ∈ it.mins, Ok3 q) ∧ ∀ q ∈ it.maxs, Ok3 q) {id c : Nat} {nd ndc : Node F}
    (hid : t.nodes[id]? = some nd) (hl : nd.isLeaf = false) (hc : c = nd.getLeftNode ∨ c = nd.getLeftNode + 1)
    (hcd : t.nodes[c]? = some ndc)
    (hroot : id = 0 → Le3 (pt root.min) (pt (V4.splat (fltMax : F))) ∧ Le3 (pt (V4.splat (minusFltMax : F))) (pt root.max) ∧
      ∀ p, PrimIn src p (pt root.min) (pt root.max)) :
    Le3 (pt nd.aabb.min) (pt ndc.aabb.min) ∧ Le3 (pt ndc.aabb.max) (pt nd.aabb.max) := by
  have hc0 : c ≠ 0 := by
    have := (bvh_tree old src root hn t h).2.2.1 id nd hid hl
    omega
  obtain ⟨-, n2⟩ := node_bounds hfm hn h hok hcd
  obtain ⟨-, -, n3⟩ := n2 hc0
  by_cases h0 : id = 0
  · obtain ⟨r1, r2, r3⟩ := hroot h0
    obtain ⟨e1, e2⟩ := (node_bounds hfm hn h hok hid).1 h0
    rw [pt_of_xyz e1, pt_of_xyz e2]
    exact n3 _ _ r1 r2 fun p _ => r3 p
  · obtain ⟨its, g3, g4⟩ := (node_hull hn h hid).2 h0
    obtain ⟨-, m2, -⟩ := (node_bounds hfm hn h hok hid).2 h0
    rw [cornersOf_eq] at g4
    unfold corners3 at g4
    injection g4 with g5 g6
    have f1 := fold_min (its.flatMap (·.mins)) (emptyCorners (F := F)).1 ⟨hfm.1, hfm.1, hfm.1⟩ (by
      intro q hq
      obtain ⟨it, hi, hq⟩ := List.mem_flatMap.mp hq
      obtain ⟨p, _, hp⟩ := (g3 it).mp hi
      exact (hok p it hp).1 q hq)
    have f2 := fold_max (its.flatMap (·.maxs)) (emptyCorners (F := F)).2 ⟨hfm.2, hfm.2, hfm.2⟩ (by
      intro q hq
      obtain ⟨it, hi, hq⟩ := List.mem_flatMap.mp hq
      obtain ⟨p, _, hp⟩ := (g3 it).mp hi
      exact (hok p it hp).2 q hq)
    refine n3 _ _ ?_ ?_ fun p hp => m2 p (under_child hid hl hc hp)
    · rw [pt_of_xyz g5]; exact f1.2.1
    · rw [pt_of_xyz g6]; exact f2.2.1

end

theorem okLimits_f32 : OkLimits F32 := by
  unfold OkLimits
  show F32.isNaN _ = false ∧ F32.isNaN _ = false
  decide +kernel

theorem okLimits_real : OkLimits ℝ := ⟨trivial, trivial⟩

section
variable [Valued F]

/-- No coordinate of the box is beyond the largest finite values (that is, none is infinite). -/
def Limited (b : Aabb F) : Prop :=
  Le3 (pt (V4.splat (minusFltMax : F))) (pt b.min) ∧ Le3 (pt b.max) (pt (V4.splat (fltMax : F)))

theorem mem_iff_box {lo hi p : V3 ℝ} : p ∈ Box lo hi ↔ Le3 lo p ∧ Le3 p hi := by
  constructor
  · rintro ⟨⟨a1, a2⟩, ⟨b1, b2⟩, c1, c2⟩; exact ⟨⟨a1, b1, c1⟩, a2, b2, c2⟩
  · rintro ⟨⟨a1, b1, c1⟩, a2, b2, c2⟩; exact ⟨⟨a1, a2⟩, ⟨b1, b2⟩, c1, c2⟩

theorem boxes_item {boxes : Array (Aabb F)} {cents : Option (Array (V4 F))} {p : Nat} {it : Item F}
    (h : (Source.ofAabbs boxes cents).item p = some it) :
    ∃ b, boxes[p]? = some b ∧ it.mins = [b.min] ∧ it.maxs = [b.max] := by
  unfold Source.ofAabbs at h
  dsimp only at h
  split at h
  · next b hb => cases h; exact ⟨b, hb, rfl, rfl⟩
  · next b cs hb =>
    rw [Option.map_eq_some_iff] at h
    obtain ⟨c, _, rfl⟩ := h
    exact ⟨b, hb, rfl, rfl⟩
  · cases h

theorem tris_item {tris : Array (Triangle F)} {cents : Option (Array (V4 F))} {p : Nat} {it : Item F}
    (h : (Source.ofTriangles tris cents).item p = some it) :
    ∃ b, tris[p]? = some b ∧ it.mins = [b.p0, b.p1, b.p2] ∧ it.maxs = [b.p0, b.p1, b.p2] := by
  unfold Source.ofTriangles at h
  dsimp only at h
  split at h
  · next b hb => cases h; exact ⟨b, hb, rfl, rfl⟩
  · next b cs hb =>
    rw [Option.map_eq_some_iff] at h
    obtain ⟨c, _, rfl⟩ := h
    exact ⟨b, hb, rfl, rfl⟩
  · cases h

/-- In a built tree every primitive has an item: the build has read it. -/
theorem under_item {old : Bvh.Tree F} {src : Source F} {root : Aabb F} (hn : src.count ≤ 2 ^ 31) {t : Bvh.Tree F}
    (h : recreate old src root = .ok t) {id : Nat} {nd : Node F} (hid : t.nodes[id]? = some nd) (h0 : id ≠ 0) {p : Nat}
    (hp : Under t id p) : ∃ it, src.item p = some it := by
  obtain ⟨_, _, rs, t1, t2, t3, t4⟩ := (recreate_result old src root hn).2 t h
  have hlt : id < t.nodes.size := (Array.getElem?_eq_some_iff.mp hid).1
  obtain ⟨e, he, rfl⟩ := List.mem_map.mp ((t2.mem_iff (a := id)).mpr (List.mem_range.mpr hlt))
  obtain ⟨nd', a1, a2⟩ := t4 e he
  rcases a2 with ⟨b1, b2⟩ | ⟨b1, its, b2, b3⟩
  · exact absurd b1 h0
  · obtain ⟨k, c1, c2, c3⟩ := (under_iff t1 e he p).mp hp
    have hm : itemAt src t.prims k ∈ its.map some :=
      b2.mem_iff.mpr (List.mem_map.mpr ⟨k, List.mem_range'_1.mpr ⟨c1, c2⟩, rfl⟩)
    obtain ⟨it, _, h2⟩ := List.mem_map.mp hm
    refine ⟨it, ?_⟩
    unfold itemAt at h2
    rw [c3] at h2
    exact h2.symm

/-- C47, boxes. The box of every node contains the box of every primitive in a leaf below it (for the first node, whose box
the caller gives: when that box does). When the boxes are ordered and finite, and the given box holds them all, the box of
a child is inside the box of its parent, and a computed box is the smallest one: it is inside every box that contains the
primitives below the node. -/
theorem bvh_bounds_boxes (hfm : OkLimits F) (old : Bvh.Tree F) (boxes : Array (Aabb F)) (cents : Option (Array (V4 F)))
    (root : Aabb F) (hn : boxes.size ≤ 2 ^ 31) (hok : ∀ b ∈ boxes, OkBox b) (t : Bvh.Tree F)
    (h : recreate old (Source.ofAabbs boxes cents) root = .ok t) :
    (∀ (id p : Nat) (nd : Node F) (b : Aabb F), t.nodes[id]? = some nd → Under t id p → boxes[p]? = some b →
      (id = 0 → boxOf b ⊆ boxOf root) → boxOf b ⊆ boxOf nd.aabb) ∧
    ((∀ b ∈ boxes, ValidBox b ∧ Limited b) →
      (∀ (id c : Nat) (nd ndc : Node F), t.nodes[id]? = some nd → nd.isLeaf = false →
        (c = nd.getLeftNode ∨ c = nd.getLeftNode + 1) → t.nodes[c]? = some ndc →
        (id = 0 → ∀ b ∈ boxes, boxOf b ⊆ boxOf root) → boxOf ndc.aabb ⊆ boxOf nd.aabb) ∧
      ∀ (id : Nat) (nd : Node F) (lo hi : V3 ℝ), id ≠ 0 → t.nodes[id]? = some nd →
        (∀ p b, Under t id p → boxes[p]? = some b → boxOf b ⊆ Box lo hi) → boxOf nd.aabb ⊆ Box lo hi) := by
  have hok' : ∀ p it, (Source.ofAabbs boxes cents).item p = some it →
      (∀ q ∈ it.mins, Ok3 q) ∧ ∀ q ∈ it.maxs, Ok3 q := by
    intro p it hp
    obtain ⟨b, hb, e1, e2⟩ := boxes_item hp
    have := hok b (Array.mem_of_getElem? hb)
    rw [e1, e2]
    simp only [List.mem_singleton, forall_eq]
    exact this
  have hsub : ∀ b ∈ boxes, ValidBox b → ∀ lo hi, boxOf b ⊆ Box lo hi → Le3 lo (pt b.min) ∧ Le3 (pt b.max) hi := by
    intro b _ hv lo hi hs
    exact ⟨(mem_iff_box.mp (hs (mem_iff_box.mpr ⟨le3_refl _, hv⟩))).1, (mem_iff_box.mp (hs (mem_iff_box.mpr ⟨hv, le3_refl _⟩))).2⟩
  refine ⟨fun id p nd b hid hu hb hr => ?_, fun hvl => ⟨fun id c nd ndc hid hl hc hcd hr => ?_, fun id nd lo hi h0 hid hall => ?_⟩⟩
  · obtain ⟨n1, n2⟩ := node_bounds hfm hn h hok' hid
    by_cases h0 : id = 0
    · obtain ⟨e1, e2⟩ := n1 h0
      unfold boxOf
      rw [pt_of_xyz e1, pt_of_xyz e2]
      exact hr h0
    · obtain ⟨-, n3, -⟩ := n2 h0
      obtain ⟨it, hit⟩ := under_item hn h hid h0 hu
      obtain ⟨b', hb', e1, e2⟩ := boxes_item hit
      rw [hb] at hb'; cases hb'
      have := n3 p hu it hit
      rw [e1, e2] at this
      simp only [List.mem_singleton, forall_eq] at this
      exact box_sub this.1 this.2
  · have hpos := ((recreate_result old _ root hn).2 t h).1
    refine (fun hh => box_sub hh.1 hh.2) (child_bounds hfm hn h hok' hid hl hc hcd ?_)
    intro h0
    have hb0 : boxes[0] ∈ boxes := Array.getElem_mem hpos
    obtain ⟨v0, l0⟩ := hvl _ hb0
    obtain ⟨r1, r2⟩ := hsub _ hb0 v0 _ _ (hr h0 _ hb0)
    refine ⟨le3_trans r1 (le3_trans v0 l0.2), le3_trans l0.1 (le3_trans v0 r2), fun p it hit => ?_⟩
    obtain ⟨b, hb, e1, e2⟩ := boxes_item hit
    have hbm := Array.mem_of_getElem? hb
    rw [e1, e2]
    simp only [List.mem_singleton, forall_eq]
    exact hsub b hbm (hvl b hbm).1 _ _ (hr h0 b hbm)
  · obtain ⟨-, -, n3⟩ := (node_bounds hfm hn h hok' hid).2 h0
    -- some primitive is below the node
    obtain ⟨_, hperm, rs, t1, t2, t3, t4⟩ := (recreate_result old _ root hn).2 t h
    have hlt : id < t.nodes.size := (Array.getElem?_eq_some_iff.mp hid).1
    obtain ⟨e, he, rfl⟩ := List.mem_map.mp ((t2.mem_iff (a := id)).mpr (List.mem_range.mpr hlt))
    have hr := t1.range_sub e he
    have hps : t.prims.size = boxes.size := by
      have := hperm.length_eq
      rw [List.length_range, Array.length_toList] at this
      exact this
    have hcount : (Source.ofAabbs boxes cents).count = boxes.size := rfl
    have hk : e.2.1 < t.prims.size := by omega
    have hp0 : Under t e.1 t.prims[e.2.1] := (under_iff t1 e he _).mpr ⟨e.2.1, le_rfl, by omega, Array.getElem?_eq_getElem hk⟩
    obtain ⟨it, hit⟩ := under_item hn h hid h0 hp0
    obtain ⟨b, hb, _, _⟩ := boxes_item hit
    have hbm := Array.mem_of_getElem? hb
    obtain ⟨r1, r2⟩ := hsub b hbm (hvl b hbm).1 _ _ (hall _ b hp0 hb)
    obtain ⟨v0, l0⟩ := hvl b hbm
    refine (fun hh => box_sub hh.1 hh.2) (n3 lo hi (le3_trans r1 (le3_trans v0 l0.2)) (le3_trans l0.1 (le3_trans v0 r2)) fun p hp it hit => ?_)
    obtain ⟨b', hb', e1, e2⟩ := boxes_item hit
    have hbm' := Array.mem_of_getElem? hb'
    rw [e1, e2]
    simp only [List.mem_singleton, forall_eq]
    exact hsub b' hbm' (hvl b' hbm').1 _ _ (hall p b' hp hb')

theorem tri_sub_box {lo hi a b c : V3 ℝ} (h1 : Le3 lo a ∧ Le3 lo b ∧ Le3 lo c) (h2 : Le3 a hi ∧ Le3 b hi ∧ Le3 c hi) :
    Tri a b c ⊆ Box lo hi := by
  rintro s ⟨u, v, w, hu, hv, hw, hs, rfl⟩
  obtain ⟨⟨a1, a2, a3⟩, ⟨b1, b2, b3⟩, c1, c2, c3⟩ := h1
  obtain ⟨⟨d1, d2, d3⟩, ⟨e1, e2, e3⟩, f1, f2, f3⟩ := h2
  have key : ∀ l x y z : ℝ, l ≤ x → l ≤ y → l ≤ z → l ≤ u * x + v * y + w * z := by
    intro l x y z hx hy hz
    have : l = (u + v + w) * l := by rw [hs, one_mul]
    nlinarith [mul_le_mul_of_nonneg_left hx hu, mul_le_mul_of_nonneg_left hy hv, mul_le_mul_of_nonneg_left hz hw]
  have key' : ∀ l x y z : ℝ, x ≤ l → y ≤ l → z ≤ l → u * x + v * y + w * z ≤ l := by
    intro l x y z hx hy hz
    have : l = (u + v + w) * l := by rw [hs, one_mul]
    nlinarith [mul_le_mul_of_nonneg_left hx hu, mul_le_mul_of_nonneg_left hy hv, mul_le_mul_of_nonneg_left hz hw]
  exact ⟨⟨key _ _ _ _ a1 b1 c1, key' _ _ _ _ d1 e1 f1⟩, ⟨key _ _ _ _ a2 b2 c2, key' _ _ _ _ d2 e2 f2⟩,
    key _ _ _ _ a3 b3 c3, key' _ _ _ _ d3 e3 f3⟩

/-- C47, triangles. The box of every node contains every triangle in a leaf below it (for the first node, whose box the
caller gives: when that box contains its vertices). When the vertices are finite and in the given box, the box of a child
is inside the box of its parent. -/
theorem bvh_bounds_triangles (hfm : OkLimits F) (old : Bvh.Tree F) (tris : Array (Triangle F)) (cents : Option (Array (V4 F)))
    (root : Aabb F) (hn : tris.size ≤ 2 ^ 31) (hok : ∀ b ∈ tris, Ok3 b.p0 ∧ Ok3 b.p1 ∧ Ok3 b.p2) (t : Bvh.Tree F)
    (h : recreate old (Source.ofTriangles tris cents) root = .ok t) :
    (∀ (id p : Nat) (nd : Node F) (b : Triangle F), t.nodes[id]? = some nd → Under t id p → tris[p]? = some b →
      (id = 0 → Tri (pt b.p0) (pt b.p1) (pt b.p2) ⊆ boxOf root) →
      Tri (pt b.p0) (pt b.p1) (pt b.p2) ⊆ boxOf nd.aabb) ∧
    (∀ (id c : Nat) (nd ndc : Node F), t.nodes[id]? = some nd → nd.isLeaf = false →
      (c = nd.getLeftNode ∨ c = nd.getLeftNode + 1) → t.nodes[c]? = some ndc →
      (id = 0 → ∀ b ∈ tris, ∀ q ∈ [b.p0, b.p1, b.p2], pt q ∈ boxOf root ∧
        pt q ∈ Box (pt (V4.splat (minusFltMax : F))) (pt (V4.splat (fltMax : F)))) → boxOf ndc.aabb ⊆ boxOf nd.aabb) := by
  have hok' : ∀ p it, (Source.ofTriangles tris cents).item p = some it →
      (∀ q ∈ it.mins, Ok3 q) ∧ ∀ q ∈ it.maxs, Ok3 q := by
    intro p it hp
    obtain ⟨b, hb, e1, e2⟩ := tris_item hp
    have := hok b (Array.mem_of_getElem? hb)
    rw [e1, e2]
    simpa using this
  refine ⟨fun id p nd b hid hu hb hr => ?_, fun id c nd ndc hid hl hc hcd hr => ?_⟩
  · obtain ⟨n1, n2⟩ := node_bounds hfm hn h hok' hid
    by_cases h0 : id = 0
    · obtain ⟨e1, e2⟩ := n1 h0
      unfold boxOf
      rw [pt_of_xyz e1, pt_of_xyz e2]
      exact hr h0
    · obtain ⟨-, n3, -⟩ := n2 h0
      obtain ⟨it, hit⟩ := under_item hn h hid h0 hu
      obtain ⟨b', hb', e1, e2⟩ := tris_item hit
      rw [hb] at hb'; cases hb'
      have := n3 p hu it hit
      rw [e1, e2] at this
      simp only [List.mem_cons, List.not_mem_nil, or_false, forall_eq_or_imp, forall_eq] at this
      exact tri_sub_box this.1 this.2
  · have hpos := ((recreate_result old _ root hn).2 t h).1
    refine (fun hh => box_sub hh.1 hh.2) (child_bounds hfm hn h hok' hid hl hc hcd ?_)
    intro h0
    have hb0 : tris[0] ∈ tris := Array.getElem_mem hpos
    obtain ⟨w1, w2⟩ := hr h0 _ hb0 tris[0].p0 (by simp)
    obtain ⟨r1, r2⟩ := mem_iff_box.mp w1
    obtain ⟨l1, l2⟩ := mem_iff_box.mp w2
    refine ⟨le3_trans r1 l2, le3_trans l1 r2, fun p it hit => ?_⟩
    obtain ⟨b, hb, e1, e2⟩ := tris_item hit
    have hbm := Array.mem_of_getElem? hb
    rw [e1, e2]
    exact ⟨fun q hq => (mem_iff_box.mp (hr h0 b hbm q hq).1).1, fun q hq => (mem_iff_box.mp (hr h0 b hbm q hq).1).2⟩

end

end Verif
