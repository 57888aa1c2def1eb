import Verif.Proofs.Geom
import Verif.Props.VecAlgebra

/-! # C27-C33: axis-aligned boxes

Theorems about comparisons are stated for every scalar type whose comparisons are those of real numbers: binary32
without NaN (`Valued F32`) and the reals (`Valued ℝ`).
-/

namespace Verif
open Spec

section
variable {F : Type} [Flt F] [Valued F]

/-- Concrete boxes used as witnesses: the unit box [0,1]^3 and a point, as binary32 bit patterns. -/
def f0 : F32 := ⟨0x00000000⟩
/-- 1.0f -/
def f1 : F32 := ⟨0x3F800000⟩
/-- 2.0f -/
def f2 : F32 := ⟨0x40000000⟩
/-- 0.5f -/
def fhalf : F32 := ⟨0x3F000000⟩
/-- 3.0f -/
def f3 : F32 := ⟨0x40400000⟩
/-- The box [0,1]^3 as `Aabb(f32x4(0), f32x4(1))`. -/
def unitBox : Aabb F32 := ⟨V4.splat f0, V4.splat f1⟩

theorem unitBox_ok : OkBox unitBox ∧ ValidBox unitBox := by
  refine ⟨⟨⟨?_, ?_, ?_⟩, ?_, ?_, ?_⟩, ?_, ?_, ?_⟩
  all_goals first
    | (show F32.isNaN _ = false; decide +kernel)
    | (show ((_ : ℚ) : ℝ) ≤ ((_ : ℚ) : ℝ); rw [Rat.cast_le, F32.toRat_le_iff]; decide +kernel)

/-! ## C27 -/

/-- C27: `extend(point)` contains the old box and the point, stays valid, and is contained in every box that
contains both. -/
theorem extend_point (b : Aabb F) (p : V4 F) (hb : OkBox b) (hv : ValidBox b) (hp : Ok3 p) :
    OkBox (b.extendP p) ∧ ValidBox (b.extendP p) ∧
    boxOf b ⊆ boxOf (b.extendP p) ∧ pt p ∈ boxOf (b.extendP p) ∧
    ∀ lo hi : V3 ℝ, boxOf b ⊆ Box lo hi → pt p ∈ Box lo hi → boxOf (b.extendP p) ⊆ Box lo hi := by
  obtain ⟨o1, e1⟩ := pt_min hb.1 hp
  obtain ⟨o2, e2⟩ := pt_max hb.2 hp
  obtain ⟨v1, v2, v3⟩ := hv
  have hv' : ValidBox (b.extendP p) := by
    simp only [ValidBox, Aabb.extendP, e1, e2]
    exact ⟨(min_le_left _ _).trans (v1.trans (le_max_left _ _)), (min_le_left _ _).trans (v2.trans (le_max_left _ _)),
      (min_le_left _ _).trans (v3.trans (le_max_left _ _))⟩
  refine ⟨⟨o1, o2⟩, hv', ?_, ?_, ?_⟩
  · unfold boxOf
    rw [box_subset ⟨v1, v2, v3⟩]
    simp [Aabb.extendP, e1, e2]
  · simp [boxOf, Box, Aabb.extendP, e1, e2]
  · intro lo hi h1 h2
    unfold boxOf at h1 ⊢
    rw [box_subset ⟨v1, v2, v3⟩] at h1
    rw [box_subset hv']
    obtain ⟨a1, a2, a3, a4, a5, a6⟩ := h1
    obtain ⟨⟨c1, d1⟩, ⟨c2, d2⟩, c3, d3⟩ := h2
    simp only [Aabb.extendP, e1, e2]
    exact ⟨le_min a1 c1, max_le a2 d1, le_min a3 c2, max_le a4 d2, le_min a5 c3, max_le a6 d3⟩

/-- C27: `extend(box)` contains both boxes, stays valid, and is contained in every box that contains both. -/
theorem extend_box (b c : Aabb F) (hb : OkBox b) (hv : ValidBox b) (hc : OkBox c) (hw : ValidBox c) :
    OkBox (b.extendB c) ∧ ValidBox (b.extendB c) ∧
    boxOf b ⊆ boxOf (b.extendB c) ∧ boxOf c ⊆ boxOf (b.extendB c) ∧
    ∀ lo hi : V3 ℝ, boxOf b ⊆ Box lo hi → boxOf c ⊆ Box lo hi → boxOf (b.extendB c) ⊆ Box lo hi := by
  obtain ⟨o1, e1⟩ := pt_min hb.1 hc.1
  obtain ⟨o2, e2⟩ := pt_max hb.2 hc.2
  have hv0 := hv
  obtain ⟨v1, v2, v3⟩ := hv
  have hv' : ValidBox (b.extendB c) := by
    simp only [ValidBox, Aabb.extendB, e1, e2]
    exact ⟨(min_le_left _ _).trans (v1.trans (le_max_left _ _)), (min_le_left _ _).trans (v2.trans (le_max_left _ _)),
      (min_le_left _ _).trans (v3.trans (le_max_left _ _))⟩
  refine ⟨⟨o1, o2⟩, hv', ?_, ?_, ?_⟩
  · unfold boxOf
    rw [box_subset hv0]
    simp [Aabb.extendB, e1, e2]
  · unfold boxOf
    rw [box_subset hw]
    simp [Aabb.extendB, e1, e2]
  · intro lo hi h1 h2
    unfold boxOf at h1 h2 ⊢
    rw [box_subset hv0] at h1
    rw [box_subset hw] at h2
    rw [box_subset hv']
    obtain ⟨a1, a2, a3, a4, a5, a6⟩ := h1
    obtain ⟨c1, d1, c2, d2, c3, d3⟩ := h2
    simp only [Aabb.extendB, e1, e2]
    exact ⟨le_min a1 c1, max_le a2 d1, le_min a3 c2, max_le a4 d2, le_min a5 c3, max_le a6 d3⟩

/-- Non-vacuity: the unit box is valid and comparable, so is the point (2, 0.5, 2), and extending gives
[0,2]x[0,1]x[0,2]. -/
example : OkBox unitBox ∧ ValidBox unitBox ∧ Ok3 (⟨f2, fhalf, f2, f0⟩ : V4 F32) ∧
    unitBox.extendP ⟨f2, fhalf, f2, f0⟩ = ⟨V4.splat f0, ⟨f2, f1, f2, f1⟩⟩ := by
  refine ⟨unitBox_ok.1, unitBox_ok.2, ⟨?_, ?_, ?_⟩, ?_⟩
  all_goals first
    | (show F32.isNaN _ = false; decide +kernel)
    | decide +kernel

/-- C27 needs the absence of NaN: extending the unit box by a point with a NaN coordinate loses the box. -/
theorem extend_nan_loses_box :
    unitBox.extendP ⟨F32.nan, f0, f0, f0⟩ = ⟨⟨F32.nan, f0, f0, f0⟩, ⟨F32.nan, f1, f1, f1⟩⟩ := by decide +kernel

/-- Shrinking a box by a box is intersection. -/
theorem shrink_box (b c : Aabb F) (hb : OkBox b) (hc : OkBox c) : boxOf (b.shrinkB c) = boxOf b ∩ boxOf c := by
  obtain ⟨o1, e1⟩ := pt_max hb.1 hc.1
  obtain ⟨o2, e2⟩ := pt_min hb.2 hc.2
  ext p
  simp only [boxOf, Box, Aabb.shrinkB, e1, e2, Set.mem_ofPred_eq, Set.mem_inter_iff, max_le_iff, le_min_iff]
  tauto

/-- Shrinking a box by a point leaves at most that one point: the result is the intersection of the box with that
point (empty, that is inverted, when the point is outside). -/
theorem shrink_point (b : Aabb F) (p : V4 F) (hb : OkBox b) (hp : Ok3 p) :
    boxOf (b.shrinkP p) = boxOf b ∩ {pt p} := by
  obtain ⟨o1, e1⟩ := pt_max hb.1 hp
  obtain ⟨o2, e2⟩ := pt_min hb.2 hp
  ext q
  simp only [boxOf, Box, Aabb.shrinkP, e1, e2, Set.mem_ofPred_eq, max_le_iff, le_min_iff, Set.mem_inter_iff,
    Set.mem_singleton_iff]
  constructor
  · rintro ⟨⟨⟨a1, h1⟩, b1, h2⟩, ⟨⟨a2, h3⟩, b2, h4⟩, ⟨a3, h5⟩, b3, h6⟩
    refine ⟨⟨⟨a1, b1⟩, ⟨a2, b2⟩, a3, b3⟩, ?_⟩
    have := le_antisymm h1 h2; have := le_antisymm h3 h4; have := le_antisymm h5 h6
    cases q; simp_all [pt]
  · rintro ⟨h, rfl⟩; simp [h]

/-! ## C28 -/

/-- The exact meaning of `isInside(box, point)`: all *four* lanes are compared. -/
theorem isInside_lanes (b : Aabb F) (p : V4 F) (hb : OkBox b) (hp : Ok3 p) :
    b.isInsideP p = true ↔ pt p ∈ boxOf b ∧ Flt.le b.min.w p.w = true ∧ Flt.le p.w b.max.w = true := by
  obtain ⟨⟨b1, b2, b3⟩, c1, c2, c3⟩ := hb
  obtain ⟨p1, p2, p3⟩ := hp
  simp only [vec, Bool.and_eq_true, Valued.le_iff _ _ b1 p1, Valued.le_iff _ _ b2 p2, Valued.le_iff _ _ b3 p3,
    Valued.le_iff _ _ p1 c1, Valued.le_iff _ _ p2 c2, Valued.le_iff _ _ p3 c3, boxOf, Box, pt, Set.mem_ofPred_eq]
  tauto

/-- The exact meaning of `isInside(box, box)`: all *four* lanes are compared. -/
theorem isInside_box_lanes (b c : Aabb F) (hb : OkBox b) (hc : OkBox c) (hv : ValidBox c) :
    b.isInsideB c = true ↔ boxOf c ⊆ boxOf b ∧ Flt.le b.min.w c.min.w = true ∧ Flt.le c.max.w b.max.w = true := by
  unfold boxOf
  rw [box_subset hv]
  obtain ⟨⟨b1, b2, b3⟩, c1, c2, c3⟩ := hb
  obtain ⟨⟨p1, p2, p3⟩, q1, q2, q3⟩ := hc
  simp only [vec, Bool.and_eq_true, Valued.le_iff _ _ b1 p1, Valued.le_iff _ _ b2 p2, Valued.le_iff _ _ b3 p3,
    Valued.le_iff _ _ q1 c1, Valued.le_iff _ _ q2 c2, Valued.le_iff _ _ q3 c3, pt]
  tauto

/-- C28, proved part: with the fourth lane of the point between those of the box, `isInside` is true exactly when
the point is a point of the box. Missing: independence of the fourth lanes, which fails (`isInside_fourth_lane`). -/
theorem isInside_partial (b : Aabb F) (p : V4 F) (hb : OkBox b) (hp : Ok3 p)
    (hw : Flt.le b.min.w p.w = true ∧ Flt.le p.w b.max.w = true) : b.isInsideP p = true ↔ pt p ∈ boxOf b := by
  rw [isInside_lanes b p hb hp]; tauto

/-- C28, proved part for vectors made from three floats (the constructor repeats z in the fourth lane): `isInside` is
true exactly when the point is a point of the box. -/
theorem isInside_xyz_partial (lo hi p : V3 F) (hb : OkBox (⟨V4.ofV3 lo, V4.ofV3 hi⟩ : Aabb F))
    (hp : Ok3 (V4.ofV3 p)) :
    Aabb.isInsideP ⟨V4.ofV3 lo, V4.ofV3 hi⟩ (V4.ofV3 p) = true ↔
      pt (V4.ofV3 p) ∈ Box (pt (V4.ofV3 lo)) (pt (V4.ofV3 hi)) := by
  rw [isInside_lanes _ _ hb hp]
  obtain ⟨⟨b1, b2, b3⟩, c1, c2, c3⟩ := hb
  obtain ⟨p1, p2, p3⟩ := hp
  constructor
  · exact fun h => h.1
  · intro h
    refine ⟨h, ?_, ?_⟩
    · show Flt.le lo.z p.z = true
      exact (Valued.le_iff _ _ b3 p3).mpr h.2.2.1
    · show Flt.le p.z hi.z = true
      exact (Valued.le_iff _ _ p3 c3).mpr h.2.2.2

/-- C28, proved part for boxes: `isInside(a, b)` never claims containment that does not hold, and with ordered
fourth lanes it is exact. -/
theorem isInside_box_partial (b c : Aabb F) (hb : OkBox b) (hc : OkBox c) (hv : ValidBox c) :
    (b.isInsideB c = true → boxOf c ⊆ boxOf b) ∧
    (Flt.le b.min.w c.min.w = true → Flt.le c.max.w b.max.w = true → (b.isInsideB c = true ↔ boxOf c ⊆ boxOf b)) := by
  rw [isInside_box_lanes b c hb hc hv]; tauto

end

/-- C28 fails: (0.5, 0.5, 0.5) is a point of the unit box, but with 2 in its fourth lane `isInside` answers false, and
with 0.5 there it answers true. -/
theorem isInside_fourth_lane :
    unitBox.isInsideP ⟨fhalf, fhalf, fhalf, f2⟩ = false ∧ unitBox.isInsideP ⟨fhalf, fhalf, fhalf, fhalf⟩ = true := by
  decide +kernel

/-! ## C29 (exact arithmetic) -/

/-- C29: `setSize(size, position)` succeeds exactly for non-negative sizes; then `getSize` and `getPosition` read back
what was set and the extent is half the size. -/
theorem setSize_get (s p : V4 ℝ) :
    ((∃ b, Aabb.setSizeAt s p = some b) ↔ 0 ≤ s.x ∧ 0 ≤ s.y ∧ 0 ≤ s.z) ∧
    ∀ b, Aabb.setSizeAt s p = some b →
      b.getSize = s ∧ b.getPosition = p ∧ V4.smul b.getExtent 2 = s ∧ ValidBox b := by
  constructor
  · simp [vec]; tauto
  · intro b hb
    simp only [Aabb.setSizeAt] at hb
    split at hb
    · rename_i hn
      simp [vec] at hn
      simp only [Option.some.injEq] at hb
      subst hb
      refine ⟨?_, ?_, ?_, ?_⟩
      · cases s; vec_ring
      · cases p; vec_ring
      · cases s; vec_ring
      · simp [ValidBox, vec]; refine ⟨?_, ?_, ?_⟩ <;> linarith [hn.1.1, hn.1.2, hn.2]
    · cases hb

/-- C29: `setSize(size)` is `setSize(size, 0)`. -/
theorem setSize_origin (s : V4 ℝ) : Aabb.setSize s = Aabb.setSizeAt s ⟨0, 0, 0, 0⟩ := by
  simp [vec]

/-- C29: `setExtent(extent, position)` succeeds exactly for non-negative extents; then `getExtent` (both forms) and
`getPosition` read back what was set and the size is twice the extent. -/
theorem setExtent_get (e p : V4 ℝ) :
    ((∃ b, Aabb.setExtentAt e p = some b) ↔ 0 ≤ e.x ∧ 0 ≤ e.y ∧ 0 ≤ e.z) ∧
    ∀ b, Aabb.setExtentAt e p = some b →
      b.getExtent = e ∧ b.getPosition = p ∧ b.getExtentAt = (e, p) ∧ b.getSize = V4.smul e 2 ∧ ValidBox b := by
  constructor
  · simp [vec]; tauto
  · intro b hb
    simp only [Aabb.setExtentAt] at hb
    split at hb
    · rename_i hn
      simp [vec] at hn
      simp only [Option.some.injEq] at hb
      subst hb
      refine ⟨?_, ?_, ?_, ?_, ?_⟩
      · cases e; vec_ring
      · cases p; vec_ring
      · cases e; cases p; vec_ring
      · cases e; vec_ring
      · simp [ValidBox, vec]; refine ⟨?_, ?_, ?_⟩ <;> linarith [hn.1.1, hn.1.2, hn.2]
    · cases hb

/-- C29: `setExtent(extent)` is `setExtent(extent, 0)`. -/
theorem setExtent_origin (e : V4 ℝ) : Aabb.setExtent e = Aabb.setExtentAt e ⟨0, 0, 0, 0⟩ := by
  simp [vec]

/-- C29: reading the size and position of a box and setting them again gives back the box. -/
theorem getSize_set (b : Aabb ℝ) (hv : ValidBox b) :
    Aabb.setSizeAt b.getSize b.getPosition = some b ∧ Aabb.setExtentAt b.getExtent b.getPosition = some b := by
  obtain ⟨h1, h2, h3⟩ := hv
  simp at h1 h2 h3
  obtain ⟨⟨⟩, ⟨⟩⟩ := b
  constructor
  · simp [vec] at *
    refine ⟨⟨⟨h1, h2⟩, h3⟩, ⟨?_, ?_, ?_, ?_⟩, ?_, ?_, ?_, ?_⟩ <;> ring
  · simp [vec] at *
    refine ⟨⟨⟨h1, h2⟩, h3⟩, ⟨?_, ?_, ?_, ?_⟩, ?_, ?_, ?_, ?_⟩ <;> ring

/-- C29: `translate` moves the position and keeps the size. -/
theorem translate_get (b : Aabb ℝ) (t : V4 ℝ) :
    (b.translate t).getSize = b.getSize ∧ (b.translate t).getPosition = V4.add b.getPosition t := by
  constructor <;> vec_ring

/-- Non-vacuity: the size (2, 4, 6) about (1, 1, 1). -/
example : Aabb.setSizeAt (⟨2, 4, 6, 0⟩ : V4 ℝ) ⟨1, 1, 1, 0⟩ = some ⟨⟨0, -1, -2, 0⟩, ⟨2, 3, 4, 0⟩⟩ := by
  norm_num [vec]

/-- `calcArea` is the surface area and `calcVolume` the volume. -/
theorem area_volume (b : Aabb ℝ) :
    b.calcArea = 2 * ((b.max.x - b.min.x) * (b.max.y - b.min.y) + (b.max.x - b.min.x) * (b.max.z - b.min.z) +
      (b.max.y - b.min.y) * (b.max.z - b.min.z)) ∧
    b.calcVolume = (b.max.x - b.min.x) * (b.max.y - b.min.y) * (b.max.z - b.min.z) := by
  constructor <;> vec_ring

/-! ## C30 -/

section
variable {F : Type} [Flt F]

/-- C30 fails, for every box and all bounds (provided 0 and 1 are read as written): `trySet` never rejects anything. -/
theorem trySet_never_rejects (h01 : Flt.lt (Flt.lit 1 : F) (Flt.lit 0) = false) (b : Aabb F) (lo hi : V4 F) :
    b.trySet lo hi = (true, ⟨lo, hi⟩) := by
  simp [vec, h01]

/-- C30, proved part: valid bounds are accepted and stored. Missing: rejecting invalid bounds. -/
theorem trySet_partial [Valued F] (h01 : Flt.lt (Flt.lit 1 : F) (Flt.lit 0) = false) (b : Aabb F) (lo hi : V4 F)
    (_ : ValidBox (⟨lo, hi⟩ : Aabb F)) : (b.trySet lo hi).1 = true ∧ (b.trySet lo hi).2 = ⟨lo, hi⟩ := by
  rw [trySet_never_rejects h01]; exact ⟨rfl, rfl⟩

end

/-- C30: the hypothesis about 0 and 1 holds in binary32 and in the reals. -/
theorem one_not_lt_zero : Flt.lt (Flt.lit 1 : F32) (Flt.lit 0) = false ∧ Flt.lt (Flt.lit 1 : ℝ) (Flt.lit 0) = false := by
  constructor
  · decide +kernel
  · norm_num

/-- C30 fails, concretely: `trySet` accepts min = (1,1,1), max = (0,0,0) and leaves an inverted box. -/
theorem trySet_accepts_inverted :
    unitBox.trySet (V4.splat f1) (V4.splat f0) = (true, ⟨V4.splat f1, V4.splat f0⟩) ∧
    Flt.le f1 f0 = false := by
  constructor <;> decide +kernel

theorem ite_some {α : Type} (c : Bool) (a x : α) : (if c = true then some a else none) = some x ↔ c = true ∧ x = a := by
  cases c <;> simp [eq_comm]

/-- The setters that assert (constructor, `setMin`, `setMax`, `set`) accept exactly ordered bounds: with comparable
corners the assertion holds exactly when `min <= max` in x, y and z, whatever the fourth lanes contain. -/
theorem set_checks (lo hi : V4 F32) (h1 : Ok3 lo) (h2 : Ok3 hi) (b : Aabb F32) :
    (Aabb.ordered lo hi = true ↔ ValidBox (⟨lo, hi⟩ : Aabb F32)) ∧
    (∀ c, Aabb.ctor lo hi = some c ↔ ValidBox (⟨lo, hi⟩ : Aabb F32) ∧ c = ⟨lo, hi⟩) ∧
    (∀ c, b.set lo hi = some c ↔ ValidBox (⟨lo, hi⟩ : Aabb F32) ∧ c = ⟨lo, hi⟩) ∧
    (∀ c, Ok3 b.max → (b.setMin lo = some c ↔ ValidBox (⟨lo, b.max⟩ : Aabb F32) ∧ c = ⟨lo, b.max⟩)) ∧
    (∀ c, Ok3 b.min → (b.setMax hi = some c ↔ ValidBox (⟨b.min, hi⟩ : Aabb F32) ∧ c = ⟨b.min, hi⟩)) := by
  have h01 : Flt.le (Flt.lit 0 : F32) (Flt.lit 1) = true := by decide +kernel
  have key : ∀ lo hi : V4 F32, Ok3 lo → Ok3 hi →
      (Aabb.ordered lo hi = true ↔ ValidBox (⟨lo, hi⟩ : Aabb F32)) := by
    rintro lo hi ⟨a1, a2, a3⟩ ⟨b1, b2, b3⟩
    simp only [vec, h01, Bool.and_eq_true, Valued.le_iff _ _ a1 b1, Valued.le_iff _ _ a2 b2, Valued.le_iff _ _ a3 b3,
      ValidBox, pt]
    tauto
  refine ⟨key lo hi h1 h2, fun c => ?_, fun c => ?_, fun c hm => ?_, fun c hm => ?_⟩
  · unfold Aabb.ctor; rw [← key lo hi h1 h2]; exact ite_some _ _ _
  · unfold Aabb.set; rw [← key lo hi h1 h2]; exact ite_some _ _ _
  · unfold Aabb.setMin; rw [← key lo b.max h1 hm]; exact ite_some _ _ _
  · unfold Aabb.setMax; rw [← key b.min hi hm h2]; exact ite_some _ _ _

end Verif
