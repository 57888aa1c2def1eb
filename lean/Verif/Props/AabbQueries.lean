import Verif.Props.Aabb

/-! # C31-C33: closest point on a box, box-box test -/

namespace Verif
open Spec

section
variable {F : Type} [Flt F] [Valued F]

theorem pt_clamp {v lo hi : V4 F} (hv : Ok3 v) (hl : Ok3 lo) (hh : Ok3 hi) :
    pt (Simd.clamp v lo hi) = ⟨max (min (pt v).x (pt hi).x) (pt lo).x, max (min (pt v).y (pt hi).y) (pt lo).y,
      max (min (pt v).z (pt hi).z) (pt lo).z⟩ := by
  obtain ⟨o1, e1⟩ := pt_min hv hh
  obtain ⟨_, e2⟩ := pt_max o1 hl
  rw [Simd.clamp, e2, e1]

theorem clamp_near (a lo hi q : ℝ) (h1 : lo ≤ q) (h2 : q ≤ hi) : (a - max (min a hi) lo) ^ 2 ≤ (a - q) ^ 2 := by
  rcases le_total a hi with h | h
  · rw [min_eq_left h]
    rcases le_total lo a with g | g
    · rw [max_eq_left g]; nlinarith [sq_nonneg (a - q)]
    · rw [max_eq_right g]; nlinarith
  · rw [min_eq_right h, max_eq_left (h1.trans h2)]; nlinarith

theorem clamp_in (a lo hi : ℝ) (h : lo ≤ hi) : lo ≤ max (min a hi) lo ∧ max (min a hi) lo ≤ hi :=
  ⟨le_max_right _ _, max_le (min_le_right _ _) h⟩

theorem clamp_id (a lo hi : ℝ) (h : lo ≤ hi) : max (min a hi) lo = a ↔ lo ≤ a ∧ a ≤ hi := by
  constructor
  · intro e; rw [← e]; exact clamp_in a lo hi h
  · rintro ⟨h1, h2⟩; rw [min_eq_left h2, max_eq_left h1]

/-- C31: `closestPoint(box, p)` is the point of the box nearest to `p`; it is `p` exactly when `p` is in the box. In
binary32 (no NaN) and in the reals. -/
theorem closestPoint_box (b : Aabb F) (p : V4 F) (hb : OkBox b) (hv : ValidBox b) (hp : Ok3 p) :
    Nearest (boxOf b) (pt p) (pt (b.closestPoint p)) ∧ (pt (b.closestPoint p) = pt p ↔ pt p ∈ boxOf b) := by
  obtain ⟨v1, v2, v3⟩ := hv
  rw [Aabb.closestPoint, pt_clamp hp hb.1 hb.2]
  refine ⟨⟨⟨clamp_in _ _ _ v1, clamp_in _ _ _ v2, clamp_in _ _ _ v3⟩, ?_⟩, ?_⟩
  · rintro q ⟨⟨a1, b1⟩, ⟨a2, b2⟩, a3, b3⟩
    have h1 := clamp_near (pt p).x _ _ _ a1 b1
    have h2 := clamp_near (pt p).y _ _ _ a2 b2
    have h3 := clamp_near (pt p).z _ _ _ a3 b3
    simp only [dist2]
    linarith
  · have : pt p = ⟨(pt p).x, (pt p).y, (pt p).z⟩ := rfl
    rw [this, V3.mk.injEq, clamp_id _ _ _ v1, clamp_id _ _ _ v2, clamp_id _ _ _ v3]
    rfl

/-- C32/C33, the exact meaning of `isIntersected(a, b)`: the minimum corner of `a` equals the maximum corner of `b` in
all four lanes. -/
theorem isIntersected_lanes (a b : Aabb F) (ha : OkBox a) (hb : OkBox b) :
    a.isIntersected b = true ↔
      pt a.min = pt b.max ∧ Flt.le a.min.w b.max.w = true ∧ Flt.le b.max.w a.min.w = true := by
  obtain ⟨⟨a1, a2, a3⟩, -⟩ := ha
  obtain ⟨-, b1, b2, b3⟩ := hb
  simp only [vec, Bool.and_eq_true, Valued.le_iff _ _ a1 b1, Valued.le_iff _ _ a2 b2, Valued.le_iff _ _ a3 b3,
    Valued.le_iff _ _ b1 a1, Valued.le_iff _ _ b2 a2, Valued.le_iff _ _ b3 a3, pt, V3.mk.injEq, le_antisymm_iff (α := ℝ)]
  tauto

/-- C33: when `isIntersected(a, b)` answers true, valid boxes do share a point. -/
theorem isIntersected_sound (a b : Aabb F) (ha : OkBox a) (hb : OkBox b) (va : ValidBox a) (vb : ValidBox b)
    (h : a.isIntersected b = true) : (boxOf a ∩ boxOf b).Nonempty := by
  rw [isIntersected_lanes a b ha hb] at h
  obtain ⟨v1, v2, v3⟩ := va
  obtain ⟨w1, w2, w3⟩ := vb
  refine ⟨pt a.min, ⟨⟨le_rfl, v1⟩, ⟨le_rfl, v2⟩, le_rfl, v3⟩, ?_⟩
  rw [h.1]
  exact ⟨⟨w1, le_rfl⟩, ⟨w2, le_rfl⟩, w3, le_rfl⟩

/-- C32, proved part: the answer true is right. Missing: the answer false, which is wrong for almost all intersecting
boxes (`isIntersected_misses`). -/
theorem isIntersected_partial (a b : Aabb F) (ha : OkBox a) (hb : OkBox b) (va : ValidBox a) (vb : ValidBox b) :
    a.isIntersected b = true → (boxOf a ∩ boxOf b).Nonempty := isIntersected_sound a b ha hb va vb

/-- C32 fails: every box with a non-empty interior is reported as not intersecting itself. -/
theorem isIntersected_misses (a : Aabb F) (ha : OkBox a) (hi : (pt a.min).x < (pt a.max).x) :
    a.isIntersected a = false := by
  rw [Bool.eq_false_iff, ne_eq, isIntersected_lanes a a ha ha]
  rintro ⟨h, -⟩
  rw [h] at hi
  exact lt_irrefl _ hi

end

/-- C32 fails, concretely: the unit box is not reported as intersecting itself; and the test is not symmetric:
[1,2]^3 is reported as intersecting [0,1]^3, but not the other way round. -/
theorem isIntersected_counterexample :
    unitBox.isIntersected unitBox = false ∧
    Aabb.isIntersected ⟨V4.splat f1, V4.splat f2⟩ unitBox = true ∧
    unitBox.isIntersected ⟨V4.splat f1, V4.splat f2⟩ = false := by decide +kernel

/-- Non-vacuity of `isIntersected_sound`: the second box of the previous theorem is comparable and valid. -/
example : OkBox (⟨V4.splat f1, V4.splat f2⟩ : Aabb F32) ∧ ValidBox (⟨V4.splat f1, V4.splat f2⟩ : Aabb F32) := by
  refine ⟨⟨⟨?_, ?_, ?_⟩, ?_, ?_, ?_⟩, ?_, ?_, ?_⟩
  all_goals first
    | (show F32.isNaN _ = false; decide +kernel)
    | (show ((_ : ℚ) : ℝ) ≤ ((_ : ℚ) : ℝ); rw [Rat.cast_le, F32.toRat_le_iff]; decide +kernel)

/-- Non-vacuity of `closestPoint_box`: the point of the unit box nearest to (2, 0.5, 3) is (1, 0.5, 1). -/
example : (unitBox.closestPoint ⟨f2, fhalf, f3, f0⟩).xyz = ⟨f1, fhalf, f1⟩ := by decide +kernel

end Verif
