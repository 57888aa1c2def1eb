import Verif.Proofs.Sat

/-! # C35: the triangle-box test is exact -/

namespace Verif
open Spec

/-- C35, the converse: the test answers true only for a box and a triangle with a point in common. -/
theorem sat_sound (position extent : V4 ℝ) (t : Triangle ℝ)
    (he : 0 ≤ extent.x ∧ 0 ≤ extent.y ∧ 0 ≤ extent.z) (h : Sat.test position extent t = true) :
    (boxOf (⟨V4.sub position extent, V4.add position extent⟩ : Aabb ℝ) ∩ Tri (pt t.p0) (pt t.p1) (pt t.p2)).Nonempty := by
  by_contra hc
  have hb : boxOf (⟨V4.sub position extent, V4.add position extent⟩ : Aabb ℝ) =
      Box (diff (pt position) (pt extent)) ⟨(pt position).x + (pt extent).x, (pt position).y + (pt extent).y,
        (pt position).z + (pt extent).z⟩ := rfl
  have h2 : Sat.test position extent t = false := by
    rw [sat_exact _ _ _ he, hb]
    simp only [separates_iff (pt position) (pt extent) _ _ _ _ he]
    rw [hb] at hc
    obtain ⟨a, ha⟩ := disjoint_axis (c := pt position) (e := pt extent) he hc
    exact some_candidate ha
  rw [h2] at h; exact absurd h (by decide)

/-- C35: the test is right for every box and every triangle, degenerate or not. -/
theorem sat_iff (position extent : V4 ℝ) (t : Triangle ℝ) (he : 0 ≤ extent.x ∧ 0 ≤ extent.y ∧ 0 ≤ extent.z) :
    Sat.test position extent t = true ↔
      (boxOf (⟨V4.sub position extent, V4.add position extent⟩ : Aabb ℝ) ∩ Tri (pt t.p0) (pt t.p1) (pt t.p2)).Nonempty :=
  ⟨sat_sound _ _ _ he, sat_complete _ _ _ he⟩

/-- Non-vacuity: a triangle that passes a corner of the cube [-1,1]^3, found disjoint by its normal only. -/
example : Sat.test (⟨0, 0, 0, 0⟩ : V4 ℝ) ⟨1, 1, 1, 0⟩ ⟨⟨4, 0, 0, 0⟩, ⟨0, 4, 0, 0⟩, ⟨0, 0, 4, 0⟩⟩ = false ∧
    Sat.test (⟨0, 0, 0, 0⟩ : V4 ℝ) ⟨2, 2, 2, 0⟩ ⟨⟨4, 0, 0, 0⟩, ⟨0, 4, 0, 0⟩, ⟨0, 0, 4, 0⟩⟩ = true := by
  constructor <;> simp [vec] <;> norm_num

end Verif
