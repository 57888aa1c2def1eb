import Verif.Model.Projection
import Verif.Props.Frustum

/-! # C62, C63: projection matrices (exact arithmetic) -/

namespace Verif
open Spec Matrix

namespace Spec
/-- The view frustum: looking along +z, vertical field of view `fov`, width over height `aspect`, depths between `near`
and `far`. -/
def InView (fov aspect near far : ℝ) (p : V3 ℝ) : Prop :=
  |p.x| ≤ aspect * Real.tan (fov / 2) * p.z ∧ |p.y| ≤ Real.tan (fov / 2) * p.z ∧ near ≤ p.z ∧ p.z ≤ far
/-- The view frustum without a far plane. -/
def InViewInf (fov aspect near : ℝ) (p : V3 ℝ) : Prop :=
  |p.x| ≤ aspect * Real.tan (fov / 2) * p.z ∧ |p.y| ≤ Real.tan (fov / 2) * p.z ∧ near ≤ p.z
end Spec

theorem tan_half_pos {fov : ℝ} (h : 0 < fov ∧ fov < Real.pi) : 0 < Real.tan (fov / 2) :=
  Real.tan_pos_of_pos_of_lt_pi_div_two (by linarith) (by linarith)

theorem persp_clip (k : ℝ) (fov aspect a b : ℝ) (p : V3 ℝ) (m : M4 ℝ)
    (hm : m = M4.ofRows (1 / (aspect * Real.tan (fov / 2))) 0 0 0 0 (-1 / Real.tan (fov / 2)) 0 0 0 0 a b 0 0 k 0) :
    clip m p = ![p.x / (aspect * Real.tan (fov / 2)), -p.y / Real.tan (fov / 2), a * p.z + b, k * p.z] := by
  subst hm
  generalize Real.tan (fov / 2) = t
  ext i; fin_cases i <;> simp [clip, mat4, vec, Matrix.mulVec, dotProduct, Fin.sum_univ_four] <;> ring

theorem abs_div_le {x t z : ℝ} (ht : 0 < t) : (-z ≤ x / t ∧ x / t ≤ z) ↔ |x| ≤ t * z := by
  rw [div_le_iff₀ ht, le_div_iff₀ ht, abs_le, mul_comm t z]
  constructor <;> rintro ⟨h1, h2⟩ <;> constructor <;> linarith

theorem abs_neg_div_le {x t z : ℝ} (ht : 0 < t) : (-z ≤ -x / t ∧ -x / t ≤ z) ↔ |x| ≤ t * z := by
  rw [abs_div_le ht, abs_neg]

theorem perspRevZ_clip (fov aspect near far : ℝ) (p : V3 ℝ) :
    clip (Projection.perspRevZ fov aspect near far) p = ![p.x / (aspect * Real.tan (fov / 2)),
      -p.y / Real.tan (fov / 2), near / (near - far) * p.z + -(near * far) / (near - far), 1 * p.z] := by
  apply persp_clip
  simp only [Projection.perspRevZ, vec]; norm_num [div_eq_mul_inv]

theorem persp_clip' (fov aspect near far : ℝ) (p : V3 ℝ) :
    clip (Projection.persp fov aspect near far) p = ![p.x / (aspect * Real.tan (fov / 2)),
      -p.y / Real.tan (fov / 2), far / (far - near) * p.z + -(far * near) / (far - near), 1 * p.z] := by
  apply persp_clip
  simp only [Projection.persp, vec]; norm_num [div_eq_mul_inv]

theorem perspInf_clip (fov aspect near : ℝ) (p : V3 ℝ) :
    clip (Projection.perspInfRevZ fov aspect near) p = ![p.x / (aspect * Real.tan (fov / 2)),
      -p.y / Real.tan (fov / 2), 0 * p.z + near, 1 * p.z] := by
  apply persp_clip
  simp only [Projection.perspInfRevZ, vec]; norm_num [div_eq_mul_inv]

/-- C62: `calcPerspProj`. A point is in the view frustum exactly when its clip coordinates are in the clip volume; the
clip `w` is the view depth; the top of the view has negative clip `y`; depth runs from 0 at the near plane to 1 at the far
plane and is strictly increasing. -/
theorem persp_spec (fov aspect near far : ℝ) (hf : 0 < fov ∧ fov < Real.pi) (ha : 0 < aspect)
    (hn : 0 < near ∧ near < far) (p : V3 ℝ) :
    (InClip (clip (Projection.persp fov aspect near far) p) ↔ InView fov aspect near far p) ∧
    clip (Projection.persp fov aspect near far) p 3 = p.z ∧
    clip (Projection.persp fov aspect near far) p 0 = p.x / (aspect * Real.tan (fov / 2)) ∧
    clip (Projection.persp fov aspect near far) p 1 = -p.y / Real.tan (fov / 2) ∧
    (p.z = near → clip (Projection.persp fov aspect near far) p 2 / clip (Projection.persp fov aspect near far) p 3 = 0) ∧
    (p.z = far → clip (Projection.persp fov aspect near far) p 2 / clip (Projection.persp fov aspect near far) p 3 = 1) ∧
    (∀ q : V3 ℝ, 0 < p.z → p.z < q.z →
      clip (Projection.persp fov aspect near far) p 2 / clip (Projection.persp fov aspect near far) p 3 <
      clip (Projection.persp fov aspect near far) q 2 / clip (Projection.persp fov aspect near far) q 3) := by
  have ht := tan_half_pos hf
  have hd : 0 < far - near := by linarith
  have hz : ∀ p : V3 ℝ, clip (Projection.persp fov aspect near far) p 2 = far * (p.z - near) / (far - near) := by
    intro p; rw [persp_clip']; simp; field_simp; ring
  have hw : ∀ p : V3 ℝ, clip (Projection.persp fov aspect near far) p 3 = p.z := by
    intro p; rw [persp_clip']; simp
  have h0 : clip (Projection.persp fov aspect near far) p 0 = p.x / (aspect * Real.tan (fov / 2)) := by
    rw [persp_clip']; simp
  have h1 : clip (Projection.persp fov aspect near far) p 1 = -p.y / Real.tan (fov / 2) := by
    rw [persp_clip']; simp
  refine ⟨?_, hw p, h0, h1, ?_, ?_, ?_⟩
  · unfold InClip InView
    rw [h0, h1, hz, hw, abs_div_le (by positivity), abs_neg_div_le ht]
    refine and_congr_right fun _ => and_congr_right fun _ => ?_
    rw [div_le_iff₀ hd, le_div_iff₀ hd]
    constructor
    · rintro ⟨h2, h3⟩; constructor <;> nlinarith
    · rintro ⟨h2, h3⟩; constructor <;> nlinarith
  · intro h; rw [hz, hw, h]; simp
  · intro h; rw [hz, hw, h, mul_div_assoc, div_self hd.ne', mul_one]; exact div_self (by linarith)
  · intro q h2 h3
    rw [hz, hw, hz, hw, div_div, div_div, div_lt_div_iff₀ (by positivity) (by have := h2.trans h3; positivity)]
    have : 0 < far * (far - near) * near * (q.z - p.z) := by
      have : 0 < q.z - p.z := by linarith
      have : 0 < far := by linarith
      have := hn.1
      positivity
    nlinarith

/-- C62: `calcPerspProjRevZ`. The same view frustum; depth runs from 1 at the near plane to 0 at the far plane and is
strictly decreasing. -/
theorem perspRevZ_spec (fov aspect near far : ℝ) (hf : 0 < fov ∧ fov < Real.pi) (ha : 0 < aspect)
    (hn : 0 < near ∧ near < far) (p : V3 ℝ) :
    (InClip (clip (Projection.perspRevZ fov aspect near far) p) ↔ InView fov aspect near far p) ∧
    clip (Projection.perspRevZ fov aspect near far) p 3 = p.z ∧
    clip (Projection.perspRevZ fov aspect near far) p 0 = p.x / (aspect * Real.tan (fov / 2)) ∧
    clip (Projection.perspRevZ fov aspect near far) p 1 = -p.y / Real.tan (fov / 2) ∧
    (p.z = near → clip (Projection.perspRevZ fov aspect near far) p 2 / clip (Projection.perspRevZ fov aspect near far) p 3 = 1) ∧
    (p.z = far → clip (Projection.perspRevZ fov aspect near far) p 2 / clip (Projection.perspRevZ fov aspect near far) p 3 = 0) ∧
    (∀ q : V3 ℝ, 0 < p.z → p.z < q.z →
      clip (Projection.perspRevZ fov aspect near far) q 2 / clip (Projection.perspRevZ fov aspect near far) q 3 <
      clip (Projection.perspRevZ fov aspect near far) p 2 / clip (Projection.perspRevZ fov aspect near far) p 3) := by
  have ht := tan_half_pos hf
  have hd : 0 < far - near := by linarith
  have hz : ∀ p : V3 ℝ, clip (Projection.perspRevZ fov aspect near far) p 2 = near * (far - p.z) / (far - near) := by
    intro p; rw [perspRevZ_clip]; simp
    rw [show near - far = -(far - near) by ring]; field_simp; ring
  have hw : ∀ p : V3 ℝ, clip (Projection.perspRevZ fov aspect near far) p 3 = p.z := by
    intro p; rw [perspRevZ_clip]; simp
  have h0 : clip (Projection.perspRevZ fov aspect near far) p 0 = p.x / (aspect * Real.tan (fov / 2)) := by
    rw [perspRevZ_clip]; simp
  have h1 : clip (Projection.perspRevZ fov aspect near far) p 1 = -p.y / Real.tan (fov / 2) := by
    rw [perspRevZ_clip]; simp
  refine ⟨?_, hw p, h0, h1, ?_, ?_, ?_⟩
  · unfold InClip InView
    rw [h0, h1, hz, hw, abs_div_le (by positivity), abs_neg_div_le ht]
    refine and_congr_right fun _ => and_congr_right fun _ => ?_
    rw [div_le_iff₀ hd, le_div_iff₀ hd]
    constructor
    · rintro ⟨h2, h3⟩; constructor <;> nlinarith
    · rintro ⟨h2, h3⟩; constructor <;> nlinarith
  · intro h; rw [hz, hw, h]; have := hn.1; field_simp
  · intro h; rw [hz, hw, h]; simp
  · intro q h2 h3
    rw [hz, hw, hz, hw, div_div, div_div, div_lt_div_iff₀ (by have := h2.trans h3; positivity) (by positivity)]
    have : 0 < near * (far - near) * far * (q.z - p.z) := by
      have : 0 < q.z - p.z := by linarith
      have : 0 < far := by linarith
      have := hn.1
      positivity
    nlinarith

/-- C62: `calcPerspProjInfRevZ`. The view frustum without a far plane; depth is 1 at the near plane, strictly decreasing,
always positive, and tends to 0. -/
theorem perspInfRevZ_spec (fov aspect near : ℝ) (hf : 0 < fov ∧ fov < Real.pi) (ha : 0 < aspect)
    (hn : 0 < near) (p : V3 ℝ) :
    (InClip (clip (Projection.perspInfRevZ fov aspect near) p) ↔ InViewInf fov aspect near p) ∧
    clip (Projection.perspInfRevZ fov aspect near) p 3 = p.z ∧
    clip (Projection.perspInfRevZ fov aspect near) p 0 = p.x / (aspect * Real.tan (fov / 2)) ∧
    clip (Projection.perspInfRevZ fov aspect near) p 1 = -p.y / Real.tan (fov / 2) ∧
    (0 < p.z → clip (Projection.perspInfRevZ fov aspect near) p 2 / clip (Projection.perspInfRevZ fov aspect near) p 3 =
      near / p.z) ∧
    (∀ q : V3 ℝ, 0 < p.z → p.z < q.z →
      clip (Projection.perspInfRevZ fov aspect near) q 2 / clip (Projection.perspInfRevZ fov aspect near) q 3 <
      clip (Projection.perspInfRevZ fov aspect near) p 2 / clip (Projection.perspInfRevZ fov aspect near) p 3) := by
  have ht := tan_half_pos hf
  have hz : ∀ p : V3 ℝ, clip (Projection.perspInfRevZ fov aspect near) p 2 = near := by
    intro p; rw [perspInf_clip]; simp
  have hw : ∀ p : V3 ℝ, clip (Projection.perspInfRevZ fov aspect near) p 3 = p.z := by
    intro p; rw [perspInf_clip]; simp
  have h0 : clip (Projection.perspInfRevZ fov aspect near) p 0 = p.x / (aspect * Real.tan (fov / 2)) := by
    rw [perspInf_clip]; simp
  have h1 : clip (Projection.perspInfRevZ fov aspect near) p 1 = -p.y / Real.tan (fov / 2) := by
    rw [perspInf_clip]; simp
  refine ⟨?_, hw p, h0, h1, ?_, ?_⟩
  · unfold InClip InViewInf
    rw [h0, h1, hz, hw, abs_div_le (by positivity), abs_neg_div_le ht]
    refine and_congr_right fun _ => and_congr_right fun _ => ?_
    constructor
    · rintro ⟨h2, h3⟩; exact h3
    · intro h2; exact ⟨hn.le, h2⟩
  · intro _; rw [hz, hw]
  · intro q h2 h3
    rw [hz, hw, hz, hw]
    exact div_lt_div_of_pos_left hn h2 h3

/-- Non-vacuity for C62: a field of view, aspect and planes satisfying the hypotheses, and points inside and outside the
view frustum. -/
example : (0 < Real.pi / 2 ∧ Real.pi / 2 < Real.pi) ∧ InView (Real.pi / 2) 2 1 10 ⟨3, 1, 2⟩ ∧
    ¬ InView (Real.pi / 2) 2 1 10 ⟨3, 3, 2⟩ := by
  have hp := Real.pi_pos
  have : Real.tan (Real.pi / 2 / 2) = 1 := by rw [show Real.pi / 2 / 2 = Real.pi / 4 by ring, Real.tan_pi_div_four]
  refine ⟨⟨by linarith, by linarith⟩, ?_, ?_⟩ <;> simp only [InView, this] <;> norm_num [abs_of_pos]

/-! ## C63 -/

theorem ortho_clip (width height depth : V2 ℝ) (p : V3 ℝ)
    (hw : width.x < width.y) (hh : height.x < height.y) (hd : depth.x < depth.y) :
    clip (Projection.ortho width height depth) p =
      ![(2 * p.x - (width.x + width.y)) / (width.y - width.x), (height.x + height.y - 2 * p.y) / (height.y - height.x),
        (p.z - depth.x) / (depth.y - depth.x), 1] ∧
    clip (Projection.orthoRevZ width height depth) p =
      ![(2 * p.x - (width.x + width.y)) / (width.y - width.x), (height.x + height.y - 2 * p.y) / (height.y - height.x),
        (depth.y - p.z) / (depth.y - depth.x), 1] := by
  have h1 : width.y - width.x ≠ 0 := by linarith
  have h2 : height.y - height.x ≠ 0 := by linarith
  have h3 : depth.y - depth.x ≠ 0 := by linarith
  have h4 : depth.x - depth.y ≠ 0 := by linarith
  constructor <;> ext i <;> fin_cases i <;>
    simp [clip, mat4, vec, Matrix.mulVec, dotProduct, Fin.sum_univ_four]
  · field_simp; ring
  · field_simp; ring
  · field_simp; ring
  · field_simp; ring
  · field_simp; ring
  · rw [show depth.x - depth.y = -(depth.y - depth.x) by ring] at *; field_simp; ring

/-- C63: both orthographic projections send exactly the points of the given box into the clip volume `[-1,1]x[-1,1]x[0,1]`
(with `w = 1`), every point of the clip volume is reached, left goes to -1 and right to 1, the top to -1 and the bottom to
1, near to 0 and far to 1 (near to 1 and far to 0 for reversed depth). -/
theorem ortho_spec (width height depth : V2 ℝ) (p : V3 ℝ)
    (hw : width.x < width.y) (hh : height.x < height.y) (hd : depth.x < depth.y) :
    (InClip (clip (Projection.ortho width height depth) p) ↔
      p ∈ Box ⟨width.x, height.x, depth.x⟩ ⟨width.y, height.y, depth.y⟩) ∧
    (InClip (clip (Projection.orthoRevZ width height depth) p) ↔
      p ∈ Box ⟨width.x, height.x, depth.x⟩ ⟨width.y, height.y, depth.y⟩) ∧
    clip (Projection.ortho width height depth) p 3 = 1 ∧ clip (Projection.orthoRevZ width height depth) p 3 = 1 ∧
    (∀ x y z, ∃ q, clip (Projection.ortho width height depth) q = ![x, y, z, 1]) ∧
    (∀ x y z, ∃ q, clip (Projection.orthoRevZ width height depth) q = ![x, y, z, 1]) ∧
    clip (Projection.ortho width height depth) ⟨width.x, height.y, depth.x⟩ = ![-1, -1, 0, 1] ∧
    clip (Projection.ortho width height depth) ⟨width.y, height.x, depth.y⟩ = ![1, 1, 1, 1] ∧
    clip (Projection.orthoRevZ width height depth) ⟨width.x, height.y, depth.x⟩ = ![-1, -1, 1, 1] ∧
    clip (Projection.orthoRevZ width height depth) ⟨width.y, height.x, depth.y⟩ = ![1, 1, 0, 1] := by
  have hc := fun p => ortho_clip width height depth p hw hh hd
  have h1 : 0 < width.y - width.x := by linarith
  have h2 : 0 < height.y - height.x := by linarith
  have h3 : 0 < depth.y - depth.x := by linarith
  refine ⟨?_, ?_, ?_, ?_, ?_, ?_, ?_, ?_, ?_, ?_⟩
  · rw [(hc p).1]
    simp only [InClip, Box, Set.mem_ofPred_eq]
    simp
    rw [le_div_iff₀ h1, div_le_iff₀ h1, le_div_iff₀ h2, div_le_iff₀ h2, le_div_iff₀ h3, div_le_iff₀ h3]
    constructor
    · rintro ⟨⟨a, b⟩, ⟨c, d⟩, e, f⟩; refine ⟨⟨?_, ?_⟩, ⟨?_, ?_⟩, ?_, ?_⟩ <;> linarith
    · rintro ⟨⟨a, b⟩, ⟨c, d⟩, e, f⟩; refine ⟨⟨?_, ?_⟩, ⟨?_, ?_⟩, ?_, ?_⟩ <;> linarith
  · rw [(hc p).2]
    simp only [InClip, Box, Set.mem_ofPred_eq]
    simp
    rw [le_div_iff₀ h1, div_le_iff₀ h1, le_div_iff₀ h2, div_le_iff₀ h2, le_div_iff₀ h3, div_le_iff₀ h3]
    constructor
    · rintro ⟨⟨a, b⟩, ⟨c, d⟩, e, f⟩; refine ⟨⟨?_, ?_⟩, ⟨?_, ?_⟩, ?_, ?_⟩ <;> linarith
    · rintro ⟨⟨a, b⟩, ⟨c, d⟩, e, f⟩; refine ⟨⟨?_, ?_⟩, ⟨?_, ?_⟩, ?_, ?_⟩ <;> linarith
  · rw [(hc p).1]; simp
  · rw [(hc p).2]; simp
  · intro x y z
    refine ⟨⟨(x * (width.y - width.x) + width.x + width.y) / 2, (height.x + height.y - y * (height.y - height.x)) / 2,
      z * (depth.y - depth.x) + depth.x⟩, ?_⟩
    rw [(hc _).1]
    ext i; fin_cases i <;> simp <;> field_simp <;> ring
  · intro x y z
    refine ⟨⟨(x * (width.y - width.x) + width.x + width.y) / 2, (height.x + height.y - y * (height.y - height.x)) / 2,
      depth.y - z * (depth.y - depth.x)⟩, ?_⟩
    rw [(hc _).2]
    ext i; fin_cases i <;> simp <;> field_simp <;> ring
  · rw [(hc _).1]; ext i; fin_cases i <;> simp <;> (rw [div_eq_iff (by linarith)]; ring1)
  · rw [(hc _).1]; ext i; fin_cases i <;> simp <;> first | (rw [div_eq_iff (by linarith)]; ring1) | exact h3.ne'
  · rw [(hc _).2]; ext i; fin_cases i <;> simp <;> first | (rw [div_eq_iff (by linarith)]; ring1) | exact h3.ne'
  · rw [(hc _).2]; ext i; fin_cases i <;> simp <;> (rw [div_eq_iff (by linarith)]; ring1)

/-- Non-vacuity for C63: a proper box and a point of it. -/
example : InClip (clip (Projection.ortho (⟨-2, 4⟩ : V2 ℝ) ⟨0, 3⟩ ⟨1, 5⟩) ⟨3, 1, 2⟩) :=
  (ortho_spec ⟨-2, 4⟩ ⟨0, 3⟩ ⟨1, 5⟩ ⟨3, 1, 2⟩ (by norm_num) (by norm_num) (by norm_num)).1.mpr (by
    simp only [Box, Set.mem_ofPred_eq]; norm_num)

end Verif
