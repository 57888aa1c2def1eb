import Verif.Props.Primitives
import Verif.Props.MatAlgebra

/-! # C39, C40: frustum planes and frustum culling -/

namespace Verif
open Spec Matrix

namespace Spec
/-- Clip coordinates of a point. -/
noncomputable def clip (m : M4 ℝ) (p : V3 ℝ) : Fin 4 → ℝ := mat4 m *ᵥ ![p.x, p.y, p.z, 1]
/-- The clip volume: `-w <= x <= w`, `-w <= y <= w`, `0 <= z <= w`. -/
def InClip (c : Fin 4 → ℝ) : Prop := (-c 3 ≤ c 0 ∧ c 0 ≤ c 3) ∧ (-c 3 ≤ c 1 ∧ c 1 ≤ c 3) ∧ (0 ≤ c 2 ∧ c 2 ≤ c 3)
/-- Signed plane function `n . p + d`. -/
def side (pl : Plane ℝ) (p : V3 ℝ) : ℝ :=
  pl.normDist.x * p.x + pl.normDist.y * p.y + pl.normDist.z * p.z + pl.normDist.w
end Spec

theorem distance_side (pl : Plane ℝ) (p : V4 ℝ) : pl.distance p = side pl (pt p) := by
  simp only [vec, side, real_pt]; push_cast; ring

/-- C39: a point is on the non-negative side of all six extracted planes exactly when its clip coordinates are in the
clip volume. -/
theorem frustum_planes (m : M4 ℝ) (p : V4 ℝ) :
    (∀ pl ∈ Plane.extractFrustum m, 0 ≤ pl.distance p) ↔ InClip (clip m (pt p)) := by
  have h : clip m (pt p) = ![m.c0.x * p.x + m.c1.x * p.y + m.c2.x * p.z + m.c3.x,
      m.c0.y * p.x + m.c1.y * p.y + m.c2.y * p.z + m.c3.y, m.c0.z * p.x + m.c1.z * p.y + m.c2.z * p.z + m.c3.z,
      m.c0.w * p.x + m.c1.w * p.y + m.c2.w * p.z + m.c3.w] := by
    ext i; fin_cases i <;> simp [clip, mat4, Matrix.mulVec, dotProduct, Fin.sum_univ_four]
  rw [h]
  simp only [distance_side]
  simp [InClip, side, vec]
  constructor
  · rintro ⟨h1, h2, h3, h4, h5, h6⟩
    refine ⟨⟨?_, ?_⟩, ⟨?_, ?_⟩, ?_, ?_⟩ <;> linarith
  · rintro ⟨⟨h1, h2⟩, ⟨h3, h4⟩, h5, h6⟩
    refine ⟨?_, ?_, ?_, ?_, ?_, ?_⟩ <;> linarith

/-- C39: there are six planes, and normalizing planes with non-zero normals does not change which points are on their
non-negative side. -/
theorem frustum_normalized (m : M4 ℝ) (p : V4 ℝ) (h : ∀ pl ∈ Plane.extractFrustum m, pt pl.normDist ≠ ⟨0, 0, 0⟩) :
    (Plane.normalizePlanes (Plane.extractFrustum m)).length = 6 ∧
    ((∀ pl ∈ Plane.normalizePlanes (Plane.extractFrustum m), 0 ≤ pl.distance p) ↔ InClip (clip m (pt p))) := by
  refine ⟨rfl, ?_⟩
  rw [← frustum_planes]
  simp only [Plane.normalizePlanes, List.forall_mem_map]
  refine forall₂_congr fun pl hpl => ?_
  have hn := h pl hpl
  have hl : 0 < Simd.length3 pl.normDist := by
    simp only [vec]
    apply Real.sqrt_pos.2
    simp only [real_pt, ne_eq, V3.mk.injEq] at hn
    push_cast
    by_contra hc
    apply hn
    refine ⟨?_, ?_, ?_⟩ <;> nlinarith [mul_self_nonneg pl.normDist.x, mul_self_nonneg pl.normDist.y, mul_self_nonneg pl.normDist.z]
  have : pl.normalize.distance p = pl.distance p / Simd.length3 pl.normDist := by
    rw [distance_side, distance_side]
    unfold Plane.normalize side
    generalize Simd.length3 pl.normDist = l
    simp only [V4.div, V4.map2, V4.splat, Flt.real_div]
    ring
  rw [this, le_div_iff₀ hl, zero_mul]

/-- Non-vacuity: the identity matrix gives six planes with non-zero normals, and the point (0, 0, 1/2) is in its clip
volume. -/
example : (∀ pl ∈ Plane.extractFrustum (⟨⟨1, 0, 0, 0⟩, ⟨0, 1, 0, 0⟩, ⟨0, 0, 1, 0⟩, ⟨0, 0, 0, 1⟩⟩ : M4 ℝ),
      pt pl.normDist ≠ ⟨0, 0, 0⟩) ∧
    InClip (clip ⟨⟨1, 0, 0, 0⟩, ⟨0, 1, 0, 0⟩, ⟨0, 0, 1, 0⟩, ⟨0, 0, 0, 1⟩⟩ ⟨0, 0, 1 / 2⟩) := by
  constructor
  · simp [vec]
  · simp [InClip, clip, mat4, Matrix.mulVec, dotProduct, Fin.sum_univ_four]; norm_num

/-! ### C40 -/

theorem affine_neg {a b c d x0 x1 y0 y1 z0 z1 x y z : ℝ}
    (h : ∀ X Y Z, (X = x0 ∨ X = x1) → (Y = y0 ∨ Y = y1) → (Z = z0 ∨ Z = z1) → a * X + b * Y + c * Z + d < 0)
    (hx : x0 ≤ x ∧ x ≤ x1) (hy : y0 ≤ y ∧ y ≤ y1) (hz : z0 ≤ z ∧ z ≤ z1) : a * x + b * y + c * z + d < 0 := by
  have key : ∀ a x0 x1 x : ℝ, x0 ≤ x → x ≤ x1 → ∃ X, (X = x0 ∨ X = x1) ∧ a * x ≤ a * X := by
    intro a x0 x1 x h0 h1
    rcases le_total 0 a with ha | ha
    · exact ⟨x1, Or.inr rfl, mul_le_mul_of_nonneg_left h1 ha⟩
    · exact ⟨x0, Or.inl rfl, mul_le_mul_of_nonpos_left h0 ha⟩
  obtain ⟨X, hX, h1⟩ := key a x0 x1 x hx.1 hx.2
  obtain ⟨Y, hY, h2⟩ := key b y0 y1 y hy.1 hy.2
  obtain ⟨Z, hZ, h3⟩ := key c z0 z1 z hz.1 hz.2
  linarith [h X Y Z hX hY hZ]

theorem anyRejects_iff {F : Type} [Flt F] (vs : List (V4 F)) (planes : List (Plane F)) :
    Aabb.anyRejects vs planes = true ↔ ∃ pl ∈ planes, Aabb.planeRejects pl vs = true := by
  induction planes with
  | nil => simp [Aabb.anyRejects]
  | cons pl rest ih =>
    rw [Aabb.anyRejects]
    by_cases h : Aabb.planeRejects pl vs = true <;> simp [h, ih]

theorem planeRejects_iff (pl : Plane ℝ) (v0 v1 v2 v3 v4 v5 v6 v7 : V4 ℝ) :
    Aabb.planeRejects pl [v0, v1, v2, v3, v4, v5, v6, v7] = true ↔
      ∀ v ∈ [v0, v1, v2, v3, v4, v5, v6, v7], pl.distance v < 0 := by
  simp only [List.forall_mem_cons, List.not_mem_nil, false_imp_iff, implies_true, and_true]
  unfold Aabb.planeRejects
  simp only [V4.splat, V4.cmp, V4.band, V4.map2, mask_and, areAllTrue_mask, Flt.real_lt, Flt.real_lit, Rat.cast_zero,
    Bool.and_eq_true, decide_eq_true_eq]
  constructor
  · rintro ⟨⟨⟨⟨a, b⟩, c, d⟩, e, f⟩, g, h⟩; exact ⟨a, c, e, g, b, d, f, h⟩
  · rintro ⟨a, c, e, g, b, d, f, h⟩; exact ⟨⟨⟨⟨a, b⟩, c, d⟩, e, f⟩, g, h⟩

namespace Spec
/-- Where a model matrix sends a point (first three rows; the fourth row plays no part). -/
def place (m : M4 ℝ) (p : V3 ℝ) : V3 ℝ :=
  ⟨m.c0.x * p.x + m.c1.x * p.y + m.c2.x * p.z + m.c3.x, m.c0.y * p.x + m.c1.y * p.y + m.c2.y * p.z + m.c3.y,
   m.c0.z * p.x + m.c1.z * p.y + m.c2.z * p.z + m.c3.z⟩
end Spec

theorem place_mulV (m : M4 ℝ) (x y z : ℝ) : pt (Simd.mulV m ⟨x, y, z, 1⟩) = place m ⟨x, y, z⟩ := by
  simp only [vec, place, real_pt, V3.mk.injEq]
  refine ⟨?_, ?_, ?_⟩ <;> ring

/-- C40: a box placed by a model matrix is reported behind the frustum exactly when some single plane has the whole
placed box strictly on its negative side. Planes in any number, any matrix. -/
theorem isBehindFrustumM_exact (planes : List (Plane ℝ)) (b : Aabb ℝ) (m : M4 ℝ) (hv : ValidBox b) :
    b.isBehindFrustumM planes m = true ↔ ∃ pl ∈ planes, ∀ p ∈ boxOf b, side pl (place m p) < 0 := by
  unfold Aabb.isBehindFrustumM
  rw [anyRejects_iff]
  refine exists_congr fun pl => and_congr_right fun _ => ?_
  simp only [Aabb.corners, List.map_cons, List.map_nil, planeRejects_iff]
  simp only [Flt.real_lit, Rat.cast_one]
  simp only [List.forall_mem_cons, List.not_mem_nil, false_imp_iff, implies_true, and_true, distance_side, place_mulV]
  obtain ⟨v1, v2, v3⟩ := hv
  simp only [real_pt] at v1 v2 v3
  constructor
  · rintro ⟨h0, h1, h2, h3, h4, h5, h6, h7⟩ p ⟨px, py, pz⟩
    simp only [real_pt] at px py pz
    have aff : ∀ q : V3 ℝ, side pl (place m q) =
        (pl.normDist.x * m.c0.x + pl.normDist.y * m.c0.y + pl.normDist.z * m.c0.z) * q.x +
        (pl.normDist.x * m.c1.x + pl.normDist.y * m.c1.y + pl.normDist.z * m.c1.z) * q.y +
        (pl.normDist.x * m.c2.x + pl.normDist.y * m.c2.y + pl.normDist.z * m.c2.z) * q.z +
        (pl.normDist.x * m.c3.x + pl.normDist.y * m.c3.y + pl.normDist.z * m.c3.z + pl.normDist.w) := by
      intro q; simp only [side, place]; ring
    rw [aff] at h0 h1 h2 h3 h4 h5 h6 h7 ⊢
    apply affine_neg _ px py pz
    rintro X Y Z (rfl | rfl) (rfl | rfl) (rfl | rfl) <;> assumption
  · intro h
    refine ⟨h _ ?_, h _ ?_, h _ ?_, h _ ?_, h _ ?_, h _ ?_, h _ ?_, h _ ?_⟩ <;>
      simp [boxOf, Box, v1, v2, v3]

/-- C40: if a placed box is reported behind the frustum, none of its points is on the non-negative side of all
planes. -/
theorem isBehindFrustumM_sound (planes : List (Plane ℝ)) (b : Aabb ℝ) (m : M4 ℝ) (hv : ValidBox b)
    (h : b.isBehindFrustumM planes m = true) :
    ∀ p ∈ boxOf b, ¬ ∀ pl ∈ planes, 0 ≤ side pl (place m p) := by
  rw [isBehindFrustumM_exact planes b m hv] at h
  obtain ⟨pl, hpl, hn⟩ := h
  intro p hp hall
  exact absurd (hn p hp) (not_lt.2 (hall pl hpl))

/-- C40 for the overload without a model matrix. -/
theorem isBehindFrustum_exact (planes : List (Plane ℝ)) (b : Aabb ℝ) (hv : ValidBox b) :
    b.isBehindFrustum planes = true ↔ ∃ pl ∈ planes, ∀ p ∈ boxOf b, side pl p < 0 := by
  have h := isBehindFrustumM_exact planes b ⟨⟨1, 0, 0, 0⟩, ⟨0, 1, 0, 0⟩, ⟨0, 0, 1, 0⟩, ⟨0, 0, 0, 1⟩⟩ hv
  have hp : ∀ p, place ⟨⟨1, 0, 0, 0⟩, ⟨0, 1, 0, 0⟩, ⟨0, 0, 1, 0⟩, ⟨0, 0, 0, 1⟩⟩ p = p := by
    intro p; cases p; simp [place]
  simp only [hp] at h
  rw [← h]
  have hm : ∀ v : V4 ℝ, Simd.mulV ⟨⟨1, 0, 0, 0⟩, ⟨0, 1, 0, 0⟩, ⟨0, 0, 1, 0⟩, ⟨0, 0, 0, 1⟩⟩ v = v := by
    intro v; cases v; simp [vec]
  unfold Aabb.isBehindFrustum Aabb.isBehindFrustumM
  rw [show (Simd.mulV (⟨⟨1, 0, 0, 0⟩, ⟨0, 1, 0, 0⟩, ⟨0, 0, 1, 0⟩, ⟨0, 0, 0, 1⟩⟩ : M4 ℝ)) = id from funext hm,
    List.map_id]

/-- C40 for the overload without a model matrix: reported behind implies no point is inside the frustum. -/
theorem isBehindFrustum_sound (planes : List (Plane ℝ)) (b : Aabb ℝ) (hv : ValidBox b)
    (h : b.isBehindFrustum planes = true) : ∀ p ∈ boxOf b, ¬ ∀ pl ∈ planes, 0 ≤ side pl p := by
  rw [isBehindFrustum_exact planes b hv] at h
  obtain ⟨pl, hpl, hn⟩ := h
  intro p hp hall
  exact absurd (hn p hp) (not_lt.2 (hall pl hpl))

/-- Non-vacuity: the box [0,1]^3 is behind the plane x = 2 facing +x, and not behind the plane x = 0. -/
example : ValidBox (⟨V4.splat 0, V4.splat 1⟩ : Aabb ℝ) ∧
    Aabb.isBehindFrustum [⟨⟨1, 0, 0, -2⟩⟩] (⟨V4.splat 0, V4.splat 1⟩ : Aabb ℝ) = true ∧
    Aabb.isBehindFrustum [⟨⟨1, 0, 0, 0⟩⟩] (⟨V4.splat 0, V4.splat 1⟩ : Aabb ℝ) = false := by
  have hv : ValidBox (⟨V4.splat 0, V4.splat 1⟩ : Aabb ℝ) := by refine ⟨?_, ?_, ?_⟩ <;> simp [V4.splat]
  refine ⟨hv, ?_, ?_⟩
  · rw [isBehindFrustum_exact _ _ hv]
    refine ⟨_, List.mem_singleton.2 rfl, ?_⟩
    rintro p ⟨⟨_, h⟩, _⟩
    simp [V4.splat] at h
    simp [side]; linarith
  · rw [Bool.eq_false_iff, ne_eq, isBehindFrustum_exact _ _ hv]
    rintro ⟨pl, hpl, h⟩
    rw [List.mem_singleton] at hpl
    subst hpl
    have := h ⟨1, 1, 1⟩ (by simp [boxOf, Box, V4.splat])
    simp [side] at this
    linarith

end Verif
