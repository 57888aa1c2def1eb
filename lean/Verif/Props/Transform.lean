import Verif.Props.Quat
import Verif.Props.Primitives
import Verif.Spec.Rigid

/-! # C58, C59, C60, C61: model and view matrices (exact arithmetic) -/

namespace Verif
open Spec Matrix

/-! ## C58 -/

/-- C58: `translate` and `scale` applied to a matrix are the products announced by the documentation, on either side. -/
theorem translate_scale_spec (m : M4 ℝ) (t s : V4 ℝ) :
    (Affine m → Transform.translateR m t = Simd.mulM m (Transform.translate t)) ∧
    (Affine m → Transform.translateL t m = Simd.mulM (Transform.translate t) m) ∧
    Transform.scaleR m s = Simd.mulM m (Transform.scale s) ∧
    Transform.scaleL s m = Simd.mulM (Transform.scale s) m := by
  obtain ⟨⟨a0, a1, a2, a3⟩, ⟨b0, b1, b2, b3⟩, ⟨c0, c1, c2, c3⟩, ⟨d0, d1, d2, d3⟩⟩ := m
  refine ⟨?_, ?_, ?_, ?_⟩
  · rintro ⟨h0, h1, h2, h3⟩
    simp only at h0 h1 h2 h3
    simp [vec, h0, h1, h2, h3]
  · rintro ⟨h0, h1, h2, h3⟩
    simp only at h0 h1 h2 h3
    simp [vec, h0, h1, h2, h3]
    refine ⟨?_, ?_, ?_⟩ <;> ring
  · simp [vec]
  · simp [vec]

/-- C58: what `translate`, `scale` and the translation accessors do to points. -/
theorem translate_scale_act (m : M4 ℝ) (t s p : V4 ℝ) :
    Affine (Transform.translate t) ∧ Affine (Transform.scale s) ∧
    act (Transform.translate t) (xyz p) = xyz p + xyz t ∧
    act (Transform.scale s) (xyz p) = ![s.x * p.x, s.y * p.y, s.z * p.z] ∧
    xyz (Transform.getTranslation (Transform.translate t)) = xyz t ∧
    xyz (Transform.getTranslation (Transform.setTranslation m t)) = xyz t ∧
    (Transform.setTranslation m t).c0 = m.c0 ∧ (Transform.setTranslation m t).c1 = m.c1 ∧
    (Transform.setTranslation m t).c2 = m.c2 ∧ (Affine m → Affine (Transform.setTranslation m t)) := by
  refine ⟨?_, ?_, ?_, ?_, ?_, ?_, rfl, rfl, rfl, ?_⟩
  · simp [Affine, vec]
  · simp [Affine, vec]
  · ext i; fin_cases i <;> simp [act, block3, xyz, vec]
  · ext i; fin_cases i <;> simp [act, block3, xyz, vec, mul_comm]
  · rfl
  · rfl
  · rintro ⟨h0, h1, h2, h3⟩; exact ⟨h0, h1, h2, h3⟩

/-- Normalizing a unit quaternion does not change it. -/
theorem normalize_unit (q : V4 ℝ) (h : UnitQuat q) : Quat.normalize q = q := by
  have : q.x * q.x + q.y * q.y + (q.z * q.z + q.w * q.w) = 1 := by rw [← h]; ring
  cases q; simp_all [vec]

/-- `calcModel` without the special case for unit scale. -/
theorem calcModel_eq (p q s : V4 ℝ) :
    Transform.calcModel p q s =
      Simd.mulM (Simd.mulM (Transform.translate p) (Transform.rotate (Quat.normalize q))) (Transform.scale s) := by
  unfold Transform.calcModel
  split_ifs with h
  · simp [Transform.eq4, vec] at h
    obtain ⟨⟨⟨h0, h1⟩, h2⟩, h3⟩ := h
    generalize Quat.normalize q = r
    simp [vec, h0, h1, h2]
  · rfl

/-- C58: the matrix of a position, rotation (any non-zero quaternion, normalized by the function) and scale is affine and
maps every point `v` to `position + rotation * (scale * v)`; its translation is the position. -/
theorem calcModel_spec (p q s v : V4 ℝ) (h : q ≠ ⟨0, 0, 0, 0⟩) :
    Affine (Transform.calcModel p q s) ∧
    act (Transform.calcModel p q s) (xyz v) = xyz p + xyz (Quat.rotate (Quat.normalize q) (V4.mul s v)) ∧
    xyz (Simd.mulV (Transform.calcModel p q s) (V4.withW v 1)) =
      xyz p + xyz (Quat.rotate (Quat.normalize q) (V4.mul s v)) ∧
    (UnitQuat q → Quat.normalize q = q) ∧
    xyz (Transform.getTranslation (Transform.calcModel p q s)) = xyz p := by
  have hu : UnitQuat (Quat.normalize q) := ((quat_algebra q q q).2.2.2.2.2.2 h).2.2
  rw [calcModel_eq]
  generalize hr : Quat.normalize q = r at hu ⊢
  have h1 : r.w ^ 2 = 1 - r.x ^ 2 - r.y ^ 2 - r.z ^ 2 := by unfold UnitQuat at hu; linarith
  refine ⟨?_, ?_, ?_, ?_, ?_⟩
  · simp [Affine, vec]
  · ext i; fin_cases i <;> simp [act, block3, xyz, vec] <;> ring
  · ext i; fin_cases i <;> simp [xyz, vec] <;> ring
  · intro hq; rw [← hr, normalize_unit q hq]
  · ext i; fin_cases i <;> simp [xyz, vec]

/-- Non-vacuity for C58: an affine matrix that is not a translation, and a non-zero quaternion that is not unit. -/
example : Affine (M4.ofRows 1 2 3 4 0 1 5 6 7 0 1 2 0 0 0 1 : M4 ℝ) ∧ (⟨3, 0, 0, 4⟩ : V4 ℝ) ≠ ⟨0, 0, 0, 0⟩ ∧
    xyz (Simd.mulV (Transform.calcModel (⟨1, 2, 3, 0⟩ : V4 ℝ) ⟨0, 0, 0, 1⟩ ⟨2, 2, 2, 2⟩) ⟨1, 1, 1, 1⟩) = ![3, 4, 5] := by
  refine ⟨by simp [Affine, vec], by simp, ?_⟩
  rw [calcModel_eq]
  ext i; fin_cases i <;> simp [xyz, vec] <;> norm_num

/-! ## C59 -/

/-- C59 fails: the scale extracted from a matrix made with scale `s` is the square of `s` in every component, so it is `s`
only for scales 0 and 1. (`extractScale2` squares the first component only.) -/
theorem extractScale_wrong (p q s : V4 ℝ) (h : q ≠ ⟨0, 0, 0, 0⟩) :
    xyz (Transform.extractScale (Transform.calcModel p q s)) = ![s.x ^ 2, s.y ^ 2, s.z ^ 2] ∧
    (xyz (Transform.extractScale (Transform.calcModel p q s)) = xyz s ↔
      (s.x = 0 ∨ s.x = 1) ∧ (s.y = 0 ∨ s.y = 1) ∧ (s.z = 0 ∨ s.z = 1)) ∧
    Transform.extractScale2 (Transform.calcModel p q s) = ⟨s.x ^ 2, |s.y|⟩ := by
  have hu : UnitQuat (Quat.normalize q) := ((quat_algebra q q q).2.2.2.2.2.2 h).2.2
  rw [calcModel_eq]
  generalize Quat.normalize q = r at hu ⊢
  have h1 : r.w ^ 2 = 1 - r.x ^ 2 - r.y ^ 2 - r.z ^ 2 := by unfold UnitQuat at hu; linarith
  have key : xyz (Transform.extractScale (Simd.mulM (Simd.mulM (Transform.translate p) (Transform.rotate r))
      (Transform.scale s))) = ![s.x ^ 2, s.y ^ 2, s.z ^ 2] := by
    ext i; fin_cases i <;> simp [xyz, vec] <;> ring_nf <;> simp only [h1] <;> ring
  refine ⟨key, ?_, ?_⟩
  · rw [key]
    have e : ∀ a : ℝ, a ^ 2 = a ↔ a = 0 ∨ a = 1 := by
      intro a
      constructor
      · intro ha
        have : a * (a - 1) = 0 := by linarith [ha, sq a]
        rcases mul_eq_zero.mp this with h | h
        · exact Or.inl h
        · exact Or.inr (by linarith)
      · rintro (rfl | rfl) <;> norm_num
    rw [← e, ← e, ← e]
    constructor
    · intro hh
      exact ⟨congrFun hh 0, congrFun hh 1, congrFun hh 2⟩
    · rintro ⟨a, b, c⟩; ext i; fin_cases i <;> simp [xyz, a, b, c]
  · simp [vec]
    constructor
    · ring_nf; simp only [h1]; ring
    · rw [← Real.sqrt_sq_eq_abs]; congr 1; ring_nf; simp only [h1]; ring

/-- C59 fails: `extractRotation` divides the columns by the squared scale, so for positive scales the result is the
rotation with its columns divided by the scale; a rotation only when the scale is one. -/
theorem extractRotation_wrong (p q s : V4 ℝ) (h : q ≠ ⟨0, 0, 0, 0⟩) (hs : 0 < s.x ∧ 0 < s.y ∧ 0 < s.z) :
    Simd.mulM (Transform.extractRotation (Transform.calcModel p q s)) (Transform.scale s) =
      Transform.rotate (Quat.normalize q) ∧
    (Transform.extractRotation (Transform.calcModel p q s) = Transform.rotate (Quat.normalize q) ↔
      s.x = 1 ∧ s.y = 1 ∧ s.z = 1) := by
  have hu : UnitQuat (Quat.normalize q) := ((quat_algebra q q q).2.2.2.2.2.2 h).2.2
  have hsc := (extractScale_wrong p q s h).1
  have e0 : Simd.lengthSq3 (Transform.calcModel p q s).c0 = s.x ^ 2 := congrFun hsc 0
  have e1 : Simd.lengthSq3 (Transform.calcModel p q s).c1 = s.y ^ 2 := congrFun hsc 1
  have e2 : Simd.lengthSq3 (Transform.calcModel p q s).c2 = s.z ^ 2 := congrFun hsc 2
  have ex : Transform.extractRotation (Transform.calcModel p q s) =
      Simd.mulM (Transform.rotate (Quat.normalize q)) (Transform.scale ⟨1 / s.x, 1 / s.y, 1 / s.z, 1⟩) := by
    have hx := hs.1.ne'
    have hy := hs.2.1.ne'
    have hz := hs.2.2.ne'
    simp only [Transform.extractRotation, Transform.extractScale, e0, e1, e2]
    rw [calcModel_eq]
    generalize Quat.normalize q = r
    simp [vec]
    refine ⟨⟨?_, ?_, ?_⟩, ⟨?_, ?_, ?_⟩, ?_, ?_, ?_⟩ <;> field_simp
  rw [ex]
  generalize Quat.normalize q = r at hu
  have h1 : r.w ^ 2 = 1 - r.x ^ 2 - r.y ^ 2 - r.z ^ 2 := by unfold UnitQuat at hu; linarith
  obtain ⟨hx, hy, hz⟩ := hs
  constructor
  · simp [vec]
    refine ⟨⟨?_, ?_, ?_⟩, ⟨?_, ?_, ?_⟩, ?_, ?_, ?_⟩ <;> field_simp
  · constructor
    · intro heq
      have hone : ∀ a : ℝ, 0 < a → a⁻¹ ^ 2 = 1 → a = 1 := by
        intro a ha h
        rw [inv_pow, inv_eq_one] at h
        nlinarith
      have l0 := congrArg (fun m => Simd.lengthSq3 m.c0) heq
      have l1 := congrArg (fun m => Simd.lengthSq3 m.c1) heq
      have l2 := congrArg (fun m => Simd.lengthSq3 m.c2) heq
      simp [vec] at l0 l1 l2
      ring_nf at l0 l1 l2
      simp only [h1] at l0 l1 l2
      refine ⟨hone _ hx ?_, hone _ hy ?_, hone _ hz ?_⟩ <;> linarith
    · rintro ⟨a, b, c⟩
      simp [vec, a, b, c]

/-- C59, what holds: with unit scale, the extracted position is the position, the extracted scale is one, the extracted
rotation matrix is the rotation, and the extracted quaternion is the rotation up to sign; and without scale
(`extractTransform` with two outputs) likewise. Missing: every other scale. -/
theorem extractTransform_partial (p q : V4 ℝ) (h : UnitQuat q) :
    (xyz (Transform.extractTransform (Transform.calcModel p q ⟨1, 1, 1, 1⟩)).1 = xyz p ∧
     ((Transform.extractTransform (Transform.calcModel p q ⟨1, 1, 1, 1⟩)).2.1 = q ∨
      (Transform.extractTransform (Transform.calcModel p q ⟨1, 1, 1, 1⟩)).2.1 = V4.neg q) ∧
     xyz (Transform.extractTransform (Transform.calcModel p q ⟨1, 1, 1, 1⟩)).2.2 = ![1, 1, 1]) ∧
    (xyz (Transform.extractTransform2 (Transform.calcModel p q ⟨1, 1, 1, 1⟩)).1 = xyz p ∧
     ((Transform.extractTransform2 (Transform.calcModel p q ⟨1, 1, 1, 1⟩)).2 = q ∨
      (Transform.extractTransform2 (Transform.calcModel p q ⟨1, 1, 1, 1⟩)).2 = V4.neg q)) := by
  have hne : q ≠ ⟨0, 0, 0, 0⟩ := by rintro rfl; simp [UnitQuat] at h
  have hp := (calcModel_spec p q ⟨1, 1, 1, 1⟩ p hne).2.2.2.2
  have hr := (extractRotation_wrong p q ⟨1, 1, 1, 1⟩ hne ⟨one_pos, one_pos, one_pos⟩).2.mpr ⟨rfl, rfl, rfl⟩
  have hs := (extractScale_wrong p q ⟨1, 1, 1, 1⟩ hne).1
  have hr2 : Transform.extractRotationOnly (Transform.calcModel p q ⟨1, 1, 1, 1⟩) =
      Transform.rotate (Quat.normalize q) := by
    rw [calcModel_eq]
    generalize Quat.normalize q = r
    simp [vec]
  rw [normalize_unit q h] at hr hr2
  refine ⟨⟨hp, ?_, ?_⟩, hp, ?_⟩
  · simp only [Transform.extractTransform, hr]; exact extractQuat_rotate q h
  · simp only [Transform.extractTransform, hs]; norm_num
  · simp only [Transform.extractTransform2, hr2]; exact extractQuat_rotate q h

/-! ## C60 -/

/-- The rows `s`, `f × s`, `f` of two orthonormal vectors form a rotation matrix. -/
theorem frame_rotation (s f : V3 ℝ) (hs : dot s s = 1) (hf : dot f f = 1) (hsf : dot s f = 0) :
    IsRotation !![s.x, s.y, s.z; (crossP f s).x, (crossP f s).y, (crossP f s).z; f.x, f.y, f.z] := by
  obtain ⟨a, b, c⟩ := s
  obtain ⟨x, y, z⟩ := f
  simp only [dot, crossP] at *
  constructor
  · rw [mul_eq_one_comm]
    ext i j; fin_cases i <;> fin_cases j <;> simp [Matrix.mul_apply, Fin.sum_univ_three] <;> grind
  · rw [Matrix.det_fin_three]; simp; grind

/-- A non-zero vector divided by its length is a unit vector in the same direction. -/
theorem normalize3_unit (v : V4 ℝ) (h : pt v ≠ ⟨0, 0, 0⟩) : ∃ n : ℝ, 0 < n ∧ n ^ 2 = dot (pt v) (pt v) ∧
    n = Real.sqrt (dot (pt v) (pt v)) ∧ pt (Simd.normalize3 v) = ⟨v.x / n, v.y / n, v.z / n⟩ ∧
    dot (pt (Simd.normalize3 v)) (pt (Simd.normalize3 v)) = 1 := by
  have hpos : 0 < dot (pt v) (pt v) := by
    apply lt_of_le_of_ne (dot_self_nonneg _)
    intro h0
    obtain ⟨h1, h2, h3⟩ := dot_self_zero h0.symm
    apply h
    simp only [real_pt] at h1 h2 h3
    simp only [real_pt, h1, h2, h3]
  have hn := Real.sqrt_pos.mpr hpos
  have hsq := Real.sq_sqrt hpos.le
  refine ⟨_, hn, hsq, rfl, ?_, ?_⟩
  · rw [normalize3_pt]; rfl
  · rw [normalize3_pt]
    simp only [real_pt]
    simp only [real_pt] at hsq hn
    generalize Real.sqrt (dot ⟨v.x, v.y, v.z⟩ ⟨v.x, v.y, v.z⟩) = n at *
    simp only [dot] at *
    field_simp
    linarith

/-- The vectors computed inside `lookAt`: front and side, and their relations. -/
theorem look_frame (f t up : V4 ℝ) (hne : pt f ≠ pt t)
    (hup : crossP (pt up) (diff (pt t) (pt f)) ≠ ⟨0, 0, 0⟩) :
    ∃ F S : V4 ℝ, Simd.normalize3 (V4.sub t f) = F ∧ Simd.normalize3 (Simd.cross3 up F) = S ∧
      dot (pt F) (pt F) = 1 ∧ dot (pt S) (pt S) = 1 ∧ dot (pt S) (pt F) = 0 ∧ dot (pt S) (pt up) = 0 ∧
      0 < dot (crossP (pt F) (pt S)) (pt up) ∧ 0 < Spec.dist (pt f) (pt t) ∧
      diff (pt t) (pt f) = along ⟨0, 0, 0⟩ (pt F) (Spec.dist (pt f) (pt t)) := by
  have hv : pt (V4.sub t f) ≠ ⟨0, 0, 0⟩ := by
    intro h; apply hne
    simp only [real_pt, vec, V3.mk.injEq] at h ⊢
    refine ⟨?_, ?_, ?_⟩ <;> linarith [h.1, h.2.1, h.2.2]
  obtain ⟨n, hn, -, hn2, hF, hF1⟩ := normalize3_unit _ hv
  have hdist : Spec.dist (pt f) (pt t) = n := by
    rw [hn2]; unfold Spec.dist; congr 1; simp [dist2, dot, vec, real_pt]; ring
  generalize hFd : Simd.normalize3 (V4.sub t f) = F at *
  have hc : pt (Simd.cross3 up F) = crossP (pt up) (pt F) := by simp [vec, crossP, real_pt]; refine ⟨?_, ?_, ?_⟩ <;> ring
  have hw : pt (Simd.cross3 up F) ≠ ⟨0, 0, 0⟩ := by
    intro h; apply hup
    rw [hc, hF] at h
    simp only [crossP, diff, real_pt, vec, V3.mk.injEq] at h ⊢
    field_simp at h
    refine ⟨?_, ?_, ?_⟩ <;> linarith [h.1, h.2.1, h.2.2]
  obtain ⟨k, hk, hk2, -, hS, hS1⟩ := normalize3_unit _ hw
  refine ⟨F, _, rfl, rfl, hF1, hS1, ?_, ?_, ?_, by rw [hdist]; exact hn, ?_⟩
  · rw [hS]
    have : ∀ a b : V3 ℝ, dot (crossP a b) b = 0 := by intro a b; simp [dot, crossP]; ring
    have h2 := this (pt up) (pt F)
    rw [← hc] at h2
    simp only [dot, real_pt] at h2 ⊢
    field_simp; linarith
  · rw [hS]
    have : ∀ a b : V3 ℝ, dot (crossP a b) a = 0 := by intro a b; simp [dot, crossP]; ring
    have h2 := this (pt up) (pt F)
    rw [← hc] at h2
    simp only [dot, real_pt] at h2 ⊢
    field_simp; linarith
  · have : dot (crossP (pt F) (pt (Simd.normalize3 (Simd.cross3 up F)))) (pt up) = k := by
      rw [hS]
      have hx : (Simd.cross3 up F).x = (crossP (pt up) (pt F)).x := by rw [← hc]; rfl
      have hy : (Simd.cross3 up F).y = (crossP (pt up) (pt F)).y := by rw [← hc]; rfl
      have hz : (Simd.cross3 up F).z = (crossP (pt up) (pt F)).z := by rw [← hc]; rfl
      rw [hc] at hk2
      rw [hx, hy, hz]
      simp only [dot, crossP, real_pt] at hk2 ⊢
      field_simp
      linarith
    rw [this]; exact hk
  · rw [hdist, hF]
    simp only [diff, along, real_pt, vec, V3.mk.injEq]
    refine ⟨?_, ?_, ?_⟩ <;> field_simp <;> ring

/-- C60: when the two positions differ and `up` is not parallel to the line of sight, `lookAt` is a rigid transform that
sends `from` to the origin and `to` onto the positive z axis, at its distance; `up` is sent to the half plane `y > 0`,
`x = 0`. -/
theorem lookAt_spec (f t up : V4 ℝ) (hne : pt f ≠ pt t)
    (hup : crossP (pt up) (diff (pt t) (pt f)) ≠ ⟨0, 0, 0⟩) :
    Rigid (Transform.lookAt f t up) ∧ act (Transform.lookAt f t up) (xyz f) = 0 ∧
    act (Transform.lookAt f t up) (xyz t) = ![0, 0, Spec.dist (pt f) (pt t)] ∧
    (block3 (Transform.lookAt f t up) *ᵥ xyz up) 0 = 0 ∧ 0 < (block3 (Transform.lookAt f t up) *ᵥ xyz up) 1 := by
  obtain ⟨F, S, eF, eS, hF, hS, hSF, hSu, hU, hn, hd⟩ := look_frame f t up hne hup
  have hr := frame_rotation (pt S) (pt F) hS hF hSF
  generalize Spec.dist (pt f) (pt t) = n at *
  simp only [diff, along, real_pt, V3.mk.injEq] at hd
  obtain ⟨d0, d1, d2⟩ := hd
  simp only [dot, crossP, real_pt] at hF hS hSF hSu hU
  have hb : block3 (Transform.lookAt f t up) = !![S.x, S.y, S.z;
      (crossP (pt F) (pt S)).x, (crossP (pt F) (pt S)).y, (crossP (pt F) (pt S)).z; F.x, F.y, F.z] := by
    simp only [Transform.lookAt, eF, eS]
    ext i j; fin_cases i <;> fin_cases j <;> simp [block3, vec, crossP] <;> ring
  have hc : xyz (Transform.lookAt f t up).c3 = ![-(dot (pt S) (pt f)), -(dot (crossP (pt F) (pt S)) (pt f)),
      -(dot (pt F) (pt f))] := by
    simp only [Transform.lookAt, eF, eS]
    ext i; fin_cases i <;> simp [xyz, vec, crossP, dot] <;> ring
  have ha : Affine (Transform.lookAt f t up) := by
    simp only [Transform.lookAt, eF, eS]
    simp [Affine, vec]
  refine ⟨⟨ha, ?_⟩, ?_, ?_, ?_, ?_⟩
  · rw [hb]; exact hr
  · unfold act; rw [hb, hc]
    ext i; fin_cases i <;> simp [xyz, dot, Matrix.mulVec, dotProduct, Fin.sum_univ_three] <;> ring
  · unfold act; rw [hb, hc]
    ext i; fin_cases i <;> simp [xyz, dot, Matrix.mulVec, dotProduct, Fin.sum_univ_three, crossP] <;> grind
  · rw [hb]; simp [xyz, Matrix.mulVec, dotProduct, Fin.sum_univ_three]; linarith
  · rw [hb]; simp [xyz, Matrix.mulVec, dotProduct, Fin.sum_univ_three, crossP]; linarith

/-- C60 also covers the rotation-only variants: `rotate(from, to, up)` is a rotation that sends the front axis to the
direction of sight. -/
theorem rotateLook_spec (f t up : V4 ℝ) (hne : pt f ≠ pt t)
    (hup : crossP (pt up) (diff (pt t) (pt f)) ≠ ⟨0, 0, 0⟩) :
    Rigid (Transform.rotateLook f t up) ∧ (Transform.rotateLook f t up).c3 = ⟨0, 0, 0, 1⟩ ∧
    (block3 (Transform.rotateLook f t up) *ᵥ ![0, 0, Spec.dist (pt f) (pt t)]) = xyz t - xyz f := by
  obtain ⟨F, S, eF, eS, hF, hS, hSF, hSu, hU, hn, hd⟩ := look_frame f t up hne hup
  have hr := frame_rotation (pt S) (pt F) hS hF hSF
  have hb : block3 (Transform.rotateLook f t up) = !![S.x, S.y, S.z;
      (crossP (pt F) (pt S)).x, (crossP (pt F) (pt S)).y, (crossP (pt F) (pt S)).z; F.x, F.y, F.z]ᵀ := by
    simp only [Transform.rotateLook, eF, eS]
    ext i j; fin_cases i <;> fin_cases j <;> simp [block3, vec, crossP] <;> ring
  have ha : Affine (Transform.rotateLook f t up) ∧ (Transform.rotateLook f t up).c3 = ⟨0, 0, 0, 1⟩ := by
    simp only [Transform.rotateLook, eF, eS]
    simp [Affine, vec]
  refine ⟨⟨ha.1, ?_⟩, ha.2, ?_⟩
  · rw [hb]
    refine ⟨?_, ?_⟩
    · rw [Matrix.transpose_transpose, mul_eq_one_comm]; exact hr.1
    · rw [Matrix.det_transpose]; exact hr.2
  · rw [hb]
    generalize Spec.dist (pt f) (pt t) = n at *
    simp only [diff, along, real_pt, V3.mk.injEq] at hd
    obtain ⟨d0, d1, d2⟩ := hd
    simp only [real_pt] at *
    ext i; fin_cases i <;> simp [xyz, Matrix.mulVec, dotProduct, Fin.sum_univ_three] <;> linarith

/-- C60, `rotate(front, up)` for a unit `front` not parallel to `up`: a rotation that sends the front axis to `front`. -/
theorem rotateFront_spec (front up : V4 ℝ) (hf : dot (pt front) (pt front) = 1)
    (hup : crossP (pt up) (pt front) ≠ ⟨0, 0, 0⟩) :
    Rigid (Transform.rotateFront front up) ∧ (Transform.rotateFront front up).c3 = ⟨0, 0, 0, 1⟩ ∧
    block3 (Transform.rotateFront front up) *ᵥ ![0, 0, 1] = xyz front := by
  have h1 : front.x * front.x + front.y * front.y + front.z * front.z = 1 := by simpa [dot, real_pt] using hf
  have hn : Simd.normalize3 (V4.sub front ⟨0, 0, 0, 0⟩) = front := by
    have : V4.sub front ⟨0, 0, 0, 0⟩ = front := by cases front; simp [vec]
    rw [this]
    have hz : √(front.x * front.x + front.y * front.y + front.z * front.z) = 1 := by rw [h1]; simp
    cases front; simp only at hz; simp [vec, hz]
  have he : Transform.rotateFront front up = Transform.rotateLook ⟨0, 0, 0, 0⟩ front up := by
    simp only [Transform.rotateLook, Transform.rotateFront, hn]
  have hne : pt (⟨0, 0, 0, 0⟩ : V4 ℝ) ≠ pt front := by
    intro h
    rw [← h] at hf
    simp [dot, real_pt] at hf
  have hd : diff (pt front) (pt (⟨0, 0, 0, 0⟩ : V4 ℝ)) = pt front := by simp [diff, real_pt]
  have hdist : Spec.dist (pt (⟨0, 0, 0, 0⟩ : V4 ℝ)) (pt front) = 1 := by
    unfold Spec.dist
    rw [show dist2 (pt (⟨0, 0, 0, 0⟩ : V4 ℝ)) (pt front) = 1 by simp [dist2, real_pt]; linarith]
    simp
  have := rotateLook_spec ⟨0, 0, 0, 0⟩ front up hne (by rw [hd]; exact hup)
  rw [he]
  refine ⟨this.1, this.2.1, ?_⟩
  rw [← hdist, this.2.2]
  ext i; fin_cases i <;> simp [xyz]

example : dot (pt (⟨3/5, 0, 4/5, 0⟩ : V4 ℝ)) (pt (⟨3/5, 0, 4/5, 0⟩ : V4 ℝ)) = 1 ∧
    crossP (pt (⟨0, 1, 0, 0⟩ : V4 ℝ)) (pt (⟨3/5, 0, 4/5, 0⟩ : V4 ℝ)) ≠ ⟨0, 0, 0⟩ := by
  norm_num [crossP, dot, real_pt]

/-- C71 fails: for `lookAtQuat`: the second column of the matrix it builds is always zero, and for the unit direction
`(3/5, 0, 4/5)` with `up = (0, 1, 0)` the result is not a unit quaternion and does not rotate the front vector to the
direction. -/
theorem lookAtQuat_wrong :
    (∀ d up : V4 ℝ, xyz (Transform.lookAtQuatMatrix d up).c1 = 0) ∧
    ¬ UnitQuat (Transform.lookAtQuat (⟨3/5, 0, 4/5, 0⟩ : V4 ℝ) ⟨0, 1, 0, 0⟩) ∧
    xyz (Quat.rotate (Transform.lookAtQuat (⟨3/5, 0, 4/5, 0⟩ : V4 ℝ) ⟨0, 1, 0, 0⟩) ⟨0, 0, 1, 0⟩) ≠ ![3/5, 0, 4/5] := by
  have hx : (Transform.lookAtQuatMatrix (⟨3/5, 0, 4/5, 0⟩ : V4 ℝ) ⟨0, 1, 0, 0⟩).c0.x = 4/5 ∧
      (Transform.lookAtQuatMatrix (⟨3/5, 0, 4/5, 0⟩ : V4 ℝ) ⟨0, 1, 0, 0⟩).c0.y = 0 ∧
      (Transform.lookAtQuatMatrix (⟨3/5, 0, 4/5, 0⟩ : V4 ℝ) ⟨0, 1, 0, 0⟩).c0.z = -3/5 := by
    simp [vec]; norm_num
  have hc1 : ∀ d up : V4 ℝ, xyz (Transform.lookAtQuatMatrix d up).c1 = 0 := by
    intro d up; ext i; fin_cases i <;> simp [vec, xyz] <;> ring
  have h2 : (Transform.lookAtQuatMatrix (⟨3/5, 0, 4/5, 0⟩ : V4 ℝ) ⟨0, 1, 0, 0⟩).c2 = ⟨3/5, 0, 4/5, 0⟩ := rfl
  have h1 := hc1 ⟨3/5, 0, 4/5, 0⟩ ⟨0, 1, 0, 0⟩
  have h10 := congrFun h1 0
  have h11 := congrFun h1 1
  have h12 := congrFun h1 2
  simp only [xyz, Matrix.cons_val, Pi.zero_apply] at h10 h11 h12
  refine ⟨hc1, ?_⟩
  unfold Transform.lookAtQuat
  obtain ⟨v, hv, h⟩ := extractQuat_cases (Transform.lookAtQuatMatrix (⟨3/5, 0, 4/5, 0⟩ : V4 ℝ) ⟨0, 1, 0, 0⟩)
  rw [h2, h10, h11, h12, hx.1, hx.2.1, hx.2.2] at h
  have hr : ∀ q : V4 ℝ, (Quat.rotate q ⟨0, 0, 1, 0⟩).z = 1 - 2 * (q.x ^ 2 + q.y ^ 2) := by
    intro q; simp [vec, Quat.rotate]; ring
  refine ⟨fun hu => ?_, fun hu => ?_⟩
  · unfold UnitQuat at hu
    rcases h with ⟨h4, he⟩ | ⟨h4, he⟩ | ⟨h4, he⟩ | ⟨h4, he⟩ <;> rw [he] at hu <;> simp only at h4 hu <;>
      field_simp at hu <;> nlinarith
  · have hz := congrFun hu 2
    simp only [xyz, Matrix.cons_val, hr] at hz
    rcases h with ⟨h4, he⟩ | ⟨h4, he⟩ | ⟨h4, he⟩ | ⟨h4, he⟩ <;> rw [he] at hz <;> simp only at h4 hz <;>
      field_simp at hz <;> nlinarith

/-- C71, part that holds: for a horizontal unit direction that is not sideways and the default `up`, the result turns
about the vertical axis only, with the correct product of sine and cosine of the half angle (`d.x / 2`). Missing, and
false: unit length, hence the direction the front vector is rotated to. -/
theorem lookAtQuat_partial (d : V4 ℝ) (hy : d.y = 0) (hu : d.x ^ 2 + d.z ^ 2 = 1) (hz : d.z ≠ 0) :
    (Transform.lookAtQuat d ⟨0, 1, 0, 0⟩).x = 0 ∧ (Transform.lookAtQuat d ⟨0, 1, 0, 0⟩).z = 0 ∧
    (Transform.lookAtQuat d ⟨0, 1, 0, 0⟩).y * (Transform.lookAtQuat d ⟨0, 1, 0, 0⟩).w = d.x / 2 := by
  obtain ⟨x, y, z, w⟩ := d
  simp only at hy hu hz
  subst hy
  have hs : z * z + x * x = 1 := by linarith
  have hm : Transform.lookAtQuatMatrix (⟨x, 0, z, w⟩ : V4 ℝ) ⟨0, 1, 0, 0⟩ =
      ⟨⟨z, 0, -x, -x⟩, ⟨0, 0, 0, 0⟩, ⟨x, 0, z, w⟩, ⟨x, 0, z, w⟩⟩ := by
    simp [vec, hs]
    norm_num
  unfold Transform.lookAtQuat
  rw [hm]
  have hsq : ∀ a : ℝ, 0 ≤ a → √(a + 1) * (1 / 2) ≠ 0 := by
    intro a ha; exact mul_ne_zero (Real.sqrt_pos.mpr (by linarith)).ne' (by norm_num)
  rcases lt_or_gt_of_ne hz with h | h
  · have hb : Transform.biggest (⟨⟨z, 0, -x, -x⟩, ⟨0, 0, 0, 0⟩, ⟨x, 0, z, w⟩, ⟨x, 0, z, w⟩⟩ : M4 ℝ) = (2, -z - z) := by
      simp only [Transform.biggest, vec, decide_eq_true_eq]
      simp
      simp only [if_pos h, if_pos (show (0 : ℝ) < -z - z by linarith), if_neg (show ¬ (-z - z < 0) by linarith)]
    simp only [Transform.extractQuat, hb, vec]
    have := hsq (-z - z) (by linarith)
    push_cast
    generalize √(-z - z + 1) * (1 / 2) = v at this ⊢
    refine ⟨by simp, by simp, ?_⟩
    field_simp
    ring
  · have hb : Transform.biggest (⟨⟨z, 0, -x, -x⟩, ⟨0, 0, 0, 0⟩, ⟨x, 0, z, w⟩, ⟨x, 0, z, w⟩⟩ : M4 ℝ) = (0, z + z) := by
      simp only [Transform.biggest, vec, decide_eq_true_eq]
      simp
      simp only [if_neg h.not_gt, if_neg (show ¬ (z + z < -z - z) by linarith), if_neg (show ¬ (z + z < 0) by linarith)]
    simp only [Transform.extractQuat, hb, vec]
    have := hsq (z + z) (by linarith)
    push_cast
    generalize √(z + z + 1) * (1 / 2) = v at this ⊢
    refine ⟨by simp, by simp, ?_⟩
    field_simp
    ring

example : (0 : ℝ) = 0 ∧ (3/5 : ℝ) ^ 2 + (4/5) ^ 2 = 1 ∧ (4/5 : ℝ) ≠ 0 := by norm_num

/-- Non-vacuity for C60: positions and an `up` in general position. -/
example : pt (⟨1, 2, 3, 0⟩ : V4 ℝ) ≠ pt (⟨4, 2, 3, 0⟩ : V4 ℝ) ∧
    crossP (pt (⟨0, 1, 0, 0⟩ : V4 ℝ)) (diff (pt (⟨4, 2, 3, 0⟩ : V4 ℝ)) (pt (⟨1, 2, 3, 0⟩ : V4 ℝ))) ≠ ⟨0, 0, 0⟩ := by
  norm_num [crossP, diff, real_pt]


/-! ## C61 -/

/-- The parts of the matrix computed by `inverseTransRot`. -/
theorem inverseTransRot_parts (m : M4 ℝ) :
    block3 (Transform.inverseTransRot m) = (block3 m)ᵀ ∧
    xyz (Transform.inverseTransRot m).c3 = -((block3 m)ᵀ *ᵥ xyz m.c3) ∧
    (Transform.inverseTransRot m).c0.w = m.c3.x ∧ (Transform.inverseTransRot m).c1.w = m.c3.y ∧
    (Transform.inverseTransRot m).c2.w = m.c3.z ∧ (Transform.inverseTransRot m).c3.w = m.c3.w := by
  refine ⟨?_, ?_, ?_, ?_, ?_, ?_⟩
  · ext i j; fin_cases i <;> fin_cases j <;> simp [block3, vec]
  · ext i; fin_cases i <;> simp [block3, xyz, vec, Matrix.mulVec, dotProduct, Fin.sum_univ_three] <;> ring
  all_goals simp [vec]

/-- C61 fails: the last row of `inverseTransRot` of a rigid transform is the translation instead of `0 0 0`, so it is the
inverse only for transforms without translation. -/
theorem inverseTransRot_wrong (m : M4 ℝ) (h : Rigid m) :
    (mat4 (Transform.inverseTransRot m) * mat4 m = 1 ↔ xyz m.c3 = 0) ∧
    (Transform.inverseTransRot m).c0.w = m.c3.x ∧ (Transform.inverseTransRot m).c1.w = m.c3.y ∧
    (Transform.inverseTransRot m).c2.w = m.c3.z := by
  obtain ⟨hb, hc, h0, h1, h2, h3⟩ := inverseTransRot_parts m
  refine ⟨?_, h0, h1, h2⟩
  obtain ⟨⟨w0, w1, w2, w3⟩, hr⟩ := h
  obtain ⟨⟨a1,a2,a3⟩,⟨b1,b2,b3⟩,⟨c1,c2,c3⟩,⟨d1,d2,d3⟩,-⟩ := rot_rel m hr
  constructor
  · intro he
    have h33 := congrFun (congrFun he 3) 3
    simp [mat4, Matrix.mul_apply, Fin.sum_univ_four, h0, h1, h2, h3, w3] at h33
    have s0 := mul_self_nonneg m.c3.x
    have s1 := mul_self_nonneg m.c3.y
    have s2 := mul_self_nonneg m.c3.z
    ext i; fin_cases i <;> simp [xyz] <;> apply mul_self_eq_zero.mp <;> linarith
  · intro hz
    have z0 : m.c3.x = 0 := congrFun hz 0
    have z1 : m.c3.y = 0 := congrFun hz 1
    have z2 : m.c3.z = 0 := congrFun hz 2
    ext i j; fin_cases i <;> fin_cases j <;>
      simp [mat4, vec, Matrix.mul_apply, Fin.sum_univ_four, w0, w1, w2, w3, z0, z1, z2] <;> grind

/-- C61, what holds: the upper three rows are those of the inverse: the point transform with the last row ignored undoes
the transform, on either side. Missing: the last row. -/
theorem inverseTransRot_partial (m : M4 ℝ) (h : Rigid m) (p : Fin 3 → ℝ) :
    act (Transform.inverseTransRot m) (act m p) = p ∧ act m (act (Transform.inverseTransRot m) p) = p := by
  obtain ⟨-, h1, -⟩ := h
  have h2 := mul_eq_one_comm.mp h1
  obtain ⟨hb, hc, -⟩ := inverseTransRot_parts m
  unfold act
  rw [hb, hc]
  constructor
  · rw [Matrix.mulVec_add, Matrix.mulVec_mulVec, h1, Matrix.one_mulVec]; simp
  · rw [Matrix.mulVec_add, Matrix.mulVec_neg, Matrix.mulVec_mulVec, Matrix.mulVec_mulVec, h2, Matrix.one_mulVec,
      Matrix.one_mulVec]; simp

/-- Non-vacuity for C59 and C61: a non-trivial unit quaternion, a positive scale other than one, and a rigid matrix
with a non-zero translation (a quarter turn about the z axis, then a shift by (1, 2, 3)). -/
example : UnitQuat (⟨3/5, 0, 0, 4/5⟩ : V4 ℝ) ∧ (⟨3/5, 0, 0, 4/5⟩ : V4 ℝ) ≠ ⟨0, 0, 0, 0⟩ ∧
    (0 : ℝ) < 2 ∧ Rigid (M4.ofRows 0 (-1) 0 1 1 0 0 2 0 0 1 3 0 0 0 1 : M4 ℝ) ∧
    xyz (M4.ofRows 0 (-1) 0 1 1 0 0 2 0 0 1 3 0 0 0 1 : M4 ℝ).c3 ≠ 0 := by
  refine ⟨by norm_num [UnitQuat], by norm_num, by norm_num, ⟨by simp [Affine, vec], ?_, ?_⟩, ?_⟩
  · ext i j; fin_cases i <;> fin_cases j <;> simp [block3, vec, Matrix.mul_apply, Fin.sum_univ_three]
  · rw [Matrix.det_fin_three]; simp [block3, vec]
  · intro h; have := congrFun h 0; simp [xyz, vec] at this

end Verif
