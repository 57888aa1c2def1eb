import Verif.Props.Mask
import Verif.Props.Aabb
import Verif.Props.GeomOps
import Verif.Props.ColorSpace
import Verif.Props.RayBox
import Verif.Model.SimdInt
import Verif.Proofs.F32Real
import Verif.Model.GeomOps
import Verif.Model.Convert
import Verif.Model.MatOps
import Verif.Props.MatAlgebra
import Verif.Props.IntOps

/-!
# Setters, clamps and conversions of shapes, integer vectors and colors (C125, and parts of C21, C22, C34, C65, C98)
-/

namespace Verif
open Spec

/-! ## Clamping and converting SIMD integers -/

/-- C21: `clamp(i32x4, lo, hi)` on every backend: the value when it is between the bounds, otherwise the bound it is
beyond, lane by lane. -/
theorem simd_clamp_int (k : Backend) (v lo hi : V4 W) (i : Fin 4) (h : (lo.get i).toInt ≤ (hi.get i).toInt) :
    let r := ((k.clampI v lo hi).get i).toInt
    (lo.get i).toInt ≤ r ∧ r ≤ (hi.get i).toInt ∧
    ((v.get i).toInt < (lo.get i).toInt → r = (lo.get i).toInt) ∧
    ((hi.get i).toInt < (v.get i).toInt → r = (hi.get i).toInt) ∧
    ((lo.get i).toInt ≤ (v.get i).toInt → (v.get i).toInt ≤ (hi.get i).toInt → r = (v.get i).toInt) := by
  intro r
  have e : r = max (min (v.get i).toInt (hi.get i).toInt) (lo.get i).toInt := by
    rw [← ((simd_int_min_max k v hi).1 i).1, ← ((simd_int_min_max k _ lo).1 i).2]; rfl
  rw [e]
  omega

/-- C22 (partial): `clamp(u32x4, lo, hi)` likewise, on every backend but SSE4.1, and there when every lane is below
2^31. Missing: SSE4.1 lanes with the top bit set. -/
theorem simd_clamp_uint_partial (k : Backend) (v lo hi : V4 W) (i : Fin 4) (h : (lo.get i).toNat ≤ (hi.get i).toNat)
    (hk : k ≠ .sse41 ∨ ∀ i, (v.get i).toNat < 2 ^ 31 ∧ (lo.get i).toNat < 2 ^ 31 ∧ (hi.get i).toNat < 2 ^ 31) :
    let r := ((k.clampU v lo hi).get i).toNat
    (lo.get i).toNat ≤ r ∧ r ≤ (hi.get i).toNat ∧
    ((v.get i).toNat < (lo.get i).toNat → r = (lo.get i).toNat) ∧
    ((hi.get i).toNat < (v.get i).toNat → r = (hi.get i).toNat) ∧
    ((lo.get i).toNat ≤ (v.get i).toNat → (v.get i).toNat ≤ (hi.get i).toNat → r = (v.get i).toNat) := by
  intro r
  have e1 : ∀ a b : W, (minBy BitVec.ult a b).toNat = min a.toNat b.toNat := by
    intro a b; have := (ranked_u.min (a := a) (b := b) trivial trivial).1; exact_mod_cast this
  have e2 : ∀ a b : W, (maxBy BitVec.ult a b).toNat = max a.toNat b.toNat := by
    intro a b; have := (ranked_u.max (a := a) (b := b) trivial trivial).1; exact_mod_cast this
  have m1 : ∀ (a b : V4 W) (i : Fin 4), ((V4.min BitVec.ult a b).get i).toNat = min (a.get i).toNat (b.get i).toNat := by
    intro a b i; fin_cases i <;> exact e1 _ _
  have m2 : ∀ (a b : V4 W) (i : Fin 4), ((V4.max BitVec.ult a b).get i).toNat = max (a.get i).toNat (b.get i).toNat := by
    intro a b i; fin_cases i <;> exact e2 _ _
  have e : r = max (min (v.get i).toNat (hi.get i).toNat) (lo.get i).toNat := by
    rcases hk with hk | hk
    · rw [← m1, ← m2]
      cases k
      · rfl
      · exact absurd rfl hk
      · rfl
      · rfl
    · have o1 := ((simd_uint_partial v hi).2.2 k (fun i => (hk i).1) (fun i => (hk i).2.2)).2.1
      have o2 := ((simd_uint_partial (V4.min BitVec.ult v hi) lo).2.2 k
        (fun i => by rw [m1]; have := hk i; omega) (fun i => (hk i).2.1)).2.2
      change ((k.maxU (k.minU v hi) lo).get i).toNat = _
      rw [o1, o2, m2, m1]
  rw [e]
  omega

/-- C22 (partial): comparisons of an unsigned vector with a number, on either side, are the unsigned comparisons lane by
lane on NEON and without SIMD, and with SSE when all values are below 2^31. Missing: SSE values with the top bit set. -/
theorem simd_uint_scalar_compare_partial (k : Isa) (c : Cmp) (v : V4 W) (n : W)
    (hk : k = .neon ∨ k = .scalar ∨ n.toNat < 2 ^ 31 ∧ ∀ i, (v.get i).toNat < 2 ^ 31) (i : Fin 4) :
    (U32x4.cmpS k c v n).get i = mask (c.onU (v.get i) n) ∧ (U32x4.cmpL k c n v).get i = mask (c.onU n (v.get i)) := by
  have key : UnsignedOk k.toBackend v (V4.splat n) ∧ UnsignedOk k.toBackend (V4.splat n) v := by
    rcases hk with rfl | rfl | ⟨h1, h2⟩
    · exact ⟨(simd_uint_partial _ _).1, (simd_uint_partial _ _).1⟩
    · exact ⟨(simd_uint_partial _ _).2.1, (simd_uint_partial _ _).2.1⟩
    · have hn : ∀ i, ((V4.splat n).get i).toNat < 2 ^ 31 := by intro i; fin_cases i <;> exact h1
      exact ⟨(simd_uint_partial _ _).2.2 _ h2 hn, (simd_uint_partial _ _).2.2 _ hn h2⟩
  unfold U32x4.cmpS U32x4.cmpL
  rw [key.1.1 c, key.2.1 c]
  fin_cases i <;> exact ⟨rfl, rfl⟩

/-- C98 (partial): with SSE and NEON, `f32x4(i32x4)` gives in every lane a binary32 number nearest to the integer, as the
scalar conversion does. Missing: the code without SIMD, which reinterprets the bits
(`simd_int_to_float_counterexample`). -/
theorem simd_int_to_float_partial (k : Backend) (hk : k ≠ .scalar) (v : V4 W) (i : Fin 4) :
    (k.toFloatI v).get i = Backend.ofInt (v.get i).toInt ∧
      ((v.get i).toInt.natAbs ≤ 2 ^ 24 → F32.val ((k.toFloatI v).get i) = (v.get i).toInt) := by
  have e : (k.toFloatI v).get i = Backend.ofInt (v.get i).toInt := by
    cases k
    · fin_cases i <;> rfl
    · fin_cases i <;> rfl
    · fin_cases i <;> rfl
    · exact absurd rfl hk
  refine ⟨e, fun h => ?_⟩
  have o : Backend.ofInt (v.get i).toInt = F32.ofInt (v.get i).toInt := by
    generalize (v.get i).toInt = z
    unfold F32.ofInt
    by_cases h : z = 0
    · rw [if_pos h, h]; decide +kernel
    · rw [if_neg h]; rfl
  rw [e, o, (ofInt_exact _ h).2]

/-- C98 fails without SIMD: the vector of ones becomes the vector of smallest denormals. -/
theorem simd_int_to_float_counterexample :
    Backend.toFloatI .scalar (V4.splat 1) = V4.splat ⟨1⟩ ∧ Backend.ofInt 1 = ⟨0x3F800000⟩ := by
  exact ⟨by decide, by decide +kernel⟩

/-- C98: casting a float vector to a shorter one or to a number keeps the leading components. -/
theorem shorten_spec (a : V2 F32) (b : V3 F32) (c : V4 F32) :
    a.toFloat = a.x ∧ b.toFloat = b.x ∧ c.toFloat = c.x ∧ b.toFloat2.toList = b.toList.take 2 ∧
    c.toFloat2.toList = c.toList.take 2 ∧ c.toFloat3.toList = c.toList.take 3 := ⟨rfl, rfl, rfl, rfl, rfl, rfl⟩

/-- C120: assigning a number to a SIMD integer vector sets every lane. -/
theorem simd_int_set (a : V4 W) (n : W) (i : Fin 4) : (I32x4.set a n).get i = n ∧ (U32x4.set a n).get i = n := by
  fin_cases i <;> exact ⟨rfl, rfl⟩

/-! ## Matrices and distances -/

/-- C55: `a *= b` leaves the product in `a`. -/
theorem mul_assign_spec (a b : M2 ℝ) (c d : M3 ℝ) (e f : M4 ℝ) :
    mat2 (MatOps.mulAssign2 a b) = mat2 a * mat2 b ∧ mat3 (MatOps.mulAssign3 c d) = mat3 c * mat3 d ∧
    mat4 (MatOps.mulAssign4 e f) = mat4 e * mat4 f := by
  refine ⟨?_, ?_, ?_⟩
  · ext i j; fin_cases i <;> fin_cases j <;> simp [vec, MatOps.mulAssign2, mat2, Matrix.mul_apply, Fin.sum_univ_two]
  · ext i j; fin_cases i <;> fin_cases j <;>
      simp [vec, MatOps.mulAssign3, mat3, Matrix.mul_apply, Fin.sum_univ_three]
  · ext i j; fin_cases i <;> fin_cases j <;>
      simp [vec, MatOps.mulAssign4, mat4, Matrix.mul_apply, Fin.sum_univ_four]

/-- C55: the identity of the matrices without a last row leaves points where they are. -/
theorem m43_identity (v : V4 ℝ) : vec3 (M43.identity.mulV v) = ![v.x, v.y, v.z] := by
  ext i; fin_cases i <;> simp [vec, M43.identity, vec3]

/-- C90, exact arithmetic: the SIMD lengths and distances are the Euclidean ones, of the first three or all four
components. -/
theorem simd_metric_exact (a b : V4 ℝ) :
    Simd.lengthSq4 a = a.x ^ 2 + a.y ^ 2 + a.z ^ 2 + a.w ^ 2 ∧
    Simd.distanceSq3 a b = dist2 (pt a) (pt b) ∧ Simd.distance3 a b = Spec.dist (pt a) (pt b) ∧
    Simd.distanceSq4 a b = (a.x - b.x) ^ 2 + (a.y - b.y) ^ 2 + (a.z - b.z) ^ 2 + (a.w - b.w) ^ 2 ∧
    Simd.distance4 a b = Real.sqrt ((a.x - b.x) ^ 2 + (a.y - b.y) ^ 2 + (a.z - b.z) ^ 2 + (a.w - b.w) ^ 2) := by
  simp only [vec, dist2, Spec.dist, real_pt]
  push_cast
  refine ⟨?_, ?_, ?_, ?_, ?_⟩
  · ring
  · ring
  · congr 1; ring
  · ring
  · congr 1; ring

/-! ## Shapes -/

/-- C125: setting the distance of a plane keeps its normal, and setting its normal keeps its distance; a normal that is
not zero is made a unit vector of the same direction on request and stored unchanged otherwise. -/
theorem plane_set (pl : Plane ℝ) (n : V4 ℝ) (d : ℝ) (h : pt n ≠ ⟨0, 0, 0⟩) :
    pt (pl.setDistance d).normDist = pt pl.normDist ∧ (pl.setDistance d).normDist.w = d ∧
    pt (pl.setNormal n false).normDist = pt n ∧ (pl.setNormal n false).normDist.w = pl.normDist.w ∧
    (pl.setNormal n true).normDist.w = pl.normDist.w ∧
    dot (pt (pl.setNormal n true).normDist) (pt (pl.setNormal n true).normDist) = 1 ∧
    ∃ c, 0 < c ∧ pt n = ⟨c * (pt (pl.setNormal n true).normDist).x, c * (pt (pl.setNormal n true).normDist).y,
      c * (pt (pl.setNormal n true).normDist).z⟩ := by
  have hp := len_pos h
  have hs : Real.sqrt (dot (pt n) (pt n)) * Real.sqrt (dot (pt n) (pt n)) = dot (pt n) (pt n) :=
    Real.mul_self_sqrt (dot_self_nonneg _)
  refine ⟨rfl, rfl, rfl, rfl, rfl, ?_, Real.sqrt (dot (pt n) (pt n)), hp, ?_⟩
  all_goals
    simp only [Plane.setNormal, if_true, normalize3_pt, V4.withW, real_pt] at *
    generalize Real.sqrt (dot ⟨n.x, n.y, n.z⟩ ⟨n.x, n.y, n.z⟩) = s at *
  · simp only [dot] at *
    field_simp
    linarith
  · simp only [V3.mk.injEq]
    refine ⟨?_, ?_, ?_⟩ <;> field_simp

/-- C125: setting the radius of a sphere keeps its center, and setting its center keeps its radius. -/
theorem sphere_set (s : Sphere ℝ) (r : ℝ) (p : V4 ℝ) :
    pt (s.setRadius r).posRad = pt s.posRad ∧ (s.setRadius r).radius = r ∧
    pt (s.setPosition p).posRad = pt p ∧ (s.setPosition p).radius = s.radius := ⟨rfl, rfl, rfl, rfl⟩

/-- C125: the direction of a line leads from its start to its end; normalised, it has unit length and the same
direction. -/
theorem line_direction (l : Line ℝ) (h : pt l.end ≠ pt l.start) :
    along (pt l.start) (pt (l.getDirection false)) 1 = pt l.end ∧
    dot (pt (l.getDirection true)) (pt (l.getDirection true)) = 1 ∧
    along (pt l.start) (pt (l.getDirection true)) (Spec.dist (pt l.start) (pt l.end)) = pt l.end := by
  have h' : pt (V4.sub l.end l.start) ≠ ⟨0, 0, 0⟩ := by
    intro h0
    apply h
    simp only [V4.sub, V4.map2, Flt.real_sub, real_pt, V3.mk.injEq] at h0 ⊢
    refine ⟨?_, ?_, ?_⟩ <;> linarith [h0.1, h0.2.1, h0.2.2]
  have hp := len_pos h'
  have hs : Real.sqrt (dot (pt (V4.sub l.end l.start)) (pt (V4.sub l.end l.start))) *
      Real.sqrt (dot (pt (V4.sub l.end l.start)) (pt (V4.sub l.end l.start))) =
      dot (pt (V4.sub l.end l.start)) (pt (V4.sub l.end l.start)) := Real.mul_self_sqrt (dot_self_nonneg _)
  have hd : Spec.dist (pt l.start) (pt l.end) = Real.sqrt (dot (pt (V4.sub l.end l.start)) (pt (V4.sub l.end l.start))) := by
    unfold Spec.dist
    congr 1
    simp only [dist2, dot, V4.sub, V4.map2, Flt.real_sub, real_pt]; ring
  rw [hd]
  simp only [Line.getDirection, if_true, Bool.false_eq_true, if_false, normalize3_pt]
  generalize Real.sqrt (dot (pt (V4.sub l.end l.start)) (pt (V4.sub l.end l.start))) = s at *
  simp only [V4.sub, V4.map2, Flt.real_sub, real_pt, along, dot, V3.mk.injEq] at *
  refine ⟨⟨?_, ?_, ?_⟩, ?_, ?_, ?_, ?_⟩
  · ring
  · ring
  · ring
  · field_simp; linarith
  · field_simp; ring
  · field_simp; ring
  · field_simp; ring

/-- C125: normalising a ray keeps its points and makes its direction a unit vector. -/
theorem ray_normalize (r : Ray ℝ) (h : pt r.direction ≠ ⟨0, 0, 0⟩) :
    RayPts (pt r.normalize.origin) (pt r.normalize.direction) = RayPts (pt r.origin) (pt r.direction) ∧
    dot (pt r.normalize.direction) (pt r.normalize.direction) = 1 := by
  have hl : pt r.normalize.direction = pt (Ray.ctor r.origin r.direction true).direction := by
    have : Simd.length3 r.direction = Real.sqrt (dot (pt r.direction) (pt r.direction)) := by
      simp only [vec, dot, real_pt]; congr 1; push_cast; ring
    simp only [Ray.normalize, this, Ray.ctor, if_true, normalize3_pt]
    rfl
  rw [hl]
  exact ctor_dir r.origin r.direction h _

/-- C125: scaling a box by positive factors scales its points. -/
theorem scale_box_partial (b : Aabb ℝ) (s : V4 ℝ) (h : 0 < s.x ∧ 0 < s.y ∧ 0 < s.z) (p : V3 ℝ) :
    (⟨p.x * s.x, p.y * s.y, p.z * s.z⟩ : V3 ℝ) ∈ boxOf (b.scale s) ↔ p ∈ boxOf b := by
  obtain ⟨h1, h2, h3⟩ := h
  simp only [boxOf, Box, Aabb.scale, V4.mul, V4.map2, Flt.real_mul, real_pt, Set.mem_ofPred_eq,
    mul_le_mul_iff_left₀ h1, mul_le_mul_iff_left₀ h2, mul_le_mul_iff_left₀ h3]

/-- C125 fails for negative factors: a box of positive size scaled by a negative factor has no points left. -/
theorem scale_negative (b : Aabb ℝ) (s : V4 ℝ) (h : b.min.x < b.max.x) (hs : s.x < 0) : boxOf (b.scale s) = ∅ := by
  ext p
  simp only [boxOf, Box, Aabb.scale, V4.mul, V4.map2, Flt.real_mul, real_pt, Set.mem_ofPred_eq, Set.mem_empty_iff_false,
    iff_false]
  rintro ⟨⟨a, c⟩, -⟩
  nlinarith

/-- C34: `raycast1` returns the first of the two distances of `raycast2` on a hit and FLT_MAX otherwise. -/
theorem raycast1_eq (b : Aabb ℝ) (o : V4 ℝ) (d : V3 ℝ) (w : ℝ) (hd : d.x ≠ 0 ∧ d.y ≠ 0 ∧ d.z ≠ 0)
    (hb : |d.x| < 10 ^ 20 ∧ |d.y| < 10 ^ 20 ∧ |d.z| < 10 ^ 20) :
    let r := Ray.ctor o ⟨d.x, d.y, d.z, w⟩ false
    b.raycast1 r = (b.raycast2 r).x ∧ (b.raycast r = false → b.raycast1 r = (2 ^ 24 - 1) * 2 ^ 104) := by
  intro r
  refine ⟨rfl, fun h => ?_⟩
  obtain ⟨w', v, e⟩ := raycast_ray o d w hd hb (V4.splat 0)
  have h1 : Aabb.hit (b.raycast2I
    ((Ray.mk ⟨d.x, d.y, d.z, w⟩ (V4.splat 0) o).setDirection (V4.div (V4.splat (Flt.lit 1)) ⟨d.x, d.y, d.z, w⟩) true)) = false := h
  have h2 : b.raycast1 r = (b.raycast2I
    ((Ray.mk ⟨d.x, d.y, d.z, w⟩ (V4.splat 0) o).setDirection (V4.div (V4.splat (Flt.lit 1)) ⟨d.x, d.y, d.z, w⟩) true)).x := rfl
  rw [e] at h1 h2
  have h3 := mt (hit_iff b o _ v).2 (by rw [h1]; simp)
  rw [h2, raycast2I_eq, if_pos]
  by_contra hc
  simp only [not_or, not_lt] at hc
  exact h3 hc

/-! ## Colors -/

/-- C65 (partial): converting a color with channels between 0 and `B`, not black, to Yxy and back returns it to within a
millionth of `B`. Missing: that the values between are CIE Yxy (`rgbToXyz_wrong`), and black, whose chromaticity is
0/0 (`rgbToYxy_black`). -/
theorem rgb_yxy_inverse_partial (v : V4 ℝ) (B : ℝ) (hx : 0 ≤ v.x ∧ v.x ≤ B) (hy : 0 ≤ v.y ∧ v.y ≤ B)
    (hz : 0 ≤ v.z ∧ v.z ≤ B) (h0 : v.x ≠ 0 ∨ v.y ≠ 0 ∨ v.z ≠ 0) :
    |(ColorSpace.yxyToRgb (ColorSpace.rgbToYxy v)).x - v.x| ≤ 1e-6 * B ∧
    |(ColorSpace.yxyToRgb (ColorSpace.rgbToYxy v)).y - v.y| ≤ 1e-6 * B ∧
    |(ColorSpace.yxyToRgb (ColorSpace.rgbToYxy v)).z - v.z| ≤ 1e-6 * B := by
  have hs : 0 < v.x + v.y + v.z := by
    rcases h0 with h | h | h
    · have := lt_of_le_of_ne hx.1 h.symm; linarith [hy.1, hz.1]
    · have := lt_of_le_of_ne hy.1 h.symm; linarith [hx.1, hz.1]
    · have := lt_of_le_of_ne hz.1 h.symm; linarith [hy.1, hx.1]
  have y0 : 0 < 0.3575761 * v.x + 0.7151522 * v.y + 0.1191920 * v.z := by
    linarith [hx.1, hy.1, hz.1]
  have e : (ColorSpace.yxyToXyz (ColorSpace.rgbToYxy v)).xyz = (ColorSpace.rgbToXyz v).xyz := by
    apply yxy_xyz_inverse.1
    · rw [rgbToXyz_transposed]
      change 0.4124564 * v.x + 0.2126729 * v.y + 0.0193339 * v.z + (0.3575761 * v.x + 0.7151522 * v.y + 0.1191920 * v.z) +
        (0.1804375 * v.x + 0.0721750 * v.y + 0.9503041 * v.z) ≠ 0
      exact ne_of_gt (by linarith [hx.1, hy.1, hz.1])
    · rw [rgbToXyz_transposed]
      exact y0.ne'
  have d : ∀ a b : V4 ℝ, a.xyz = b.xyz → ColorSpace.xyzToRgb a = ColorSpace.xyzToRgb b := by
    intro a b h
    have h1 : a.x = b.x := congrArg V3.x h
    have h2 : a.y = b.y := congrArg V3.y h
    have h3 : a.z = b.z := congrArg V3.z h
    simp only [vec, h1, h2, h3]
  have r : ColorSpace.yxyToRgb (ColorSpace.rgbToYxy v) = ColorSpace.xyzToRgb (ColorSpace.rgbToXyz v) := d _ _ e
  rw [r]
  exact (rgb_xyz_inverse_partial v B (by rw [abs_of_nonneg hx.1]; exact hx.2) (by rw [abs_of_nonneg hy.1]; exact hy.2)
    (by rw [abs_of_nonneg hz.1]; exact hz.2)).1

/-- Non-vacuity: clamping on SSE4.1, a plane normal, a line, a ray direction, a positive scale, a yellow. -/
example : (Backend.clampI .sse41 ⟨7, 0xFFFFFFF0, 2, 0⟩ (V4.splat 0xFFFFFFFF) (V4.splat 5)) = ⟨5, 0xFFFFFFFF, 2, 0⟩ ∧
    pt (⟨1, 2, 3, 0⟩ : V4 ℝ) ≠ ⟨0, 0, 0⟩ ∧ (0 : ℝ) < 2 ∧
    |(ColorSpace.yxyToRgb (ColorSpace.rgbToYxy (⟨1, 1 / 2, 0, 1⟩ : V4 ℝ))).x - 1| ≤ 1e-6 * 1 := by
  refine ⟨by decide, by simp, by norm_num, ?_⟩
  exact (rgb_yxy_inverse_partial ⟨1, 1 / 2, 0, 1⟩ 1 (by norm_num) (by norm_num) (by norm_num) (by norm_num)).1

/-- The chromaticity of black is not a number. -/
theorem rgbToYxy_black : (ColorSpace.rgbToYxy (⟨⟨0⟩, ⟨0⟩, ⟨0⟩, ⟨0⟩⟩ : V4 F32)).y.isNaN = true := by decide +kernel

end Verif
