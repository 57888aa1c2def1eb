import Mathlib.Tactic.NormNum
import Mathlib.Tactic.Positivity
import Verif.Model.RealFlt
import Verif.Model.VecBackends
import Verif.Spec.Linear

/-! # C26: dot product, cross product, normalization (exact arithmetic) -/

namespace Verif
open Spec Matrix

/-- C26: the three-lane SIMD dot product is the dot product of the first three lanes, on every backend and
whatever the fourth lanes contain. -/
theorem dot3_spec (k : Backend) (a b : V4 ℝ) : Backend.dot3 k a b = xyz a ⬝ᵥ xyz b := by
  cases k <;> simp [vec, xyz, Fin.sum_univ_three, dotProduct]

/-- C26: the four-lane SIMD dot product is the dot product, on every backend. -/
theorem dot4_spec (k : Backend) (a b : V4 ℝ) : Backend.dot4 k a b = vec4 a ⬝ᵥ vec4 b := by
  cases k <;> simp [vec, vec4, dotProduct, Fin.sum_univ_four] <;> ring

/-- C26: the scalar dot products are the dot products. -/
theorem dot_spec (a b : V3 ℝ) (c d : V4 ℝ) (e f : V2 ℝ) :
    V3.dot a b = vec3 a ⬝ᵥ vec3 b ∧ V4.dot c d = vec4 c ⬝ᵥ vec4 d ∧ V2.dot e f = vec2 e ⬝ᵥ vec2 f := by
  refine ⟨?_, ?_, ?_⟩ <;>
    simp [vec, vec2, vec3, vec4, dotProduct, Fin.sum_univ_three, Fin.sum_univ_four, Fin.sum_univ_two]

/-- C26: the SIMD cross product is the cross product of the first three lanes, on every backend and whatever the
fourth lanes contain. -/
theorem cross3_spec (k : Backend) (a b : V4 ℝ) : xyz (Backend.cross3 k a b) = crossProduct (xyz a) (xyz b) := by
  cases k <;> ext i <;> fin_cases i <;> simp [vec, xyz, cross_apply] <;> ring

/-- C26: the scalar cross product is the cross product. -/
theorem cross_spec (a b : V3 ℝ) : vec3 (V3.cross a b) = crossProduct (vec3 a) (vec3 b) := by
  ext i; fin_cases i <;> simp [vec, vec3, cross_apply]

/-- C26, in the API's own terms: symmetry and bilinearity of `dot3`. -/
theorem dot3_bilinear (a b c : V4 ℝ) (s : ℝ) :
    Simd.dot3 a b = Simd.dot3 b a ∧
    Simd.dot3 (V4.add a b) c = Simd.dot3 a c + Simd.dot3 b c ∧
    Simd.dot3 (V4.smul a s) b = s * Simd.dot3 a b := by
  refine ⟨?_, ?_, ?_⟩ <;> simp [vec] <;> ring

/-- C26, in the API's own terms: `cross3` is anticommutative, orthogonal to both arguments, and satisfies
Lagrange's identity. -/
theorem cross3_algebra (a b : V4 ℝ) :
    (Simd.cross3 a b).xyz = (V4.neg (Simd.cross3 b a)).xyz ∧
    Simd.dot3 a (Simd.cross3 a b) = 0 ∧ Simd.dot3 b (Simd.cross3 a b) = 0 ∧
    Simd.lengthSq3 (Simd.cross3 a b) = Simd.lengthSq3 a * Simd.lengthSq3 b - Simd.dot3 a b ^ 2 := by
  refine ⟨?_, ?_, ?_, ?_⟩ <;> simp [vec] <;> ring

/-- C26: `cross3` of two basis vectors is the third (orientation). -/
theorem cross3_orientation (wx wy : ℝ) :
    (Simd.cross3 (⟨1, 0, 0, wx⟩ : V4 ℝ) ⟨0, 1, 0, wy⟩).xyz = ⟨0, 0, 1⟩ := by
  simp [vec]

/-- C26: `length3` is the Euclidean length of the first three lanes, on every backend. -/
theorem length3_spec (k : Backend) (v : V4 ℝ) : Backend.length3 k v = Real.sqrt (v.x ^ 2 + v.y ^ 2 + v.z ^ 2) := by
  cases k <;> simp [vec] <;> congr 1 <;> ring

/-- C26: `length4` is the Euclidean length, on every backend. -/
theorem length4_spec (k : Backend) (v : V4 ℝ) :
    Backend.length4 k v = Real.sqrt (v.x ^ 2 + v.y ^ 2 + v.z ^ 2 + v.w ^ 2) := by
  cases k <;> simp [vec] <;> congr 1 <;> ring

/-- C26: `distance3(a, b)` is the Euclidean distance of the first three lanes. -/
theorem distance3_spec (a b : V4 ℝ) :
    Simd.distance3 a b = Real.sqrt ((a.x - b.x) ^ 2 + (a.y - b.y) ^ 2 + (a.z - b.z) ^ 2) := by
  simp [vec]; congr 1; ring

theorem sq_sum3_pos {x y z : ℝ} (h : ¬(x = 0 ∧ y = 0 ∧ z = 0)) : 0 < x ^ 2 + y ^ 2 + z ^ 2 := by
  by_contra hn
  have hx := sq_nonneg x; have hy := sq_nonneg y; have hz := sq_nonneg z
  apply h
  refine ⟨?_, ?_, ?_⟩ <;> nlinarith [pow_eq_zero_iff (n := 2) (two_ne_zero) (M₀ := ℝ) |>.mp
    (show x ^ 2 = 0 by nlinarith), pow_eq_zero_iff (n := 2) (two_ne_zero) (M₀ := ℝ) |>.mp
    (show y ^ 2 = 0 by nlinarith), pow_eq_zero_iff (n := 2) (two_ne_zero) (M₀ := ℝ) |>.mp
    (show z ^ 2 = 0 by nlinarith)]

theorem sq_sum4_pos {x y z w : ℝ} (h : ¬(x = 0 ∧ y = 0 ∧ z = 0 ∧ w = 0)) : 0 < x ^ 2 + y ^ 2 + z ^ 2 + w ^ 2 := by
  by_cases h3 : x = 0 ∧ y = 0 ∧ z = 0
  · have hw : w ≠ 0 := fun hw => h ⟨h3.1, h3.2.1, h3.2.2, hw⟩
    have := sq_nonneg x; have := sq_nonneg y; have := sq_nonneg z
    have : 0 < w ^ 2 := by positivity
    linarith
  · have := sq_sum3_pos h3
    have := sq_nonneg w
    linarith

/-- C26: `normalize3` of a vector whose first three lanes are not all zero has length one in those lanes and
the direction of `v` (a positive multiple of it), on every backend and whatever the fourth lane contains. -/
theorem normalize3_spec (k : Backend) (v : V4 ℝ) (h : ¬(v.x = 0 ∧ v.y = 0 ∧ v.z = 0)) :
    (Backend.normalize3 k v).x ^ 2 + (Backend.normalize3 k v).y ^ 2 + (Backend.normalize3 k v).z ^ 2 = 1 ∧
    ∃ s > 0, (Backend.normalize3 k v).xyz = ⟨s * v.x, s * v.y, s * v.z⟩ := by
  have hp := sq_sum3_pos h
  have hs : 0 < Real.sqrt (v.x ^ 2 + v.y ^ 2 + v.z ^ 2) := Real.sqrt_pos.mpr hp
  have hq := Real.sq_sqrt hp.le
  have key : (Backend.normalize3 k v).xyz =
      ⟨(Real.sqrt (v.x ^ 2 + v.y ^ 2 + v.z ^ 2))⁻¹ * v.x, (Real.sqrt (v.x ^ 2 + v.y ^ 2 + v.z ^ 2))⁻¹ * v.y,
       (Real.sqrt (v.x ^ 2 + v.y ^ 2 + v.z ^ 2))⁻¹ * v.z⟩ := by
    have e1 : v.x * v.x + v.y * v.y + v.z * v.z = v.x ^ 2 + v.y ^ 2 + v.z ^ 2 := by ring
    cases k <;> simp [vec, e1, div_eq_mul_inv] <;> refine ⟨?_, ?_, ?_⟩ <;> ring
  have hx : (Backend.normalize3 k v).x = _ := congrArg V3.x key
  have hy : (Backend.normalize3 k v).y = _ := congrArg V3.y key
  have hz : (Backend.normalize3 k v).z = _ := congrArg V3.z key
  refine ⟨?_, _, inv_pos.mpr hs, key⟩
  rw [hx, hy, hz]
  simp only
  field_simp
  linarith

/-- C26: `normalize4` of a non-zero vector has length one and the direction of `v`, on every backend. -/
theorem normalize4_spec (k : Backend) (v : V4 ℝ) (h : ¬(v.x = 0 ∧ v.y = 0 ∧ v.z = 0 ∧ v.w = 0)) :
    (Backend.normalize4 k v).x ^ 2 + (Backend.normalize4 k v).y ^ 2 + (Backend.normalize4 k v).z ^ 2 +
      (Backend.normalize4 k v).w ^ 2 = 1 ∧
    ∃ s > 0, Backend.normalize4 k v = ⟨s * v.x, s * v.y, s * v.z, s * v.w⟩ := by
  have hp := sq_sum4_pos h
  have hs : 0 < Real.sqrt (v.x ^ 2 + v.y ^ 2 + v.z ^ 2 + v.w ^ 2) := Real.sqrt_pos.mpr hp
  have hq := Real.sq_sqrt hp.le
  have key : Backend.normalize4 k v =
      ⟨(Real.sqrt (v.x ^ 2 + v.y ^ 2 + v.z ^ 2 + v.w ^ 2))⁻¹ * v.x,
       (Real.sqrt (v.x ^ 2 + v.y ^ 2 + v.z ^ 2 + v.w ^ 2))⁻¹ * v.y,
       (Real.sqrt (v.x ^ 2 + v.y ^ 2 + v.z ^ 2 + v.w ^ 2))⁻¹ * v.z,
       (Real.sqrt (v.x ^ 2 + v.y ^ 2 + v.z ^ 2 + v.w ^ 2))⁻¹ * v.w⟩ := by
    have e1 : v.x * v.x + v.y * v.y + v.z * v.z + v.w * v.w = v.x ^ 2 + v.y ^ 2 + v.z ^ 2 + v.w ^ 2 := by ring
    have e2 : v.x * v.x + v.y * v.y + (v.z * v.z + v.w * v.w) = v.x ^ 2 + v.y ^ 2 + v.z ^ 2 + v.w ^ 2 := by ring
    cases k <;> simp [vec, e1, e2, div_eq_mul_inv] <;> refine ⟨?_, ?_, ?_, ?_⟩ <;> ring
  refine ⟨?_, _, inv_pos.mpr hs, key⟩
  rw [key]
  simp only
  field_simp
  linarith

/-- Non-vacuity: (3, 4, 0) has first three lanes not all zero, and normalizes to (3/5, 4/5, 0). -/
example : ¬((3 : ℝ) = 0 ∧ (4 : ℝ) = 0 ∧ (0 : ℝ) = 0) ∧
    Simd.normalize3 (⟨3, 4, 0, 7⟩ : V4 ℝ) = ⟨3 / 5, 4 / 5, 0, 7 / 5⟩ := by
  have : Real.sqrt (3 * 3 + 4 * 4) = 5 := by
    rw [show (3 * 3 + 4 * 4 : ℝ) = 5 ^ 2 by norm_num]; exact Real.sqrt_sq (by norm_num)
  constructor
  · norm_num
  · simp [vec, this]

/-- C26: the backends agree on all four lanes of `cross3`: the fourth repeats the third (the question left open
in the comment at /repo/include/math/simd/vector/float.hpp:1049). -/
theorem cross3_backends (j k : Backend) (a b : V4 ℝ) :
    Backend.cross3 j a b = Backend.cross3 k a b ∧ (Backend.cross3 k a b).w = (Backend.cross3 k a b).z := by
  cases j <;> cases k <;> simp [vec] <;> (try constructor) <;> (try constructor) <;> ring

end Verif
