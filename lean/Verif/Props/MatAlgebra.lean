import Mathlib.Tactic.NormNum
import Mathlib.Tactic.LinearCombination
import Verif.Model.RealFlt
import Verif.Spec.Linear

/-! # C55, C56, C57: matrix products, transposes, inverses (exact arithmetic) -/

namespace Verif
open Spec Matrix

/-! ## C55 -/

/-- C55: `float2x2` product, product with a vector, transpose and identity are those of Mathlib matrices. -/
theorem m2_spec (a b : M2 ℝ) (v : V2 ℝ) :
    mat2 (a.mul b) = mat2 a * mat2 b ∧ vec2 (a.mulV v) = mat2 a *ᵥ vec2 v ∧
    mat2 a.transpose = (mat2 a)ᵀ ∧ mat2 M2.identity = (1 : Matrix (Fin 2) (Fin 2) ℝ) := by
  refine ⟨?_, ?_, ?_, ?_⟩
  · ext i j; fin_cases i <;> fin_cases j <;> simp [vec, mat2, Matrix.mul_apply, Fin.sum_univ_two]
  · ext i; fin_cases i <;> simp [vec, mat2, vec2, Matrix.mulVec, dotProduct, Fin.sum_univ_two]
  · ext i j; fin_cases i <;> fin_cases j <;> simp [vec, mat2]
  · ext i j; fin_cases i <;> fin_cases j <;> simp [vec, mat2]

/-- C55: `float3x3` product, product with a vector, transpose and identity are those of Mathlib matrices. -/
theorem m3_spec (a b : M3 ℝ) (v : V3 ℝ) :
    mat3 (a.mul b) = mat3 a * mat3 b ∧ vec3 (a.mulV v) = mat3 a *ᵥ vec3 v ∧
    mat3 a.transpose = (mat3 a)ᵀ ∧ mat3 M3.identity = (1 : Matrix (Fin 3) (Fin 3) ℝ) := by
  refine ⟨?_, ?_, ?_, ?_⟩
  · ext i j; fin_cases i <;> fin_cases j <;> simp [vec, mat3, Matrix.mul_apply, Fin.sum_univ_three]
  · ext i; fin_cases i <;> simp [vec, mat3, vec3, Matrix.mulVec, dotProduct, Fin.sum_univ_three]
  · ext i j; fin_cases i <;> fin_cases j <;> simp [vec, mat3]
  · ext i j; fin_cases i <;> fin_cases j <;> simp [vec, mat3]

/-- C55: `float4x4` product, product with a vector, transpose and identity are those of Mathlib matrices. -/
theorem m4_spec (a b : M4 ℝ) (v : V4 ℝ) :
    mat4 (a.mul b) = mat4 a * mat4 b ∧ vec4 (a.mulV v) = mat4 a *ᵥ vec4 v ∧
    mat4 a.transpose = (mat4 a)ᵀ ∧ mat4 M4.identity = (1 : Matrix (Fin 4) (Fin 4) ℝ) := by
  refine ⟨?_, ?_, ?_, ?_⟩
  · ext i j; fin_cases i <;> fin_cases j <;> simp [vec, mat4, Matrix.mul_apply, Fin.sum_univ_four]
  · ext i; fin_cases i <;> simp [vec, mat4, vec4, Matrix.mulVec, dotProduct, Fin.sum_univ_four]
  · ext i j; fin_cases i <;> fin_cases j <;> simp [vec, mat4]
  · ext i j; fin_cases i <;> fin_cases j <;> simp [vec, mat4]

/-- C55: the product of a `float4x3` and a vector is the 3x4 matrix-vector product. -/
theorem m43_spec (a : M43 ℝ) (v : V4 ℝ) : vec3 (a.mulV v) = mat43 a *ᵥ vec4 v := by
  ext i; fin_cases i <;> simp [vec, mat43, vec3, vec4, Matrix.mulVec, dotProduct, Fin.sum_univ_four]

/-- C55: the SIMD product, product with a vector and both transposes (SSE and NEON) are those of Mathlib
matrices; in particular they agree with the scalar ones. -/
theorem simd_m4_spec (a b : M4 ℝ) (v : V4 ℝ) :
    mat4 (Simd.mulM a b) = mat4 a * mat4 b ∧ vec4 (Simd.mulV a v) = mat4 a *ᵥ vec4 v ∧
    mat4 (Simd.transpose4x4 a) = (mat4 a)ᵀ ∧ mat4 (Simd.transpose4x4Neon a) = (mat4 a)ᵀ := by
  refine ⟨?_, ?_, ?_, ?_⟩
  · ext i j; fin_cases i <;> fin_cases j <;> simp [vec, mat4, Matrix.mul_apply, Fin.sum_univ_four] <;> ring
  · ext i; fin_cases i <;> simp [vec, mat4, vec4, Matrix.mulVec, dotProduct, Fin.sum_univ_four] <;> ring
  · ext i j; fin_cases i <;> fin_cases j <;> simp [vec, mat4]
  · ext i j; fin_cases i <;> fin_cases j <;> simp [vec, mat4]

/-- C55: the SIMD operations give the same sixteen numbers as the scalar ones. -/
theorem simd_scalar_agree (a b : M4 ℝ) (v : V4 ℝ) :
    Simd.mulM a b = a.mul b ∧ Simd.mulV a v = a.mulV v ∧ Simd.transpose4x4 a = a.transpose ∧
    Simd.transpose4x4Neon a = a.transpose := by
  refine ⟨mat4_inj.mp ?_, vec4_inj.mp ?_, mat4_inj.mp ?_, mat4_inj.mp ?_⟩
  · rw [(simd_m4_spec a b v).1, (m4_spec a b v).1]
  · rw [(simd_m4_spec a b v).2.1, (m4_spec a b v).2.1]
  · rw [(simd_m4_spec a b v).2.2.1, (m4_spec a b v).2.2.1]
  · rw [(simd_m4_spec a b v).2.2.2, (m4_spec a b v).2.2.1]

/-- C55, in the API's own terms, for `float2x2`. -/
theorem m2_algebra (a b c : M2 ℝ) (v : V2 ℝ) :
    (a.mul b).mul c = a.mul (b.mul c) ∧ a.mul M2.identity = a ∧ M2.identity.mul a = a ∧
    (a.mul b).mulV v = a.mulV (b.mulV v) ∧ M2.identity.mulV v = v ∧
    a.transpose.transpose = a ∧ (a.mul b).transpose = b.transpose.mul a.transpose := by
  have hm := fun a b => (m2_spec a b v).1
  have hv := fun a v => (m2_spec a a v).2.1
  have ht := fun a => (m2_spec a a v).2.2.1
  have hi := (m2_spec a a v).2.2.2
  refine ⟨mat2_inj.mp ?_, mat2_inj.mp ?_, mat2_inj.mp ?_, vec2_inj.mp ?_, vec2_inj.mp ?_, mat2_inj.mp ?_,
    mat2_inj.mp ?_⟩
  · simp only [hm, Matrix.mul_assoc]
  · simp [hm, hi]
  · simp [hm, hi]
  · simp [hm, hv]
  · simp [hv, hi]
  · simp [ht]
  · simp [ht, hm, Matrix.transpose_mul]

/-- C55, in the API's own terms, for `float3x3`. -/
theorem m3_algebra (a b c : M3 ℝ) (v : V3 ℝ) :
    (a.mul b).mul c = a.mul (b.mul c) ∧ a.mul M3.identity = a ∧ M3.identity.mul a = a ∧
    (a.mul b).mulV v = a.mulV (b.mulV v) ∧ M3.identity.mulV v = v ∧
    a.transpose.transpose = a ∧ (a.mul b).transpose = b.transpose.mul a.transpose := by
  have hm := fun a b => (m3_spec a b v).1
  have hv := fun a v => (m3_spec a a v).2.1
  have ht := fun a => (m3_spec a a v).2.2.1
  have hi := (m3_spec a a v).2.2.2
  refine ⟨mat3_inj.mp ?_, mat3_inj.mp ?_, mat3_inj.mp ?_, vec3_inj.mp ?_, vec3_inj.mp ?_, mat3_inj.mp ?_,
    mat3_inj.mp ?_⟩
  · simp only [hm, Matrix.mul_assoc]
  · simp [hm, hi]
  · simp [hm, hi]
  · simp [hm, hv]
  · simp [hv, hi]
  · simp [ht]
  · simp [ht, hm, Matrix.transpose_mul]

/-- C55, in the API's own terms, for `float4x4` (and, by `simd_scalar_agree`, `f32x4x4`). -/
theorem m4_algebra (a b c : M4 ℝ) (v : V4 ℝ) :
    (a.mul b).mul c = a.mul (b.mul c) ∧ a.mul M4.identity = a ∧ M4.identity.mul a = a ∧
    (a.mul b).mulV v = a.mulV (b.mulV v) ∧ M4.identity.mulV v = v ∧
    a.transpose.transpose = a ∧ (a.mul b).transpose = b.transpose.mul a.transpose := by
  have hm := fun a b => (m4_spec a b v).1
  have hv := fun a v => (m4_spec a a v).2.1
  have ht := fun a => (m4_spec a a v).2.2.1
  have hi := (m4_spec a a v).2.2.2
  refine ⟨mat4_inj.mp ?_, mat4_inj.mp ?_, mat4_inj.mp ?_, vec4_inj.mp ?_, vec4_inj.mp ?_, mat4_inj.mp ?_,
    mat4_inj.mp ?_⟩
  · simp only [hm, Matrix.mul_assoc]
  · simp [hm, hi]
  · simp [hm, hi]
  · simp [hm, hv]
  · simp [hv, hi]
  · simp [ht]
  · simp [ht, hm, Matrix.transpose_mul]

/-- C55: `multiply3x3` multiplies the upper-left 3x3 blocks, and maps the first three lanes of a vector by that
block, whatever the fourth row, column and lane contain. -/
theorem multiply3x3_spec (a b : M4 ℝ) (v : V4 ℝ) :
    block3 (Simd.multiply3x3 a b) = block3 a * block3 b ∧ xyz (Simd.multiply3x3V a v) = block3 a *ᵥ xyz v := by
  constructor
  · ext i j; fin_cases i <;> fin_cases j <;> simp [vec, block3, Matrix.mul_apply, Fin.sum_univ_three] <;> ring
  · ext i; fin_cases i <;> simp [vec, block3, xyz, Matrix.mulVec, dotProduct, Fin.sum_univ_three] <;> ring

/-- C55: `transpose3x3` transposes the upper-left 3x3 block and leaves the last column, on SSE and NEON. -/
theorem transpose3x3_spec (a : M4 ℝ) :
    block3 (Simd.transpose3x3 a) = (block3 a)ᵀ ∧ (Simd.transpose3x3 a).c3 = a.c3 ∧
    Simd.transpose3x3Neon a = Simd.transpose3x3 a := by
  refine ⟨?_, by simp [vec], by simp [vec]⟩
  ext i j; fin_cases i <;> fin_cases j <;> simp [vec, block3]

/-! ## C56 -/

theorem mat2_det (m : M2 ℝ) : (mat2 m).det = m.c0.x * m.c1.y - m.c1.x * m.c0.y := by
  simp [mat2, Matrix.det_fin_two]

theorem mat3_det (m : M3 ℝ) : (mat3 m).det =
    m.c0.x * (m.c1.y * m.c2.z - m.c2.y * m.c1.z) - m.c1.x * (m.c0.y * m.c2.z - m.c2.y * m.c0.z) +
     m.c2.x * (m.c0.y * m.c1.z - m.c1.y * m.c0.z) := by
  simp [mat3, Matrix.det_fin_three]; ring

theorem mat4_det (m : M4 ℝ) : (mat4 m).det = M4.detOf m m.cofactors := by
  rw [Matrix.det_succ_row_zero]
  simp [Fin.sum_univ_succ, Matrix.det_fin_three, mat4, vec, Fin.succAbove, Matrix.submatrix]
  ring

theorem mat4_det_simd (m : M4 ℝ) :
    (mat4 m).det = Simd.inverseDet (Simd.inverseCols m).1 (Simd.inverseCols m).2.c0 := by
  rw [mat4_det]
  simp [vec]
  ring

theorem m4_cofactors (m : M4 ℝ) : mat4 m * mat4 m.cofactors = (mat4 m).det • (1 : Matrix (Fin 4) (Fin 4) ℝ) := by
  rw [mat4_det]
  ext i j
  fin_cases i <;> fin_cases j <;> simp [vec, mat4, Matrix.mul_apply, Fin.sum_univ_four] <;> ring

theorem simd_cofactors (m : M4 ℝ) : (Simd.inverseCols m).2 = m.cofactors := by
  simp [vec]
  refine ⟨⟨?_, ?_, ?_, ?_⟩, ⟨?_, ?_, ?_, ?_⟩, ⟨?_, ?_, ?_, ?_⟩, ?_, ?_, ?_, ?_⟩ <;> ring

theorem m4_smul (m : M4 ℝ) (s : ℝ) : mat4 (m.smul s) = s • mat4 m := by
  ext i j
  fin_cases i <;> fin_cases j <;> simp [vec, mat4, mul_comm]

theorem m4_inverse_mat (m : M4 ℝ) (h : (mat4 m).det ≠ 0) : mat4 m * mat4 m.inverse = 1 := by
  rw [M4.inverse, m4_smul, Matrix.mul_smul, m4_cofactors, smul_smul, ← mat4_det]
  simp [h]

theorem simd_inverse_eq (m : M4 ℝ) : Simd.inverse4x4 m = m.inverse := by
  have h := mat4_det_simd m
  rw [mat4_det] at h
  have hc := simd_cofactors m
  unfold Simd.inverse4x4 M4.inverse
  simp only
  rw [← h, hc]
  generalize Flt.lit 1 /. M4.detOf m m.cofactors = d
  simp only [M4.smul, V4.smul, V4.mul, V4.map2, V4.splat, Flt.real_mul, mul_comm]

/-- C56 for `float4x4`: the inverse of every matrix with non-zero determinant, on both sides. -/
theorem m4_inverse (m : M4 ℝ) (h : (mat4 m).det ≠ 0) :
    m.mul m.inverse = M4.identity ∧ m.inverse.mul m = M4.identity := by
  have h1 := m4_inverse_mat m h
  have hm := fun a b => (m4_spec a b (V4.splat 0)).1
  have hi := (m4_spec m m (V4.splat 0)).2.2.2
  constructor <;> apply mat4_inj.mp
  · rw [hm, hi, h1]
  · rw [hm, hi, mul_eq_one_comm.mp h1]

/-- C56 for SIMD `f32x4x4`: `inverse4x4` is the inverse of every matrix with non-zero determinant, on both
sides, and gives the same numbers as the scalar `inverse`. -/
theorem simd_inverse (m : M4 ℝ) (h : (mat4 m).det ≠ 0) :
    Simd.mulM m (Simd.inverse4x4 m) = M4.identity ∧ Simd.mulM (Simd.inverse4x4 m) m = M4.identity ∧
    Simd.inverse4x4 m = m.inverse := by
  have he := simd_inverse_eq m
  refine ⟨?_, ?_, he⟩
  · rw [he, (simd_scalar_agree _ _ (V4.splat 0)).1]; exact (m4_inverse m h).1
  · rw [he, (simd_scalar_agree _ _ (V4.splat 0)).1]; exact (m4_inverse m h).2

/-- Non-vacuity: a matrix with determinant 2 (a shear, a swap and a scale). -/
example : (mat4 (M4.ofRows 0 1 0 5 1 0 0 0 0 3 2 0 0 0 0 (-1) : M4 ℝ)).det ≠ 0 := by
  rw [mat4_det]; norm_num [vec]

/-- C56 fails for `float2x2`: for this matrix with determinant 1 the product with `inverse` is not the identity
(the off-diagonal elements of the result are transposed). -/
theorem m2_inverse_wrong :
    ∃ m : M2 ℝ, (mat2 m).det = 1 ∧ m.mul m.inverse ≠ M2.identity ∧ m.inverse.mul m ≠ M2.identity := by
  refine ⟨M2.ofRows 1 1 0 1, ?_, ?_, ?_⟩ <;> norm_num [vec, mat2, Matrix.det_fin_two]

/-- C56, what `inverse(float2x2)` does compute: the inverse of the *transpose*. -/
theorem m2_inverse_partial (m : M2 ℝ) (h : (mat2 m).det ≠ 0) :
    m.transpose.mul m.inverse = M2.identity ∧ m.inverse.mul m.transpose = M2.identity := by
  have hm := fun a b => (m2_spec a b (V2.splat 0)).1
  have hi := (m2_spec m m (V2.splat 0)).2.2.2
  have h1 : m.transpose.mul m.inverse = M2.identity := by
    rw [mat2_det] at h
    simp [vec]
    refine ⟨⟨?_, ?_⟩, ?_, ?_⟩ <;> field_simp <;> ring
  refine ⟨h1, mat2_inj.mp ?_⟩
  rw [hm, hi]
  apply mul_eq_one_comm.mp
  rw [← hm, h1, hi]

/-- C56: hence `inverse(float2x2)` is right exactly on symmetric matrices. -/
theorem m2_inverse_iff (m : M2 ℝ) (h : (mat2 m).det ≠ 0) :
    m.mul m.inverse = M2.identity ↔ m.c0.y = m.c1.x := by
  have hp := (m2_inverse_partial m h).2
  have hm := fun a b => (m2_spec a b (V2.splat 0)).1
  have hi := (m2_spec m m (V2.splat 0)).2.2.2
  have ht := (m2_spec m m (V2.splat 0)).2.2.1
  constructor
  · intro h1
    have e1 : mat2 m * mat2 m.inverse = 1 := by rw [← hm, h1, hi]
    have e2 : mat2 m.inverse * (mat2 m)ᵀ = 1 := by rw [← ht, ← hm, hp, hi]
    have e3 : mat2 m = (mat2 m)ᵀ := by
      calc mat2 m = mat2 m * (mat2 m.inverse * (mat2 m)ᵀ) := by rw [e2, Matrix.mul_one]
        _ = (mat2 m)ᵀ := by rw [← Matrix.mul_assoc, e1, Matrix.one_mul]
    have := congrFun (congrFun e3 1) 0
    simpa [mat2] using this
  · intro hs
    have : m.transpose = m := by
      cases m with | mk c0 c1 => cases c0; cases c1; simp_all [vec]
    have h2 := (m2_inverse_partial m h).1
    rwa [this] at h2

/-- C56 fails for `float3x3`: `inverse` of the identity matrix is not the identity matrix, and its product with the
identity is not the identity. -/
theorem m3_inverse_wrong :
    (mat3 (M3.identity : M3 ℝ)).det = 1 ∧ (M3.identity : M3 ℝ).inverse ≠ M3.identity ∧
    (M3.identity : M3 ℝ).mul (M3.identity : M3 ℝ).inverse ≠ M3.identity ∧
    (M3.identity : M3 ℝ).inverse.mul M3.identity ≠ M3.identity := by
  refine ⟨?_, ?_, ?_, ?_⟩
  · rw [mat3_det]; norm_num [vec]
  all_goals norm_num [vec]

/-- C56, what holds for `inverse(float3x3)`: the first two columns of the result are those of the inverse of the
transpose. Missing: the third column (wrong in general) and the transposition. -/
theorem m3_inverse_partial (m : M3 ℝ) (h : (mat3 m).det ≠ 0) :
    (m.transpose.mul m.inverse).c0 = ⟨1, 0, 0⟩ ∧ (m.transpose.mul m.inverse).c1 = ⟨0, 1, 0⟩ := by
  rw [mat3_det] at h
  constructor <;> simp [vec] <;> refine ⟨?_, ?_, ?_⟩ <;> first | ring1 | linear_combination mul_inv_cancel₀ h

/-- Non-vacuity: matrices with non-zero determinant. -/
example : (mat2 (M2.ofRows 1 2 3 4 : M2 ℝ)).det ≠ 0 ∧ (mat3 (M3.ofRows 1 2 0 0 1 3 4 0 1 : M3 ℝ)).det ≠ 0 := by
  rw [mat2_det, mat3_det]; norm_num [vec]

/-! ## C57 -/

/-- C57 fails: for each of `float2x2`, `float3x3`, `float4x4` there are a vector and a matrix for which `v * m` is not
`transpose(m) * v`. -/
theorem vMul_wrong :
    (∃ (v : V2 ℝ) (m : M2 ℝ), M2.vMul v m ≠ m.transpose.mulV v) ∧
    (∃ (v : V3 ℝ) (m : M3 ℝ), M3.vMul v m ≠ m.transpose.mulV v) ∧
    (∃ (v : V4 ℝ) (m : M4 ℝ), M4.vMul v m ≠ m.transpose.mulV v) := by
  refine ⟨⟨⟨1, 0⟩, M2.ofRows 0 1 0 0, ?_⟩, ⟨⟨1, 0, 0⟩, M3.ofRows 0 1 0 0 0 0 0 0 0, ?_⟩,
    ⟨1, 0, 0, 0⟩, M4.ofRows 0 1 0 0 0 0 0 0 0 0 0 0 0 0 0 0, ?_⟩ <;> norm_num [vec]

/-- C57, what `v * m` does compute: component `i` is `v[i]` times the sum of row `i` of `m` (for each size), so it is
`transpose(m) * v` for diagonal matrices. Missing: every matrix that is not diagonal. -/
theorem vMul_partial (v : V4 ℝ) (m : M4 ℝ)
    (hd : m.c0.y = 0 ∧ m.c0.z = 0 ∧ m.c0.w = 0 ∧ m.c1.x = 0 ∧ m.c1.z = 0 ∧ m.c1.w = 0 ∧ m.c2.x = 0 ∧ m.c2.y = 0 ∧
      m.c2.w = 0 ∧ m.c3.x = 0 ∧ m.c3.y = 0 ∧ m.c3.z = 0) :
    M4.vMul v m = m.transpose.mulV v := by
  obtain ⟨h1, h2, h3, h4, h5, h6, h7, h8, h9, h10, h11, h12⟩ := hd
  simp [vec, h1, h2, h3, h4, h5, h6, h7, h8, h9, h10, h11, h12]

/-- C57: the exact behaviour for all matrices of all three sizes. -/
theorem vMul_rowSums (v2 : V2 ℝ) (m2 : M2 ℝ) (v3 : V3 ℝ) (m3 : M3 ℝ) (v4 : V4 ℝ) (m4 : M4 ℝ) :
    vec2 (M2.vMul v2 m2) = (fun i => vec2 v2 i * ∑ j, mat2 m2 i j) ∧
    vec3 (M3.vMul v3 m3) = (fun i => vec3 v3 i * ∑ j, mat3 m3 i j) ∧
    vec4 (M4.vMul v4 m4) = (fun i => vec4 v4 i * ∑ j, mat4 m4 i j) := by
  refine ⟨?_, ?_, ?_⟩ <;> ext i <;> fin_cases i <;>
    simp [vec, vec2, vec3, vec4, mat2, mat3, mat4, Fin.sum_univ_succ] <;> ring

/-- Non-vacuity: a diagonal matrix for `vMul_partial`. -/
example : M4.vMul ⟨1, 2, 3, 4⟩ (M4.ofRows 2 0 0 0 0 3 0 0 0 0 5 0 0 0 0 7 : M4 ℝ) = ⟨2, 6, 15, 28⟩ := by
  norm_num [vec]

end Verif
