import Mathlib.Data.Real.Basic
import Mathlib.LinearAlgebra.CrossProduct
import Mathlib.LinearAlgebra.Matrix.NonsingularInverse
import Verif.Model.Mat

/-!
# Linear-algebra specification

How the vectors and matrices of the code are read as Mathlib vectors and matrices. Row `i`, column `j` of
`mat4 m` is component `i` of column `j` of `m` (the code is column-major).
-/

namespace Verif.Spec
open Matrix

/-- A two-component vector as a Mathlib vector. -/
def vec2 (v : V2 ℝ) : Fin 2 → ℝ := ![v.x, v.y]
/-- A three-component vector as a Mathlib vector. -/
def vec3 (v : V3 ℝ) : Fin 3 → ℝ := ![v.x, v.y, v.z]
/-- A four-component vector as a Mathlib vector. -/
def vec4 (v : V4 ℝ) : Fin 4 → ℝ := ![v.x, v.y, v.z, v.w]
/-- The first three lanes as a Mathlib vector. -/
def xyz (v : V4 ℝ) : Fin 3 → ℝ := ![v.x, v.y, v.z]

/-- The 2x2 matrix with the given columns. -/
def mat2 (m : M2 ℝ) : Matrix (Fin 2) (Fin 2) ℝ := !![m.c0.x, m.c1.x; m.c0.y, m.c1.y]
/-- The 3x3 matrix with the given columns. -/
def mat3 (m : M3 ℝ) : Matrix (Fin 3) (Fin 3) ℝ :=
  !![m.c0.x, m.c1.x, m.c2.x; m.c0.y, m.c1.y, m.c2.y; m.c0.z, m.c1.z, m.c2.z]
/-- The 4x4 matrix with the given columns. -/
def mat4 (m : M4 ℝ) : Matrix (Fin 4) (Fin 4) ℝ :=
  !![m.c0.x, m.c1.x, m.c2.x, m.c3.x; m.c0.y, m.c1.y, m.c2.y, m.c3.y;
     m.c0.z, m.c1.z, m.c2.z, m.c3.z; m.c0.w, m.c1.w, m.c2.w, m.c3.w]
/-- The 3x4 matrix of `float4x3`. -/
def mat43 (m : M43 ℝ) : Matrix (Fin 3) (Fin 4) ℝ :=
  !![m.c0.x, m.c1.x, m.c2.x, m.c3.x; m.c0.y, m.c1.y, m.c2.y, m.c3.y; m.c0.z, m.c1.z, m.c2.z, m.c3.z]
/-- The upper-left 3x3 block. -/
def block3 (m : M4 ℝ) : Matrix (Fin 3) (Fin 3) ℝ :=
  !![m.c0.x, m.c1.x, m.c2.x; m.c0.y, m.c1.y, m.c2.y; m.c0.z, m.c1.z, m.c2.z]

theorem vec2_inj {a b : V2 ℝ} : vec2 a = vec2 b ↔ a = b := by
  constructor
  · intro h
    have h0 := congrFun h 0
    have h1 := congrFun h 1
    cases a; cases b; simp_all [vec2]
  · rintro rfl; rfl
theorem vec3_inj {a b : V3 ℝ} : vec3 a = vec3 b ↔ a = b := by
  constructor
  · intro h
    have h0 := congrFun h 0
    have h1 := congrFun h 1
    have h2 := congrFun h 2
    cases a; cases b; simp_all [vec3]
  · rintro rfl; rfl
theorem vec4_inj {a b : V4 ℝ} : vec4 a = vec4 b ↔ a = b := by
  constructor
  · intro h
    have h0 := congrFun h 0
    have h1 := congrFun h 1
    have h2 := congrFun h 2
    have h3 := congrFun h 3
    cases a; cases b; simp_all [vec4]
  · rintro rfl; rfl
theorem mat2_inj {a b : M2 ℝ} : mat2 a = mat2 b ↔ a = b := by
  constructor
  · intro h
    have h' := fun i j => congrFun (congrFun h i) j
    simp only [mat2, Fin.forall_fin_two] at h'
    obtain ⟨⟨⟨⟩, ⟨⟩⟩, b⟩ := a, b
    obtain ⟨⟨⟩, ⟨⟩⟩ := b
    simp_all
  · rintro rfl; rfl
theorem mat3_inj {a b : M3 ℝ} : mat3 a = mat3 b ↔ a = b := by
  constructor
  · intro h
    have h' := fun i j => congrFun (congrFun h i) j
    obtain ⟨⟨⟩, ⟨⟩, ⟨⟩⟩ := a
    obtain ⟨⟨⟩, ⟨⟩, ⟨⟩⟩ := b
    simp [mat3, Fin.forall_fin_succ] at h'
    simp_all
  · rintro rfl; rfl
theorem mat4_inj {a b : M4 ℝ} : mat4 a = mat4 b ↔ a = b := by
  constructor
  · intro h
    have h' := fun i j => congrFun (congrFun h i) j
    obtain ⟨⟨⟩, ⟨⟩, ⟨⟩, ⟨⟩⟩ := a
    obtain ⟨⟨⟩, ⟨⟩, ⟨⟩, ⟨⟩⟩ := b
    simp [mat4, Fin.forall_fin_succ] at h'
    simp_all
  · rintro rfl; rfl

end Verif.Spec
