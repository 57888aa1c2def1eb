import Mathlib.Algebra.Quaternion
import Mathlib.Analysis.SpecialFunctions.Trigonometric.Basic
import Verif.Spec.Linear

/-!
# Quaternion specification

How the quaternions of the code are read as Mathlib's Hamilton quaternions, and rotations of space as linear maps.
-/

namespace Verif.Spec
open Matrix Quaternion

/-- The Hamilton quaternion `w + x i + y j + z k`. -/
def toQ (q : V4 ℝ) : ℍ[ℝ] := ⟨q.w, q.x, q.y, q.z⟩
/-- A vector as a purely imaginary Hamilton quaternion (the fourth lane is ignored). -/
def imQ (v : V4 ℝ) : ℍ[ℝ] := ⟨0, v.x, v.y, v.z⟩
/-- Quaternions of length one. -/
def UnitQuat (q : V4 ℝ) : Prop := q.x ^ 2 + q.y ^ 2 + q.z ^ 2 + q.w ^ 2 = 1
/-- Directions: the first three lanes have length one. -/
def UnitVec (v : V4 ℝ) : Prop := v.x ^ 2 + v.y ^ 2 + v.z ^ 2 = 1
/-- Rotation matrices: orthogonal with determinant one. -/
def IsRotation (m : Matrix (Fin 3) (Fin 3) ℝ) : Prop := mᵀ * m = 1 ∧ m.det = 1
/-- Rotation of `v` about the unit axis `u` by `a` radians, right-handed (Rodrigues' formula):
`v cos a + (u × v) sin a + u (u · v) (1 - cos a)`. -/
noncomputable def rodrigues (u : Fin 3 → ℝ) (a : ℝ) (v : Fin 3 → ℝ) : Fin 3 → ℝ :=
  Real.cos a • v + Real.sin a • (crossProduct u v) + ((1 - Real.cos a) * (u ⬝ᵥ v)) • u

@[simp] theorem toQ_re (q : V4 ℝ) : (toQ q).re = q.w := rfl
@[simp] theorem toQ_imI (q : V4 ℝ) : (toQ q).imI = q.x := rfl
@[simp] theorem toQ_imJ (q : V4 ℝ) : (toQ q).imJ = q.y := rfl
@[simp] theorem toQ_imK (q : V4 ℝ) : (toQ q).imK = q.z := rfl
@[simp] theorem imQ_re (q : V4 ℝ) : (imQ q).re = 0 := rfl
@[simp] theorem imQ_imI (q : V4 ℝ) : (imQ q).imI = q.x := rfl
@[simp] theorem imQ_imJ (q : V4 ℝ) : (imQ q).imJ = q.y := rfl
@[simp] theorem imQ_imK (q : V4 ℝ) : (imQ q).imK = q.z := rfl

theorem toQ_inj {a b : V4 ℝ} : toQ a = toQ b ↔ a = b := by
  constructor
  · intro h
    have h0 := congrArg QuaternionAlgebra.re h
    have h1 := congrArg QuaternionAlgebra.imI h
    have h2 := congrArg QuaternionAlgebra.imJ h
    have h3 := congrArg QuaternionAlgebra.imK h
    simp only [toQ] at h0 h1 h2 h3
    cases a; cases b; simp_all
  · rintro rfl; rfl

end Verif.Spec
