import Verif.Spec.Quat
import Verif.Spec.Linear
import Verif.Spec.Geom

/-!
# Rigid transforms and cameras
-/

namespace Verif.Spec
open Matrix

/-- Affine matrices: the last row is `0 0 0 1`. -/
def Affine (m : M4 ℝ) : Prop := m.c0.w = 0 ∧ m.c1.w = 0 ∧ m.c2.w = 0 ∧ m.c3.w = 1
/-- The image of a point under an affine matrix. -/
def act (m : M4 ℝ) (p : Fin 3 → ℝ) : Fin 3 → ℝ := block3 m *ᵥ p + xyz m.c3
/-- Rigid transforms: affine with a rotation block. -/
def Rigid (m : M4 ℝ) : Prop := Affine m ∧ IsRotation (block3 m)

/-- `m` takes space to the view of a camera at `f` that looks at `t`: it is rigid, moves `f` to the origin and `t` onto the
positive z axis, and turns `up` into the half plane `x = 0`, `y > 0`. At most one matrix does so. -/
def IsView (m : M4 ℝ) (f t up : V3 ℝ) : Prop :=
  Rigid m ∧ act m (vec3 f) = 0 ∧ act m (vec3 t) = ![0, 0, Spec.dist f t] ∧
  (block3 m *ᵥ vec3 up) 0 = 0 ∧ 0 < (block3 m *ᵥ vec3 up) 1

/-- `m` is the orientation of an object at `f` that faces `t`: a rotation that takes the z axis to the direction of sight and
the x axis to a direction square to `up`, with its y axis on the side of `up`. -/
def IsFacing (m : M4 ℝ) (f t up : V3 ℝ) : Prop :=
  Rigid m ∧ m.c3 = ⟨0, 0, 0, 1⟩ ∧ block3 m *ᵥ ![0, 0, Spec.dist f t] = vec3 (diff t f) ∧
  m.c0.x * up.x + m.c0.y * up.y + m.c0.z * up.z = 0 ∧ 0 < m.c1.x * up.x + m.c1.y * up.y + m.c1.z * up.z

end Verif.Spec
