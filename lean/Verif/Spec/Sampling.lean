import Mathlib.Algebra.BigOperators.Group.Finset.Basic
import Mathlib.Data.Real.Basic
import Verif.Model.Vec

/-!
# Sampling and cube map specification
-/

namespace Verif.Spec

/-- The base-2 radical inverse of a 32-bit index: bit `k` contributes `2^-(k+1)`. -/
noncomputable def radicalInverse (x : BitVec 32) : ℝ :=
  ∑ k ∈ Finset.range 32, if x.getLsbD k then (1/2 : ℝ) ^ (k + 1) else 0

/-- The outward normals of the six cube map faces, in the order +x, -x, +y, -y, +z, -z. -/
def faceNormal (face : Nat) : V3 ℝ :=
  match face with
  | 0 => ⟨1, 0, 0⟩
  | 1 => ⟨-1, 0, 0⟩
  | 2 => ⟨0, 1, 0⟩
  | 3 => ⟨0, -1, 0⟩
  | 4 => ⟨0, 0, 1⟩
  | _ => ⟨0, 0, -1⟩

/-- Component of `d` along `n`. -/
def alongAxis (d n : V3 ℝ) : ℝ := d.x * n.x + d.y * n.y + d.z * n.z

/-- The cube map coordinate selection of the OpenGL and Vulkan specifications: for the face selected by the major
axis of the direction `r`, the coordinate `sc`. -/
def cubeS (face : Nat) (r : V3 ℝ) : ℝ :=
  match face with
  | 0 => -r.z
  | 1 => r.z
  | 2 => r.x
  | 3 => r.x
  | 4 => r.x
  | _ => -r.x
/-- The same selection, coordinate `tc`. -/
def cubeT (face : Nat) (r : V3 ℝ) : ℝ :=
  match face with
  | 0 => -r.y
  | 1 => -r.y
  | 2 => r.z
  | 3 => -r.z
  | 4 => -r.y
  | _ => -r.y
/-- The same selection, the major axis coordinate `ma`. -/
def cubeMajor (face : Nat) (r : V3 ℝ) : ℝ :=
  match face with
  | 0 => r.x
  | 1 => r.x
  | 2 => r.y
  | 3 => r.y
  | 4 => r.z
  | _ => r.z

end Verif.Spec
