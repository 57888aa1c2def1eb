import Verif.Spec.Reliable

/-!
# Closest points in binary32
-/

namespace Verif.Spec

/-- The first three components are finite and at most `M` in absolute value. -/
def CoordsLe (M : ℝ) (v : V4 F32) : Prop :=
  AllFinite [v.x, v.y, v.z] ∧ |(pos v).x| ≤ M ∧ |(pos v).y| ≤ M ∧ |(pos v).z| ≤ M

/-- `q` is finite and each of its coordinates within `e` of that of the exact point `n`. -/
def NearPt (q : V4 F32) (n : V3 ℝ) (e : ℝ) : Prop := Near q.x n.x e ∧ Near q.y n.y e ∧ Near q.z n.z e

end Verif.Spec
