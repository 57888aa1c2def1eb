import Verif.Spec.BoxTest

/-! # C106: rays that lie in the plane of a face -/

namespace Verif.Spec
open F32

/-- Along an axis with the reciprocal `d`, the origin `o` does not lie in the plane of a face `lo`, `hi`, or the ray is not
parallel to that plane. -/
def ClearAxis (d o lo hi : F32) : Prop := d.isFinite = true ∨ d.isNaN = false ∧ rv lo ≠ rv o ∧ rv hi ≠ rv o

/-- No face of the box lies in a plane that holds the ray. The direction holds reciprocals. -/
def ClearOf (r : Ray F32) (b : Aabb F32) : Prop :=
  ClearAxis r.direction.x r.origin.x b.min.x b.max.x ∧ ClearAxis r.direction.y r.origin.y b.min.y b.max.y ∧
  ClearAxis r.direction.z r.origin.z b.min.z b.max.z

end Verif.Spec
