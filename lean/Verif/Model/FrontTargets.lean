import Verif.Model.TransformTargets

/-!
# The orientation along a direction on every target
-/

namespace Verif.F32x4

/-- `rotate(front, up)`, /repo/include/math/matrix/transform.hpp:163-170. -/
def rotateFront (k : Backend) (front up : V4 F32) : M4 F32 :=
  let s := k.normalize3 (k.cross3 up front)
  let u := k.cross3 front s
  ⟨V4.withW s (Flt.lit 0), V4.withW u (Flt.lit 0), V4.withW front (Flt.lit 0),
   ⟨Flt.lit 0, Flt.lit 0, Flt.lit 0, Flt.lit 1⟩⟩

end Verif.F32x4
