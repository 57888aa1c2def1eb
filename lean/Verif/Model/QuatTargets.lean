import Verif.Model.SimdMath
import Verif.Model.MatTargets
import Verif.Model.Quat
import Verif.Model.VecBackends

/-!
# Rotating vectors by quaternions on every target

`Verif.Model.Quat` models the SSE4.1 configuration with a fused multiply-add. Here the cross product and the dot product
are those of the backend and the multiply-add is the one of the target, fused or not.
-/

namespace Verif.F32x4

/-- `q * v`, /repo/include/math/quaternion.hpp:94-98. -/
def rotate (k : Backend) (t : FTarget) (q v : V4 F32) : V4 F32 :=
  let cq := k.cross3 q v
  let ccq := k.cross3 q cq
  fma4 t (fma4 t cq (V4.splat q.w) ccq) (V4.splat (F32.ofRat 2)) v
/-- `inverse`, /repo/include/math/quaternion.hpp:208, with `conjugate`, 199-203. -/
def inverse (k : Backend) (q : V4 F32) : V4 F32 := V4.map2 F32.fdiv (Quat.conjugate q) (V4.splat (k.dot4 q q))
/-- `v * q`, /repo/include/math/quaternion.hpp:216. -/
def rotateInv (k : Backend) (t : FTarget) (v q : V4 F32) : V4 F32 := rotate k t (inverse k q) v

end Verif.F32x4
