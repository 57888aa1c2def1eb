import Verif.Model.TransformTargets
import Verif.Model.MatBackends

/-!
# The rigid inverse on every target
-/

namespace Verif.F32x4

/-- `multiply3x3(m, v)`, /repo/include/math/simd/matrix/float.hpp:321-339: with SIMD and without. -/
def multiply3x3VOn (k : Backend) (t : FTarget) (m : M4 F32) (v : V4 F32) : V4 F32 :=
  match k with
  | .scalar => Simd.multiply3x3VPlain m v
  | .sse2 | .sse41 | .neon => multiply3x3V t m v
/-- `transpose4x4(m)`, /repo/include/math/simd/matrix/float.hpp:345-366: with SIMD and without. The NEON
branch is another way to write the same permutation (C107). -/
def transpose4x4On (k : Backend) (m : M4 F32) : M4 F32 :=
  match k with
  | .scalar => Simd.transpose4x4Plain m
  | .sse2 | .sse41 | .neon => Simd.transpose4x4 m
/-- `inverseTransRot`, /repo/include/math/matrix/transform.hpp:320-325. -/
def inverseTransRot (k : Backend) (t : FTarget) (m : M4 F32) : M4 F32 :=
  let u := transpose4x4On k m
  Transform.setTranslation u (V4.neg (multiply3x3VOn k t u (Transform.getTranslation m)))

end Verif.F32x4
