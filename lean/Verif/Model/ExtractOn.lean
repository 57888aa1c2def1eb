import Verif.Model.Metric
import Verif.Model.Transform

/-!
# Reading a model matrix back on every backend
-/

namespace Verif.Transform
variable {F : Type} [Flt F]

/-- `extractScale`, /repo/include/math/matrix/transform.hpp:111-114. -/
def extractScaleOn (k : Backend) (m : M4 F) : V4 F := V4.ofV3 ⟨k.lengthSq3 m.c0, k.lengthSq3 m.c1, k.lengthSq3 m.c2⟩
/-- `extractRotation`, /repo/include/math/matrix/transform.hpp:176-185. -/
def extractRotationOn (k : Backend) (m : M4 F) : M4 F :=
  let invScale := V4.div (V4.splat (Flt.lit 1)) (extractScaleOn k m)
  ⟨V4.withW (V4.smul m.c0 invScale.x) (Flt.lit 0), V4.withW (V4.smul m.c1 invScale.y) (Flt.lit 0),
   V4.withW (V4.smul m.c2 invScale.z) (Flt.lit 0), ⟨Flt.lit 0, Flt.lit 0, Flt.lit 0, Flt.lit 1⟩⟩
/-- `extractTransform(m, position, rotation, scale)`, /repo/include/math/matrix/transform.hpp:265-270: the three outputs. -/
def extractTransformOn (k : Backend) (m : M4 F) : V4 F × V4 F × V4 F :=
  (getTranslation m, extractQuat (extractRotationOn k m), extractScaleOn k m)

end Verif.Transform
