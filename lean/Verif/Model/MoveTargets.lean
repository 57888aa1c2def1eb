import Verif.Model.RigidTargets

/-!
# Moving and scaling a matrix on every target

`translate(t, m)` and `scale(m, s)` are lane additions and multiplications, the same on every target: see
`Transform.translateL` and `Transform.scaleR`. The other two forms use the product of the target.
-/

namespace Verif.F32x4

/-- `translate(m, t)`, /repo/include/math/matrix/transform.hpp:61-64. -/
def translateR (k : Backend) (tg : FTarget) (m : M4 F32) (t : V4 F32) : M4 F32 :=
  ⟨m.c0, m.c1, m.c2, V4.withW (V4.add m.c3 (multiply3x3VOn k tg m t)) m.c3.w⟩
/-- `scale(s, m)`, /repo/include/math/matrix/transform.hpp:101-105. -/
def scaleL (k : Backend) (tg : FTarget) (s : V4 F32) (m : M4 F32) : M4 F32 :=
  let sm := Transform.scale s
  ⟨mulVOn k tg sm m.c0, mulVOn k tg sm m.c1, mulVOn k tg sm m.c2, mulVOn k tg sm m.c3⟩

end Verif.F32x4
