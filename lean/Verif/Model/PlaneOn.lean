import Verif.Model.Geom
import Verif.Model.VecBackends

/-!
# The plane through a triangle on every backend
-/

namespace Verif.Plane
variable {F : Type} [Flt F]

/-- `Plane(triangle)` with the products, length and division of a backend. Models /repo/include/math/plane.hpp:62-69, with the
branches of /repo/include/math/simd/vector/float.hpp:1019-1051, 1082-1091 and 1141-1151. -/
def ofTriangleOn (k : Backend) (t : Triangle F) : Plane F :=
  let n := k.cross3 (V4.sub t.p1 t.p0) (V4.sub t.p2 t.p0)
  let n := if Flt.lit 0 <. k.length3 n then k.normalize3 n else n
  ⟨n.withW (k.dot3 n t.p0)⟩

end Verif.Plane
