import Verif.Model.Geom
import Verif.Model.MinMaxTargets
import Verif.Model.MatBackends

/-!
# The triangle-box test on every backend

`Sat.test` of `Verif.Model.Geom` is the test of SSE4.1. Here the dot and cross products, the smallest and largest lane and the
transpose are those of the backend.
-/

namespace Verif

namespace Backend
/-- `transpose3x3`, /repo/include/math/simd/matrix/float.hpp:371-394. -/
def transpose3x3F : Backend → M4 F32 → M4 F32
  | .sse2, m | .sse41, m => Simd.transpose3x3 m
  | .neon, m => Simd.transpose3x3Neon m
  | .scalar, m => Simd.transpose3x3Plain m
end Backend

namespace Sat
/-- One of the nine edge-axis tests on the backend `k`, /repo/source/aabb.cpp:28-32 (repeated through 80). -/
def axisSepOn (k : Backend) (c0 c1 c2 a : V4 F32) (r : F32) : Bool :=
  let p : V4 F32 := V4.ofV3 ⟨k.dot3 c0 a, k.dot3 c1 a, k.dot3 c2 a⟩
  gt (Flt.stdMax (-. k.max3F p) (k.min3F p)) r
/-- `isAabbIntersected(position, extent, triangle)` on the backend `k`, /repo/source/aabb.cpp:18-93. -/
def testOn (k : Backend) (position extent : V4 F32) (t : Triangle F32) : Bool :=
  let c0 := V4.sub t.p0 position
  let c1 := V4.sub t.p1 position
  let c2 := V4.sub t.p2 position
  let f0 := V4.sub c1 c0
  let f1 := V4.sub c2 c1
  let f2 := V4.sub c0 c2
  let z : F32 := Flt.lit 0
  if axisSepOn k c0 c1 c2 (V4.ofV3 ⟨z, -. f0.z, f0.y⟩) (extent.y *. Flt.abs f0.z +. extent.z *. Flt.abs f0.y) then false
  else if axisSepOn k c0 c1 c2 (V4.ofV3 ⟨z, -. f1.z, f1.y⟩) (extent.y *. Flt.abs f1.z +. extent.z *. Flt.abs f1.y) then false
  else if axisSepOn k c0 c1 c2 (V4.ofV3 ⟨z, -. f2.z, f2.y⟩) (extent.y *. Flt.abs f2.z +. extent.z *. Flt.abs f2.y) then false
  else if axisSepOn k c0 c1 c2 (V4.ofV3 ⟨f0.z, z, -. f0.x⟩) (extent.x *. Flt.abs f0.z +. extent.z *. Flt.abs f0.x) then false
  else if axisSepOn k c0 c1 c2 (V4.ofV3 ⟨f1.z, z, -. f1.x⟩) (extent.x *. Flt.abs f1.z +. extent.z *. Flt.abs f1.x) then false
  else if axisSepOn k c0 c1 c2 (V4.ofV3 ⟨f2.z, z, -. f2.x⟩) (extent.x *. Flt.abs f2.z +. extent.z *. Flt.abs f2.x) then false
  else if axisSepOn k c0 c1 c2 (V4.ofV3 ⟨-. f0.y, f0.x, z⟩) (extent.x *. Flt.abs f0.y +. extent.y *. Flt.abs f0.x) then false
  else if axisSepOn k c0 c1 c2 (V4.ofV3 ⟨-. f1.y, f1.x, z⟩) (extent.x *. Flt.abs f1.y +. extent.y *. Flt.abs f1.x) then false
  else if axisSepOn k c0 c1 c2 (V4.ofV3 ⟨-. f2.y, f2.x, z⟩) (extent.x *. Flt.abs f2.y +. extent.y *. Flt.abs f2.x) then false
  else
    let m := k.transpose3x3F ⟨c0, c1, c2, V4.splat z⟩
    if k.max3F m.c0 <. -. extent.x || gt (k.min3F m.c0) extent.x || k.max3F m.c1 <. -. extent.y ||
        gt (k.min3F m.c1) extent.y || k.max3F m.c2 <. -. extent.z || gt (k.min3F m.c2) extent.z then false
    else
      let n := k.cross3 f0 f1
      let d := Flt.abs (k.dot3 n c0)
      let r := extent.x *. Flt.abs n.x +. extent.y *. Flt.abs n.y +. extent.z *. Flt.abs n.z
      d <=. r
end Sat
end Verif
