import Verif.Model.Geom
import Verif.Model.GeomOps
import Verif.Model.TransformTargets

/-!
# Sphere, plane and frustum tests on every backend and target

The tests of `Verif.Model.Geom` are those of SSE4.1 with a fused multiply-add. Here the products are those of the backend `k`,
the matrix product that of the target `tg`, and the mask test that of the instruction set of `k`. The additions, subtractions,
divisions and comparisons of lanes, `transpose4x4` and `clamp` of finite lanes do not depend on the backend and are kept from
there.
-/

namespace Verif

/-- The instruction set of a backend: the branches of /repo/include/math/simd/vector/uint.hpp:653-662 and of
/repo/include/math/simd/vector/float.hpp:1019-1028 are selected by the same macros. -/
def Backend.isa : Backend → Isa
  | .sse2 => .sse2 | .sse41 => .sse41 | .neon => .neon | .scalar => .scalar

namespace Sphere
/-- `isInside(sphere, point)`, /repo/include/math/sphere.hpp:81-86. -/
def isInsideOn (k : Backend) (s : Sphere F32) (p : V4 F32) : Bool :=
  k.dot3 (V4.sub s.posRad p) (V4.sub s.posRad p) <. s.radius *. s.radius
/-- `isIntersected(sphere, sphere)`, /repo/include/math/sphere.hpp:106-111. -/
def isIntersectedOn (k : Backend) (a b : Sphere F32) : Bool :=
  k.dot3 (V4.sub a.posRad b.posRad) (V4.sub a.posRad b.posRad) <=. (a.radius +. b.radius) *. (a.radius +. b.radius)
/-- `isIntersected(sphere, aabb)`, /repo/include/math/sphere.hpp:118-123. Simplification: `closestPoint` takes the minimum and
maximum of lanes as SSE does on every backend; for finite lanes the backends differ at most in the sign of a zero. -/
def isIntersectedBOn (k : Backend) (a : Sphere F32) (b : Aabb F32) : Bool :=
  k.dot3 (V4.sub a.posRad (b.closestPoint a.posRad)) (V4.sub a.posRad (b.closestPoint a.posRad)) <. a.radius *. a.radius
end Sphere

namespace Plane
/-- `distance3(plane, point)`, /repo/include/math/plane.hpp:120-123. -/
def distanceOn (k : Backend) (pl : Plane F32) (p : V4 F32) : F32 := k.dot3 pl.normDist p +. pl.normDist.w
/-- `normalize`, /repo/include/math/plane.hpp:99. -/
def normalizeOn (k : Backend) (pl : Plane F32) : Plane F32 := ⟨V4.div pl.normDist (V4.splat (k.length3 pl.normDist))⟩
/-- `normalizePlanes`, /repo/include/math/plane.hpp:185-189. -/
def normalizePlanesOn (k : Backend) (ps : List (Plane F32)) : List (Plane F32) := ps.map (normalizeOn k)
end Plane

namespace Aabb
/-- The test of one plane against eight points, /repo/include/math/aabb.hpp:507-512 (and 471-476). -/
def planeRejectsOn (k : Backend) (pl : Plane F32) : List (V4 F32) → Bool
  | [v0, v1, v2, v3, v4, v5, v6, v7] =>
    let d0 : V4 F32 := ⟨pl.distanceOn k v0, pl.distanceOn k v1, pl.distanceOn k v2, pl.distanceOn k v3⟩
    let d1 : V4 F32 := ⟨pl.distanceOn k v4, pl.distanceOn k v5, pl.distanceOn k v6, pl.distanceOn k v7⟩
    U32x4.areAllTrue k.isa
      (V4.band (V4.cmp Flt.lt d0 (V4.splat (Flt.lit 0))) (V4.cmp Flt.lt d1 (V4.splat (Flt.lit 0))))
  | _ => false
/-- The loop over the planes, /repo/include/math/aabb.hpp:469-479. -/
def anyRejectsOn (k : Backend) (vs : List (V4 F32)) : List (Plane F32) → Bool
  | [] => false
  | pl :: rest => if planeRejectsOn k pl vs then true else anyRejectsOn k vs rest
/-- `isBehindFrustum(planes, planeCount, aabb)`, /repo/include/math/aabb.hpp:490-516. -/
def isBehindFrustumOn (k : Backend) (planes : List (Plane F32)) (b : Aabb F32) : Bool := anyRejectsOn k b.corners planes
/-- `isBehindFrustum(planes, planeCount, aabb, model)`, /repo/include/math/aabb.hpp:454-480. -/
def isBehindFrustumMOn (k : Backend) (tg : FTarget) (planes : List (Plane F32)) (b : Aabb F32) (model : M4 F32) : Bool :=
  anyRejectsOn k (b.corners.map (F32x4.mulVOn k tg model)) planes
end Aabb

end Verif
