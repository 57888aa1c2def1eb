import Verif.Model.CullTargets
import Verif.Model.MinMaxTargets
import Verif.Model.FloatElem

/-!
# The ray-box test on every backend

`Aabb.raycast` of `Verif.Model.Geom` is the test of SSE4.1. Here `min`, `max`, `select` and the normalization are those of the
backend.
-/

namespace Verif

/-- `setDirection`, /repo/include/math/ray.hpp:66-70, on the backend `k`. -/
def Ray.setDirectionOn (k : Backend) (r : Ray F32) (direction : V4 F32) (normalize : Bool) : Ray F32 :=
  { r with
    direction := if normalize then k.normalize3 direction else direction
    isParallel := V4.cmp Flt.le (V4.map Flt.abs direction) (V4.splat (Flt.lit (1 / 10 ^ 20))) }

namespace Aabb
/-- The values `tMin`, `tMax`, `noIntersection` after line 332 of `raycast2I`, /repo/include/math/aabb.hpp:320-332, on the
backend `k`. -/
def slabsOn (k : Backend) (b : Aabb F32) (r : Ray F32) : V4 F32 × V4 F32 × V4 W :=
  let t1 := V4.mul (V4.sub b.min r.origin) r.direction
  let t2 := V4.mul (V4.sub b.max r.origin) r.direction
  let tMin := F32x4.select k.isa r.isParallel (V4.splat minusFltMax) (V4.map2 k.minF t1 t2)
  let tMax := F32x4.select k.isa r.isParallel (V4.splat fltMax) (V4.map2 k.maxF t1 t2)
  let tMin := V4.map2 k.maxF tMin (tMin.swizzle 1 2 0 2)
  let tMin := V4.map2 k.maxF tMin (tMin.swizzle 2 0 1 2)
  let tMax := V4.map2 k.minF tMax (tMax.swizzle 1 2 0 2)
  let tMax := V4.map2 k.minF tMax (tMax.swizzle 2 0 1 2)
  let noOverlap := V4.bor (V4.cmp Flt.lt r.origin b.min) (V4.cmp gt r.origin b.max)
  let no := V4.bor (V4.bor (V4.cmp gt tMin tMax) (V4.cmp Flt.lt tMax (V4.splat (Flt.lit 0))))
    (V4.band r.isParallel noOverlap)
  let no := V4.bor no (no.swizzle 1 1 1 1)
  let no := V4.bor no (no.swizzle 2 2 2 2)
  (tMin, tMax, no)
/-- `raycast2I`, /repo/include/math/aabb.hpp:318-337, on the backend `k`. -/
def raycast2IOn (k : Backend) (b : Aabb F32) (r : Ray F32) : V2 F32 :=
  let s := slabsOn k b r
  ⟨(F32x4.select k.isa s.2.2 (V4.splat fltMax) s.1).x, (F32x4.select k.isa s.2.2 (V4.splat minusFltMax) s.2.1).x⟩
/-- `raycastI`, /repo/include/math/aabb.hpp:414-417, on the backend `k`. -/
def raycastIOn (k : Backend) (b : Aabb F32) (r : Ray F32) : Bool := hit (raycast2IOn k b r)
/-- `raycast`, /repo/include/math/aabb.hpp:404-407, with `raycast2`, 345-349, on the backend `k`. -/
def raycastOn (k : Backend) (b : Aabb F32) (r : Ray F32) : Bool :=
  hit (raycast2IOn k b (r.setDirectionOn k (V4.div (V4.splat (Flt.lit 1)) r.direction) true))
end Aabb

end Verif
