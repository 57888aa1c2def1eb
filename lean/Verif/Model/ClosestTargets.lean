import Verif.Model.Geom
import Verif.Model.VecBackends
import Verif.Model.SimdMath

/-!
# Closest points on every target

`Line.closestPoint`, `Ray.closestPoint` and `Plane.closestPoint` of `Verif.Model.Geom` are those of SSE4.1 with a fused
multiply-add. Here `dot3` is that of the backend `k` and `fma` that of the target `tg`. The configuration without SIMD uses
`std::fma`, which is fused: `k = scalar` with a fused `tg`.
-/

namespace Verif.F32x4

/-- `fma` of four lanes, /repo/include/math/simd/vector/float.hpp:836-843. -/
def fmaV (tg : FTarget) (a b c : V4 F32) : V4 F32 :=
  ⟨fma1 tg a.x b.x c.x, fma1 tg a.y b.y c.y, fma1 tg a.z b.z c.z, fma1 tg a.w b.w c.w⟩

/-- `closestPoint(line, point)`, /repo/include/math/line.hpp:81-86. -/
def lineClosest (k : Backend) (tg : FTarget) (l : Line F32) (p : V4 F32) : V4 F32 :=
  let d := V4.sub l.end l.start
  let t := k.dot3 (V4.sub p l.start) d /. k.dot3 d d
  fmaV tg d (V4.splat (Flt.stdClamp t (Flt.lit 0) (Flt.lit 1))) l.start

/-- `closestPoint(ray, point)`, /repo/include/math/ray.hpp:109-114. -/
def rayClosest (k : Backend) (tg : FTarget) (r : Ray F32) (p : V4 F32) : V4 F32 :=
  let a := r.origin
  let b := V4.add r.origin r.direction
  let v := V4.sub b a
  let t := k.dot3 (V4.sub p a) v /. k.dot3 v v
  fmaV tg r.direction (V4.splat (Flt.stdMax t (Flt.lit 0))) a

/-- `closestPoint(plane, point)`, /repo/include/math/plane.hpp:130-133, with `distance3`, 120-123. -/
def planeClosest (k : Backend) (pl : Plane F32) (p : V4 F32) : V4 F32 :=
  V4.sub p (V4.mul pl.normDist (V4.splat (k.dot3 pl.normDist p +. pl.normDist.w)))

end Verif.F32x4
