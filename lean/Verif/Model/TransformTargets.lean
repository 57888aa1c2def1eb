import Verif.Model.MatTargets
import Verif.Model.Transform
import Verif.Model.VecBackends

/-!
# Model matrices on every target

`Verif.Model.Transform` models the SSE4.1 configuration with a fused multiply-add. Here the products are those of the
target: four multiply-adds, fused or not, or without SIMD the scalar product.
-/

namespace Verif.F32x4

/-- A column of a product, and `m * v`: /repo/include/math/simd/matrix/float.hpp:186-213 and 218-235 with SIMD,
/repo/include/math/matrix/float.hpp:470-477 and 482-489 without. -/
def mulVOn (k : Backend) (t : FTarget) (m : M4 F32) (v : V4 F32) : V4 F32 :=
  match k with
  | .scalar => M4.col m v
  | .sse2 | .sse41 | .neon => mulV t m v
/-- `a * b`, /repo/include/math/simd/matrix/float.hpp:186-213. -/
def mulMOn (k : Backend) (t : FTarget) (a b : M4 F32) : M4 F32 :=
  ⟨mulVOn k t a b.c0, mulVOn k t a b.c1, mulVOn k t a b.c2, mulVOn k t a b.c3⟩
/-- `calcModel`, /repo/include/math/matrix/transform.hpp:251-256. -/
def calcModel (k : Backend) (t : FTarget) (position rotation s : V4 F32) : M4 F32 :=
  if Transform.eq4 s (V4.splat (F32.ofRat 1)) then Transform.translateL position (Transform.rotate (k.normalize4 rotation))
  else mulMOn k t (mulMOn k t (Transform.translate position) (Transform.rotate (k.normalize4 rotation))) (Transform.scale s)
/-- `lookAt`, /repo/include/math/matrix/transform.hpp:291-299. -/
def lookAt (k : Backend) (from_ to_ up : V4 F32) : M4 F32 :=
  let f := k.normalize3 (V4.sub to_ from_)
  let s := k.normalize3 (k.cross3 up f)
  let u := k.cross3 f s
  Simd.transpose4x4 ⟨V4.withW s (-. k.dot3 s from_), V4.withW u (-. k.dot3 u from_),
    V4.withW f (-. k.dot3 f from_), ⟨Flt.lit 0, Flt.lit 0, Flt.lit 0, Flt.lit 1⟩⟩
/-- `rotate(lookFrom, lookTo, up)`, /repo/include/math/matrix/transform.hpp:148-156. -/
def rotateLook (k : Backend) (lookFrom lookTo up : V4 F32) : M4 F32 :=
  let f := k.normalize3 (V4.sub lookTo lookFrom)
  let s := k.normalize3 (k.cross3 up f)
  let u := k.cross3 f s
  ⟨V4.withW s (Flt.lit 0), V4.withW u (Flt.lit 0), V4.withW f (Flt.lit 0),
   ⟨Flt.lit 0, Flt.lit 0, Flt.lit 0, Flt.lit 1⟩⟩

end Verif.F32x4
