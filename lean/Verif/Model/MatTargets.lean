import Verif.Model.SimdMath
import Verif.Model.Mat

/-!
# SIMD matrix products on every target

`Verif.Model.Mat` models the products of /repo/include/math/simd/matrix/float.hpp with a fused multiply-add. Here the
multiply-add is the one of the target (`F32x4.fma1`): fused or a product followed by an addition. The configuration
without SIMD forwards to `M4.mulV` and `M4.mul`.
-/

namespace Verif.F32x4

/-- `MATH_SIMD_FMA` / `vmlaq_f32` on four lanes. Models the calls in /repo/include/math/simd/matrix/float.hpp:193-209. -/
def fma4 (t : FTarget) (a b c : V4 F32) : V4 F32 := V4.map3 (fma1 t) a b c
/-- `m * v`, /repo/include/math/simd/matrix/float.hpp:218-235. -/
def mulV (t : FTarget) (m : M4 F32) (v : V4 F32) : V4 F32 :=
  let r := V4.mul m.c0 (V4.splat v.x)
  let r := fma4 t m.c1 (V4.splat v.y) r
  let r := fma4 t m.c2 (V4.splat v.z) r
  fma4 t m.c3 (V4.splat v.w) r
/-- `a * b`, /repo/include/math/simd/matrix/float.hpp:186-213. -/
def mulM (t : FTarget) (a b : M4 F32) : M4 F32 := ⟨mulV t a b.c0, mulV t a b.c1, mulV t a b.c2, mulV t a b.c3⟩
/-- `multiply3x3(m, v)`, /repo/include/math/simd/matrix/float.hpp:321-339. -/
def multiply3x3V (t : FTarget) (m : M4 F32) (v : V4 F32) : V4 F32 :=
  let r := V4.mul m.c0 (V4.splat v.x)
  let r := fma4 t m.c1 (V4.splat v.y) r
  (fma4 t m.c2 (V4.splat v.z) r).swizzle 0 1 2 2

end Verif.F32x4
