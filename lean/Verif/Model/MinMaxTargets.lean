import Verif.Model.VecBackends
import Verif.Model.F32

/-!
# Minimum, maximum and clamp of SIMD floats on every backend

`Verif.Model.Vec` has the SSE versions. The branches differ in the order in which two lanes are compared, and so in the answer
for NaN and for zeros of different sign.
-/

namespace Verif
namespace Backend
/-- One lane of `min`, /repo/include/math/simd/vector/float.hpp:748-757. `vminq_f32` answers NaN for a NaN and the negative
zero for two zeros; the plain version is `std::min`. -/
def minF : Backend → F32 → F32 → F32
  | .sse2, a, b | .sse41, a, b => Flt.mmMin a b
  | .neon, a, b => if a.isNaN || b.isNaN then F32.nan else if F32.ltb a b then a else if F32.ltb b a then b
    else if a.signBit then a else b
  | .scalar, a, b => Flt.stdMin a b
/-- One lane of `max`, /repo/include/math/simd/vector/float.hpp:764-773. `vmaxq_f32` answers NaN for a NaN and the positive
zero for two zeros; the plain version is `std::max`. -/
def maxF : Backend → F32 → F32 → F32
  | .sse2, a, b | .sse41, a, b => Flt.mmMax a b
  | .neon, a, b => if a.isNaN || b.isNaN then F32.nan else if F32.ltb b a then a else if F32.ltb a b then b
    else if a.signBit then b else a
  | .scalar, a, b => Flt.stdMax a b
/-- `min3`, /repo/include/math/simd/vector/float.hpp:800-805. Lanes written `SwU` are not read. -/
def min3F (k : Backend) (v : V4 F32) : F32 :=
  let m := V4.map2 k.minF v (v.swizzle 1 2 2 2)
  (V4.map2 k.minF m (m.swizzle 2 2 2 2)).x
/-- `max3`, /repo/include/math/simd/vector/float.hpp:810-815. Lanes written `SwU` are not read. -/
def max3F (k : Backend) (v : V4 F32) : F32 :=
  let m := V4.map2 k.maxF v (v.swizzle 1 2 2 2)
  (V4.map2 k.maxF m (m.swizzle 2 2 2 2)).x
/-- `min4`, /repo/include/math/simd/vector/float.hpp:779-784. Lanes written `SwU` are not read. -/
def min4F (k : Backend) (v : V4 F32) : F32 :=
  let m := V4.map2 k.minF v (v.swizzle 1 2 3 2)
  (V4.map2 k.minF m (m.swizzle 2 2 2 2)).x
/-- `max4`, /repo/include/math/simd/vector/float.hpp:789-794. Lanes written `SwU` are not read. -/
def max4F (k : Backend) (v : V4 F32) : F32 :=
  let m := V4.map2 k.maxF v (v.swizzle 1 2 3 2)
  (V4.map2 k.maxF m (m.swizzle 2 2 2 2)).x
/-- `clamp`, /repo/include/math/simd/vector/float.hpp:824-827. -/
def clampF (k : Backend) (v lo hi : V4 F32) : V4 F32 := V4.map2 k.maxF (V4.map2 k.minF v hi) lo
end Backend
end Verif
