import Verif.Model.SimdMath

/-!
# Conversions between integer and float vectors, and the memory access and lanes of the SIMD vectors
-/

namespace Verif
open F32

/-- `(int32)x`: undefined when the truncated value does not fit. Models the casts of
/repo/include/math/vector/float.hpp:83-95, 235-255, 436-464. -/
def castI (x : F32) : Option W :=
  if x.isFinite && decide (-2 ^ 31 ≤ x.truncInt) && decide (x.truncInt < 2 ^ 31) then some (BitVec.ofInt 32 x.truncInt) else none

/-- `(uint32)x`: undefined when the truncated value does not fit. Models the casts of
/repo/include/math/vector/float.hpp:83-95, 235-255, 436-464. -/
def castU (x : F32) : Option W :=
  if x.isFinite && decide (0 ≤ x.truncInt) && decide (x.truncInt < 2 ^ 32) then some (BitVec.ofInt 32 x.truncInt) else none

/-- `(float)n` for a signed word, /repo/include/math/vector/float.hpp:59, 211, 411-412. -/
def castFI (n : W) : F32 := ofInt n.toInt
/-- `(float)n` for an unsigned word, /repo/include/math/vector/float.hpp:54, 206, 405-406. -/
def castFU (n : W) : F32 := ofInt n.toNat

namespace V2
/-- `(uint2)v`, /repo/include/math/vector/float.hpp:83. -/
def toUint2 (v : V2 F32) : Option (V2 W) := do return ⟨← castU v.x, ← castU v.y⟩
/-- `(int2)v`, /repo/include/math/vector/float.hpp:87. -/
def toInt2 (v : V2 F32) : Option (V2 W) := do return ⟨← castI v.x, ← castI v.y⟩
/-- `(uint32)v`, /repo/include/math/vector/float.hpp:91. -/
def toUint (v : V2 F32) : Option W := castU v.x
/-- `(int32)v`, /repo/include/math/vector/float.hpp:95. -/
def toInt (v : V2 F32) : Option W := castI v.x
/-- `(float)v`, /repo/include/math/vector/float.hpp:99. -/
def toFloat (v : V2 F32) : F32 := v.x
/-- `float2(uint2)`, /repo/include/math/vector/float.hpp:54. -/
def ofUint2 (v : V2 W) : V2 F32 := ⟨castFU v.x, castFU v.y⟩
/-- `float2(int2)`, /repo/include/math/vector/float.hpp:59. -/
def ofInt2 (v : V2 W) : V2 F32 := ⟨castFI v.x, castFI v.y⟩
end V2

namespace V3
/-- `(int3)v`, /repo/include/math/vector/float.hpp:235. -/
def toInt3 (v : V3 F32) : Option (V3 W) := do return ⟨← castI v.x, ← castI v.y, ← castI v.z⟩
/-- `(uint3)v`, /repo/include/math/vector/float.hpp:239. -/
def toUint3 (v : V3 F32) : Option (V3 W) := do return ⟨← castU v.x, ← castU v.y, ← castU v.z⟩
/-- `(int2)v`, /repo/include/math/vector/float.hpp:243. -/
def toInt2 (v : V3 F32) : Option (V2 W) := do return ⟨← castI v.x, ← castI v.y⟩
/-- `(uint2)v`, /repo/include/math/vector/float.hpp:247. -/
def toUint2 (v : V3 F32) : Option (V2 W) := do return ⟨← castU v.x, ← castU v.y⟩
/-- `(uint32)v`, /repo/include/math/vector/float.hpp:251. -/
def toUint (v : V3 F32) : Option W := castU v.x
/-- `(int32)v`, /repo/include/math/vector/float.hpp:255. -/
def toInt (v : V3 F32) : Option W := castI v.x
/-- `(float2)v`, /repo/include/math/vector/float.hpp:259. -/
def toFloat2 (v : V3 F32) : V2 F32 := ⟨v.x, v.y⟩
/-- `(float)v`, /repo/include/math/vector/float.hpp:263. -/
def toFloat (v : V3 F32) : F32 := v.x
/-- `float3(uint3)`, /repo/include/math/vector/float.hpp:206. -/
def ofUint3 (v : V3 W) : V3 F32 := ⟨castFU v.x, castFU v.y, castFU v.z⟩
/-- `float3(int3)`, /repo/include/math/vector/float.hpp:211. -/
def ofInt3 (v : V3 W) : V3 F32 := ⟨castFI v.x, castFI v.y, castFI v.z⟩
end V3

namespace V4
/-- `(int4)v`, /repo/include/math/vector/float.hpp:436. -/
def toInt4 (v : V4 F32) : Option (V4 W) := do return ⟨← castI v.x, ← castI v.y, ← castI v.z, ← castI v.w⟩
/-- `(uint4)v`, /repo/include/math/vector/float.hpp:440. -/
def toUint4 (v : V4 F32) : Option (V4 W) := do return ⟨← castU v.x, ← castU v.y, ← castU v.z, ← castU v.w⟩
/-- `(int3)v`, /repo/include/math/vector/float.hpp:444. -/
def toInt3 (v : V4 F32) : Option (V3 W) := do return ⟨← castI v.x, ← castI v.y, ← castI v.z⟩
/-- `(uint3)v`, /repo/include/math/vector/float.hpp:448. -/
def toUint3 (v : V4 F32) : Option (V3 W) := do return ⟨← castU v.x, ← castU v.y, ← castU v.z⟩
/-- `(int2)v`, /repo/include/math/vector/float.hpp:452. -/
def toInt2 (v : V4 F32) : Option (V2 W) := do return ⟨← castI v.x, ← castI v.y⟩
/-- `(uint2)v`, /repo/include/math/vector/float.hpp:456. -/
def toUint2 (v : V4 F32) : Option (V2 W) := do return ⟨← castU v.x, ← castU v.y⟩
/-- `(uint32)v`, /repo/include/math/vector/float.hpp:460. -/
def toUint (v : V4 F32) : Option W := castU v.x
/-- `(int32)v`, /repo/include/math/vector/float.hpp:464. -/
def toInt (v : V4 F32) : Option W := castI v.x
/-- `(float3)v`, /repo/include/math/vector/float.hpp:468. -/
def toFloat3 (v : V4 F32) : V3 F32 := ⟨v.x, v.y, v.z⟩
/-- `(float2)v`, /repo/include/math/vector/float.hpp:472. -/
def toFloat2 (v : V4 F32) : V2 F32 := ⟨v.x, v.y⟩
/-- `(float)v`, /repo/include/math/vector/float.hpp:476. -/
def toFloat (v : V4 F32) : F32 := v.x
/-- `float4(uint4)`, /repo/include/math/vector/float.hpp:405-406. -/
def ofUint4 (v : V4 W) : V4 F32 := ⟨castFU v.x, castFU v.y, castFU v.z, castFU v.w⟩
/-- `float4(int4)`, /repo/include/math/vector/float.hpp:411-412. -/
def ofInt4 (v : V4 W) : V4 F32 := ⟨castFI v.x, castFI v.y, castFI v.z, castFI v.w⟩
end V4

namespace Backend

/-- `(u32x4)v`. Without SIMD the vector is cast to `uint4`, which may be undefined (`none`).
/repo/include/math/simd/vector/float.hpp:393-402. -/
def toU32x4 (k : Backend) (v : V4 F32) : Option (V4 W) :=
  match k with
  | sse2 | sse41 => some (v.map cvtt)
  | neon => some (v.map vcvtU)
  | scalar => v.toUint4

/-- `(i32x4)v`. Without SIMD the vector is cast to `uint4`, and the words are taken as they are.
/repo/include/math/simd/vector/float.hpp:406-415. -/
def toI32x4 (k : Backend) (v : V4 F32) : Option (V4 W) :=
  match k with
  | sse2 | sse41 => some (v.map cvtt)
  | neon => some (v.map vcvtS)
  | scalar => v.toUint4

end Backend
end Verif
