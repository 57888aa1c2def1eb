import Verif.Model.Vec
import Verif.Model.F32

/-!
# Integer vectors, masks and their tests

Models /repo/include/math/vector/uint.hpp, /repo/include/math/vector/int.hpp and the integer part of
/repo/include/math/simd/vector/{uint,int,float}.hpp. A 32-bit integer, signed or not, is a `BitVec 32`.
-/

namespace Verif

/-- `uint32` / `int32` bit patterns. -/
abbrev W := BitVec 32

/-- The six comparisons: operators `<`, `>`, `<=`, `>=` and the functions `equal`, `notEqual`. -/
inductive Cmp
  | lt | gt | le | ge | eq | ne
deriving DecidableEq, Repr

namespace Cmp
/-- On `uint32` components. Models /repo/include/math/vector/uint.hpp:128-143, 449-468, 536-549. -/
def onU : Cmp → W → W → Bool
  | lt, a, b => a.ult b
  | gt, a, b => b.ult a
  | le, a, b => a.ule b
  | ge, a, b => b.ule a
  | eq, a, b => a == b
  | ne, a, b => a != b
/-- On `int32` components. Models /repo/include/math/vector/int.hpp:132-147, 296-312, 569-582. -/
def onI : Cmp → W → W → Bool
  | lt, a, b => a.slt b
  | gt, a, b => b.slt a
  | le, a, b => a.sle b
  | ge, a, b => b.sle a
  | eq, a, b => a == b
  | ne, a, b => a != b
/-- On `float` components. Models /repo/include/math/vector/float.hpp:122-137, 499-518, 565-578 and
/repo/include/math/simd/vector/float.hpp:528-567, 686-711. -/
def onF {F : Type} [Flt F] : Cmp → F → F → Bool
  | lt, a, b => a <. b
  | gt, a, b => b <. a
  | le, a, b => a <=. b
  | ge, a, b => b <=. a
  | eq, a, b => a ==. b
  | ne, a, b => !(a ==. b)
end Cmp

/-! ## Mask tests -/

/-- One bit as a number. -/
def bit (b : Bool) : Nat := if b then 1 else 0

namespace V2
/-- `getTrues`, /repo/include/math/vector/uint.hpp:509-512. -/
def getTrues (v : V2 W) : W := (v.x >>> 31) ||| ((v.y >>> 31) <<< 1)
/-- `areAllTrue`, /repo/include/math/vector/uint.hpp:516. -/
def areAllTrue (v : V2 W) : Bool := (v.x &&& v.y) == 0xFFFFFFFF#32
/-- `areAllFalse`, /repo/include/math/vector/uint.hpp:520. -/
def areAllFalse (v : V2 W) : Bool := (v.x ||| v.y) == 0
/-- `areAnyTrue`, /repo/include/math/vector/uint.hpp:524. -/
def areAnyTrue (v : V2 W) : Bool := (v.x ||| v.y) != 0
/-- `areAnyFalse`, /repo/include/math/vector/uint.hpp:528. -/
def areAnyFalse (v : V2 W) : Bool := (v.x &&& v.y) != 0xFFFFFFFF#32
/-- Component by index, `operator[]`, /repo/include/math/vector/uint.hpp:70-74. -/
@[vec] def get {α : Type} (v : V2 α) : Fin 2 → α | 0 => v.x | 1 => v.y
end V2

namespace V3
/-- `getTrues`, /repo/include/math/vector/uint.hpp:647-650. -/
def getTrues (v : V3 W) : W := (v.x >>> 31) ||| ((v.y >>> 31) <<< 1) ||| ((v.z >>> 31) <<< 2)
/-- `areAllTrue`, /repo/include/math/vector/uint.hpp:654. -/
def areAllTrue (v : V3 W) : Bool := (v.x &&& v.y &&& v.z) == 0xFFFFFFFF#32
/-- `areAllFalse`, /repo/include/math/vector/uint.hpp:658. -/
def areAllFalse (v : V3 W) : Bool := (v.x ||| v.y ||| v.z) == 0
/-- `areAnyTrue`, /repo/include/math/vector/uint.hpp:662. -/
def areAnyTrue (v : V3 W) : Bool := (v.x ||| v.y ||| v.z) != 0
/-- `areAnyFalse`, /repo/include/math/vector/uint.hpp:666. -/
def areAnyFalse (v : V3 W) : Bool := (v.x &&& v.y &&& v.z) != 0xFFFFFFFF#32
/-- Component by index, `operator[]`, /repo/include/math/vector/uint.hpp:208-212. -/
@[vec] def get {α : Type} (v : V3 α) : Fin 3 → α | 0 => v.x | 1 => v.y | 2 => v.z
end V3

namespace V4
/-- `getTrues`, /repo/include/math/vector/uint.hpp:788-791. -/
def getTrues (v : V4 W) : W :=
  (v.x >>> 31) ||| ((v.y >>> 31) <<< 1) ||| ((v.z >>> 31) <<< 2) ||| ((v.w >>> 31) <<< 3)
/-- `areAllTrue`, /repo/include/math/vector/uint.hpp:795. -/
def areAllTrue (v : V4 W) : Bool := (v.x &&& v.y &&& v.z &&& v.w) == 0xFFFFFFFF#32
/-- `areAllFalse`, /repo/include/math/vector/uint.hpp:799. -/
def areAllFalse (v : V4 W) : Bool := (v.x ||| v.y ||| v.z ||| v.w) == 0
/-- `areAnyTrue`, /repo/include/math/vector/uint.hpp:803. -/
def areAnyTrue (v : V4 W) : Bool := (v.x ||| v.y ||| v.z ||| v.w) != 0
/-- `areAnyFalse`, /repo/include/math/vector/uint.hpp:807. -/
def areAnyFalse (v : V4 W) : Bool := (v.x &&& v.y &&& v.z &&& v.w) != 0xFFFFFFFF#32
end V4

namespace Sse
/-- The four byte-sign bits `_mm_movemask_epi8` takes from one 32-bit lane. -/
def laneBytes (v : W) : Nat :=
  bit (v.getLsbD 7) + 2 * bit (v.getLsbD 15) + 4 * bit (v.getLsbD 23) + 8 * bit (v.getLsbD 31)
/-- `_mm_movemask_epi8`. Models the intrinsic used in
/repo/include/math/simd/vector/uint.hpp:538, 656, 671, 686, 699. -/
def movemask8 (v : V4 W) : Nat :=
  laneBytes v.x + 16 * laneBytes v.y + 256 * laneBytes v.z + 4096 * laneBytes v.w
/-- `getTrues` = `_mm_movemask_ps`, /repo/include/math/simd/vector/uint.hpp:639-649. -/
def getTrues (v : V4 W) : Nat := bit (top v.x) + 2 * bit (top v.y) + 4 * bit (top v.z) + 8 * bit (top v.w)
/-- `areAllTrue`, /repo/include/math/simd/vector/uint.hpp:653-662. -/
def areAllTrue (v : V4 W) : Bool := movemask8 v == 0xFFFF
/-- `areAllFalse` with SSE4.1 (`_mm_testz_si128`), /repo/include/math/simd/vector/uint.hpp:666-677. -/
def areAllFalse (v : V4 W) : Bool := v.x == 0 && v.y == 0 && v.z == 0 && v.w == 0
/-- `areAllFalse` with SSE2 only, /repo/include/math/simd/vector/uint.hpp:671. -/
def areAllFalse2 (v : V4 W) : Bool := movemask8 v == 0
/-- `areAnyTrue` with SSE4.1, /repo/include/math/simd/vector/uint.hpp:681-692. -/
def areAnyTrue (v : V4 W) : Bool := !areAllFalse v
/-- `areAnyTrue` with SSE2 only, /repo/include/math/simd/vector/uint.hpp:686. -/
def areAnyTrue2 (v : V4 W) : Bool := movemask8 v != 0
/-- `areAnyFalse`, /repo/include/math/simd/vector/uint.hpp:696-705. -/
def areAnyFalse (v : V4 W) : Bool := movemask8 v != 0xFFFF
end Sse

/-! ## min, max, clamp on any component type with a `<` -/

/-- `std::min(a, b)`: `(b < a) ? b : a`. -/
@[vec] def minBy {α : Type} (lt : α → α → Bool) (a b : α) : α := if lt b a then b else a
/-- `std::max(a, b)`: `(a < b) ? b : a`. -/
@[vec] def maxBy {α : Type} (lt : α → α → Bool) (a b : α) : α := if lt a b then b else a
/-- `std::clamp(v, lo, hi)`: `(v < lo) ? lo : (hi < v) ? hi : v` (undefined when `hi < lo`; the
properties assume `lo <= hi`). -/
@[vec] def clampBy {α : Type} (lt : α → α → Bool) (v lo hi : α) : α :=
  if lt v lo then lo else if lt hi v then hi else v

/-- `min`, `max`, `clamp` of the scalar vectors with the component order `lt`: unsigned
(/repo/include/math/vector/uint.hpp:577-632, 715-770, 859-901), signed
(/repo/include/math/vector/int.hpp:610-645, 718-766, 838-880) and float
(/repo/include/math/vector/float.hpp:606-641, 871-912, 1164-1206). -/
@[vec] def V2.min {α} (lt : α → α → Bool) (a b : V2 α) : V2 α := V2.map2 (minBy lt) a b
@[inherit_doc V2.min, vec] def V2.max {α} (lt : α → α → Bool) (a b : V2 α) : V2 α := V2.map2 (maxBy lt) a b
@[inherit_doc V2.min, vec] def V2.clamp {α} (lt : α → α → Bool) (v lo hi : V2 α) : V2 α :=
  ⟨clampBy lt v.x lo.x hi.x, clampBy lt v.y lo.y hi.y⟩
@[inherit_doc V2.min, vec] def V3.min {α} (lt : α → α → Bool) (a b : V3 α) : V3 α := V3.map2 (minBy lt) a b
@[inherit_doc V2.min, vec] def V3.max {α} (lt : α → α → Bool) (a b : V3 α) : V3 α := V3.map2 (maxBy lt) a b
@[inherit_doc V2.min, vec] def V3.clamp {α} (lt : α → α → Bool) (v lo hi : V3 α) : V3 α :=
  ⟨clampBy lt v.x lo.x hi.x, clampBy lt v.y lo.y hi.y, clampBy lt v.z lo.z hi.z⟩
@[inherit_doc V2.min, vec] def V4.min {α} (lt : α → α → Bool) (a b : V4 α) : V4 α := V4.map2 (minBy lt) a b
@[inherit_doc V2.min, vec] def V4.max {α} (lt : α → α → Bool) (a b : V4 α) : V4 α := V4.map2 (maxBy lt) a b
@[inherit_doc V2.min, vec] def V4.clamp {α} (lt : α → α → Bool) (v lo hi : V4 α) : V4 α :=
  V4.map3 (clampBy lt) v lo hi

/-! ## u32x4 and i32x4 per backend -/

/-- The preprocessor configurations of /repo/include/math/simd/vector/uint.hpp. -/
inductive Backend
  | sse2 | sse41 | neon | scalar
deriving DecidableEq, Repr

namespace Backend

/-- SSE integer compares are signed: `_mm_cmplt_epi32`, `_mm_cmpgt_epi32`, `_mm_cmpeq_epi32`; `<=`, `>=`
are an `or` with equality, `notEqual` an `xor` with all ones. Models
/repo/include/math/simd/vector/uint.hpp:555-594, 713-738 (SSE branch), one lane. -/
def sseLane : Cmp → W → W → W
  | .lt, a, b => mask (a.slt b)
  | .gt, a, b => mask (b.slt a)
  | .le, a, b => mask (a.slt b) ||| mask (a == b)
  | .ge, a, b => mask (b.slt a) ||| mask (a == b)
  | .eq, a, b => mask (a == b)
  | .ne, a, b => mask (a == b) ^^^ 0xFFFFFFFF#32

/-- `u32x4` comparisons. Models /repo/include/math/simd/vector/uint.hpp:555-594, 713-738. -/
def cmpU (k : Backend) (c : Cmp) (a b : V4 W) : V4 W :=
  match k with
  | sse2 | sse41 => V4.map2 (sseLane c) a b
  | neon => V4.map2 (fun x y => mask (c.onU x y)) a b
  | scalar => V4.cmp c.onU a b

/-- `i32x4` comparisons. Models /repo/include/math/simd/vector/int.hpp:588-627, 691-716. -/
def cmpI (k : Backend) (c : Cmp) (a b : V4 W) : V4 W :=
  match k with
  | sse2 | sse41 => V4.map2 (sseLane c) a b
  | neon => V4.map2 (fun x y => mask (c.onI x y)) a b
  | scalar => V4.cmp c.onI a b

/-- `min(u32x4, u32x4)`: signed with SSE4.1. Models /repo/include/math/simd/vector/uint.hpp:795-804. -/
def minU (k : Backend) (a b : V4 W) : V4 W :=
  match k with
  | sse41 => V4.map2 (minBy BitVec.slt) a b
  | neon => V4.map2 (minBy BitVec.ult) a b
  | sse2 | scalar => V4.min BitVec.ult a b

/-- `max(u32x4, u32x4)`. Models /repo/include/math/simd/vector/uint.hpp:811-820. -/
def maxU (k : Backend) (a b : V4 W) : V4 W :=
  match k with
  | sse41 => V4.map2 (maxBy BitVec.slt) a b
  | neon => V4.map2 (maxBy BitVec.ult) a b
  | sse2 | scalar => V4.max BitVec.ult a b

/-- `min(i32x4, i32x4)`. Models /repo/include/math/simd/vector/int.hpp:772-781. -/
def minI (_ : Backend) (a b : V4 W) : V4 W := V4.min BitVec.slt a b
/-- `max(i32x4, i32x4)`. Models /repo/include/math/simd/vector/int.hpp:788-797. -/
def maxI (_ : Backend) (a b : V4 W) : V4 W := V4.max BitVec.slt a b

/-- Correctly rounded conversion of an integer to binary32 (`_mm_cvtepi32_ps`, `vcvtq_f32_u32`,
`(float)n`). -/
def ofInt (z : Int) : F32 := F32.roundUnits (z * 2 ^ 149) 1

/-- `f32x4(u32x4)`: signed with SSE; the fallback copies the union member `floats`, i.e. reinterprets the
bits. Models /repo/include/math/simd/vector/float.hpp:147-156. -/
def toFloatU (k : Backend) (v : V4 W) : V4 F32 :=
  match k with
  | sse2 | sse41 => v.map fun n => ofInt n.toInt
  | neon => v.map fun n => ofInt n.toNat
  | scalar => v.map fun n => ⟨n⟩

/-- `f32x4(i32x4)`. Models /repo/include/math/simd/vector/float.hpp:161-170. -/
def toFloatI (k : Backend) (v : V4 W) : V4 F32 :=
  match k with
  | sse2 | sse41 | neon => v.map fun n => ofInt n.toInt
  | scalar => v.map fun n => ⟨n⟩

/-- `max3(u32x4)` (used by `calcMipCount3`). Models /repo/include/math/simd/vector/uint.hpp:878-883. -/
def max3U (k : Backend) (v : V4 W) : W :=
  let m := maxU k v (v.swizzle 1 2 2 2)
  (maxU k m (m.swizzle 2 2 2 2)).x
/-- `min3(u32x4)`. Models /repo/include/math/simd/vector/uint.hpp:868-873. -/
def min3U (k : Backend) (v : V4 W) : W :=
  let m := minU k v (v.swizzle 1 2 2 2)
  (minU k m (m.swizzle 2 2 2 2)).x
/-- `max4(u32x4)` / `max(u32x4)`. Models /repo/include/math/simd/vector/uint.hpp:836-841, 857-862. -/
def max4U (k : Backend) (v : V4 W) : W :=
  let m := maxU k v (v.swizzle 1 2 3 2)
  (maxU k m (m.swizzle 2 2 2 2)).x
/-- `min4(u32x4)` / `min(u32x4)`. Models /repo/include/math/simd/vector/uint.hpp:826-831, 847-852. -/
def min4U (k : Backend) (v : V4 W) : W :=
  let m := minU k v (v.swizzle 1 2 3 2)
  (minU k m (m.swizzle 2 2 2 2)).x
/-- `max3(i32x4)`. Models /repo/include/math/simd/vector/int.hpp:855-860. -/
def max3I (k : Backend) (v : V4 W) : W :=
  let m := maxI k v (v.swizzle 1 2 2 2)
  (maxI k m (m.swizzle 2 2 2 2)).x
/-- `min3(i32x4)`. Models /repo/include/math/simd/vector/int.hpp:845-850. -/
def min3I (k : Backend) (v : V4 W) : W :=
  let m := minI k v (v.swizzle 1 2 2 2)
  (minI k m (m.swizzle 2 2 2 2)).x
/-- `max4(i32x4)` / `max(i32x4)`. Models /repo/include/math/simd/vector/int.hpp:813-818, 834-839. -/
def max4I (k : Backend) (v : V4 W) : W :=
  let m := maxI k v (v.swizzle 1 2 3 2)
  (maxI k m (m.swizzle 2 2 2 2)).x
/-- `min4(i32x4)` / `min(i32x4)`. Models /repo/include/math/simd/vector/int.hpp:803-808, 824-829. -/
def min4I (k : Backend) (v : V4 W) : W :=
  let m := minI k v (v.swizzle 1 2 3 2)
  (minI k m (m.swizzle 2 2 2 2)).x
/-- `clamp(i32x4, i32x4, i32x4)`. Models /repo/include/math/simd/vector/int.hpp:869-872. -/
def clampI (k : Backend) (v lo hi : V4 W) : V4 W := maxI k (minI k v hi) lo
/-- `clamp(u32x4, u32x4, u32x4)`. Models /repo/include/math/simd/vector/uint.hpp:892-895. -/
def clampU (k : Backend) (v lo hi : V4 W) : V4 W := maxU k (minU k v hi) lo

end Backend

/-! ## Constructors -/

namespace Ctor
variable {α : Type}
/-- `uint3(uint2 xy, uint32 z)`, /repo/include/math/vector/uint.hpp:186; `float3` 194. -/
def v3_21 (xy : V2 α) (z : α) : V3 α := ⟨xy.x, xy.y, z⟩
/-- `int3(int2 xy, int32 z) : x(xy.x), y(xy.y), z(x)`, /repo/include/math/vector/int.hpp:196: the
initialiser of `z` names the member `x`, not the parameter `z`. -/
def int3_21 (xy : V2 α) (_z : α) : V3 α := ⟨xy.x, xy.y, xy.x⟩
/-- `uint3(uint32 x, uint2 yz)`, /repo/include/math/vector/uint.hpp:193, int.hpp:203, float.hpp:201. -/
def v3_12 (x : α) (yz : V2 α) : V3 α := ⟨x, yz.x, yz.y⟩
/-- `uint4(uint2 xy, uint32 z, uint32 w)`, /repo/include/math/vector/uint.hpp:331, int.hpp:365,
float.hpp:363. -/
def v4_211 (xy : V2 α) (z w : α) : V4 α := ⟨xy.x, xy.y, z, w⟩
/-- `uint4(uint32 x, uint2 yz, uint32 w)`, /repo/include/math/vector/uint.hpp:339, int.hpp:373,
float.hpp:371. -/
def v4_121 (x : α) (yz : V2 α) (w : α) : V4 α := ⟨x, yz.x, yz.y, w⟩
/-- `uint4(uint32 x, uint32 y, uint2 zw)`, /repo/include/math/vector/uint.hpp:347, int.hpp:381,
float.hpp:379. -/
def v4_112 (x y : α) (zw : V2 α) : V4 α := ⟨x, y, zw.x, zw.y⟩
/-- `uint4(uint2 xy, uint2 zw)`, /repo/include/math/vector/uint.hpp:354, int.hpp:388, float.hpp:386. -/
def v4_22 (xy zw : V2 α) : V4 α := ⟨xy.x, xy.y, zw.x, zw.y⟩
/-- `uint4(uint3 xyz, uint32 w)`, /repo/include/math/vector/uint.hpp:361, int.hpp:395, float.hpp:393. -/
def v4_31 (xyz : V3 α) (w : α) : V4 α := ⟨xyz.x, xyz.y, xyz.z, w⟩
/-- `uint4(uint32 x, uint3 yzw)`, /repo/include/math/vector/uint.hpp:368, int.hpp:402, float.hpp:400. -/
def v4_13 (x : α) (yzw : V3 α) : V4 α := ⟨x, yzw.x, yzw.y, yzw.z⟩
/-- `(uint2)v` from three components, /repo/include/math/vector/uint.hpp:217, int.hpp:240. -/
def v3_to2 (v : V3 α) : V2 α := ⟨v.x, v.y⟩
/-- `(uint3)v` from four components, /repo/include/math/vector/uint.hpp:392, int.hpp:440. -/
def v4_to3 (v : V4 α) : V3 α := ⟨v.x, v.y, v.z⟩
/-- `(uint2)v` from four components, /repo/include/math/vector/uint.hpp:396, int.hpp:448. -/
def v4_to2 (v : V4 α) : V2 α := ⟨v.x, v.y⟩
end Ctor

/-! ## isBinaryLess -/

namespace Bin
/-- The bytes of a 32-bit word in memory (little-endian). Models the object representation read by
`memcmp`, /repo/include/math/vector/uint.hpp:695. -/
def bytes (v : W) : List Nat :=
  [v.toNat % 256, v.toNat / 256 % 256, v.toNat / 65536 % 256, v.toNat / 16777216 % 256]
/-- `memcmp(a, b, n) < 0` on equally long byte strings. -/
def memcmpLt : List Nat → List Nat → Bool
  | a :: as, b :: bs => if a < b then true else if b < a then false else memcmpLt as bs
  | _, _ => false
/-- The 64-bit word formed by two 32-bit words in memory (little-endian). -/
def word64 (v : V2 W) : BitVec 64 := v.y ++ v.x
/-- `isBinaryLess(uint2, uint2)`, /repo/include/math/vector/uint.hpp:557. -/
def lessU2 (a b : V2 W) : Bool := (word64 a).ult (word64 b)
/-- `isBinaryLess(int2, int2)` and `isBinaryLess(float2, float2)`: signed 64-bit comparison,
/repo/include/math/vector/int.hpp:590, float.hpp:586. -/
def lessI2 (a b : V2 W) : Bool := (word64 a).slt (word64 b)
/-- `isBinaryLess` of `uint3`, `int3`, `float3`, /repo/include/math/vector/uint.hpp:695, int.hpp:698,
float.hpp:851. -/
def less3 (a b : V3 W) : Bool := memcmpLt (a.toList.flatMap bytes) (b.toList.flatMap bytes)
/-- `isBinaryLess` of `uint4`, `int4`, `float4`, `u32x4`, `i32x4`, `f32x4`,
/repo/include/math/vector/uint.hpp:838, int.hpp:817, float.hpp:1143, simd/vector/uint.hpp:763,
simd/vector/int.hpp:741, simd/vector/float.hpp:719. -/
def less4 (a b : V4 W) : Bool := memcmpLt (a.toList.flatMap bytes) (b.toList.flatMap bytes)
end Bin

end Verif
