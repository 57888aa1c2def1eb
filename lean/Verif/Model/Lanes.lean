import Verif.Model.IntVec

/-!
# Memory access, lanes, bit casts and constants of the SIMD vectors

`f32x4`, `i32x4` and `u32x4` have the same members; one definition stands for the three, with the lines of each. A pointer is
the list of the values from that address to the end of the memory the caller owns; `none` means that the access leaves it.
The alignment that `loadAligned` and `storeAligned` demand is not modelled. The header relies on a `union` whose members `data`,
`floats`, `ints` and `uints` name the same sixteen bytes.
-/

namespace Verif

namespace Lanes
variable {α : Type}

/-- `f32x4(x, y, z, w)`: `_mm_set_ps` takes its arguments from the last lane to the first, NEON and the plain type from the first.
/repo/include/math/simd/vector/float.hpp:88-97, int.hpp:79-88, uint.hpp:85-94. -/
def make4 (k : Backend) (x y z w : α) : V4 α :=
  let mmSet (e3 e2 e1 e0 : α) : V4 α := ⟨e0, e1, e2, e3⟩
  match k with
  | .sse2 | .sse41 => mmSet w z y x
  | .neon | .scalar => ⟨x, y, z, w⟩

/-- `f32x4(x, y, z)`, /repo/include/math/simd/vector/float.hpp:106-115, int.hpp:97-106, uint.hpp:103-112. -/
def make3 (k : Backend) (x y z : α) : V4 α :=
  let mmSet (e3 e2 e1 e0 : α) : V4 α := ⟨e0, e1, e2, e3⟩
  match k with
  | .sse2 | .sse41 => mmSet z z y x
  | .neon | .scalar => ⟨x, y, z, z⟩

/-- `f32x4(float4)`, /repo/include/math/simd/vector/float.hpp:176-185, int.hpp:153-162, uint.hpp:144-153. -/
def of4 (k : Backend) (v : V4 α) : V4 α := make4 k v.x v.y v.z v.w
/-- `f32x4(float3)`, /repo/include/math/simd/vector/float.hpp:190-199, int.hpp:167-176, uint.hpp:158-167. -/
def of3 (k : Backend) (v : V3 α) : V4 α := make4 k v.x v.y v.z v.z
/-- `f32x4(float2)`, /repo/include/math/simd/vector/float.hpp:204-213, int.hpp:181-190, uint.hpp:172-181. -/
def of2 (k : Backend) (v : V2 α) : V4 α := make4 k v.x v.y v.y v.y

/-- `f32x4(f32x4 xyz, float w)`: a blend with the bit mask 8, a rebuild, or a change of lane 3.
/repo/include/math/simd/vector/float.hpp:122-133, int.hpp:113-124, uint.hpp:119-130. The integer types blend with AVX2 only. -/
def withLast (k : Backend) (v : V4 α) (w : α) : V4 α :=
  let blend (m : BitVec 4) (a b : V4 α) : V4 α :=
    ⟨if m[0] then b.x else a.x, if m[1] then b.y else a.y, if m[2] then b.z else a.z, if m[3] then b.w else a.w⟩
  match k with
  | .sse41 => blend 8#4 v (V4.splat w)
  | .sse2 => make4 .sse2 v.x v.y v.z w
  | .neon | .scalar => { v with w := w }

/-- The first four values at a pointer. -/
def four : List α → Option (V4 α)
  | a :: b :: c :: d :: _ => some ⟨a, b, c, d⟩
  | _ => none

/-- `f32x4(const float*)`: without SIMD the assignment `floats = *v` copies the first value to all lanes.
/repo/include/math/simd/vector/float.hpp:218-227, int.hpp:195-204, uint.hpp:186-195. -/
def load (k : Backend) (m : List α) : Option (V4 α) :=
  match k with
  | .sse2 | .sse41 | .neon => four m
  | .scalar => m.head?.map V4.splat

/-- `loadAligned`, /repo/include/math/simd/vector/float.hpp:234-243, int.hpp:211-220, uint.hpp:202-211. -/
def loadAligned (_ : Backend) (m : List α) : Option (V4 α) := four m

/-- `store` and `storeAligned`: the memory after the call.
/repo/include/math/simd/vector/float.hpp:249-273, int.hpp:226-250, uint.hpp:217-241. -/
def store (_ : Backend) (v : V4 α) : List α → Option (List α)
  | _ :: _ :: _ :: _ :: rest => some (v.x :: v.y :: v.z :: v.w :: rest)
  | _ => none

/-- `getX`, /repo/include/math/simd/vector/float.hpp:278-287, int.hpp:255-264, uint.hpp:246-255. -/
def getX (v : V4 α) : α := v.x
/-- `getY`, /repo/include/math/simd/vector/float.hpp:291-298, int.hpp:268-275, uint.hpp:259-266. -/
def getY (v : V4 α) : α := v.y
/-- `getZ`, /repo/include/math/simd/vector/float.hpp:302-309, int.hpp:279-286, uint.hpp:270-277. -/
def getZ (v : V4 α) : α := v.z
/-- `getW`, /repo/include/math/simd/vector/float.hpp:313-320, int.hpp:290-297, uint.hpp:281-288. -/
def getW (v : V4 α) : α := v.w
/-- `setX`, /repo/include/math/simd/vector/float.hpp:326, int.hpp:303, uint.hpp:294. -/
def setX (v : V4 α) (n : α) : V4 α := { v with x := n }
/-- `setY`, /repo/include/math/simd/vector/float.hpp:331, int.hpp:308, uint.hpp:299. -/
def setY (v : V4 α) (n : α) : V4 α := { v with y := n }
/-- `setZ`, /repo/include/math/simd/vector/float.hpp:336, int.hpp:313, uint.hpp:304. -/
def setZ (v : V4 α) (n : α) : V4 α := { v with z := n }
/-- `setW`, /repo/include/math/simd/vector/float.hpp:341, int.hpp:318, uint.hpp:309. -/
def setW (v : V4 α) (n : α) : V4 α := { v with w := n }
/-- `fixW`, /repo/include/math/simd/vector/float.hpp:347, int.hpp:324, uint.hpp:315. -/
def fixW (v : V4 α) : V4 α := setW v (getZ v)

/-- `_MM_SHUFFLE`: two bits for each lane of the result. -/
def mmShuffle (w z y x : Fin 4) : BitVec 8 :=
  (BitVec.ofNat 8 w.val <<< 6) ||| (BitVec.ofNat 8 z.val <<< 4) ||| (BitVec.ofNat 8 y.val <<< 2) ||| BitVec.ofNat 8 x.val

/-- `_mm_shuffle_ps(a, a, m)` and `_mm_shuffle_epi32(a, m)`. -/
def shufflePs (a : V4 α) (m : BitVec 8) : V4 α :=
  let lane (s : Nat) : α := a.get ⟨(m.toNat >>> s) % 4, Nat.mod_lt _ (by omega)⟩
  ⟨lane 0, lane 2, lane 4, lane 6⟩

/-- `swizzle<X, Y, Z, W>`, /repo/include/math/simd/vector/float.hpp:357-372, int.hpp:334-349, uint.hpp:325-340. -/
def swizzle (k : Backend) (v : V4 α) (x y z w : Fin 4) : V4 α :=
  match k with
  | .sse2 | .sse41 => shufflePs v (mmShuffle w z y x)
  | .neon | .scalar => ⟨v.get x, v.get y, v.get z, v.get w⟩

/-- `splatX`, /repo/include/math/simd/vector/float.hpp:374, int.hpp:351, uint.hpp:342. -/
def splatX (k : Backend) (v : V4 α) : V4 α := swizzle k v 0 0 0 0
/-- `splatY`, /repo/include/math/simd/vector/float.hpp:375, int.hpp:352, uint.hpp:343. -/
def splatY (k : Backend) (v : V4 α) : V4 α := swizzle k v 1 1 1 1
/-- `splatZ`, /repo/include/math/simd/vector/float.hpp:376, int.hpp:353, uint.hpp:344. -/
def splatZ (k : Backend) (v : V4 α) : V4 α := swizzle k v 2 2 2 2
/-- `splatW`, /repo/include/math/simd/vector/float.hpp:377, int.hpp:354, uint.hpp:345. -/
def splatW (k : Backend) (v : V4 α) : V4 α := swizzle k v 3 3 3 3

/-- `(float3)v`, /repo/include/math/simd/vector/float.hpp:424, int.hpp:388, uint.hpp:365; `(float4)v` copies the union,
/repo/include/math/simd/vector/float.hpp:420, int.hpp:384, uint.hpp:361. -/
def to3 (v : V4 α) : V3 α := ⟨v.x, v.y, v.z⟩
/-- `(float2)v`, /repo/include/math/simd/vector/float.hpp:428, int.hpp:392, uint.hpp:369. -/
def to2 (v : V4 α) : V2 α := ⟨v.x, v.y⟩
/-- `(float)v`, /repo/include/math/simd/vector/float.hpp:432, int.hpp:396, uint.hpp:373. -/
def to1 (v : V4 α) : α := getX v

/-- `uintAsFloat` and `intAsFloat`, /repo/include/math/simd/vector/float.hpp:629-652. -/
def bitsAsFloat (v : V4 W) : V4 F32 := v.map fun n => ⟨n⟩
/-- `floatAsUint` and `floatAsInt`, /repo/include/math/simd/vector/float.hpp:657-680. -/
def floatAsBits (v : V4 F32) : V4 W := v.map fun x => x.bits
/-- `i32x4(u32x4)`, `(u32x4)` of an `i32x4` and `uintAsInt`: the lanes are taken as they are.
/repo/include/math/simd/vector/int.hpp:138-147, 370-379, 674-683. -/
def asInt (v : V4 W) : V4 W := v

/-- `select(u32x4, i32x4, i32x4)` and `select(u32x4, u32x4, u32x4)`: SSE4.1 blends by the top bit, SSE and NEON spread it over the
word. /repo/include/math/simd/vector/int.hpp:750-764, uint.hpp:772-787. The plain branch of the signed version does not compile
(`c.ints` is not an unsigned vector); it is given the meaning of the unsigned one. -/
def selectW (k : Backend) (c t f : V4 W) : V4 W :=
  let blend (c t f : W) : W := if c.msb then t else f
  let bits (c t f : W) : W := (c.sshiftRight 31 &&& t) ||| (~~~(c.sshiftRight 31) &&& f)
  match k with
  | .sse41 => ⟨blend c.x t.x f.x, blend c.y t.y f.y, blend c.z t.z f.z, blend c.w t.w f.w⟩
  | .sse2 | .neon => ⟨bits c.x t.x f.x, bits c.y t.y f.y, bits c.z t.z f.z, bits c.w t.w f.w⟩
  | .scalar => V4.select c t f

end Lanes

/-! ## Constants -/

namespace Consts

/-- `FLT_MIN`, the argument of `min` at /repo/include/math/vector/float.hpp:152, 316, 532, simd/vector/float.hpp:584. -/
def fltMin : F32 := ⟨0x00800000⟩
/-- `-FLT_MIN`, `minusMin`: /repo/include/math/vector/float.hpp:153, 317, 533, simd/vector/float.hpp:585. -/
def minusMin : F32 := F32.fneg fltMin
/-- `FLT_MAX`, `max`: /repo/include/math/vector/float.hpp:154, 318, 534, simd/vector/float.hpp:586. -/
def fltMax : F32 := ⟨0x7F7FFFFF⟩
/-- `-FLT_MAX`, `minusMax`: /repo/include/math/vector/float.hpp:155, 319, 535, simd/vector/float.hpp:587. -/
def minusMax : F32 := F32.fneg fltMax
/-- `FLT_EPSILON`, `epsilon`: /repo/include/math/vector/float.hpp:156, 320, 536, simd/vector/float.hpp:588. -/
def epsilon : F32 := ⟨0x34000000⟩
/-- `INFINITY`, `inf`: /repo/include/math/vector/float.hpp:157, 321, 537, simd/vector/float.hpp:589. -/
def inf : F32 := ⟨0x7F800000⟩
/-- `-INFINITY`, `minusInf`: /repo/include/math/vector/float.hpp:158, 322, 538, simd/vector/float.hpp:590. -/
def minusInf : F32 := F32.fneg inf
/-- `NAN`, `nan`: /repo/include/math/vector/float.hpp:159, 323, 539, simd/vector/float.hpp:591. -/
def nan : F32 := ⟨0x7FC00000⟩
/-- The argument of `zero`: /repo/include/math/vector/float.hpp:149, 313, 529, simd/vector/float.hpp:581. -/
def zero : F32 := F32.ofRat 0
/-- The argument of `one`: /repo/include/math/vector/float.hpp:150, 314, 530, simd/vector/float.hpp:582. -/
def one : F32 := F32.ofRat 1
/-- The argument of `minusOne`: /repo/include/math/vector/float.hpp:151, 315, 531, simd/vector/float.hpp:583. -/
def minusOne : F32 := F32.ofRat (-1)

/-- `INT32_MIN`, `i32x4::min`, /repo/include/math/simd/vector/int.hpp:642. -/
def intMin : W := 0x80000000#32
/-- `INT32_MAX`, `i32x4::max`, /repo/include/math/simd/vector/int.hpp:643. -/
def intMax : W := 0x7FFFFFFF#32
/-- `UINT32_MAX`, `u32x4::max`, /repo/include/math/simd/vector/uint.hpp:608. -/
def uintMax : W := 0xFFFFFFFF#32

end Consts
end Verif
