import Verif.Model.IntVec
import Verif.Model.Color
import Verif.Model.Mat

/-!
# Access to the components of the plain vectors, conversions between signed and unsigned vectors, and the three-way
minimum and maximum

`operator[]` asserts its bound and then reads or writes through a pointer to the first member; the members follow each other
in memory. `none` is a failed assertion.
-/

namespace Verif

namespace V2
variable {α : Type}
/-- `v[i]` read. Models /repo/include/math/vector/int.hpp:67-71; /repo/include/math/vector/uint.hpp:70-74;
/repo/include/math/vector/float.hpp:74-78. -/
def index (v : V2 α) (i : ℕ) : Option α := if i ≤ 1 then v.toList[i]? else none
/-- `v[i] = a`. Models /repo/include/math/vector/int.hpp:58-62; /repo/include/math/vector/uint.hpp:61-65;
/repo/include/math/vector/float.hpp:65-69. -/
def setIndex (v : V2 α) (i : ℕ) (a : α) : Option (V2 α) :=
  if i ≤ 1 then (match v.toList.set i a with | [x, y] => some ⟨x, y⟩ | _ => none) else none
/-- The constructor from one value. Models /repo/include/math/vector/int.hpp:40; /repo/include/math/vector/uint.hpp:48;
/repo/include/math/vector/float.hpp:42. -/
def fill (a : α) : V2 α := ⟨a, a⟩
end V2

namespace V3
variable {α : Type}
/-- `v[i]` read. Models /repo/include/math/vector/int.hpp:223-227; /repo/include/math/vector/uint.hpp:208-212;
/repo/include/math/vector/float.hpp:226-230. -/
def index (v : V3 α) (i : ℕ) : Option α := if i ≤ 2 then v.toList[i]? else none
/-- `v[i] = a`. Models /repo/include/math/vector/int.hpp:214-218; /repo/include/math/vector/uint.hpp:199-203;
/repo/include/math/vector/float.hpp:217-221. -/
def setIndex (v : V3 α) (i : ℕ) (a : α) : Option (V3 α) :=
  if i ≤ 2 then (match v.toList.set i a with | [x, y, z] => some ⟨x, y, z⟩ | _ => none) else none
/-- The constructor from one value. Models /repo/include/math/vector/int.hpp:181; /repo/include/math/vector/uint.hpp:171;
/repo/include/math/vector/float.hpp:179. -/
def fill (a : α) : V3 α := ⟨a, a, a⟩
end V3

namespace V4
variable {α : Type}
/-- `v[i]` read. Models /repo/include/math/vector/int.hpp:423-427; /repo/include/math/vector/uint.hpp:383-387;
/repo/include/math/vector/float.hpp:427-431. -/
def index (v : V4 α) (i : ℕ) : Option α := if i ≤ 3 then v.toList[i]? else none
/-- `v[i] = a`. Models /repo/include/math/vector/int.hpp:414-418; /repo/include/math/vector/uint.hpp:374-378;
/repo/include/math/vector/float.hpp:418-422. -/
def setIndex (v : V4 α) (i : ℕ) (a : α) : Option (V4 α) :=
  if i ≤ 3 then (match v.toList.set i a with | [x, y, z, w] => some ⟨x, y, z, w⟩ | _ => none) else none
/-- The constructor from one value. Models /repo/include/math/vector/int.hpp:348; /repo/include/math/vector/uint.hpp:314;
/repo/include/math/vector/float.hpp:346. -/
def fill (a : α) : V4 α := ⟨a, a, a, a⟩
end V4

namespace M4
variable {α : Type}
/-- `m[i]` read of a SIMD matrix. Models /repo/include/math/simd/matrix/float.hpp:113-117. -/
def colAt (m : M4 α) (i : ℕ) : Option (V4 α) := if i ≤ 3 then [m.c0, m.c1, m.c2, m.c3][i]? else none
/-- `m[i] = v` of a SIMD matrix. Models /repo/include/math/simd/matrix/float.hpp:104-108. -/
def setColAt (m : M4 α) (i : ℕ) (v : V4 α) : Option (M4 α) :=
  if i ≤ 3 then (match [m.c0, m.c1, m.c2, m.c3].set i v with | [a, b, c, d] => some ⟨a, b, c, d⟩ | _ => none) else none
end M4

/-- `(int32)u` for an unsigned word: the value modulo 2^32. -/
def signedOf (u : W) : W := BitVec.ofInt 32 u.toNat
/-- `(uint32)n` for a signed word: the value modulo 2^32. -/
def unsignedOf (n : W) : W := BitVec.ofInt 32 n.toInt

namespace Ctor
/-- `int2(uint2)`, /repo/include/math/vector/int.hpp:52. -/
def int2_uint2 (v : V2 W) : V2 W := ⟨signedOf v.x, signedOf v.y⟩
/-- `int3(uint3)`, /repo/include/math/vector/int.hpp:208. -/
def int3_uint3 (v : V3 W) : V3 W := ⟨signedOf v.x, signedOf v.y, signedOf v.z⟩
/-- `int4(uint4)`, /repo/include/math/vector/int.hpp:407-408. -/
def int4_uint4 (v : V4 W) : V4 W := ⟨signedOf v.x, signedOf v.y, signedOf v.z, signedOf v.w⟩
/-- `(uint2)int2`, /repo/include/math/vector/int.hpp:76. -/
def uint2_int2 (v : V2 W) : V2 W := ⟨unsignedOf v.x, unsignedOf v.y⟩
/-- `(uint3)int3`, /repo/include/math/vector/int.hpp:232. -/
def uint3_int3 (v : V3 W) : V3 W := ⟨unsignedOf v.x, unsignedOf v.y, unsignedOf v.z⟩
/-- `(uint2)int3`, /repo/include/math/vector/int.hpp:236. -/
def uint2_int3 (v : V3 W) : V2 W := ⟨unsignedOf v.x, unsignedOf v.y⟩
/-- `(int2)int3`, /repo/include/math/vector/int.hpp:240. -/
def int2_int3 (v : V3 W) : V2 W := ⟨v.x, v.y⟩
/-- `(uint4)int4`, /repo/include/math/vector/int.hpp:432. -/
def uint4_int4 (v : V4 W) : V4 W := ⟨unsignedOf v.x, unsignedOf v.y, unsignedOf v.z, unsignedOf v.w⟩
/-- `(uint3)int4`, /repo/include/math/vector/int.hpp:436. -/
def uint3_int4 (v : V4 W) : V3 W := ⟨unsignedOf v.x, unsignedOf v.y, unsignedOf v.z⟩
/-- `(int3)int4`, /repo/include/math/vector/int.hpp:440. -/
def int3_int4 (v : V4 W) : V3 W := ⟨v.x, v.y, v.z⟩
/-- `(uint2)int4`, /repo/include/math/vector/int.hpp:444. -/
def uint2_int4 (v : V4 W) : V2 W := ⟨unsignedOf v.x, unsignedOf v.y⟩
/-- `(int2)int4`, /repo/include/math/vector/int.hpp:448. -/
def int2_int4 (v : V4 W) : V2 W := ⟨v.x, v.y⟩
/-- `(uint32)v` of a signed vector with first component `x`, /repo/include/math/vector/int.hpp:80, 244, 452. -/
def uint_int (x : W) : W := unsignedOf x
/-- `(int32)v` of a signed vector, `(uint32)v` of an unsigned one, with first component `x`,
/repo/include/math/vector/int.hpp:84, 248, 456; /repo/include/math/vector/uint.hpp:79, 221, 400. -/
def same_int (x : W) : W := x
end Ctor

/-- `min(float, float, float)`, /repo/include/math/common.hpp:38: two nested `std::min`. -/
def minThree {F : Type} [Flt F] (a b c : F) : F := Flt.stdMin (Flt.stdMin a b) c
/-- `max(float, float, float)`, /repo/include/math/common.hpp:46. -/
def maxThree {F : Type} [Flt F] (a b c : F) : F := Flt.stdMax (Flt.stdMax a b) c
/-- `std::min` of signed words: the second if it is smaller, else the first. -/
def stdMinI (a b : W) : W := if b.slt a then b else a
/-- `std::max` of signed words: the second if it is larger, else the first. -/
def stdMaxI (a b : W) : W := if a.slt b then b else a
/-- `min(int32, int32, int32)`, /repo/include/math/common.hpp:54. -/
def minThreeI (a b c : W) : W := stdMinI (stdMinI a b) c
/-- `max(int32, int32, int32)`, /repo/include/math/common.hpp:62. -/
def maxThreeI (a b c : W) : W := stdMaxI (stdMaxI a b) c

end Verif
