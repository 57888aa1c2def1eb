import Verif.Model.FloatOps
import Verif.Model.MatShape

/-!
# Matrix operators with a scalar: all forms

Operators with the scalar on the right, compound assignments, operators with the scalar on the left, and the named
constants. Each works column by column with the vector operator of `Verif.Model.FloatOps`. A compound assignment is
modelled by the new value of the matrix.
-/

namespace Verif.MatOps
variable {F : Type} [Flt F]

/-- `m op n`, /repo/include/math/matrix/float.hpp:82-85. -/
def right2 (op : FOp) (m : M2 F) (n : F) : M2 F := ⟨Float2.binS op m.c0 n, Float2.binS op m.c1 n⟩
/-- `m op n`, /repo/include/math/matrix/float.hpp:197-200. -/
def right3 (op : FOp) (m : M3 F) (n : F) : M3 F :=
  ⟨Float3.binS op m.c0 n, Float3.binS op m.c1 n, Float3.binS op m.c2 n⟩
/-- `m op n`, /repo/include/math/matrix/float.hpp:322-325. -/
def right43 (op : FOp) (m : M43 F) (n : F) : M43 F :=
  ⟨Float3.binS op m.c0 n, Float3.binS op m.c1 n, Float3.binS op m.c2 n, Float3.binS op m.c3 n⟩
/-- `m op n`, /repo/include/math/matrix/float.hpp:457-460. -/
def right4 (op : FOp) (m : M4 F) (n : F) : M4 F :=
  ⟨Float4.binS op m.c0 n, Float4.binS op m.c1 n, Float4.binS op m.c2 n, Float4.binS op m.c3 n⟩

/-- `m op= n`, /repo/include/math/matrix/float.hpp:86-89. -/
def assign2 (op : FOp) (m : M2 F) (n : F) : M2 F := ⟨Float2.asgS op m.c0 n, Float2.asgS op m.c1 n⟩
/-- `m op= n`, /repo/include/math/matrix/float.hpp:201-204. -/
def assign3 (op : FOp) (m : M3 F) (n : F) : M3 F :=
  ⟨Float3.asgS op m.c0 n, Float3.asgS op m.c1 n, Float3.asgS op m.c2 n⟩
/-- `m op= n`, /repo/include/math/matrix/float.hpp:326-329. -/
def assign43 (op : FOp) (m : M43 F) (n : F) : M43 F :=
  ⟨Float3.asgS op m.c0 n, Float3.asgS op m.c1 n, Float3.asgS op m.c2 n, Float3.asgS op m.c3 n⟩
/-- `m op= n`, /repo/include/math/matrix/float.hpp:461-464. -/
def assign4 (op : FOp) (m : M4 F) (n : F) : M4 F :=
  ⟨Float4.asgS op m.c0 n, Float4.asgS op m.c1 n, Float4.asgS op m.c2 n, Float4.asgS op m.c3 n⟩

/-- `n op m`, /repo/include/math/matrix/float.hpp:564-567. -/
def left2 (op : FOp) (n : F) (m : M2 F) : M2 F := ⟨Float2.binL op n m.c0, Float2.binL op n m.c1⟩
/-- `n op m`, /repo/include/math/matrix/float.hpp:559-562. -/
def left3 (op : FOp) (n : F) (m : M3 F) : M3 F :=
  ⟨Float3.binL op n m.c0, Float3.binL op n m.c1, Float3.binL op n m.c2⟩
/-- `n op m`, /repo/include/math/matrix/float.hpp:542-557. -/
def left43 (op : FOp) (n : F) (m : M43 F) : M43 F :=
  ⟨Float3.binL op n m.c0, Float3.binL op n m.c1, Float3.binL op n m.c2, Float3.binL op n m.c3⟩
/-- `n op m`, /repo/include/math/matrix/float.hpp:525-540. -/
def left4 (op : FOp) (n : F) (m : M4 F) : M4 F :=
  ⟨Float4.binL op n m.c0, Float4.binL op n m.c1, Float4.binL op n m.c2, Float4.binL op n m.c3⟩

/-- `m op n` of `f32x4x4`, /repo/include/math/simd/matrix/float.hpp:149-180: the scalar is broadcast first. -/
def rightSimd (k : Isa) (op : FOp) (m : M4 F32) (n : F32) : M4 F32 :=
  let t := V4.splat n
  ⟨F32x4.bin k op m.c0 t, F32x4.bin k op m.c1 t, F32x4.bin k op m.c2 t, F32x4.bin k op m.c3 t⟩
/-- `m op= n` of `f32x4x4`, /repo/include/math/simd/matrix/float.hpp:238-241. -/
def assignSimd (k : Isa) (op : FOp) (m : M4 F32) (n : F32) : M4 F32 := rightSimd k op m n

/-- `a *= b`, /repo/include/math/matrix/float.hpp:115. -/
def mulAssign2 (a b : M2 F) : M2 F := M2.mul a b
/-- `a *= b`, /repo/include/math/matrix/float.hpp:232. -/
def mulAssign3 (a b : M3 F) : M3 F := M3.mul a b
/-- `a *= b`, /repo/include/math/matrix/float.hpp:494. -/
def mulAssign4 (a b : M4 F) : M4 F := M4.mul a b

/-- `float2x2(n)`, the constructor behind `zero`, `one` and `minusOne`, /repo/include/math/matrix/float.hpp:45, 134-136. -/
def fill2 {F : Type} (n : F) : M2 F := ⟨V2.splat n, V2.splat n⟩
/-- `float3x3(n)`, /repo/include/math/matrix/float.hpp:152, 252-254. -/
def fill3 {F : Type} (n : F) : M3 F := ⟨V3.splat n, V3.splat n, V3.splat n⟩
/-- `float4x3(n)`, /repo/include/math/matrix/float.hpp:271, 361-363. -/
def fill43 {F : Type} (n : F) : M43 F := ⟨V3.splat n, V3.splat n, V3.splat n, V3.splat n⟩
/-- `float4x4(n)` and `f32x4x4(n)`, /repo/include/math/matrix/float.hpp:380, 520-522 and
/repo/include/math/simd/matrix/float.hpp:43, 256-266. -/
def fill4 {F : Type} (n : F) : M4 F := ⟨V4.splat n, V4.splat n, V4.splat n, V4.splat n⟩

end Verif.MatOps
