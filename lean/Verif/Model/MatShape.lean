import Verif.Model.Mat

/-!
# Matrix shapes and element-wise operators

The conversions between matrix types that `Model.Mat` does not need, column access with its assertion, and the
operators taking a scalar. Models /repo/include/math/matrix/float.hpp and
/repo/include/math/simd/matrix/float.hpp.
-/

namespace Verif

namespace M43
variable {F : Type} [Flt F]
/-- Constructor from a row-by-row list of elements, /repo/include/math/matrix/float.hpp:276-283. -/
@[vec] def ofRows {F : Type} (c0r0 c1r0 c2r0 c3r0 c0r1 c1r1 c2r1 c3r1 c0r2 c1r2 c2r2 c3r2 : F) : M43 F :=
  ⟨⟨c0r0, c0r1, c0r2⟩, ⟨c1r0, c1r1, c1r2⟩, ⟨c2r0, c2r1, c2r2⟩, ⟨c3r0, c3r1, c3r2⟩⟩
/-- `(float3x3)m`, /repo/include/math/matrix/float.hpp:301. -/
@[vec] def to3 {F : Type} (m : M43 F) : M3 F := ⟨m.c0, m.c1, m.c2⟩
/-- `(float2x2)m`, /repo/include/math/matrix/float.hpp:297. -/
@[vec] def to2 {F : Type} (m : M43 F) : M2 F := ⟨⟨m.c0.x, m.c0.y⟩, ⟨m.c1.x, m.c1.y⟩⟩
/-- `identity`, /repo/include/math/matrix/float.hpp:357-360. -/
@[vec] def identity : M43 F :=
  ofRows (Flt.lit 1) (Flt.lit 0) (Flt.lit 0) (Flt.lit 0) (Flt.lit 0) (Flt.lit 1) (Flt.lit 0) (Flt.lit 0)
    (Flt.lit 0) (Flt.lit 0) (Flt.lit 1) (Flt.lit 0)
/-- `m + n`, `m - n`, `m * n`, `m / n`: the operator `op` on every element,
/repo/include/math/matrix/float.hpp:322-325 (the compound forms 326-329 store the same values). -/
@[vec] def scalarOp {F : Type} (op : F → F → F) (m : M43 F) (n : F) : M43 F :=
  ⟨V3.map (fun x => op x n) m.c0, V3.map (fun x => op x n) m.c1, V3.map (fun x => op x n) m.c2,
   V3.map (fun x => op x n) m.c3⟩
end M43

namespace M2
/-- `m + n`, `m - n`, `m * n`, `m / n`, /repo/include/math/matrix/float.hpp:82-85. -/
@[vec] def scalarOp {F : Type} (op : F → F → F) (m : M2 F) (n : F) : M2 F :=
  ⟨V2.map (fun x => op x n) m.c0, V2.map (fun x => op x n) m.c1⟩
/-- `operator[]` with its assertion `i <= 1` (`none` is a failed assertion),
/repo/include/math/matrix/float.hpp:67-80. -/
def get {F : Type} (m : M2 F) (i : Nat) : Option (V2 F) := if i ≤ 1 then [m.c0, m.c1][i]? else none
end M2

namespace M3
/-- `m + n`, `m - n`, `m * n`, `m / n`, /repo/include/math/matrix/float.hpp:197-200. -/
@[vec] def scalarOp {F : Type} (op : F → F → F) (m : M3 F) (n : F) : M3 F :=
  ⟨V3.map (fun x => op x n) m.c0, V3.map (fun x => op x n) m.c1, V3.map (fun x => op x n) m.c2⟩
/-- `operator[]` with its assertion `i <= 2`, /repo/include/math/matrix/float.hpp:182-195. -/
def get {F : Type} (m : M3 F) (i : Nat) : Option (V3 F) := if i ≤ 2 then [m.c0, m.c1, m.c2][i]? else none
end M3

namespace M4
/-- `(float2x2)m`, /repo/include/math/matrix/float.hpp:436, simd/matrix/float.hpp:143. -/
@[vec] def to2 {F : Type} (m : M4 F) : M2 F := ⟨⟨m.c0.x, m.c0.y⟩, ⟨m.c1.x, m.c1.y⟩⟩
/-- `f32x4x4(c0, c1, c2)`: the fourth column repeats the third,
/repo/include/math/simd/matrix/float.hpp:66-74. -/
@[vec] def ofCols3 {F : Type} (c0 c1 c2 : V4 F) : M4 F := ⟨c0, c1, c2, c2⟩
/-- `m + n`, `m - n`, `m * n`, `m / n`, /repo/include/math/matrix/float.hpp:457-460 and
/repo/include/math/simd/matrix/float.hpp:149-180 (where the scalar is first broadcast to a vector). -/
@[vec] def scalarOp {F : Type} (op : F → F → F) (m : M4 F) (n : F) : M4 F :=
  ⟨V4.map2 op m.c0 (V4.splat n), V4.map2 op m.c1 (V4.splat n), V4.map2 op m.c2 (V4.splat n),
   V4.map2 op m.c3 (V4.splat n)⟩
/-- `operator[]` with its assertion `i <= 3`, /repo/include/math/matrix/float.hpp:442-455, simd 104-117. -/
def get {F : Type} (m : M4 F) (i : Nat) : Option (V4 F) := if i ≤ 3 then [m.c0, m.c1, m.c2, m.c3][i]? else none
end M4

end Verif
