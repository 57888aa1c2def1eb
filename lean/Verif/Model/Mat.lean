import Verif.Model.Vec

/-!
# Matrices

Column-major matrices. Models /repo/include/math/matrix/float.hpp (`float2x2`, `float3x3`, `float4x3`,
`float4x4`) and /repo/include/math/simd/matrix/float.hpp (`f32x4x4`, namespace `Simd`). `M4` serves for
both `float4x4` and `f32x4x4` (the conversions between them are reinterpretations of the same sixteen floats,
/repo/include/math/simd/matrix/float.hpp:80, 122-125).
-/

namespace Verif

/-- `float2x2`. Models /repo/include/math/matrix/float.hpp:36-39. -/
structure M2 (F : Type) where
  c0 : V2 F
  c1 : V2 F
deriving DecidableEq, Repr

/-- `float3x3`. Models /repo/include/math/matrix/float.hpp:142-146. -/
structure M3 (F : Type) where
  c0 : V3 F
  c1 : V3 F
  c2 : V3 F
deriving DecidableEq, Repr

/-- `float4x3`: four columns of three. Models /repo/include/math/matrix/float.hpp:260-265. -/
structure M43 (F : Type) where
  c0 : V3 F
  c1 : V3 F
  c2 : V3 F
  c3 : V3 F
deriving DecidableEq, Repr

/-- `float4x4` / `f32x4x4`. Models /repo/include/math/matrix/float.hpp:369-374 and
/repo/include/math/simd/matrix/float.hpp:31-33. -/
structure M4 (F : Type) where
  c0 : V4 F
  c1 : V4 F
  c2 : V4 F
  c3 : V4 F
deriving DecidableEq, Repr

namespace M2
variable {F : Type} [Flt F]
/-- Constructor from a row-by-row list of elements, /repo/include/math/matrix/float.hpp:50-54. -/
@[vec] def ofRows {F : Type} (c0r0 c1r0 c0r1 c1r1 : F) : M2 F := ⟨⟨c0r0, c0r1⟩, ⟨c1r0, c1r1⟩⟩
/-- `identity`, /repo/include/math/matrix/float.hpp:131-133. -/
@[vec] def identity : M2 F := ofRows (Flt.lit 1) (Flt.lit 0) (Flt.lit 0) (Flt.lit 1)
/-- `a * b`, /repo/include/math/matrix/float.hpp:95-100. -/
@[vec] def mul (a b : M2 F) : M2 F :=
  ⟨V2.add (V2.smul a.c0 b.c0.x) (V2.smul a.c1 b.c0.y), V2.add (V2.smul a.c0 b.c1.x) (V2.smul a.c1 b.c1.y)⟩
/-- `m * v`, /repo/include/math/matrix/float.hpp:105-110. -/
@[vec] def mulV (m : M2 F) (v : V2 F) : V2 F :=
  ⟨m.c0.x *. v.x +. m.c1.x *. v.y, m.c0.y *. v.x +. m.c1.y *. v.y⟩
/-- `v * m`, /repo/include/math/matrix/float.hpp:575-580. -/
@[vec] def vMul (v : V2 F) (m : M2 F) : V2 F :=
  ⟨m.c0.x *. v.x +. m.c1.x *. v.x, m.c0.y *. v.y +. m.c1.y *. v.y⟩
/-- `transpose`, /repo/include/math/matrix/float.hpp:613-618. -/
@[vec] def transpose {F : Type} (m : M2 F) : M2 F := ofRows m.c0.x m.c0.y m.c1.x m.c1.y
/-- `inverse`, /repo/include/math/matrix/float.hpp:647-652. -/
@[vec] def inverse (m : M2 F) : M2 F :=
  let d := Flt.lit 1 /. (m.c0.x *. m.c1.y -. m.c1.x *. m.c0.y)
  ofRows (m.c1.y *. d) ((-. m.c0.y) *. d) ((-. m.c1.x) *. d) (m.c0.x *. d)
end M2

namespace M3
variable {F : Type} [Flt F]
/-- Constructor from a row-by-row list of elements, /repo/include/math/matrix/float.hpp:157-163. -/
@[vec] def ofRows {F : Type} (c0r0 c1r0 c2r0 c0r1 c1r1 c2r1 c0r2 c1r2 c2r2 : F) : M3 F :=
  ⟨⟨c0r0, c0r1, c0r2⟩, ⟨c1r0, c1r1, c1r2⟩, ⟨c2r0, c2r1, c2r2⟩⟩
/-- `identity`, /repo/include/math/matrix/float.hpp:248-251. -/
@[vec] def identity : M3 F :=
  ofRows (Flt.lit 1) (Flt.lit 0) (Flt.lit 0) (Flt.lit 0) (Flt.lit 1) (Flt.lit 0) (Flt.lit 0) (Flt.lit 0) (Flt.lit 1)
/-- A column of the product, the repeated expression of /repo/include/math/matrix/float.hpp:213-215. -/
@[vec] def col (a : M3 F) (v : V3 F) : V3 F :=
  V3.add (V3.add (V3.smul a.c0 v.x) (V3.smul a.c1 v.y)) (V3.smul a.c2 v.z)
/-- `a * b`, /repo/include/math/matrix/float.hpp:210-216. -/
@[vec] def mul (a b : M3 F) : M3 F := ⟨col a b.c0, col a b.c1, col a b.c2⟩
/-- `m * v`, /repo/include/math/matrix/float.hpp:221-227. -/
@[vec] def mulV (m : M3 F) (v : V3 F) : V3 F :=
  ⟨m.c0.x *. v.x +. m.c1.x *. v.y +. m.c2.x *. v.z,
   m.c0.y *. v.x +. m.c1.y *. v.y +. m.c2.y *. v.z,
   m.c0.z *. v.x +. m.c1.z *. v.y +. m.c2.z *. v.z⟩
/-- `v * m`, /repo/include/math/matrix/float.hpp:587-593. -/
@[vec] def vMul (v : V3 F) (m : M3 F) : V3 F :=
  ⟨m.c0.x *. v.x +. m.c1.x *. v.x +. m.c2.x *. v.x,
   m.c0.y *. v.y +. m.c1.y *. v.y +. m.c2.y *. v.y,
   m.c0.z *. v.z +. m.c1.z *. v.z +. m.c2.z *. v.z⟩
/-- `transpose`, /repo/include/math/matrix/float.hpp:623-629. -/
@[vec] def transpose {F : Type} (m : M3 F) : M3 F :=
  ofRows m.c0.x m.c0.y m.c0.z m.c1.x m.c1.y m.c1.z m.c2.x m.c2.y m.c2.z
/-- `inverse`, /repo/include/math/matrix/float.hpp:657-673. -/
@[vec] def inverse (m : M3 F) : M3 F :=
  let d := Flt.lit 1 /.
    (m.c0.x *. (m.c1.y *. m.c2.z -. m.c2.y *. m.c1.z) -. m.c1.x *. (m.c0.y *. m.c2.z -. m.c2.y *. m.c0.z) +.
     m.c2.x *. (m.c0.y *. m.c1.z -. m.c1.y *. m.c0.z))
  ofRows
    ((m.c1.y *. m.c2.z -. m.c2.y *. m.c1.z) *. d)
    ((-. (m.c0.y *. m.c2.z -. m.c2.y *. m.c0.z)) *. d)
    ((m.c0.y *. m.c2.z -. m.c1.y *. m.c0.z) *. d)
    ((-. (m.c1.x *. m.c2.z -. m.c2.x *. m.c1.z)) *. d)
    ((m.c0.x *. m.c2.z -. m.c2.x *. m.c0.z) *. d)
    ((-. (m.c0.x *. m.c2.z -. m.c1.x *. m.c0.z)) *. d)
    ((m.c1.x *. m.c2.y -. m.c2.x *. m.c1.y) *. d)
    ((-. (m.c0.x *. m.c2.y -. m.c2.x *. m.c0.y)) *. d)
    ((m.c0.x *. m.c2.y -. m.c1.x *. m.c0.y) *. d)
/-- `(float2x2)m`, /repo/include/math/matrix/float.hpp:176. -/
@[vec] def to2 {F : Type} (m : M3 F) : M2 F := ⟨⟨m.c0.x, m.c0.y⟩, ⟨m.c1.x, m.c1.y⟩⟩
end M3

namespace M43
variable {F : Type} [Flt F]
/-- `m * v`, /repo/include/math/matrix/float.hpp:335-341. -/
@[vec] def mulV (m : M43 F) (v : V4 F) : V3 F :=
  ⟨m.c0.x *. v.x +. m.c1.x *. v.y +. m.c2.x *. v.z +. m.c3.x *. v.w,
   m.c0.y *. v.x +. m.c1.y *. v.y +. m.c2.y *. v.z +. m.c3.y *. v.w,
   m.c0.z *. v.x +. m.c1.z *. v.y +. m.c2.z *. v.z +. m.c3.z *. v.w⟩
/-- `operator[]` with its assertion `i <= 2` (`none` is a failed assertion),
/repo/include/math/matrix/float.hpp:307-320. -/
def get {F : Type} (m : M43 F) (i : Nat) : Option (V3 F) :=
  if i ≤ 2 then [m.c0, m.c1, m.c2, m.c3][i]? else none
end M43

namespace M4
variable {F : Type} [Flt F]
/-- Constructor from a row-by-row list of elements, /repo/include/math/matrix/float.hpp:395-403 and
/repo/include/math/simd/matrix/float.hpp:48-56. -/
@[vec] def ofRows {F : Type} (c0r0 c1r0 c2r0 c3r0 c0r1 c1r1 c2r1 c3r1 c0r2 c1r2 c2r2 c3r2 c0r3 c1r3 c2r3 c3r3 : F) :
    M4 F :=
  ⟨⟨c0r0, c0r1, c0r2, c0r3⟩, ⟨c1r0, c1r1, c1r2, c1r3⟩, ⟨c2r0, c2r1, c2r2, c2r3⟩, ⟨c3r0, c3r1, c3r2, c3r3⟩⟩
/-- `identity`, /repo/include/math/matrix/float.hpp:515-519, simd/matrix/float.hpp:267-272. -/
@[vec] def identity : M4 F :=
  ⟨⟨Flt.lit 1, Flt.lit 0, Flt.lit 0, Flt.lit 0⟩, ⟨Flt.lit 0, Flt.lit 1, Flt.lit 0, Flt.lit 0⟩,
   ⟨Flt.lit 0, Flt.lit 0, Flt.lit 1, Flt.lit 0⟩, ⟨Flt.lit 0, Flt.lit 0, Flt.lit 0, Flt.lit 1⟩⟩
/-- A column of the product, the repeated expression of /repo/include/math/matrix/float.hpp:473-476. -/
@[vec] def col (a : M4 F) (v : V4 F) : V4 F :=
  V4.add (V4.add (V4.add (V4.smul a.c0 v.x) (V4.smul a.c1 v.y)) (V4.smul a.c2 v.z)) (V4.smul a.c3 v.w)
/-- `a * b`, /repo/include/math/matrix/float.hpp:470-477. -/
@[vec] def mul (a b : M4 F) : M4 F := ⟨col a b.c0, col a b.c1, col a b.c2, col a b.c3⟩
/-- `m * v`, /repo/include/math/matrix/float.hpp:482-489. -/
@[vec] def mulV (m : M4 F) (v : V4 F) : V4 F :=
  ⟨m.c0.x *. v.x +. m.c1.x *. v.y +. m.c2.x *. v.z +. m.c3.x *. v.w,
   m.c0.y *. v.x +. m.c1.y *. v.y +. m.c2.y *. v.z +. m.c3.y *. v.w,
   m.c0.z *. v.x +. m.c1.z *. v.y +. m.c2.z *. v.z +. m.c3.z *. v.w,
   m.c0.w *. v.x +. m.c1.w *. v.y +. m.c2.w *. v.z +. m.c3.w *. v.w⟩
/-- `v * m`, /repo/include/math/matrix/float.hpp:600-607. -/
@[vec] def vMul (v : V4 F) (m : M4 F) : V4 F :=
  ⟨m.c0.x *. v.x +. m.c1.x *. v.x +. m.c2.x *. v.x +. m.c3.x *. v.x,
   m.c0.y *. v.y +. m.c1.y *. v.y +. m.c2.y *. v.y +. m.c3.y *. v.y,
   m.c0.z *. v.z +. m.c1.z *. v.z +. m.c2.z *. v.z +. m.c3.z *. v.z,
   m.c0.w *. v.w +. m.c1.w *. v.w +. m.c2.w *. v.w +. m.c3.w *. v.w⟩
/-- `m * n`, /repo/include/math/matrix/float.hpp:459. -/
@[vec] def smul (m : M4 F) (n : F) : M4 F := ⟨V4.smul m.c0 n, V4.smul m.c1 n, V4.smul m.c2 n, V4.smul m.c3 n⟩
/-- `transpose`, /repo/include/math/matrix/float.hpp:634-641. -/
@[vec] def transpose {F : Type} (m : M4 F) : M4 F :=
  ofRows m.c0.x m.c0.y m.c0.z m.c0.w m.c1.x m.c1.y m.c1.z m.c1.w
    m.c2.x m.c2.y m.c2.z m.c2.w m.c3.x m.c3.y m.c3.z m.c3.w
/-- The cofactor matrix `i` inside `inverse`, /repo/include/math/matrix/float.hpp:680-718. -/
@[vec] def cofactors (m : M4 F) : M4 F :=
  let c00 := m.c2.z *. m.c3.w -. m.c3.z *. m.c2.w
  let c02 := m.c1.z *. m.c3.w -. m.c3.z *. m.c1.w
  let c03 := m.c1.z *. m.c2.w -. m.c2.z *. m.c1.w
  let c04 := m.c2.y *. m.c3.w -. m.c3.y *. m.c2.w
  let c06 := m.c1.y *. m.c3.w -. m.c3.y *. m.c1.w
  let c07 := m.c1.y *. m.c2.w -. m.c2.y *. m.c1.w
  let c08 := m.c2.y *. m.c3.z -. m.c3.y *. m.c2.z
  let c10 := m.c1.y *. m.c3.z -. m.c3.y *. m.c1.z
  let c11 := m.c1.y *. m.c2.z -. m.c2.y *. m.c1.z
  let c12 := m.c2.x *. m.c3.w -. m.c3.x *. m.c2.w
  let c14 := m.c1.x *. m.c3.w -. m.c3.x *. m.c1.w
  let c15 := m.c1.x *. m.c2.w -. m.c2.x *. m.c1.w
  let c16 := m.c2.x *. m.c3.z -. m.c3.x *. m.c2.z
  let c18 := m.c1.x *. m.c3.z -. m.c3.x *. m.c1.z
  let c19 := m.c1.x *. m.c2.z -. m.c2.x *. m.c1.z
  let c20 := m.c2.x *. m.c3.y -. m.c3.x *. m.c2.y
  let c22 := m.c1.x *. m.c3.y -. m.c3.x *. m.c1.y
  let c23 := m.c1.x *. m.c2.y -. m.c2.x *. m.c1.y
  let f0 : V4 F := ⟨c00, c00, c02, c03⟩
  let f1 : V4 F := ⟨c04, c04, c06, c07⟩
  let f2 : V4 F := ⟨c08, c08, c10, c11⟩
  let f3 : V4 F := ⟨c12, c12, c14, c15⟩
  let f4 : V4 F := ⟨c16, c16, c18, c19⟩
  let f5 : V4 F := ⟨c20, c20, c22, c23⟩
  let v0 : V4 F := ⟨m.c1.x, m.c0.x, m.c0.x, m.c0.x⟩
  let v1 : V4 F := ⟨m.c1.y, m.c0.y, m.c0.y, m.c0.y⟩
  let v2 : V4 F := ⟨m.c1.z, m.c0.z, m.c0.z, m.c0.z⟩
  let v3 : V4 F := ⟨m.c1.w, m.c0.w, m.c0.w, m.c0.w⟩
  let i0 := V4.add (V4.sub (V4.mul v1 f0) (V4.mul v2 f1)) (V4.mul v3 f2)
  let i1 := V4.add (V4.sub (V4.mul v0 f0) (V4.mul v2 f3)) (V4.mul v3 f4)
  let i2 := V4.add (V4.sub (V4.mul v0 f1) (V4.mul v1 f3)) (V4.mul v3 f5)
  let i3 := V4.add (V4.sub (V4.mul v0 f2) (V4.mul v1 f4)) (V4.mul v2 f5)
  let sA : V4 F := ⟨Flt.lit 1, Flt.lit (-1), Flt.lit 1, Flt.lit (-1)⟩
  let sB : V4 F := ⟨Flt.lit (-1), Flt.lit 1, Flt.lit (-1), Flt.lit 1⟩
  ⟨V4.mul i0 sA, V4.mul i1 sB, V4.mul i2 sA, V4.mul i3 sB⟩
/-- The determinant `d1` inside `inverse`, /repo/include/math/matrix/float.hpp:719-721. -/
@[vec] def detOf (m i : M4 F) : F :=
  let d0 := V4.mul m.c0 ⟨i.c0.x, i.c1.x, i.c2.x, i.c3.x⟩
  (d0.x +. d0.y) +. (d0.z +. d0.w)
/-- `inverse`, /repo/include/math/matrix/float.hpp:678-723. -/
@[vec] def inverse (m : M4 F) : M4 F := smul (cofactors m) (Flt.lit 1 /. detOf m (cofactors m))
/-- `(float3x3)m`, /repo/include/math/matrix/float.hpp:432, simd/matrix/float.hpp:136-139. -/
@[vec] def to3 {F : Type} (m : M4 F) : M3 F := ⟨m.c0.xyz, m.c1.xyz, m.c2.xyz⟩
/-- `(float4x3)m`, /repo/include/math/matrix/float.hpp:425-428, simd/matrix/float.hpp:129-132. -/
@[vec] def to43 {F : Type} (m : M4 F) : M43 F := ⟨m.c0.xyz, m.c1.xyz, m.c2.xyz, m.c3.xyz⟩
/-- `float4x4(float4x3, r3)`, /repo/include/math/matrix/float.hpp:410-411, simd/matrix/float.hpp:87-89. -/
@[vec] def of43 {F : Type} (m : M43 F) (r3 : V4 F) : M4 F :=
  ⟨⟨m.c0.x, m.c0.y, m.c0.z, r3.x⟩, ⟨m.c1.x, m.c1.y, m.c1.z, r3.y⟩, ⟨m.c2.x, m.c2.y, m.c2.z, r3.z⟩,
   ⟨m.c3.x, m.c3.y, m.c3.z, r3.w⟩⟩
/-- `float4x4(float3x3, c3, r3)`, /repo/include/math/matrix/float.hpp:419-420, simd/matrix/float.hpp:97-98. -/
@[vec] def of3 {F : Type} (m : M3 F) (c3 r3 : V4 F) : M4 F :=
  ⟨⟨m.c0.x, m.c0.y, m.c0.z, r3.x⟩, ⟨m.c1.x, m.c1.y, m.c1.z, r3.y⟩, ⟨m.c2.x, m.c2.y, m.c2.z, r3.z⟩, c3⟩
end M4

namespace Simd
variable {F : Type} [Flt F]

/-- `_mm_shuffle_ps(a, b, _MM_SHUFFLE(w, z, y, x))`: two lanes of `a`, then two lanes of `b`. Models the
intrinsic used throughout /repo/include/math/simd/matrix/float.hpp. -/
@[vec] def shuffle {α : Type} (a b : V4 α) (w z y x : Fin 4) : V4 α := ⟨a.get x, a.get y, b.get z, b.get w⟩

/-- `m * v`, /repo/include/math/simd/matrix/float.hpp:218-235 (also the body of the loop in 186-213). -/
@[vec] def mulV (m : M4 F) (v : V4 F) : V4 F :=
  let r := V4.mul m.c0 (shuffle v v 0 0 0 0)
  let r := fma m.c1 (shuffle v v 1 1 1 1) r
  let r := fma m.c2 (shuffle v v 2 2 2 2) r
  fma m.c3 (shuffle v v 3 3 3 3) r
/-- `a * b`, /repo/include/math/simd/matrix/float.hpp:186-213. -/
@[vec] def mulM (a b : M4 F) : M4 F := ⟨mulV a b.c0, mulV a b.c1, mulV a b.c2, mulV a b.c3⟩
/-- One column of `multiply3x3`, /repo/include/math/simd/matrix/float.hpp:296-300, 325-328. -/
@[vec] def col3x3 (m : M4 F) (v : V4 F) : V4 F :=
  let r := V4.mul m.c0 (shuffle v v 0 0 0 0)
  let r := fma m.c1 (shuffle v v 1 1 1 1) r
  fma m.c2 (shuffle v v 2 2 2 2) r
/-- `multiply3x3(a, b)`, /repo/include/math/simd/matrix/float.hpp:290-315. -/
@[vec] def multiply3x3 (a b : M4 F) : M4 F := ⟨col3x3 a b.c0, col3x3 a b.c1, col3x3 a b.c2, col3x3 a b.c3⟩
/-- `multiply3x3(m, v)`, /repo/include/math/simd/matrix/float.hpp:321-339. -/
@[vec] def multiply3x3V (m : M4 F) (v : V4 F) : V4 F := (col3x3 m v).swizzle 0 1 2 2
/-- `transpose4x4`, /repo/include/math/simd/matrix/float.hpp:345-356 (SSE). -/
@[vec] def transpose4x4 {F : Type} (m : M4 F) : M4 F :=
  let t1 := shuffle m.c0 m.c1 1 0 1 0
  let t3 := shuffle m.c0 m.c1 3 2 3 2
  let t2 := shuffle m.c2 m.c3 1 0 1 0
  let t4 := shuffle m.c2 m.c3 3 2 3 2
  ⟨shuffle t1 t2 2 0 2 0, shuffle t1 t2 3 1 3 1, shuffle t3 t4 2 0 2 0, shuffle t3 t4 3 1 3 1⟩
/-- `transpose3x3`, /repo/include/math/simd/matrix/float.hpp:371-382 (SSE). -/
@[vec] def transpose3x3 (m : M4 F) : M4 F :=
  let zero : V4 F := V4.splat (Flt.lit 0)
  let t1 := shuffle m.c0 m.c1 1 0 1 0
  let t3 := shuffle m.c0 m.c1 3 2 3 2
  let t2 := shuffle m.c2 zero 1 0 1 0
  let t4 := shuffle m.c2 zero 3 2 3 2
  ⟨shuffle t1 t2 2 0 2 0, shuffle t1 t2 3 1 3 1, shuffle t3 t4 2 0 2 0, m.c3⟩

/-- `vzipq_f32(a, b).val[0]`, used in /repo/include/math/simd/matrix/float.hpp:358-361. -/
@[vec] def zipLo {α : Type} (a b : V4 α) : V4 α := ⟨a.x, b.x, a.y, b.y⟩
/-- `vzipq_f32(a, b).val[1]`, used in /repo/include/math/simd/matrix/float.hpp:358-361. -/
@[vec] def zipHi {α : Type} (a b : V4 α) : V4 α := ⟨a.z, b.z, a.w, b.w⟩
/-- `transpose4x4`, /repo/include/math/simd/matrix/float.hpp:358-362 (NEON). -/
@[vec] def transpose4x4Neon {F : Type} (m : M4 F) : M4 F :=
  ⟨zipLo (zipLo m.c0 m.c2) (zipLo m.c1 m.c3), zipHi (zipLo m.c0 m.c2) (zipLo m.c1 m.c3),
   zipLo (zipHi m.c0 m.c2) (zipHi m.c1 m.c3), zipHi (zipHi m.c0 m.c2) (zipHi m.c1 m.c3)⟩
/-- `transpose3x3`, /repo/include/math/simd/matrix/float.hpp:384-388 (NEON). -/
@[vec] def transpose3x3Neon (m : M4 F) : M4 F :=
  let zero : V4 F := V4.splat (Flt.lit 0)
  ⟨zipLo (zipLo m.c0 m.c2) (zipLo m.c1 zero), zipHi (zipLo m.c0 m.c2) (zipLo m.c1 zero),
   zipLo (zipHi m.c0 m.c2) (zipHi m.c1 zero), m.c3⟩

/-- The four unscaled columns `m0..m3` and the row `r0` inside `inverse4x4`,
/repo/include/math/simd/matrix/float.hpp:405-465 (SSE). -/
@[vec] def inverseCols (m : M4 F) : V4 F × M4 F :=
  let t1 := shuffle m.c0 m.c1 1 0 1 0
  let r1 := shuffle m.c2 m.c3 1 0 1 0
  let r0 := shuffle t1 r1 2 0 2 0
  let r1 := shuffle r1 t1 3 1 3 1
  let t1 := shuffle m.c0 m.c1 3 2 3 2
  let r3 := shuffle m.c2 m.c3 3 2 3 2
  let r2 := shuffle t1 r3 2 0 2 0
  let r3 := shuffle r3 t1 3 1 3 1
  let t1 := V4.mul r2 r3
  let t1 := shuffle t1 t1 2 3 0 1
  let m0 := V4.mul r1 t1
  let m1 := V4.mul r0 t1
  let t1 := shuffle t1 t1 1 0 3 2
  let m0 := V4.sub (V4.mul r1 t1) m0
  let m1 := V4.sub (V4.mul r0 t1) m1
  let m1 := shuffle m1 m1 1 0 3 2
  let t1 := V4.mul r1 r2
  let t1 := shuffle t1 t1 2 3 0 1
  let m0 := fma r3 t1 m0
  let m3 := V4.mul r0 t1
  let t1 := shuffle t1 t1 1 0 3 2
  let m0 := V4.sub m0 (V4.mul r3 t1)
  let m3 := V4.sub (V4.mul r0 t1) m3
  let m3 := shuffle m3 m3 1 0 3 2
  let t1 := V4.mul (shuffle r1 r1 1 0 3 2) r3
  let t1 := shuffle t1 t1 2 3 0 1
  let r2 := shuffle r2 r2 1 0 3 2
  let m0 := fma r2 t1 m0
  let m2 := V4.mul r0 t1
  let t1 := shuffle t1 t1 1 0 3 2
  let m0 := V4.sub m0 (V4.mul r2 t1)
  let m2 := V4.sub (V4.mul r0 t1) m2
  let m2 := shuffle m2 m2 1 0 3 2
  let t1 := V4.mul r0 r1
  let t1 := shuffle t1 t1 2 3 0 1
  let m2 := fma r3 t1 m2
  let m3 := V4.sub (V4.mul r2 t1) m3
  let t1 := shuffle t1 t1 1 0 3 2
  let m2 := V4.sub (V4.mul r3 t1) m2
  let m3 := V4.sub m3 (V4.mul r2 t1)
  let t1 := V4.mul r0 r3
  let t1 := shuffle t1 t1 2 3 0 1
  let m1 := V4.sub m1 (V4.mul r2 t1)
  let m2 := fma r1 t1 m2
  let t1 := shuffle t1 t1 1 0 3 2
  let m1 := fma r2 t1 m1
  let m2 := V4.sub m2 (V4.mul r1 t1)
  let t1 := V4.mul r0 r2
  let t1 := shuffle t1 t1 2 3 0 1
  let m1 := fma r3 t1 m1
  let m3 := V4.sub m3 (V4.mul r1 t1)
  let t1 := shuffle t1 t1 1 0 3 2
  let m1 := V4.sub m1 (V4.mul r3 t1)
  let m3 := fma r1 t1 m3
  (r0, ⟨m0, m1, m2, m3⟩)
/-- `1 / determinant`, /repo/include/math/simd/matrix/float.hpp:467-471: horizontal sum of `r0 * m0`. Only
lane 0 of the later steps is used (`_mm_add_ss`, `_mm_div_ss`, then a splat). -/
@[vec] def inverseDet (r0 m0 : V4 F) : F :=
  let d := V4.mul r0 m0
  let d := V4.add (shuffle d d 2 3 0 1) d
  (shuffle d d 1 0 3 2).x +. d.x
/-- `inverse4x4`, /repo/include/math/simd/matrix/float.hpp:402-474 (SSE). -/
@[vec] def inverse4x4 (m : M4 F) : M4 F :=
  let p := inverseCols m
  let d := V4.splat (Flt.lit 1 /. inverseDet p.1 p.2.c0)
  ⟨V4.mul d p.2.c0, V4.mul d p.2.c1, V4.mul d p.2.c2, V4.mul d p.2.c3⟩

end Simd
end Verif
