import Verif.Model.MatTargets
import Verif.Model.MatShape

/-!
# SIMD matrix functions on every instruction set

`Verif.Model.Mat` has the SSE versions with a fused multiply-add. Here the multiply-add `fm` is a parameter, and the NEON
and plain C++ versions are added. Models /repo/include/math/simd/matrix/float.hpp.
-/

namespace Verif.Simd
variable {F : Type} [Flt F]

/-- `__builtin_shufflevector(a, b, x, y, z, w)`: each index picks a lane of `a` (0-3) or `b` (4-7). Models the calls in
/repo/include/math/simd/matrix/float.hpp:476-537. -/
@[vec] def shuf8 {α : Type} (a b : V4 α) (x y z w : Nat) : V4 α :=
  let at' := fun i => if i = 0 then a.x else if i = 1 then a.y else if i = 2 then a.z else if i = 3 then a.w
    else if i = 4 then b.x else if i = 5 then b.y else if i = 6 then b.z else b.w
  ⟨at' x, at' y, at' z, at' w⟩

/-- The four unscaled columns and the row `r0` of `inverse4x4`, /repo/include/math/simd/matrix/float.hpp:405-466 (SSE). -/
def inverseColsSse (fm : F → F → F → F) (m : M4 F) : V4 F × M4 F :=
  let t1 := shuffle m.c0 m.c1 1 0 1 0
  let r1 := shuffle m.c2 m.c3 1 0 1 0
  let r0 := shuffle t1 r1 2 0 2 0
  let r1 := shuffle r1 t1 3 1 3 1
  let t1 := shuffle m.c0 m.c1 3 2 3 2
  let r3 := shuffle m.c2 m.c3 3 2 3 2
  let r2 := shuffle t1 r3 2 0 2 0
  let r3 := shuffle r3 t1 3 1 3 1
  let t1 := V4.mul r2 r3
  let t1 := shuffle t1 t1 2 3 0 1
  let m0 := V4.mul r1 t1
  let m1 := V4.mul r0 t1
  let t1 := shuffle t1 t1 1 0 3 2
  let m0 := V4.sub (V4.mul r1 t1) m0
  let m1 := V4.sub (V4.mul r0 t1) m1
  let m1 := shuffle m1 m1 1 0 3 2
  let t1 := V4.mul r1 r2
  let t1 := shuffle t1 t1 2 3 0 1
  let m0 := V4.map3 fm r3 t1 m0
  let m3 := V4.mul r0 t1
  let t1 := shuffle t1 t1 1 0 3 2
  let m0 := V4.sub m0 (V4.mul r3 t1)
  let m3 := V4.sub (V4.mul r0 t1) m3
  let m3 := shuffle m3 m3 1 0 3 2
  let t1 := V4.mul (shuffle r1 r1 1 0 3 2) r3
  let t1 := shuffle t1 t1 2 3 0 1
  let r2 := shuffle r2 r2 1 0 3 2
  let m0 := V4.map3 fm r2 t1 m0
  let m2 := V4.mul r0 t1
  let t1 := shuffle t1 t1 1 0 3 2
  let m0 := V4.sub m0 (V4.mul r2 t1)
  let m2 := V4.sub (V4.mul r0 t1) m2
  let m2 := shuffle m2 m2 1 0 3 2
  let t1 := V4.mul r0 r1
  let t1 := shuffle t1 t1 2 3 0 1
  let m2 := V4.map3 fm r3 t1 m2
  let m3 := V4.sub (V4.mul r2 t1) m3
  let t1 := shuffle t1 t1 1 0 3 2
  let m2 := V4.sub (V4.mul r3 t1) m2
  let m3 := V4.sub m3 (V4.mul r2 t1)
  let t1 := V4.mul r0 r3
  let t1 := shuffle t1 t1 2 3 0 1
  let m1 := V4.sub m1 (V4.mul r2 t1)
  let m2 := V4.map3 fm r1 t1 m2
  let t1 := shuffle t1 t1 1 0 3 2
  let m1 := V4.map3 fm r2 t1 m1
  let m2 := V4.sub m2 (V4.mul r1 t1)
  let t1 := V4.mul r0 r2
  let t1 := shuffle t1 t1 2 3 0 1
  let m1 := V4.map3 fm r3 t1 m1
  let m3 := V4.sub m3 (V4.mul r1 t1)
  let t1 := shuffle t1 t1 1 0 3 2
  let m1 := V4.sub m1 (V4.mul r3 t1)
  let m3 := V4.map3 fm r1 t1 m3
  (r0, ⟨m0, m1, m2, m3⟩)
/-- `inverse4x4`, /repo/include/math/simd/matrix/float.hpp:402-474 (SSE). -/
def inverse4x4Sse (fm : F → F → F → F) (m : M4 F) : M4 F :=
  let p := inverseColsSse fm m
  let d := V4.splat (Flt.lit 1 /. inverseDet p.1 p.2.c0)
  ⟨V4.mul d p.2.c0, V4.mul d p.2.c1, V4.mul d p.2.c2, V4.mul d p.2.c3⟩

/-- The same in /repo/include/math/simd/matrix/float.hpp:476-537 (NEON). `vmlaq_f32(a, b, c)` is `fm b c a`. -/
def inverseColsNeon (fm : F → F → F → F) (m : M4 F) : V4 F × M4 F :=
  let t1 := shuf8 m.c0 m.c1 0 1 4 5
  let r1 := shuf8 m.c2 m.c3 0 1 4 5
  let r0 := shuf8 t1 r1 0 2 4 6
  let r1 := shuf8 r1 t1 1 3 5 7
  let t1 := shuf8 m.c0 m.c1 2 3 6 7
  let r3 := shuf8 m.c2 m.c3 2 3 6 7
  let r2 := shuf8 t1 r3 0 2 4 6
  let r3 := shuf8 r3 t1 1 3 5 7
  let t1 := V4.mul r2 r3
  let t1 := shuf8 t1 t1 1 0 3 2
  let m0 := V4.mul r1 t1
  let m1 := V4.mul r0 t1
  let t1 := shuf8 t1 t1 2 3 0 1
  let m0 := V4.sub (V4.mul r1 t1) m0
  let m1 := V4.sub (V4.mul r0 t1) m1
  let m1 := shuf8 m1 m1 2 3 0 1
  let t1 := V4.mul r1 r2
  let t1 := shuf8 t1 t1 1 0 3 2
  let m0 := V4.map3 fm r3 t1 m0
  let m3 := V4.mul r0 t1
  let t1 := shuf8 t1 t1 2 3 0 1
  let m0 := V4.sub m0 (V4.mul r3 t1)
  let m3 := V4.sub (V4.mul r0 t1) m3
  let m3 := shuf8 m3 m3 2 3 0 1
  let t1 := shuf8 r1 r1 2 3 0 1
  let t1 := V4.mul t1 r3
  let t1 := shuf8 t1 t1 1 0 3 2
  let r2 := shuf8 r2 r2 2 3 0 1
  let m0 := V4.map3 fm r2 t1 m0
  let m2 := V4.mul r0 t1
  let t1 := shuf8 t1 t1 2 3 0 1
  let m0 := V4.sub m0 (V4.mul r2 t1)
  let m2 := V4.sub (V4.mul r0 t1) m2
  let m2 := shuf8 m2 m2 2 3 0 1
  let t1 := V4.mul r0 r1
  let t1 := shuf8 t1 t1 1 0 3 2
  let m2 := V4.map3 fm r3 t1 m2
  let m3 := V4.sub (V4.mul r2 t1) m3
  let t1 := shuf8 t1 t1 2 3 0 1
  let m2 := V4.sub (V4.mul r3 t1) m2
  let m3 := V4.sub m3 (V4.mul r2 t1)
  let t1 := V4.mul r0 r3
  let t1 := shuf8 t1 t1 1 0 3 2
  let m1 := V4.sub m1 (V4.mul r2 t1)
  let m2 := V4.map3 fm r1 t1 m2
  let t1 := shuf8 t1 t1 2 3 0 1
  let m1 := V4.map3 fm r2 t1 m1
  let m2 := V4.sub m2 (V4.mul r1 t1)
  let t1 := V4.mul r0 r2
  let t1 := shuf8 t1 t1 1 0 3 2
  let m1 := V4.map3 fm r3 t1 m1
  let m3 := V4.sub m3 (V4.mul r1 t1)
  let t1 := shuf8 t1 t1 2 3 0 1
  let m1 := V4.sub m1 (V4.mul r3 t1)
  let m3 := V4.map3 fm r1 t1 m3
  (r0, ⟨m0, m1, m2, m3⟩)
/-- `inverse4x4`, /repo/include/math/simd/matrix/float.hpp:476-543 (NEON). `vaddvq_f32` adds neighbouring lanes, then the
two sums. -/
def inverse4x4Neon (fm : F → F → F → F) (m : M4 F) : M4 F :=
  let p := inverseColsNeon fm m
  let d := V4.mul p.1 p.2.c0
  let d := V4.splat ((d.x +. d.y) +. (d.z +. d.w))
  let d := V4.div (V4.splat (Flt.lit 1)) d
  ⟨V4.mul d p.2.c0, V4.mul d p.2.c1, V4.mul d p.2.c2, V4.mul d p.2.c3⟩
/-- `inverse4x4` without SIMD, /repo/include/math/simd/matrix/float.hpp:545. -/
def inverse4x4Plain (m : M4 F) : M4 F := m.inverse
/-- `transpose4x4` without SIMD, /repo/include/math/simd/matrix/float.hpp:364. -/
def transpose4x4Plain {F : Type} (m : M4 F) : M4 F := m.transpose
/-- `transpose3x3` without SIMD, /repo/include/math/simd/matrix/float.hpp:390-394. -/
def transpose3x3Plain {F : Type} (m : M4 F) : M4 F :=
  let r := m.to3.transpose
  ⟨⟨r.c0.x, r.c0.y, r.c0.z, m.c3.x⟩, ⟨r.c1.x, r.c1.y, r.c1.z, m.c3.y⟩, ⟨r.c2.x, r.c2.y, r.c2.z, m.c3.z⟩, m.c3⟩
/-- One column of `multiply3x3(a, b)`, /repo/include/math/simd/matrix/float.hpp:296-300 (SSE), 306-310 (NEON). -/
def col3x3With (fm : F → F → F → F) (m : M4 F) (v : V4 F) : V4 F :=
  let r := V4.mul m.c0 (V4.splat v.x)
  let r := V4.map3 fm m.c1 (V4.splat v.y) r
  V4.map3 fm m.c2 (V4.splat v.z) r
/-- `multiply3x3(a, b)`, /repo/include/math/simd/matrix/float.hpp:290-312 (SSE, NEON). -/
def multiply3x3With (fm : F → F → F → F) (a b : M4 F) : M4 F :=
  ⟨col3x3With fm a b.c0, col3x3With fm a b.c1, col3x3With fm a b.c2, col3x3With fm a b.c3⟩
/-- `multiply3x3(a, b)` without SIMD, /repo/include/math/simd/matrix/float.hpp:313. -/
def multiply3x3Plain (a b : M4 F) : M4 F := M4.of3 (M3.mul a.to3 b.to3) a.c3 (V4.splat (Flt.lit 0))
/-- `multiply3x3(m, v)`, /repo/include/math/simd/matrix/float.hpp:324-333, 338 (SSE, NEON). -/
def multiply3x3VWith (fm : F → F → F → F) (m : M4 F) (v : V4 F) : V4 F := (col3x3With fm m v).swizzle 0 1 2 2
/-- `multiply3x3(m, v)` without SIMD, /repo/include/math/simd/matrix/float.hpp:335-338. -/
def multiply3x3VPlain (m : M4 F) (v : V4 F) : V4 F :=
  let t := M3.mulV m.to3 v.xyz
  (⟨t.x, t.y, t.z, t.z⟩ : V4 F).swizzle 0 1 2 2
/-- `m * v`, /repo/include/math/simd/matrix/float.hpp:220-231 (SSE, NEON). -/
def mulVWith (fm : F → F → F → F) (m : M4 F) (v : V4 F) : V4 F :=
  let r := V4.mul m.c0 (V4.splat v.x)
  let r := V4.map3 fm m.c1 (V4.splat v.y) r
  let r := V4.map3 fm m.c2 (V4.splat v.z) r
  V4.map3 fm m.c3 (V4.splat v.w) r
/-- `a * b`, /repo/include/math/simd/matrix/float.hpp:189-209 (SSE, NEON). -/
def mulMWith (fm : F → F → F → F) (a b : M4 F) : M4 F :=
  ⟨mulVWith fm a b.c0, mulVWith fm a b.c1, mulVWith fm a b.c2, mulVWith fm a b.c3⟩

/-- A multiply-add made of a product and a sum: `MATH_SIMD_FMA` without the FMA extension,
/repo/include/math/simd/vector/float.hpp:24-30. -/
def madd (a b c : F) : F := c +. a *. b

end Verif.Simd
