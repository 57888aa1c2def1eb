import Verif.Model.FloatOps

/-!
# Mathematical functions on float2, float3 and float4

The `<cmath>` functions are parameters: nothing is assumed of them.
-/

namespace Verif

/-- The functions of one argument. -/
inductive MathFn where
  | exp | exp2 | expm1 | log | log10 | log2 | log1p | cbrt | sin | cos | tan | asin | acos | atan | sinh | cosh | tanh | asinh | acosh | atanh
deriving DecidableEq, Repr

/-- The `<cmath>` library: `std::exp` and so on, `std::pow` and `std::atan2`. -/
structure Libm (F : Type) where
  fn : MathFn → F → F
  pow : F → F → F
  atan2 : F → F → F

variable {F : Type} [Flt F]

namespace Float2
/-- The functions of one argument. Models /repo/include/math/vector/float.hpp:1398-1418. -/
def math (m : Libm F) : MathFn → V2 F → V2 F
  | .exp, v => ⟨m.fn .exp v.x, m.fn .exp v.y⟩
  | .exp2, v => ⟨m.fn .exp2 v.x, m.fn .exp2 v.y⟩
  | .expm1, v => ⟨m.fn .expm1 v.x, m.fn .expm1 v.y⟩
  | .log, v => ⟨m.fn .log v.x, m.fn .log v.y⟩
  | .log10, v => ⟨m.fn .log10 v.x, m.fn .log10 v.y⟩
  | .log2, v => ⟨m.fn .log2 v.x, m.fn .log2 v.y⟩
  | .log1p, v => ⟨m.fn .log1p v.x, m.fn .log1p v.y⟩
  | .cbrt, v => ⟨m.fn .cbrt v.x, m.fn .cbrt v.y⟩
  | .sin, v => ⟨m.fn .sin v.x, m.fn .sin v.y⟩
  | .cos, v => ⟨m.fn .cos v.x, m.fn .cos v.y⟩
  | .tan, v => ⟨m.fn .tan v.x, m.fn .tan v.y⟩
  | .asin, v => ⟨m.fn .asin v.x, m.fn .asin v.y⟩
  | .acos, v => ⟨m.fn .acos v.x, m.fn .acos v.y⟩
  | .atan, v => ⟨m.fn .atan v.x, m.fn .atan v.y⟩
  | .sinh, v => ⟨m.fn .sinh v.x, m.fn .sinh v.y⟩
  | .cosh, v => ⟨m.fn .cosh v.x, m.fn .cosh v.y⟩
  | .tanh, v => ⟨m.fn .tanh v.x, m.fn .tanh v.y⟩
  | .asinh, v => ⟨m.fn .asinh v.x, m.fn .asinh v.y⟩
  | .acosh, v => ⟨m.fn .acosh v.x, m.fn .acosh v.y⟩
  | .atanh, v => ⟨m.fn .atanh v.x, m.fn .atanh v.y⟩
/-- `atan(a, b)`. Models /repo/include/math/vector/float.hpp:1412-1412. -/
def atan2 (m : Libm F) (a b : V2 F) : V2 F := ⟨m.atan2 a.x b.x, m.atan2 a.y b.y⟩
/-- `pow`. Models /repo/include/math/vector/float.hpp:792-792. -/
def pow (m : Libm F) (b e : V2 F) : V2 F := ⟨m.pow b.x e.x, m.pow b.y e.y⟩
/-- `gain`. Models /repo/include/math/vector/float.hpp:800-804. -/
def gain (m : Libm F) (x k : V2 F) : V2 F :=
  let h := cmpS .lt x (Flt.lit (1 / 2))
  let a := bin .mul (V2.splat (Flt.lit (1 / 2))) (pow m (binL .mul (Flt.lit 2) (V2.select h x (binL .sub (Flt.lit 1) x))) k)
  V2.select h a (binL .sub (Flt.lit 1) a)
/-- `lerpDelta`. Models /repo/include/math/vector/float.hpp:781-784. -/
def lerpDelta (m : Libm F) (a b : V2 F) (f dt : F) : V2 F :=
  bin .add a (binL .mul (Flt.lit 1 -. m.pow f dt) (bin .sub b a))
end Float2

namespace Float3
/-- The functions of one argument. Models /repo/include/math/vector/float.hpp:1425-1448. -/
def math (m : Libm F) : MathFn → V3 F → V3 F
  | .exp, v => ⟨m.fn .exp v.x, m.fn .exp v.y, m.fn .exp v.z⟩
  | .exp2, v => ⟨m.fn .exp2 v.x, m.fn .exp2 v.y, m.fn .exp2 v.z⟩
  | .expm1, v => ⟨m.fn .expm1 v.x, m.fn .expm1 v.y, m.fn .expm1 v.z⟩
  | .log, v => ⟨m.fn .log v.x, m.fn .log v.y, m.fn .log v.z⟩
  | .log10, v => ⟨m.fn .log10 v.x, m.fn .log10 v.y, m.fn .log10 v.z⟩
  | .log2, v => ⟨m.fn .log2 v.x, m.fn .log2 v.y, m.fn .log2 v.z⟩
  | .log1p, v => ⟨m.fn .log1p v.x, m.fn .log1p v.y, m.fn .log1p v.z⟩
  | .cbrt, v => ⟨m.fn .cbrt v.x, m.fn .cbrt v.y, m.fn .cbrt v.z⟩
  | .sin, v => ⟨m.fn .sin v.x, m.fn .sin v.y, m.fn .sin v.z⟩
  | .cos, v => ⟨m.fn .cos v.x, m.fn .cos v.y, m.fn .cos v.z⟩
  | .tan, v => ⟨m.fn .tan v.x, m.fn .tan v.y, m.fn .tan v.z⟩
  | .asin, v => ⟨m.fn .asin v.x, m.fn .asin v.y, m.fn .asin v.z⟩
  | .acos, v => ⟨m.fn .acos v.x, m.fn .acos v.y, m.fn .acos v.z⟩
  | .atan, v => ⟨m.fn .atan v.x, m.fn .atan v.y, m.fn .atan v.z⟩
  | .sinh, v => ⟨m.fn .sinh v.x, m.fn .sinh v.y, m.fn .sinh v.z⟩
  | .cosh, v => ⟨m.fn .cosh v.x, m.fn .cosh v.y, m.fn .cosh v.z⟩
  | .tanh, v => ⟨m.fn .tanh v.x, m.fn .tanh v.y, m.fn .tanh v.z⟩
  | .asinh, v => ⟨m.fn .asinh v.x, m.fn .asinh v.y, m.fn .asinh v.z⟩
  | .acosh, v => ⟨m.fn .acosh v.x, m.fn .acosh v.y, m.fn .acosh v.z⟩
  | .atanh, v => ⟨m.fn .atanh v.x, m.fn .atanh v.y, m.fn .atanh v.z⟩
/-- `atan(a, b)`. Models /repo/include/math/vector/float.hpp:1439-1442. -/
def atan2 (m : Libm F) (a b : V3 F) : V3 F := ⟨m.atan2 a.x b.x, m.atan2 a.y b.y, m.atan2 a.z b.z⟩
/-- `pow`. Models /repo/include/math/vector/float.hpp:1076-1079. -/
def pow (m : Libm F) (b e : V3 F) : V3 F := ⟨m.pow b.x e.x, m.pow b.y e.y, m.pow b.z e.z⟩
/-- `gain`. Models /repo/include/math/vector/float.hpp:1087-1091. -/
def gain (m : Libm F) (x k : V3 F) : V3 F :=
  let h := cmpS .lt x (Flt.lit (1 / 2))
  let a := bin .mul (V3.splat (Flt.lit (1 / 2))) (pow m (binL .mul (Flt.lit 2) (V3.select h x (binL .sub (Flt.lit 1) x))) k)
  V3.select h a (binL .sub (Flt.lit 1) a)
/-- `lerpDelta`. Models /repo/include/math/vector/float.hpp:1065-1068. -/
def lerpDelta (m : Libm F) (a b : V3 F) (f dt : F) : V3 F :=
  bin .add a (binL .mul (Flt.lit 1 -. m.pow f dt) (bin .sub b a))
end Float3

namespace Float4
/-- The functions of one argument. Models /repo/include/math/vector/float.hpp:1455-1538. -/
def math (m : Libm F) : MathFn → V4 F → V4 F
  | .exp, v => ⟨m.fn .exp v.x, m.fn .exp v.y, m.fn .exp v.z, m.fn .exp v.w⟩
  | .exp2, v => ⟨m.fn .exp2 v.x, m.fn .exp2 v.y, m.fn .exp2 v.z, m.fn .exp2 v.w⟩
  | .expm1, v => ⟨m.fn .expm1 v.x, m.fn .expm1 v.y, m.fn .expm1 v.z, m.fn .expm1 v.w⟩
  | .log, v => ⟨m.fn .log v.x, m.fn .log v.y, m.fn .log v.z, m.fn .log v.w⟩
  | .log10, v => ⟨m.fn .log10 v.x, m.fn .log10 v.y, m.fn .log10 v.z, m.fn .log10 v.w⟩
  | .log2, v => ⟨m.fn .log2 v.x, m.fn .log2 v.y, m.fn .log2 v.z, m.fn .log2 v.w⟩
  | .log1p, v => ⟨m.fn .log1p v.x, m.fn .log1p v.y, m.fn .log1p v.z, m.fn .log1p v.w⟩
  | .cbrt, v => ⟨m.fn .cbrt v.x, m.fn .cbrt v.y, m.fn .cbrt v.z, m.fn .cbrt v.w⟩
  | .sin, v => ⟨m.fn .sin v.x, m.fn .sin v.y, m.fn .sin v.z, m.fn .sin v.w⟩
  | .cos, v => ⟨m.fn .cos v.x, m.fn .cos v.y, m.fn .cos v.z, m.fn .cos v.w⟩
  | .tan, v => ⟨m.fn .tan v.x, m.fn .tan v.y, m.fn .tan v.z, m.fn .tan v.w⟩
  | .asin, v => ⟨m.fn .asin v.x, m.fn .asin v.y, m.fn .asin v.z, m.fn .asin v.w⟩
  | .acos, v => ⟨m.fn .acos v.x, m.fn .acos v.y, m.fn .acos v.z, m.fn .acos v.w⟩
  | .atan, v => ⟨m.fn .atan v.x, m.fn .atan v.y, m.fn .atan v.z, m.fn .atan v.w⟩
  | .sinh, v => ⟨m.fn .sinh v.x, m.fn .sinh v.y, m.fn .sinh v.z, m.fn .sinh v.w⟩
  | .cosh, v => ⟨m.fn .cosh v.x, m.fn .cosh v.y, m.fn .cosh v.z, m.fn .cosh v.w⟩
  | .tanh, v => ⟨m.fn .tanh v.x, m.fn .tanh v.y, m.fn .tanh v.z, m.fn .tanh v.w⟩
  | .asinh, v => ⟨m.fn .asinh v.x, m.fn .asinh v.y, m.fn .asinh v.z, m.fn .asinh v.w⟩
  | .acosh, v => ⟨m.fn .acosh v.x, m.fn .acosh v.y, m.fn .acosh v.z, m.fn .acosh v.w⟩
  | .atanh, v => ⟨m.fn .atanh v.x, m.fn .atanh v.y, m.fn .atanh v.z, m.fn .atanh v.w⟩
/-- `atan(a, b)`. Models /repo/include/math/vector/float.hpp:1511-1514. -/
def atan2 (m : Libm F) (a b : V4 F) : V4 F := ⟨m.atan2 a.x b.x, m.atan2 a.y b.y, m.atan2 a.z b.z, m.atan2 a.w b.w⟩
/-- `pow`. Models /repo/include/math/vector/float.hpp:1377-1380. -/
def pow (m : Libm F) (b e : V4 F) : V4 F := ⟨m.pow b.x e.x, m.pow b.y e.y, m.pow b.z e.z, m.pow b.w e.w⟩
/-- `gain`. Models /repo/include/math/vector/float.hpp:1388-1392. -/
def gain (m : Libm F) (x k : V4 F) : V4 F :=
  let h := cmpS .lt x (Flt.lit (1 / 2))
  let a := bin .mul (V4.splat (Flt.lit (1 / 2))) (pow m (binL .mul (Flt.lit 2) (V4.select h x (binL .sub (Flt.lit 1) x))) k)
  V4.select h a (binL .sub (Flt.lit 1) a)
/-- `lerpDelta`. Models /repo/include/math/vector/float.hpp:1366-1369. -/
def lerpDelta (m : Libm F) (a b : V4 F) (f dt : F) : V4 F :=
  bin .add a (binL .mul (Flt.lit 1 -. m.pow f dt) (bin .sub b a))
end Float4

end Verif
