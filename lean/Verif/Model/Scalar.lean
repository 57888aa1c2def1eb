import Verif.Model.FltT

/-! # Scalar helpers. Models /repo/include/math/common.hpp and the vector forms of the same functions. -/

namespace Verif.Scalar
variable {F : Type} [Flt F] [FltT F]
open FltT

/-- `sign`, /repo/include/math/common.hpp:68. -/
def sign (v : F) : F := if signbit v then Flt.lit (-1) else Flt.lit 1

/-- `repeat`, /repo/include/math/common.hpp:73-80. -/
def repeat' (v : F) : F :=
  if v <. Flt.lit 0 then Flt.lit 1 -. fmod (-. v) (Flt.lit 1)
  else if Flt.lit 1 <=. v then fmod v (Flt.lit 1)
  else v

/-- `lerp`, /repo/include/math/common.hpp:89. -/
def lerp (a b t : F) : F := a +. t *. (b -. a)

/-- `lerpDelta`, /repo/include/math/common.hpp:99-102; the vector forms
/repo/include/math/vector/float.hpp:781-784 and /repo/include/math/simd/vector/float.hpp:1369-1372 apply
the same expression to each component. -/
def lerpDelta (a b f dt : F) : F := a +. (Flt.lit 1 -. pow f dt) *. (b -. a)

/-- `gain`, /repo/include/math/common.hpp:110-114. -/
def gain (x k : F) : F :=
  let a := Flt.lit (1 / 2) *. pow (Flt.lit 2 *. (if x <. Flt.lit (1 / 2) then x else Flt.lit 1 -. x)) k
  if x <. Flt.lit (1 / 2) then a else Flt.lit 1 -. a

/-- Vector `lerp`: each component is `a * (1 - t) + b * t`,
/repo/include/math/vector/float.hpp:771, 1055, 1356 and /repo/include/math/simd/vector/float.hpp:1359. -/
def lerpV (a b t : F) : F := a *. (Flt.lit 1 -. t) +. b *. t

/-- SIMD `mod`, /repo/include/math/simd/vector/float.hpp:1180-1183 (one lane). -/
def simdMod (n d : F) : F := n -. floor (n /. d) *. d

/-- SIMD `repeat`, /repo/include/math/simd/vector/float.hpp:1346-1350 (one lane). -/
def simdRepeat (v : F) : F :=
  let r := if v <. Flt.lit 0 then Flt.lit 1 -. simdMod (-. v) (Flt.lit 1) else v
  if v <. Flt.lit 1 then r else simdMod v (Flt.lit 1)

end Verif.Scalar
