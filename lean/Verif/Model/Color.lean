import Verif.Model.F32
import Verif.Model.Hex
import Verif.Model.Decimal

/-!
# Model of `include/math/color.hpp`

`toLinear` and `fromLinear` (color.hpp:209-214) are not modelled here: they compose the conversions below
with the transfer functions of `color-space.hpp`, modelled over the reals in `Verif.Model.ColorSpace`.
-/

namespace Verif

/-- /repo/include/math/color.hpp:30-35: the four channels. -/
structure Color where
  r : BitVec 8
  g : BitVec 8
  b : BitVec 8
  a : BitVec 8
deriving DecidableEq

namespace Color
open Flt

/-- /repo/include/math/color.hpp:41: `Color(uint8 rgba)`. -/
def splat (n : BitVec 8) : Color := ⟨n, n, n, n⟩

/-- /repo/include/math/color.hpp:56: `Color(uint32 data)`: the word is stored over the structure; the
modelled targets are little-endian, so the red channel is the low byte. -/
def ofU32 (data : BitVec 32) : Color :=
  ⟨data.extractLsb' 0 8, data.extractLsb' 8 8, data.extractLsb' 16 8, data.extractLsb' 24 8⟩

/-- /repo/include/math/color.hpp:128: `operator uint32`. -/
def toU32 (c : Color) : BitVec 32 := c.a ++ c.b ++ c.g ++ c.r

/-- /repo/include/math/color.hpp:64-69: one channel of the string constructor: the two characters at
`pos`, parsed by `toInt32` and truncated to `uint8`. `none`: the parser throws. -/
def channelOfHex (hex : List Char) (pos : Nat) : Option (BitVec 8) :=
  (Hex.toInt32 ((hex.drop pos).take 2)).map (·.setWidth 8)

/-- /repo/include/math/color.hpp:61-70: `Color(const string& hex)`. `none`: the assertion on the length
fails or the parser throws. The members not assigned keep their initial value 0. -/
def ofHex (hex : List Char) : Option Color :=
  if hex.length = 8 ∨ hex.length = 6 then
    match channelOfHex hex 0, channelOfHex hex 2, channelOfHex hex 4 with
    | some r, some g, some b =>
      if hex.length = 8 then
        match channelOfHex hex 6 with
        | some a => some ⟨r, g, b, a⟩
        | none => none
      else some ⟨r, g, b, 0⟩
    | _, _, _ => none
  else none

/-- /repo/include/math/color.hpp:187-194: `toHex4`. -/
def toHex4 (c : Color) : Option (List Char) :=
  match Hex.toHex false c.r, Hex.toHex false c.g, Hex.toHex false c.b, Hex.toHex false c.a with
  | some r, some g, some b, some a => some (r ++ g ++ b ++ a)
  | _, _, _, _ => none

/-- /repo/include/math/color.hpp:198-204: `toHex3`. -/
def toHex3 (c : Color) : Option (List Char) :=
  match Hex.toHex false c.r, Hex.toHex false c.g, Hex.toHex false c.b with
  | some r, some g, some b => some (r ++ g ++ b)
  | _, _, _ => none

/-- /repo/include/math/color.hpp:167-170: `toString4`. -/
def toString4 (c : Color) : List Char :=
  toDecimal c.r.toNat ++ " ".toList ++ toDecimal c.g.toNat ++ " ".toList ++ toDecimal c.b.toNat ++
    " ".toList ++ toDecimal c.a.toNat
/-- /repo/include/math/color.hpp:174: `toString3`. -/
def toString3 (c : Color) : List Char :=
  toDecimal c.r.toNat ++ " ".toList ++ toDecimal c.g.toNat ++ " ".toList ++ toDecimal c.b.toNat
/-- /repo/include/math/color.hpp:178: `toString2`. -/
def toString2 (c : Color) : List Char := toDecimal c.r.toNat ++ " ".toList ++ toDecimal c.g.toNat
/-- /repo/include/math/color.hpp:182: `toString1`. -/
def toString1 (c : Color) : List Char := toDecimal c.r.toNat

/-- C++ conversion `(uint8)x`: truncation; `none` is the undefined behaviour when the truncated value is
not representable (this includes NaN and infinities). -/
def toU8 (x : F32) : Option (BitVec 8) :=
  if x.isFinite ∧ 0 ≤ x.truncInt ∧ x.truncInt ≤ 255 then some (BitVec.ofInt 8 x.truncInt) else none

/-- Conversion of a `uint8` channel to `float` (exact). -/
def chanF (n : BitVec 8) : F32 := F32.ofNat n.toNat

/-- /repo/include/math/color.hpp:112-124,133-145: `channel * (1.0f / 255.0f)`, one lane of the conversion
operators to `float2`, `float3`, `float4` and `f32x4`, and the functions `getNormR` ... `getNormA`. -/
def getNorm (n : BitVec 8) : F32 := chanF n *. (lit 1 /. lit 255)

/-- /repo/include/math/color.hpp:78-79,87-88,96-97: one lane of the `float2`/`float3`/`float4`
constructors, `(uint8)(std::clamp(v, 0, 1) * 255 + 0.5)` with separate multiplication and addition.
`clamp` on vectors is `std::clamp` per lane, /repo/include/math/vector/float.hpp:638-641,909-912,1202-1206. -/
def quantize (x : F32) : Option (BitVec 8) := toU8 (stdClamp x (lit 0) (lit 1) *. lit 255 +. lit (1/2))

/-- The same lane when the compiler contracts the multiplication and addition into a fused operation
(the default of GCC on targets with FMA). -/
def quantizeFused (x : F32) : Option (BitVec 8) :=
  toU8 (fma (stdClamp x (lit 0) (lit 1)) (lit 255) (lit (1/2)))

/-- /repo/include/math/color.hpp:103-107: one lane of the `f32x4` constructor: the SIMD clamp is
`max(min(v, max), min)`, /repo/include/math/simd/vector/float.hpp:824-827. -/
def quantizeSimd (x : F32) : Option (BitVec 8) :=
  toU8 (mmMax (mmMin x (lit 1)) (lit 0) *. lit 255 +. lit (1/2))

/-- The `f32x4` lane with contraction. -/
def quantizeSimdFused (x : F32) : Option (BitVec 8) :=
  toU8 (fma (mmMax (mmMin x (lit 1)) (lit 0)) (lit 255) (lit (1/2)))

/-- /repo/include/math/color.hpp:150-162: `setNormR` ... `setNormA`:
`channel = std::clamp(v, 0, 1) * 255` (no rounding term). -/
def setNorm (x : F32) : Option (BitVec 8) := toU8 (stdClamp x (lit 0) (lit 1) *. lit 255)

/-- /repo/include/math/color.hpp:150: `setNormR`. -/
def setNormR (c : Color) (x : F32) : Option Color := (setNorm x).map fun n => { c with r := n }
/-- /repo/include/math/color.hpp:154: `setNormG`. -/
def setNormG (c : Color) (x : F32) : Option Color := (setNorm x).map fun n => { c with g := n }
/-- /repo/include/math/color.hpp:158: `setNormB`. -/
def setNormB (c : Color) (x : F32) : Option Color := (setNorm x).map fun n => { c with b := n }
/-- /repo/include/math/color.hpp:162: `setNormA`. -/
def setNormA (c : Color) (x : F32) : Option Color := (setNorm x).map fun n => { c with a := n }

/-- Apply a per-channel conversion to the four channels. -/
def toLanes4 (f : BitVec 8 → F32) (c : Color) : F32 × F32 × F32 × F32 := (f c.r, f c.g, f c.b, f c.a)
/-- Apply a per-channel conversion to the first three channels. -/
def toLanes3 (f : BitVec 8 → F32) (c : Color) : F32 × F32 × F32 := (f c.r, f c.g, f c.b)
/-- Apply a per-channel conversion to the first two channels. -/
def toLanes2 (f : BitVec 8 → F32) (c : Color) : F32 × F32 := (f c.r, f c.g)

/-- /repo/include/math/color.hpp:120,124: `operator float4` / `operator f32x4`: the four lanes. -/
def toFloat4 (c : Color) : F32 × F32 × F32 × F32 := toLanes4 getNorm c
/-- /repo/include/math/color.hpp:116: `operator float3`. -/
def toFloat3 (c : Color) : F32 × F32 × F32 := toLanes3 getNorm c
/-- /repo/include/math/color.hpp:112: `operator float2`. -/
def toFloat2 (c : Color) : F32 × F32 := toLanes2 getNorm c

/-- Four lanes through a quantizer `q`; undefined when any lane is. -/
def ofLanes4 (q : F32 → Option (BitVec 8)) (v : F32 × F32 × F32 × F32) : Option Color :=
  match q v.1, q v.2.1, q v.2.2.1, q v.2.2.2 with
  | some r, some g, some b, some a => some ⟨r, g, b, a⟩
  | _, _, _, _ => none
/-- Three lanes through a quantizer; alpha is 0. -/
def ofLanes3 (q : F32 → Option (BitVec 8)) (v : F32 × F32 × F32) : Option Color :=
  match q v.1, q v.2.1, q v.2.2 with
  | some r, some g, some b => some ⟨r, g, b, 0⟩
  | _, _, _ => none
/-- Two lanes through a quantizer; blue and alpha are 0. -/
def ofLanes2 (q : F32 → Option (BitVec 8)) (v : F32 × F32) : Option Color :=
  match q v.1, q v.2 with
  | some r, some g => some ⟨r, g, 0, 0⟩
  | _, _ => none

/-- /repo/include/math/color.hpp:94-98: `Color(float4)`. -/
def ofFloat4 (v : F32 × F32 × F32 × F32) : Option Color := ofLanes4 quantize v
/-- /repo/include/math/color.hpp:103-107: `Color(f32x4)`. -/
def ofSimd (v : F32 × F32 × F32 × F32) : Option Color := ofLanes4 quantizeSimd v
/-- /repo/include/math/color.hpp:85-89: `Color(float3)`. -/
def ofFloat3 (v : F32 × F32 × F32) : Option Color := ofLanes3 quantize v
/-- /repo/include/math/color.hpp:76-80: `Color(float2)`. -/
def ofFloat2 (v : F32 × F32) : Option Color := ofLanes2 quantize v

/-- /repo/include/math/color.hpp:217. -/
def eq (x y : Color) : Bool := x.r == y.r && x.g == y.g && x.b == y.b && x.a == y.a
/-- /repo/include/math/color.hpp:218. -/
def ne (x y : Color) : Bool := x.r != y.r || x.g != y.g || x.b != y.b || x.a != y.a
/-- /repo/include/math/color.hpp:219. -/
def lt (x y : Color) : Bool := x.r < y.r && x.g < y.g && x.b < y.b && x.a < y.a
/-- /repo/include/math/color.hpp:220. -/
def gt (x y : Color) : Bool := x.r > y.r && x.g > y.g && x.b > y.b && x.a > y.a
/-- /repo/include/math/color.hpp:221. -/
def le (x y : Color) : Bool := x.r ≤ y.r && x.g ≤ y.g && x.b ≤ y.b && x.a ≤ y.a
/-- /repo/include/math/color.hpp:222. -/
def ge (x y : Color) : Bool := x.r ≥ y.r && x.g ≥ y.g && x.b ≥ y.b && x.a ≥ y.a
/-- /repo/include/math/color.hpp:223. -/
def eqS (x : Color) (n : BitVec 8) : Bool := x.r == n && x.g == n && x.b == n && x.a == n
/-- /repo/include/math/color.hpp:224. -/
def neS (x : Color) (n : BitVec 8) : Bool := x.r != n || x.g != n || x.b != n || x.a != n
/-- /repo/include/math/color.hpp:225. -/
def ltS (x : Color) (n : BitVec 8) : Bool := x.r < n && x.g < n && x.b < n && x.a < n
/-- /repo/include/math/color.hpp:226. -/
def gtS (x : Color) (n : BitVec 8) : Bool := x.r > n && x.g > n && x.b > n && x.a > n
/-- /repo/include/math/color.hpp:227. -/
def leS (x : Color) (n : BitVec 8) : Bool := x.r ≤ n && x.g ≤ n && x.b ≤ n && x.a ≤ n
/-- /repo/include/math/color.hpp:228. -/
def geS (x : Color) (n : BitVec 8) : Bool := x.r ≥ n && x.g ≥ n && x.b ≥ n && x.a ≥ n

/-- /repo/include/math/color.hpp:244-249: the overloads with the scalar on the left build a color from the
scalar and compare. -/
def sEq (n : BitVec 8) (c : Color) : Bool := eq (splat n) c
/-- /repo/include/math/color.hpp:245. -/
def sNe (n : BitVec 8) (c : Color) : Bool := ne (splat n) c
/-- /repo/include/math/color.hpp:246. -/
def sLt (n : BitVec 8) (c : Color) : Bool := lt (splat n) c
/-- /repo/include/math/color.hpp:247. -/
def sGt (n : BitVec 8) (c : Color) : Bool := gt (splat n) c
/-- /repo/include/math/color.hpp:248. -/
def sLe (n : BitVec 8) (c : Color) : Bool := le (splat n) c
/-- /repo/include/math/color.hpp:249. -/
def sGe (n : BitVec 8) (c : Color) : Bool := ge (splat n) c

/-- /repo/include/math/color.hpp:257: `isBinaryLess`: both colors read as little-endian `uint32`. -/
def isBinaryLess (x y : Color) : Bool := toU32 x < toU32 y

end Color
end Verif
