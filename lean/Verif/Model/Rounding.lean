import Verif.Model.FloatOps

/-!
# Rounding to integers

`std::round`, `std::floor`, `std::ceil`, `std::trunc` and the SSE4.1/NEON rounding instructions, on binary32; the vector
functions built on them.
-/

namespace Verif
namespace F32

/-- Apply a rounding of the exact value, given as an integer in units, to an integer: NaN and infinities are returned, a
zero result keeps the sign of the argument. The common part of `std::floor` and its relatives. -/
def toIntegral (g : Int → Int) (x : F32) : F32 :=
  if x.isNaN then nan else if x.isInf then x
  else if g x.units = 0 then zero x.signBit else roundUnits (g x.units * 2 ^ 149) 1

/-- `std::floor`, `_MM_FROUND_TO_NEG_INF`, `vrndmq_f32`. -/
def ffloor (x : F32) : F32 := toIntegral (fun u => u / 2 ^ 149) x
/-- `std::ceil`, `_MM_FROUND_TO_POS_INF`, `vrndpq_f32`. -/
def fceil (x : F32) : F32 := toIntegral (fun u => -((-u) / 2 ^ 149)) x
/-- `std::trunc`, `_MM_FROUND_TO_ZERO`, `vrndq_f32`. -/
def ftrunc (x : F32) : F32 := toIntegral (fun u => u.tdiv (2 ^ 149)) x
/-- `std::round`: halves go away from zero. -/
def froundAway (x : F32) : F32 :=
  toIntegral (fun u => if u < 0 then -((2 * -u + 2 ^ 149) / (2 * 2 ^ 149)) else (2 * u + 2 ^ 149) / (2 * 2 ^ 149)) x
/-- `_MM_FROUND_TO_NEAREST_INT`, `vrndnq_f32`: halves go to the even neighbour. -/
def froundEven (x : F32) : F32 :=
  toIntegral (fun u =>
    if 2 * (u % 2 ^ 149) < 2 ^ 149 then u / 2 ^ 149
    else if 2 ^ 149 < 2 * (u % 2 ^ 149) then u / 2 ^ 149 + 1
    else u / 2 ^ 149 + u / 2 ^ 149 % 2) x

end F32

open F32

/-- The four rounding functions of the library. -/
inductive Rnd | round | floor | ceil | trunc
deriving DecidableEq

/-- The `<cmath>` function called by each scalar rounding function. -/
def Rnd.std : Rnd → F32 → F32
  | .round => froundAway | .floor => ffloor | .ceil => fceil | .trunc => ftrunc

/-- `round`, `floor`, `ceil`, `trunc` on `float2`, /repo/include/math/vector/float.hpp:679, 684, 689, 694. -/
def Float2.rnd (r : Rnd) (v : V2 F32) : V2 F32 :=
  match r with
  | .round => ⟨froundAway v.x, froundAway v.y⟩
  | .floor => ⟨ffloor v.x, ffloor v.y⟩
  | .ceil => ⟨fceil v.x, fceil v.y⟩
  | .trunc => ⟨ftrunc v.x, ftrunc v.y⟩

/-- `round`, `floor`, `ceil`, `trunc` on `float3`, /repo/include/math/vector/float.hpp:953, 958, 963, 968. -/
def Float3.rnd (r : Rnd) (v : V3 F32) : V3 F32 :=
  match r with
  | .round => ⟨froundAway v.x, froundAway v.y, froundAway v.z⟩
  | .floor => ⟨ffloor v.x, ffloor v.y, ffloor v.z⟩
  | .ceil => ⟨fceil v.x, fceil v.y, fceil v.z⟩
  | .trunc => ⟨ftrunc v.x, ftrunc v.y, ftrunc v.z⟩

/-- `round`, `floor`, `ceil`, `trunc` on `float4`, /repo/include/math/vector/float.hpp:1252-1255, 1260-1263, 1268-1271,
1276-1279. -/
def Float4.rnd (r : Rnd) (v : V4 F32) : V4 F32 :=
  match r with
  | .round => ⟨froundAway v.x, froundAway v.y, froundAway v.z, froundAway v.w⟩
  | .floor => ⟨ffloor v.x, ffloor v.y, ffloor v.z, ffloor v.w⟩
  | .ceil => ⟨fceil v.x, fceil v.y, fceil v.z, fceil v.w⟩
  | .trunc => ⟨ftrunc v.x, ftrunc v.y, ftrunc v.z, ftrunc v.w⟩

/-- `round`, `floor`, `ceil`, `trunc` on `f32x4`, /repo/include/math/simd/vector/float.hpp:911-920, 925-934, 939-948,
953-962. SSE without SSE4.1 and the plain fallback use the scalar vector functions. -/
def F32x4.rnd (k : Isa) (r : Rnd) (v : V4 F32) : V4 F32 :=
  match r with
  | .round => if k.hasSse41 then v.map froundEven else if k.hasNeon then v.map froundEven else Float4.rnd .round v
  | .floor => if k.hasSse41 then v.map ffloor else if k.hasNeon then v.map ffloor else Float4.rnd .floor v
  | .ceil => if k.hasSse41 then v.map fceil else if k.hasNeon then v.map fceil else Float4.rnd .ceil v
  | .trunc => if k.hasSse41 then v.map ftrunc else if k.hasNeon then v.map ftrunc else Float4.rnd .trunc v

end Verif
