import Verif.Model.Rounding

/-!
# Element-wise functions of floating-point vectors, on binary32

`fma`, `abs`, `sqrt`, `sign`, `signBits`, `mod`, `repeat`, `lerp` of `float`, `float2`, `float3`, `float4` and `f32x4`,
with every instruction set of the last. `Verif.Model.Scalar` has the same helpers over an arbitrary scalar.
-/

namespace Verif
namespace F32

/-- `std::fmod`: the exact remainder of the division truncated towards zero, with the sign of `x`; NaN for an infinite `x`
or a zero `y`. The remainder is computed on the integers that count units of `2^-149`. -/
def ffmod (x y : F32) : F32 :=
  if x.isNaN || y.isNaN || x.isInf || y.mag == 0 then nan
  else if y.isInf then x
  else ofParts x.signBit (roundMag (magUnits x.mag % magUnits y.mag) 1)

/-- The literals `0.0f`, `1.0f` and `-1.0f`. -/
def c0 : F32 := ⟨0⟩
@[inherit_doc c0] def c1 : F32 := ⟨0x3F800000⟩
@[inherit_doc c0] def cm1 : F32 := ⟨0xBF800000⟩

/-- `sign(float)`, /repo/include/math/common.hpp:68. -/
def sign1 (v : F32) : F32 := if v.signBit then cm1 else c1

/-- `repeat(float)`, /repo/include/math/common.hpp:73-80. -/
def repeat1 (v : F32) : F32 :=
  if ltb v c0 then fsub c1 (ffmod (fneg v) c1)
  else if leb c1 v then ffmod v c1
  else v

/-- `lerp(float, float, float)`, /repo/include/math/common.hpp:89. -/
def lerp1 (a b t : F32) : F32 := fadd a (fmul t (fsub b a))

end F32

open F32

namespace Float2
/-- `fma`, /repo/include/math/vector/float.hpp:650-653. -/
def fma (a b c : V2 F32) : V2 F32 := ⟨ffma a.x b.x c.x, ffma a.y b.y c.y⟩
/-- `abs`, /repo/include/math/vector/float.hpp:658. -/
def abs (v : V2 F32) : V2 F32 := ⟨fabs v.x, fabs v.y⟩
/-- `sqrt`, /repo/include/math/vector/float.hpp:663. -/
def sqrt (v : V2 F32) : V2 F32 := ⟨fsqrt v.x, fsqrt v.y⟩
/-- `sign`, /repo/include/math/vector/float.hpp:668. -/
def sign (v : V2 F32) : V2 F32 := ⟨sign1 v.x, sign1 v.y⟩
/-- `signBits`, /repo/include/math/vector/float.hpp:673. -/
def signBits (v : V2 F32) : W := (if v.x.signBit then 1#32 else 0#32) ||| (if v.y.signBit then 2#32 else 0#32)
/-- `mod`, /repo/include/math/vector/float.hpp:1397. -/
def mod (a b : V2 F32) : V2 F32 := ⟨ffmod a.x b.x, ffmod a.y b.y⟩
/-- `repeat`, /repo/include/math/vector/float.hpp:762. -/
def repeat' (v : V2 F32) : V2 F32 := ⟨repeat1 v.x, repeat1 v.y⟩
/-- `lerp`, /repo/include/math/vector/float.hpp:771. -/
def lerp (a b : V2 F32) (t : F32) : V2 F32 := bin .add (binS .mul a (fsub c1 t)) (binS .mul b t)
end Float2

namespace Float3
/-- `fma`, /repo/include/math/vector/float.hpp:921-924. -/
def fma (a b c : V3 F32) : V3 F32 := ⟨ffma a.x b.x c.x, ffma a.y b.y c.y, ffma a.z b.z c.z⟩
/-- `abs`, /repo/include/math/vector/float.hpp:929. -/
def abs (v : V3 F32) : V3 F32 := ⟨fabs v.x, fabs v.y, fabs v.z⟩
/-- `sqrt`, /repo/include/math/vector/float.hpp:934. -/
def sqrt (v : V3 F32) : V3 F32 := ⟨fsqrt v.x, fsqrt v.y, fsqrt v.z⟩
/-- `sign`, /repo/include/math/vector/float.hpp:939. -/
def sign (v : V3 F32) : V3 F32 := ⟨sign1 v.x, sign1 v.y, sign1 v.z⟩
/-- `signBits`, /repo/include/math/vector/float.hpp:944-947. -/
def signBits (v : V3 F32) : W :=
  (if v.x.signBit then 1#32 else 0#32) ||| (if v.y.signBit then 2#32 else 0#32) ||| (if v.z.signBit then 4#32 else 0#32)
/-- `mod`, /repo/include/math/vector/float.hpp:1421-1424. -/
def mod (a b : V3 F32) : V3 F32 := ⟨ffmod a.x b.x, ffmod a.y b.y, ffmod a.z b.z⟩
/-- `repeat`, /repo/include/math/vector/float.hpp:1046. -/
def repeat' (v : V3 F32) : V3 F32 := ⟨repeat1 v.x, repeat1 v.y, repeat1 v.z⟩
/-- `lerp`, /repo/include/math/vector/float.hpp:1055. -/
def lerp (a b : V3 F32) (t : F32) : V3 F32 := bin .add (binS .mul a (fsub c1 t)) (binS .mul b t)
end Float3

namespace Float4
/-- `fma`, /repo/include/math/vector/float.hpp:1215-1219. -/
def fma (a b c : V4 F32) : V4 F32 := ⟨ffma a.x b.x c.x, ffma a.y b.y c.y, ffma a.z b.z c.z, ffma a.w b.w c.w⟩
/-- `abs`, /repo/include/math/vector/float.hpp:1224. -/
def abs (v : V4 F32) : V4 F32 := ⟨fabs v.x, fabs v.y, fabs v.z, fabs v.w⟩
/-- `sqrt`, /repo/include/math/vector/float.hpp:1229-1232. -/
def sqrt (v : V4 F32) : V4 F32 := ⟨fsqrt v.x, fsqrt v.y, fsqrt v.z, fsqrt v.w⟩
/-- `sign`, /repo/include/math/vector/float.hpp:1237. -/
def sign (v : V4 F32) : V4 F32 := ⟨sign1 v.x, sign1 v.y, sign1 v.z, sign1 v.w⟩
/-- `signBits`, /repo/include/math/vector/float.hpp:1242-1246. -/
def signBits (v : V4 F32) : W :=
  (if v.x.signBit then 1#32 else 0#32) ||| (if v.y.signBit then 2#32 else 0#32) |||
    (if v.z.signBit then 4#32 else 0#32) ||| (if v.w.signBit then 8#32 else 0#32)
/-- `mod`, /repo/include/math/vector/float.hpp:1451-1454. -/
def mod (a b : V4 F32) : V4 F32 := ⟨ffmod a.x b.x, ffmod a.y b.y, ffmod a.z b.z, ffmod a.w b.w⟩
/-- `repeat`, /repo/include/math/vector/float.hpp:1347. -/
def repeat' (v : V4 F32) : V4 F32 := ⟨repeat1 v.x, repeat1 v.y, repeat1 v.z, repeat1 v.w⟩
/-- `lerp`, /repo/include/math/vector/float.hpp:1356. -/
def lerp (a b : V4 F32) (t : F32) : V4 F32 := bin .add (binS .mul a (fsub c1 t)) (binS .mul b t)
end Float4

namespace F32x4

/-- `fma`, /repo/include/math/simd/vector/float.hpp:24-30, 836-843: `_mm_fmadd_ps` with AVX2, a multiplication and an addition
with SSE, `vmlaq_f32` on NEON (which compilers may or may not fuse: `fused`), `std::fma` in the plain fallback. -/
def fma (k : Isa) (fused : Bool) (a b c : V4 F32) : V4 F32 :=
  if k.hasAvx2 then ⟨ffma a.x b.x c.x, ffma a.y b.y c.y, ffma a.z b.z c.z, ffma a.w b.w c.w⟩
  else if k.hasSse then V4.map2 fadd c (V4.map2 fmul a b)
  else if k.hasNeon then
    if fused then ⟨ffma a.x b.x c.x, ffma a.y b.y c.y, ffma a.z b.z c.z, ffma a.w b.w c.w⟩
    else V4.map2 fadd c (V4.map2 fmul a b)
  else Float4.fma a b c
/-- `abs`, /repo/include/math/simd/vector/float.hpp:848-860: the `and` with `0x7FFFFFFF`, `vabsq_f32`, or the scalar vector.
The non-IEC-559 branch (lines 853-854) is not modelled. -/
def abs (k : Isa) (v : V4 F32) : V4 F32 :=
  if k.hasSse then v.map fun x => ⟨x.bits &&& 0x7FFFFFFF#32⟩
  else if k.hasNeon then v.map fabs
  else Float4.abs v
/-- `sqrt`, /repo/include/math/simd/vector/float.hpp:865-874. -/
def sqrt (k : Isa) (v : V4 F32) : V4 F32 :=
  if k.hasSse then v.map fsqrt else if k.hasNeon then v.map fsqrt else Float4.sqrt v
/-- `sign`, /repo/include/math/simd/vector/float.hpp:880-890: `(v & -1.0f) | 1.0f` on the bits. -/
def sign (k : Isa) (v : V4 F32) : V4 F32 :=
  if k.hasSse then v.map fun x => ⟨(x.bits &&& cm1.bits) ||| c1.bits⟩
  else if k.hasNeon then v.map fun x => ⟨(x.bits &&& cm1.bits) ||| c1.bits⟩
  else Float4.sign v
/-- `signBits`, /repo/include/math/simd/vector/float.hpp:895-905: `_mm_movemask_ps`; on NEON the top bits are shifted into
place and added. -/
def signBits (k : Isa) (v : V4 F32) : W :=
  if k.hasSse then
    BitVec.ofNat 32 ((if v.x.bits.msb then 1 else 0) + (if v.y.bits.msb then 2 else 0) + (if v.z.bits.msb then 4 else 0)
      + (if v.w.bits.msb then 8 else 0))
  else if k.hasNeon then
    (v.x.bits >>> 31) + ((v.y.bits >>> 31) <<< 1) + ((v.z.bits >>> 31) <<< 2) + ((v.w.bits >>> 31) <<< 3)
  else Float4.signBits v
/-- `select`, /repo/include/math/simd/vector/float.hpp:728-740: `_mm_blendv_ps` looks at the top bit; SSE2 and NEON spread it
over the word first. The plain fallback does not compile (`c.floats` is not an unsigned vector); it is given the meaning of
the other branches. -/
def select (k : Isa) (c : V4 W) (t f : V4 F32) : V4 F32 :=
  let blend (c : W) (t f : F32) : F32 := if c.msb then t else f
  let bits (c : W) (t f : F32) : F32 := ⟨(c.sshiftRight 31 &&& t.bits) ||| (~~~(c.sshiftRight 31) &&& f.bits)⟩
  if k.hasSse41 then ⟨blend c.x t.x f.x, blend c.y t.y f.y, blend c.z t.z f.z, blend c.w t.w f.w⟩
  else if k.hasSse then ⟨bits c.x t.x f.x, bits c.y t.y f.y, bits c.z t.z f.z, bits c.w t.w f.w⟩
  else if k.hasNeon then ⟨bits c.x t.x f.x, bits c.y t.y f.y, bits c.z t.z f.z, bits c.w t.w f.w⟩
  else V4.select c t f
/-- `mod`, /repo/include/math/simd/vector/float.hpp:1180-1183. -/
def mod (k : Isa) (n d : V4 F32) : V4 F32 := bin k .sub n (bin k .mul (rnd k .floor (bin k .div n d)) d)
/-- `repeat`, /repo/include/math/simd/vector/float.hpp:1346-1350. -/
def repeat' (k : Isa) (v : V4 F32) : V4 F32 :=
  let r := select k (cmpS k .lt v c0) (binL k .sub c1 (mod k (neg k v) (V4.splat c1))) v
  select k (cmpS k .lt v c1) r (mod k v (V4.splat c1))
/-- `lerp`, /repo/include/math/simd/vector/float.hpp:1359. -/
def lerp (k : Isa) (a b : V4 F32) (t : F32) : V4 F32 := bin k .add (binS k .mul a (fsub c1 t)) (binS k .mul b t)

end F32x4
end Verif
