import Verif.Model.IntOps
import Verif.Model.UintOps

/-!
# Operators of the SIMD integer vectors, for each instruction set

Models the operators of /repo/include/math/simd/vector/int.hpp and /repo/include/math/simd/vector/uint.hpp. A register is
four 32-bit lanes. `none` is undefined behaviour: the scalar fallback, and scalar negation of the shift count.
-/

namespace Verif

/-- The instruction sets selected by the preprocessor, /repo/include/math/simd/types.hpp:20-48. `__SSE4_1__` is not
defined by MSVC even with `/arch:AVX2`, so AVX2 without SSE4.1 (`avx2only`) is also a configuration. -/
inductive Isa
  | sse2 | sse41 | avx2 | avx2only | neon | scalar
deriving DecidableEq, Repr

namespace Isa
/-- `MATH_SIMD_SUPPORT_SSE`. -/
def hasSse : Isa → Bool | sse2 | sse41 | avx2 | avx2only => true | _ => false
/-- `MATH_SIMD_SUPPORT_SSE4_1`. -/
def hasSse41 : Isa → Bool | .sse41 | .avx2 => true | _ => false
/-- `MATH_SIMD_SUPPORT_AVX2`. -/
def hasAvx2 : Isa → Bool | .avx2 | .avx2only => true | _ => false
/-- `MATH_SIMD_SUPPORT_NEON`. -/
def hasNeon : Isa → Bool | .neon => true | _ => false
/-- The coarser classification used for comparisons and conversions, which do not depend on AVX2. -/
def toBackend : Isa → Backend
  | .sse2 => Backend.sse2 | .sse41 => Backend.sse41 | .avx2 => Backend.sse41
  | .avx2only => Backend.sse2 | .neon => Backend.neon | .scalar => Backend.scalar
end Isa

/-! ## One lane of the instructions -/
namespace Intrin
/-- `_mm_srav_epi32`: arithmetic right shift; counts (unsigned) above 31 fill with the sign. -/
def srav (a c : W) : W := a.sshiftRight c.toNat
/-- `_mm_srlv_epi32`: logical right shift; counts above 31 give zero. -/
def srlv (a c : W) : W := a >>> c.toNat
/-- `_mm_sllv_epi32`: left shift; counts above 31 give zero. -/
def sllv (a c : W) : W := a <<< c.toNat
/-- `_mm_srai_epi32(a, n)`, `_mm_srli_epi32(a, n)`, `_mm_slli_epi32(a, n)`. Only the low 8 bits of the count are encoded by
the immediate form; the model uses the whole count, which agrees for counts below 256. -/
def srai (a n : W) : W := a.sshiftRight n.toNat
@[inherit_doc srai] def srli (a n : W) : W := a >>> n.toNat
@[inherit_doc srai] def slli (a n : W) : W := a <<< n.toNat
/-- `vshlq_s32`: shift left by the signed low byte of the count; negative counts shift right arithmetically. -/
def vshlS (a c : W) : W :=
  let n := (c.setWidth 8).toInt
  if 0 ≤ n then a <<< n.toNat else a.sshiftRight (-n).toNat
/-- `vshlq_u32`: as `vshlq_s32`, but negative counts shift right logically. -/
def vshlU (a c : W) : W :=
  let n := (c.setWidth 8).toInt
  if 0 ≤ n then a <<< n.toNat else a >>> (-n).toNat
/-- `_mm_andnot_si128(a, b) = ~a & b`. -/
def andnot (a b : W) : W := ~~~a &&& b
/-- `vminvq_u32`: the unsigned minimum of the four lanes. -/
def vminv (v : V4 W) : W :=
  let m := fun a b : W => if b.ult a then b else a
  m (m (m v.x v.y) v.z) v.w
end Intrin

namespace I32x4

/-- `a op v` on `i32x4`. `+`, `-` and the bitwise operators are one instruction with SSE and NEON; `*` needs SSE4.1; `/` and
`%` always use the scalar vector; shifts by a vector need AVX2. Models /repo/include/math/simd/vector/int.hpp:399-482. -/
def bin (k : Isa) : BinOp → V4 W → V4 W → Option (V4 W)
  | .add, a, v => if k.hasSse || k.hasNeon then some (V4.map2 (· + ·) a v) else Int4.bin .add a v
  | .sub, a, v => if k.hasSse || k.hasNeon then some (V4.map2 (· - ·) a v) else Int4.bin .sub a v
  | .mul, a, v => if k.hasSse41 || k.hasNeon then some (V4.map2 (· * ·) a v) else Int4.bin .mul a v
  | .div, a, v => Int4.bin .div a v
  | .rem, a, v => Int4.bin .rem a v
  | .and, a, v => if k.hasSse || k.hasNeon then some (V4.map2 (· &&& ·) a v) else Int4.bin .and a v
  | .or, a, v => if k.hasSse || k.hasNeon then some (V4.map2 (· ||| ·) a v) else Int4.bin .or a v
  | .xor, a, v => if k.hasSse || k.hasNeon then some (V4.map2 (· ^^^ ·) a v) else Int4.bin .xor a v
  | .shr, a, v =>
    if k.hasAvx2 then some (V4.map2 Intrin.srav a v)
    else if k.hasNeon then some (V4.map2 Intrin.vshlS a (v.map (- ·)))
    else Int4.bin .shr a v
  | .shl, a, v =>
    if k.hasAvx2 then some (V4.map2 Intrin.sllv a v)
    else if k.hasNeon then some (V4.map2 Intrin.vshlS a v)
    else Int4.bin .shl a v

/-- `a op n` on `i32x4`: the scalar is broadcast, except that the shifts use the shift-by-one-count instructions.
Models /repo/include/math/simd/vector/int.hpp:483-502, 535-542. -/
def binS (k : Isa) : BinOp → V4 W → W → Option (V4 W)
  | .shr, a, n =>
    if k.hasSse then some (a.map (Intrin.srai · n))
    else if k.hasNeon then do return V4.map2 Intrin.vshlS a (V4.splat (← S32.un .neg n))
    else Int4.binS .shr a n
  | .shl, a, n =>
    if k.hasSse then some (a.map (Intrin.slli · n))
    else if k.hasNeon then some (V4.map2 Intrin.vshlS a (V4.splat n))
    else Int4.binS .shl a n
  | .add, a, n => bin k .add a (V4.splat n)
  | .sub, a, n => bin k .sub a (V4.splat n)
  | .mul, a, n => bin k .mul a (V4.splat n)
  | .div, a, n => bin k .div a (V4.splat n)
  | .rem, a, n => bin k .rem a (V4.splat n)
  | .and, a, n => bin k .and a (V4.splat n)
  | .or, a, n => bin k .or a (V4.splat n)
  | .xor, a, n => bin k .xor a (V4.splat n)

/-- `a op= v` on `i32x4`. Models /repo/include/math/simd/vector/int.hpp:544-553. -/
def asg (k : Isa) : BinOp → V4 W → V4 W → Option (V4 W)
  | .add, a, v => bin k .add a v
  | .sub, a, v => bin k .sub a v
  | .mul, a, v => bin k .mul a v
  | .div, a, v => bin k .div a v
  | .rem, a, v => bin k .rem a v
  | .and, a, v => bin k .and a v
  | .or, a, v => bin k .or a v
  | .xor, a, v => bin k .xor a v
  | .shr, a, v => bin k .shr a v
  | .shl, a, v => bin k .shl a v

/-- `a op= n` on `i32x4`. Models /repo/include/math/simd/vector/int.hpp:555-564. -/
def asgS (k : Isa) : BinOp → V4 W → W → Option (V4 W)
  | .add, a, n => bin k .add a (V4.splat n)
  | .sub, a, n => bin k .sub a (V4.splat n)
  | .mul, a, n => bin k .mul a (V4.splat n)
  | .div, a, n => bin k .div a (V4.splat n)
  | .rem, a, n => bin k .rem a (V4.splat n)
  | .and, a, n => bin k .and a (V4.splat n)
  | .or, a, n => bin k .or a (V4.splat n)
  | .xor, a, n => bin k .xor a (V4.splat n)
  | .shr, a, n => binS k .shr a n
  | .shl, a, n => binS k .shl a n

/-- `n op v` on `i32x4`. Models /repo/include/math/simd/vector/int.hpp:645-654. -/
def binL (k : Isa) : BinOp → W → V4 W → Option (V4 W)
  | .add, n, v => bin k .add (V4.splat n) v
  | .sub, n, v => bin k .sub (V4.splat n) v
  | .mul, n, v => bin k .mul (V4.splat n) v
  | .div, n, v => bin k .div (V4.splat n) v
  | .rem, n, v => bin k .rem (V4.splat n) v
  | .and, n, v => bin k .and (V4.splat n) v
  | .or, n, v => bin k .or (V4.splat n) v
  | .xor, n, v => bin k .xor (V4.splat n) v
  | .shr, n, v => bin k .shr (V4.splat n) v
  | .shl, n, v => bin k .shl (V4.splat n) v

/-- `-a`, `!a`, `~a` on `i32x4`. Models /repo/include/math/simd/vector/int.hpp:503-532. -/
def un (k : Isa) : UnOp → V4 W → Option (V4 W)
  | .neg, a =>
    if k.hasSse then some (V4.map2 (· - ·) (V4.splat 0#32) a) else if k.hasNeon then some (a.map (- ·)) else Int4.un .neg a
  | .lnot, a => if k.hasSse || k.hasNeon then some (a.map fun x => mask (x == 0#32) &&& 1#32) else Int4.un .lnot a
  | .bnot, a => if k.hasSse then some (V4.map2 (· ^^^ ·) a (V4.splat 0xFFFFFFFF#32))
    else if k.hasNeon then some (a.map (~~~ ·)) else Int4.un .bnot a

/-- `a = n` on `i32x4`. Models /repo/include/math/simd/vector/int.hpp:565. -/
def set (_a : V4 W) (n : W) : V4 W := V4.splat n

/-- `a == v` on `i32x4`. Models /repo/include/math/simd/vector/int.hpp:568-577. -/
def eq (k : Isa) (a v : V4 W) : Bool :=
  let m := V4.map2 (fun x y => mask (x == y)) a v
  if k.hasSse then Sse.movemask8 m == 0xFFFF
  else if k.hasNeon then Intrin.vminv m == 0xFFFFFFFF#32
  else Int4.eq a v

/-- `a != v` on `i32x4`. Models /repo/include/math/simd/vector/int.hpp:578-587. -/
def ne (k : Isa) (a v : V4 W) : Bool :=
  let m := V4.map2 (fun x y => mask (x == y)) a v
  if k.hasSse then Sse.movemask8 m != 0xFFFF
  else if k.hasNeon then Intrin.vminv m == 0#32
  else Int4.ne a v

/-- `a == n`, `a != n`, `n == v`, `n != v` on `i32x4`. Models /repo/include/math/simd/vector/int.hpp:629-630, 655-656. -/
def eqS (k : Isa) (a : V4 W) (n : W) : Bool := eq k a (V4.splat n)
@[inherit_doc eqS] def neS (k : Isa) (a : V4 W) (n : W) : Bool := ne k a (V4.splat n)
@[inherit_doc eqS] def eqL (k : Isa) (n : W) (v : V4 W) : Bool := eq k (V4.splat n) v
@[inherit_doc eqS] def neL (k : Isa) (n : W) (v : V4 W) : Bool := ne k (V4.splat n) v

/-- Comparisons with a scalar on the right on `i32x4`. Models /repo/include/math/simd/vector/int.hpp:631-634. -/
def cmpS (k : Isa) (c : Cmp) (a : V4 W) (n : W) : V4 W := Backend.cmpI k.toBackend c a (V4.splat n)
/-- Comparisons with a scalar on the left on `i32x4`. Models /repo/include/math/simd/vector/int.hpp:657-660. -/
def cmpL (k : Isa) (c : Cmp) (n : W) (v : V4 W) : V4 W := Backend.cmpI k.toBackend c (V4.splat n) v

/-- `bic(a, b)` on `i32x4`. Models /repo/include/math/simd/vector/int.hpp:724-733. -/
def bic (k : Isa) (a b : V4 W) : Option (V4 W) :=
  if k.hasSse then some (V4.map2 Intrin.andnot b a)
  else if k.hasNeon then some (V4.map2 (fun x y => x &&& ~~~y) a b)
  else do Int4.bin .and a (← Int4.un .bnot b)

end I32x4

namespace U32x4

/-- `a op v` on `u32x4`. `+`, `-` and the bitwise operators are one instruction with SSE and NEON; `*` needs SSE4.1; `/` and
`%` always use the scalar vector; shifts by a vector need AVX2. Models /repo/include/math/simd/vector/uint.hpp:376-459. -/
def bin (k : Isa) : BinOp → V4 W → V4 W → Option (V4 W)
  | .add, a, v => if k.hasSse || k.hasNeon then some (V4.map2 (· + ·) a v) else Uint4.bin .add a v
  | .sub, a, v => if k.hasSse || k.hasNeon then some (V4.map2 (· - ·) a v) else Uint4.bin .sub a v
  | .mul, a, v => if k.hasSse41 || k.hasNeon then some (V4.map2 (· * ·) a v) else Uint4.bin .mul a v
  | .div, a, v => Uint4.bin .div a v
  | .rem, a, v => Uint4.bin .rem a v
  | .and, a, v => if k.hasSse || k.hasNeon then some (V4.map2 (· &&& ·) a v) else Uint4.bin .and a v
  | .or, a, v => if k.hasSse || k.hasNeon then some (V4.map2 (· ||| ·) a v) else Uint4.bin .or a v
  | .xor, a, v => if k.hasSse || k.hasNeon then some (V4.map2 (· ^^^ ·) a v) else Uint4.bin .xor a v
  | .shr, a, v =>
    if k.hasAvx2 then some (V4.map2 Intrin.srlv a v)
    else if k.hasNeon then some (V4.map2 Intrin.vshlU a (v.map (- ·)))
    else Uint4.bin .shr a v
  | .shl, a, v =>
    if k.hasAvx2 then some (V4.map2 Intrin.sllv a v)
    else if k.hasNeon then some (V4.map2 Intrin.vshlU a v)
    else Uint4.bin .shl a v

/-- `a op n` on `u32x4`: the scalar is broadcast, except that the shifts use the shift-by-one-count instructions.
Models /repo/include/math/simd/vector/uint.hpp:460-479, 502-509. -/
def binS (k : Isa) : BinOp → V4 W → W → Option (V4 W)
  | .shr, a, n =>
    if k.hasSse then some (a.map (Intrin.srli · n))
    else if k.hasNeon then do return V4.map2 Intrin.vshlU a (V4.splat (← S32.un .neg n))
    else Uint4.binS .shr a n
  | .shl, a, n =>
    if k.hasSse then some (a.map (Intrin.slli · n))
    else if k.hasNeon then some (V4.map2 Intrin.vshlU a (V4.splat n))
    else Uint4.binS .shl a n
  | .add, a, n => bin k .add a (V4.splat n)
  | .sub, a, n => bin k .sub a (V4.splat n)
  | .mul, a, n => bin k .mul a (V4.splat n)
  | .div, a, n => bin k .div a (V4.splat n)
  | .rem, a, n => bin k .rem a (V4.splat n)
  | .and, a, n => bin k .and a (V4.splat n)
  | .or, a, n => bin k .or a (V4.splat n)
  | .xor, a, n => bin k .xor a (V4.splat n)

/-- `a op= v` on `u32x4`. Models /repo/include/math/simd/vector/uint.hpp:511-520. -/
def asg (k : Isa) : BinOp → V4 W → V4 W → Option (V4 W)
  | .add, a, v => bin k .add a v
  | .sub, a, v => bin k .sub a v
  | .mul, a, v => bin k .mul a v
  | .div, a, v => bin k .div a v
  | .rem, a, v => bin k .rem a v
  | .and, a, v => bin k .and a v
  | .or, a, v => bin k .or a v
  | .xor, a, v => bin k .xor a v
  | .shr, a, v => bin k .shr a v
  | .shl, a, v => bin k .shl a v

/-- `a op= n` on `u32x4`. Models /repo/include/math/simd/vector/uint.hpp:522-531. -/
def asgS (k : Isa) : BinOp → V4 W → W → Option (V4 W)
  | .add, a, n => bin k .add a (V4.splat n)
  | .sub, a, n => bin k .sub a (V4.splat n)
  | .mul, a, n => bin k .mul a (V4.splat n)
  | .div, a, n => bin k .div a (V4.splat n)
  | .rem, a, n => bin k .rem a (V4.splat n)
  | .and, a, n => bin k .and a (V4.splat n)
  | .or, a, n => bin k .or a (V4.splat n)
  | .xor, a, n => bin k .xor a (V4.splat n)
  | .shr, a, n => binS k .shr a n
  | .shl, a, n => binS k .shl a n

/-- `n op v` on `u32x4`. Models /repo/include/math/simd/vector/uint.hpp:610-619. -/
def binL (k : Isa) : BinOp → W → V4 W → Option (V4 W)
  | .add, n, v => bin k .add (V4.splat n) v
  | .sub, n, v => bin k .sub (V4.splat n) v
  | .mul, n, v => bin k .mul (V4.splat n) v
  | .div, n, v => bin k .div (V4.splat n) v
  | .rem, n, v => bin k .rem (V4.splat n) v
  | .and, n, v => bin k .and (V4.splat n) v
  | .or, n, v => bin k .or (V4.splat n) v
  | .xor, n, v => bin k .xor (V4.splat n) v
  | .shr, n, v => bin k .shr (V4.splat n) v
  | .shl, n, v => bin k .shl (V4.splat n) v

/-- `!a`, `~a` on `u32x4`; there is no unary minus, its line only makes the function total.
Models /repo/include/math/simd/vector/uint.hpp:480-499. -/
def un (k : Isa) : UnOp → V4 W → Option (V4 W)
  | .neg, a => Uint4.un .neg a
  | .lnot, a => if k.hasSse || k.hasNeon then some (a.map fun x => mask (x == 0#32) &&& 1#32) else Uint4.un .lnot a
  | .bnot, a => if k.hasSse then some (V4.map2 (· ^^^ ·) a (V4.splat 0xFFFFFFFF#32))
    else if k.hasNeon then some (a.map (~~~ ·)) else Uint4.un .bnot a

/-- `a = n` on `u32x4`. Models /repo/include/math/simd/vector/uint.hpp:532. -/
def set (_a : V4 W) (n : W) : V4 W := V4.splat n

/-- `a == v` on `u32x4`. Models /repo/include/math/simd/vector/uint.hpp:535-544. -/
def eq (k : Isa) (a v : V4 W) : Bool :=
  let m := V4.map2 (fun x y => mask (x == y)) a v
  if k.hasSse then Sse.movemask8 m == 0xFFFF
  else if k.hasNeon then Intrin.vminv m == 0xFFFFFFFF#32
  else Uint4.eq a v

/-- `a != v` on `u32x4`. Models /repo/include/math/simd/vector/uint.hpp:545-554. -/
def ne (k : Isa) (a v : V4 W) : Bool :=
  let m := V4.map2 (fun x y => mask (x == y)) a v
  if k.hasSse then Sse.movemask8 m != 0xFFFF
  else if k.hasNeon then Intrin.vminv m == 0#32
  else Uint4.ne a v

/-- `a == n`, `a != n`, `n == v`, `n != v` on `u32x4`. Models /repo/include/math/simd/vector/uint.hpp:596-597, 620-621. -/
def eqS (k : Isa) (a : V4 W) (n : W) : Bool := eq k a (V4.splat n)
@[inherit_doc eqS] def neS (k : Isa) (a : V4 W) (n : W) : Bool := ne k a (V4.splat n)
@[inherit_doc eqS] def eqL (k : Isa) (n : W) (v : V4 W) : Bool := eq k (V4.splat n) v
@[inherit_doc eqS] def neL (k : Isa) (n : W) (v : V4 W) : Bool := ne k (V4.splat n) v

/-- Comparisons with a scalar on the right on `u32x4`. Models /repo/include/math/simd/vector/uint.hpp:598-601. -/
def cmpS (k : Isa) (c : Cmp) (a : V4 W) (n : W) : V4 W := Backend.cmpU k.toBackend c a (V4.splat n)
/-- Comparisons with a scalar on the left on `u32x4`. Models /repo/include/math/simd/vector/uint.hpp:622-625. -/
def cmpL (k : Isa) (c : Cmp) (n : W) (v : V4 W) : V4 W := Backend.cmpU k.toBackend c (V4.splat n) v

/-- `bic(a, b)` on `u32x4`. Models /repo/include/math/simd/vector/uint.hpp:746-755. -/
def bic (k : Isa) (a b : V4 W) : Option (V4 W) :=
  if k.hasSse then some (V4.map2 Intrin.andnot b a)
  else if k.hasNeon then some (V4.map2 (fun x y => x &&& ~~~y) a b)
  else do Uint4.bin .and a (← Uint4.un .bnot b)

end U32x4

end Verif
