import Verif.Model.Flt
import Verif.Model.Attr

/-!
# Vectors

`V2 α`, `V3 α`, `V4 α` model `float2/3/4`, `uint2/3/4`, `int2/3/4` (component type `α`) and, for `V4`,
the SIMD types `f32x4`, `u32x4`, `i32x4`, whose fourth lane is an ordinary component here. The
functions in the namespaces `V2`, `V3`, `V4` are the scalar ones of /repo/include/math/vector/*.hpp; the
ones in `Simd` are those of /repo/include/math/simd/vector/float.hpp in the SSE4.1 + AVX2/FMA
configuration.
-/

namespace Verif

/-- Two components. Models /repo/include/math/vector/uint.hpp:39-42, int.hpp:31-34, float.hpp:33-36. -/
structure V2 (α : Type) where
  x : α
  y : α
deriving DecidableEq, Repr

/-- Three components. Models /repo/include/math/vector/uint.hpp:161-165, int.hpp:171-175,
float.hpp:168-173. -/
structure V3 (α : Type) where
  x : α
  y : α
  z : α
deriving DecidableEq, Repr

/-- Four components / lanes. Models /repo/include/math/vector/uint.hpp:303-308, int.hpp:337-342,
float.hpp:334-340 and /repo/include/math/simd/vector/float.hpp:40-50, uint.hpp, int.hpp. -/
structure V4 (α : Type) where
  x : α
  y : α
  z : α
  w : α
deriving DecidableEq, Repr

/-- A comparison result lane: `cond ? UINT32_MAX : 0`, also the lane format of `_mm_cmp*`.
Models /repo/include/math/vector/float.hpp:122-137 (the conditional expression). -/
def mask (b : Bool) : BitVec 32 := if b then 0xFFFFFFFF#32 else 0#32

/-- `c & 0x80000000u` as a condition. Models /repo/include/math/vector/float.hpp:597 and the lane control
of `_mm_blendv_ps`, /repo/include/math/simd/vector/float.hpp:731. -/
def top (c : BitVec 32) : Bool := c.getLsbD 31

namespace V2
variable {α β γ : Type}
/-- Component-wise unary function. -/
@[vec] def map (f : α → β) (v : V2 α) : V2 β := ⟨f v.x, f v.y⟩
/-- Component-wise binary function; the shape of every operator in
/repo/include/math/vector/float.hpp:102-143. -/
@[vec] def map2 (f : α → β → γ) (a : V2 α) (b : V2 β) : V2 γ := ⟨f a.x b.x, f a.y b.y⟩
/-- Splat constructor, /repo/include/math/vector/float.hpp:42. -/
@[vec] def splat (n : α) : V2 α := ⟨n, n⟩
/-- The components in memory order. -/
def toList (v : V2 α) : List α := [v.x, v.y]
/-- Comparison operator returning a mask, /repo/include/math/vector/float.hpp:122-137. -/
@[vec] def cmp (p : α → β → Bool) (a : V2 α) (b : V2 β) : V2 (BitVec 32) := map2 (fun x y => mask (p x y)) a b
/-- `select`, /repo/include/math/vector/float.hpp:595-598, uint.hpp:566-569, int.hpp:599-602. -/
@[vec] def select (c : V2 (BitVec 32)) (t f : V2 α) : V2 α :=
  ⟨if top c.x then t.x else f.x, if top c.y then t.y else f.y⟩
end V2

namespace V3
variable {α β γ : Type}
/-- Component-wise unary function. -/
@[vec] def map (f : α → β) (v : V3 α) : V3 β := ⟨f v.x, f v.y, f v.z⟩
/-- Component-wise binary function; the shape of the operators in
/repo/include/math/vector/float.hpp:266-307. -/
@[vec] def map2 (f : α → β → γ) (a : V3 α) (b : V3 β) : V3 γ := ⟨f a.x b.x, f a.y b.y, f a.z b.z⟩
/-- Splat constructor, /repo/include/math/vector/float.hpp:179. -/
@[vec] def splat (n : α) : V3 α := ⟨n, n, n⟩
/-- The components in memory order. -/
def toList (v : V3 α) : List α := [v.x, v.y, v.z]
/-- Comparison operator returning a mask, /repo/include/math/vector/float.hpp:286-301. -/
@[vec] def cmp (p : α → β → Bool) (a : V3 α) (b : V3 β) : V3 (BitVec 32) := map2 (fun x y => mask (p x y)) a b
/-- `select`, /repo/include/math/vector/float.hpp:860-864, uint.hpp:704-707, int.hpp:707-710. -/
@[vec] def select (c : V3 (BitVec 32)) (t f : V3 α) : V3 α :=
  ⟨if top c.x then t.x else f.x, if top c.y then t.y else f.y, if top c.z then t.z else f.z⟩
end V3

namespace V4
variable {α β γ δ : Type}
/-- Component-wise unary function. -/
@[vec] def map (f : α → β) (v : V4 α) : V4 β := ⟨f v.x, f v.y, f v.z, f v.w⟩
/-- Component-wise binary function; the shape of the operators in
/repo/include/math/vector/float.hpp:479-524 and of the `_mm_*_ps` intrinsics. -/
@[vec] def map2 (f : α → β → γ) (a : V4 α) (b : V4 β) : V4 γ := ⟨f a.x b.x, f a.y b.y, f a.z b.z, f a.w b.w⟩
/-- Component-wise ternary function. -/
@[vec] def map3 (f : α → β → γ → δ) (a : V4 α) (b : V4 β) (c : V4 γ) : V4 δ :=
  ⟨f a.x b.x c.x, f a.y b.y c.y, f a.z b.z c.z, f a.w b.w c.w⟩
/-- Splat constructor, /repo/include/math/vector/float.hpp:346, simd/vector/float.hpp:70-79. -/
@[vec] def splat (n : α) : V4 α := ⟨n, n, n, n⟩
/-- The components in memory order. -/
def toList (v : V4 α) : List α := [v.x, v.y, v.z, v.w]
/-- `(float3)v`, /repo/include/math/vector/float.hpp:468, simd/vector/float.hpp:424. -/
@[vec] def xyz (v : V4 α) : V3 α := ⟨v.x, v.y, v.z⟩
/-- `f32x4(float3)`: the z component is duplicated into the fourth lane,
/repo/include/math/simd/vector/float.hpp:190-199 (and 106-115). -/
@[vec] def ofV3 (v : V3 α) : V4 α := ⟨v.x, v.y, v.z, v.z⟩
/-- `f32x4(float2)`, /repo/include/math/simd/vector/float.hpp:204-213. -/
@[vec] def ofV2 (v : V2 α) : V4 α := ⟨v.x, v.y, v.y, v.y⟩
/-- `f32x4(f32x4 xyz, float w)`, /repo/include/math/simd/vector/float.hpp:122-133. -/
@[vec] def withW (v : V4 α) (w : α) : V4 α := ⟨v.x, v.y, v.z, w⟩
/-- Comparison operator returning a mask, /repo/include/math/vector/float.hpp:499-518 and
/repo/include/math/simd/vector/float.hpp:528-567. -/
@[vec] def cmp (p : α → β → Bool) (a : V4 α) (b : V4 β) : V4 (BitVec 32) := map2 (fun x y => mask (p x y)) a b
/-- `select`, /repo/include/math/vector/float.hpp:1152-1156, uint.hpp:847-851, int.hpp:826-830,
simd/vector/float.hpp:728-740. -/
@[vec] def select (c : V4 (BitVec 32)) (t f : V4 α) : V4 α :=
  ⟨if top c.x then t.x else f.x, if top c.y then t.y else f.y,
   if top c.z then t.z else f.z, if top c.w then t.w else f.w⟩
/-- Lane by index, `operator[]`. /repo/include/math/simd/vector/float.hpp:383-388. -/
@[vec] def get (v : V4 α) : Fin 4 → α
  | 0 => v.x | 1 => v.y | 2 => v.z | 3 => v.w
/-- `v.swizzle<i, j, k, l>()` = `_mm_shuffle_ps` / `_mm_shuffle_epi32`,
/repo/include/math/simd/vector/float.hpp:357-372. The enumerators are SwX..SwW = 0..3 and SwU = 2
(/repo/include/math/simd/vector/uint.hpp:27-31). -/
@[vec] def swizzle (v : V4 α) (i j k l : Fin 4) : V4 α := ⟨v.get i, v.get j, v.get k, v.get l⟩
end V4

section arith
variable {F : Type} [Flt F]

namespace V2
/-- `a + b`, /repo/include/math/vector/float.hpp:102. -/
@[vec] def add (a b : V2 F) : V2 F := map2 Flt.add a b
/-- `a - b`, /repo/include/math/vector/float.hpp:103. -/
@[vec] def sub (a b : V2 F) : V2 F := map2 Flt.sub a b
/-- `a * b`, /repo/include/math/vector/float.hpp:104. -/
@[vec] def mul (a b : V2 F) : V2 F := map2 Flt.mul a b
/-- `a / b`, /repo/include/math/vector/float.hpp:105. -/
@[vec] def div (a b : V2 F) : V2 F := map2 Flt.div a b
/-- `a * n`, /repo/include/math/vector/float.hpp:108. -/
@[vec] def smul (a : V2 F) (n : F) : V2 F := ⟨a.x *. n, a.y *. n⟩
/-- `dot`, /repo/include/math/vector/float.hpp:702. -/
@[vec] def dot (a b : V2 F) : F := a.x *. b.x +. a.y *. b.y
/-- `length`, /repo/include/math/vector/float.hpp:709-714. -/
@[vec] def length (v : V2 F) : F := Flt.sqrt (dot v v)
/-- `normalize`, /repo/include/math/vector/float.hpp:746. -/
@[vec] def normalize (v : V2 F) : V2 F := smul v (Flt.lit 1 /. length v)
end V2

namespace V3
/-- `a + b`, /repo/include/math/vector/float.hpp:266. -/
@[vec] def add (a b : V3 F) : V3 F := map2 Flt.add a b
/-- `a - b`, /repo/include/math/vector/float.hpp:267. -/
@[vec] def sub (a b : V3 F) : V3 F := map2 Flt.sub a b
/-- `a * b`, /repo/include/math/vector/float.hpp:268. -/
@[vec] def mul (a b : V3 F) : V3 F := map2 Flt.mul a b
/-- `a / b`, /repo/include/math/vector/float.hpp:269. -/
@[vec] def div (a b : V3 F) : V3 F := map2 Flt.div a b
/-- `a * n`, /repo/include/math/vector/float.hpp:272. -/
@[vec] def smul (a : V3 F) (n : F) : V3 F := ⟨a.x *. n, a.y *. n, a.z *. n⟩
/-- `dot`, /repo/include/math/vector/float.hpp:976. -/
@[vec] def dot (a b : V3 F) : F := a.x *. b.x +. a.y *. b.y +. a.z *. b.z
/-- `cross`, /repo/include/math/vector/float.hpp:983-986. -/
@[vec] def cross (a b : V3 F) : V3 F :=
  ⟨a.y *. b.z -. a.z *. b.y, a.z *. b.x -. a.x *. b.z, a.x *. b.y -. a.y *. b.x⟩
/-- `length`, /repo/include/math/vector/float.hpp:993-998. -/
@[vec] def length (v : V3 F) : F := Flt.sqrt (dot v v)
/-- `normalize`, /repo/include/math/vector/float.hpp:1030. -/
@[vec] def normalize (v : V3 F) : V3 F := smul v (Flt.lit 1 /. length v)
end V3

namespace V4
/-- `a + b`, /repo/include/math/vector/float.hpp:479, simd/vector/float.hpp:435-444. -/
@[vec] def add (a b : V4 F) : V4 F := map2 Flt.add a b
/-- `a - b`, /repo/include/math/vector/float.hpp:480, simd/vector/float.hpp:445-454. -/
@[vec] def sub (a b : V4 F) : V4 F := map2 Flt.sub a b
/-- `a * b`, /repo/include/math/vector/float.hpp:481, simd/vector/float.hpp:455-464. -/
@[vec] def mul (a b : V4 F) : V4 F := map2 Flt.mul a b
/-- `a / b`, /repo/include/math/vector/float.hpp:482, simd/vector/float.hpp:465-474. -/
@[vec] def div (a b : V4 F) : V4 F := map2 Flt.div a b
/-- `-a`, /repo/include/math/vector/float.hpp:487, simd/vector/float.hpp:475-484. -/
@[vec] def neg (a : V4 F) : V4 F := map Flt.neg a
/-- `a * n`, /repo/include/math/vector/float.hpp:485, simd/vector/float.hpp:487-494. -/
@[vec] def smul (a : V4 F) (n : F) : V4 F := mul a (splat n)
/-- `dot`, /repo/include/math/vector/float.hpp:1287. -/
@[vec] def dot (a b : V4 F) : F := a.x *. b.x +. a.y *. b.y +. a.z *. b.z +. a.w *. b.w
/-- `length`, /repo/include/math/vector/float.hpp:1294-1299. -/
@[vec] def length (v : V4 F) : F := Flt.sqrt (dot v v)
/-- `normalize`, /repo/include/math/vector/float.hpp:1331. -/
@[vec] def normalize (v : V4 F) : V4 F := smul v (Flt.lit 1 /. length v)
end V4

namespace Simd
open V4

/-- `min`, /repo/include/math/simd/vector/float.hpp:748-757. -/
@[vec] def min (a b : V4 F) : V4 F := map2 Flt.mmMin a b
/-- `max`, /repo/include/math/simd/vector/float.hpp:764-773. -/
@[vec] def max (a b : V4 F) : V4 F := map2 Flt.mmMax a b
/-- `min4`, /repo/include/math/simd/vector/float.hpp:779-784. -/
@[vec] def min4 (v : V4 F) : F :=
  let m := min v (v.swizzle 1 2 3 2)
  (min m (m.swizzle 2 2 2 2)).x
/-- `max4`, /repo/include/math/simd/vector/float.hpp:789-794. -/
@[vec] def max4 (v : V4 F) : F :=
  let m := max v (v.swizzle 1 2 3 2)
  (max m (m.swizzle 2 2 2 2)).x
/-- `min3`, /repo/include/math/simd/vector/float.hpp:800-805. -/
@[vec] def min3 (v : V4 F) : F :=
  let m := min v (v.swizzle 1 2 2 2)
  (min m (m.swizzle 2 2 2 2)).x
/-- `max3`, /repo/include/math/simd/vector/float.hpp:810-815. -/
@[vec] def max3 (v : V4 F) : F :=
  let m := max v (v.swizzle 1 2 2 2)
  (max m (m.swizzle 2 2 2 2)).x
/-- `clamp`, /repo/include/math/simd/vector/float.hpp:824-827. -/
@[vec] def clamp (v lo hi : V4 F) : V4 F := max (min v hi) lo
/-- `fma`, /repo/include/math/simd/vector/float.hpp:836-843 (AVX2/FMA: a fused multiply-add). -/
@[vec] def fma (a b c : V4 F) : V4 F := map3 Flt.fma a b c
/-- `sqrt`, /repo/include/math/simd/vector/float.hpp:865-874. -/
@[vec] def sqrt (v : V4 F) : V4 F := map Flt.sqrt v
/-- `dot4` = `_mm_dp_ps(.., 0xff)`: products summed as `(x + y) + (z + w)`,
/repo/include/math/simd/vector/float.hpp:986-995. -/
@[vec] def dot4 (a b : V4 F) : F := (a.x *. b.x +. a.y *. b.y) +. (a.z *. b.z +. a.w *. b.w)
/-- `dot3` = `_mm_dp_ps(.., 0x7f)`: the fourth product is replaced by `0`,
/repo/include/math/simd/vector/float.hpp:1019-1028. -/
@[vec] def dot3 (a b : V4 F) : F := (a.x *. b.x +. a.y *. b.y) +. (a.z *. b.z +. Flt.lit 0)
/-- `dotV4`, /repo/include/math/simd/vector/float.hpp:970-979. -/
@[vec] def dotV4 (a b : V4 F) : V4 F := splat (dot4 a b)
/-- `dotV3`, /repo/include/math/simd/vector/float.hpp:1003-1012. -/
@[vec] def dotV3 (a b : V4 F) : V4 F := splat (dot3 a b)
/-- `cross3`, /repo/include/math/simd/vector/float.hpp:1036-1051: `_MM_SHUFFLE(0,0,2,1)` selects lanes
1, 2, 0, 0. -/
@[vec] def cross3 (a b : V4 F) : V4 F :=
  let r := sub (mul (b.swizzle 1 2 0 0) a) (mul (a.swizzle 1 2 0 0) b)
  r.swizzle 1 2 0 0
/-- `lengthSq4`, /repo/include/math/simd/vector/float.hpp:1057. -/
@[vec] def lengthSq4 (v : V4 F) : F := dot4 v v
/-- `length4`, /repo/include/math/simd/vector/float.hpp:1062-1071. -/
@[vec] def length4 (v : V4 F) : F := Flt.sqrt (dot4 v v)
/-- `lengthSq3`, /repo/include/math/simd/vector/float.hpp:1077. -/
@[vec] def lengthSq3 (v : V4 F) : F := dot3 v v
/-- `length3`, /repo/include/math/simd/vector/float.hpp:1082-1091. -/
@[vec] def length3 (v : V4 F) : F := Flt.sqrt (dot3 v v)
/-- `distanceSq4`, /repo/include/math/simd/vector/float.hpp:1099. -/
@[vec] def distanceSq4 (a b : V4 F) : F := lengthSq4 (sub a b)
/-- `distance4`, /repo/include/math/simd/vector/float.hpp:1106. -/
@[vec] def distance4 (a b : V4 F) : F := length4 (sub a b)
/-- `distanceSq3`, /repo/include/math/simd/vector/float.hpp:1114. -/
@[vec] def distanceSq3 (a b : V4 F) : F := lengthSq3 (sub a b)
/-- `distance3`, /repo/include/math/simd/vector/float.hpp:1121. -/
@[vec] def distance3 (a b : V4 F) : F := length3 (sub a b)
/-- `normalize4`, /repo/include/math/simd/vector/float.hpp:1127-1136. -/
@[vec] def normalize4 (v : V4 F) : V4 F := div v (sqrt (dotV4 v v))
/-- `normalize3`, /repo/include/math/simd/vector/float.hpp:1141-1151. -/
@[vec] def normalize3 (v : V4 F) : V4 F := div v (sqrt (dotV3 v v))

end Simd
end arith
end Verif
