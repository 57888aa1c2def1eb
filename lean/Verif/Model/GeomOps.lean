import Verif.Model.Geom
import Verif.Model.FloatOps

/-!
# Operators, equality and constants of the geometric types and matrices

Models the arithmetic operators of `Line`, `Triangle`, `Ray` and `Aabb`, their `==` and `!=` (a `memcmp` of the whole
object), the named constants, and the equality operators of the matrices.
-/

namespace Verif

section
variable {F : Type} [Flt F]

namespace Line
/-- `getDirection(normalize)`, /repo/include/math/line.hpp:58-61. -/
@[vec] def getDirection (l : Line F) (normalize : Bool) : V4 F :=
  if normalize then Simd.normalize3 (V4.sub l.end l.start) else V4.sub l.end l.start
/-- `line * v`, /repo/include/math/line.hpp:63. -/
@[vec] def mulV (l : Line F) (v : V4 F) : Line F := ⟨V4.mul l.start v, V4.mul l.end v⟩
/-- `line / v`, /repo/include/math/line.hpp:64. -/
@[vec] def divV (l : Line F) (v : V4 F) : Line F := ⟨V4.div l.start v, V4.div l.end v⟩
/-- `line + v`, /repo/include/math/line.hpp:65. -/
@[vec] def addV (l : Line F) (v : V4 F) : Line F := ⟨V4.add l.start v, V4.add l.end v⟩
/-- `line - v`, /repo/include/math/line.hpp:66. -/
@[vec] def subV (l : Line F) (v : V4 F) : Line F := ⟨V4.sub l.start v, V4.sub l.end v⟩
/-- `line op v`, /repo/include/math/line.hpp:63-66. -/
@[vec] def bin : FOp → Line F → V4 F → Line F
  | .mul => mulV | .div => divV | .add => addV | .sub => subV
/-- `line op= v`: the line afterwards, one field after the other. /repo/include/math/line.hpp:67-70. -/
@[vec] def asg (op : FOp) (l : Line F) (v : V4 F) : Line F :=
  match op with
  | .mul => let l := { l with start := V4.mul l.start v }; { l with «end» := V4.mul l.end v }
  | .div => let l := { l with start := V4.div l.start v }; { l with «end» := V4.div l.end v }
  | .add => let l := { l with start := V4.add l.start v }; { l with «end» := V4.add l.end v }
  | .sub => let l := { l with start := V4.sub l.start v }; { l with «end» := V4.sub l.end v }
end Line

namespace Triangle
/-- `triangle * v`, /repo/include/math/triangle.hpp:55. -/
@[vec] def mulV (t : Triangle F) (v : V4 F) : Triangle F := ⟨V4.mul t.p0 v, V4.mul t.p1 v, V4.mul t.p2 v⟩
/-- `triangle / v`, /repo/include/math/triangle.hpp:56. -/
@[vec] def divV (t : Triangle F) (v : V4 F) : Triangle F := ⟨V4.div t.p0 v, V4.div t.p1 v, V4.div t.p2 v⟩
/-- `triangle + v`, /repo/include/math/triangle.hpp:57. -/
@[vec] def addV (t : Triangle F) (v : V4 F) : Triangle F := ⟨V4.add t.p0 v, V4.add t.p1 v, V4.add t.p2 v⟩
/-- `triangle - v`, /repo/include/math/triangle.hpp:58. -/
@[vec] def subV (t : Triangle F) (v : V4 F) : Triangle F := ⟨V4.sub t.p0 v, V4.sub t.p1 v, V4.sub t.p2 v⟩
/-- `triangle op v`, /repo/include/math/triangle.hpp:55-58. -/
@[vec] def bin : FOp → Triangle F → V4 F → Triangle F
  | .mul => mulV | .div => divV | .add => addV | .sub => subV
/-- `triangle op= v`: the triangle afterwards. /repo/include/math/triangle.hpp:59-62. -/
@[vec] def asg (op : FOp) (t : Triangle F) (v : V4 F) : Triangle F :=
  match op with
  | .mul => let t := { t with p0 := V4.mul t.p0 v }; let t := { t with p1 := V4.mul t.p1 v }
            { t with p2 := V4.mul t.p2 v }
  | .div => let t := { t with p0 := V4.div t.p0 v }; let t := { t with p1 := V4.div t.p1 v }
            { t with p2 := V4.div t.p2 v }
  | .add => let t := { t with p0 := V4.add t.p0 v }; let t := { t with p1 := V4.add t.p1 v }
            { t with p2 := V4.add t.p2 v }
  | .sub => let t := { t with p0 := V4.sub t.p0 v }; let t := { t with p1 := V4.sub t.p1 v }
            { t with p2 := V4.sub t.p2 v }
end Triangle

namespace Ray
/-- `normalize()`: `direction` divided by its length, /repo/include/math/ray.hpp:80. -/
@[vec] def normalize (r : Ray F) : Ray F :=
  { r with direction := V4.div r.direction (V4.splat (Simd.length3 r.direction)) }
/-- `ray * v`: the constructor, with its default `normalize = true`. /repo/include/math/ray.hpp:82. -/
@[vec] def mulV (r : Ray F) (v : V4 F) : Ray F := ctor (V4.mul r.origin v) (V4.mul r.direction v) true
/-- `ray / v`, /repo/include/math/ray.hpp:83. -/
@[vec] def divV (r : Ray F) (v : V4 F) : Ray F := ctor (V4.div r.origin v) (V4.div r.direction v) true
/-- `ray + v`: the direction is shifted as well. /repo/include/math/ray.hpp:84. -/
@[vec] def addV (r : Ray F) (v : V4 F) : Ray F := ctor (V4.add r.origin v) (V4.add r.direction v) true
/-- `ray - v`, /repo/include/math/ray.hpp:85. -/
@[vec] def subV (r : Ray F) (v : V4 F) : Ray F := ctor (V4.sub r.origin v) (V4.sub r.direction v) true
/-- `ray op v`, /repo/include/math/ray.hpp:82-85. -/
@[vec] def bin : FOp → Ray F → V4 F → Ray F
  | .mul => mulV | .div => divV | .add => addV | .sub => subV
/-- `ray op= v`: `direction` and `origin` in turn, `isParallel` untouched. /repo/include/math/ray.hpp:86-89. -/
@[vec] def asg (op : FOp) (r : Ray F) (v : V4 F) : Ray F :=
  match op with
  | .mul => let r := { r with direction := V4.mul r.direction v }; { r with origin := V4.mul r.origin v }
  | .div => let r := { r with direction := V4.div r.direction v }; { r with origin := V4.div r.origin v }
  | .add => let r := { r with direction := V4.add r.direction v }; { r with origin := V4.add r.origin v }
  | .sub => let r := { r with direction := V4.sub r.direction v }; { r with origin := V4.sub r.origin v }
/-- `left`, /repo/include/math/ray.hpp:96. -/
@[vec] def left : Ray F := ctor (V4.splat (Flt.lit 0)) ⟨Flt.lit (-1), Flt.lit 0, Flt.lit 0, Flt.lit 0⟩ false
/-- `right`, /repo/include/math/ray.hpp:97. -/
@[vec] def right : Ray F := ctor (V4.splat (Flt.lit 0)) ⟨Flt.lit 1, Flt.lit 0, Flt.lit 0, Flt.lit 0⟩ false
/-- `bottom`, /repo/include/math/ray.hpp:98. -/
@[vec] def bottom : Ray F := ctor (V4.splat (Flt.lit 0)) ⟨Flt.lit 0, Flt.lit (-1), Flt.lit 0, Flt.lit 0⟩ false
/-- `top`, /repo/include/math/ray.hpp:99. -/
@[vec] def top : Ray F := ctor (V4.splat (Flt.lit 0)) ⟨Flt.lit 0, Flt.lit 1, Flt.lit 0, Flt.lit 0⟩ false
/-- `back`, /repo/include/math/ray.hpp:100. -/
@[vec] def back : Ray F := ctor (V4.splat (Flt.lit 0)) ⟨Flt.lit 0, Flt.lit 0, Flt.lit (-1), Flt.lit 0⟩ false
/-- `front`, /repo/include/math/ray.hpp:101. -/
@[vec] def front : Ray F := ctor (V4.splat (Flt.lit 0)) ⟨Flt.lit 0, Flt.lit 0, Flt.lit 1, Flt.lit 0⟩ false
end Ray

namespace Aabb
/-- `aabb * v`; `none` is a failed assertion of the constructor. /repo/include/math/aabb.hpp:250. -/
@[vec] def mulV (b : Aabb F) (v : V4 F) : Option (Aabb F) := ctor (V4.mul b.min v) (V4.mul b.max v)
/-- `aabb / v`, /repo/include/math/aabb.hpp:251. -/
@[vec] def divV (b : Aabb F) (v : V4 F) : Option (Aabb F) := ctor (V4.div b.min v) (V4.div b.max v)
/-- `aabb + v`, /repo/include/math/aabb.hpp:252. -/
@[vec] def addV (b : Aabb F) (v : V4 F) : Option (Aabb F) := ctor (V4.add b.min v) (V4.add b.max v)
/-- `aabb - v`, /repo/include/math/aabb.hpp:253. -/
@[vec] def subV (b : Aabb F) (v : V4 F) : Option (Aabb F) := ctor (V4.sub b.min v) (V4.sub b.max v)
/-- `aabb op v`, /repo/include/math/aabb.hpp:250-253. -/
@[vec] def bin : FOp → Aabb F → V4 F → Option (Aabb F)
  | .mul => mulV | .div => divV | .add => addV | .sub => subV
/-- `aabb op= v`: no assertion. /repo/include/math/aabb.hpp:254-257. -/
@[vec] def asg (op : FOp) (b : Aabb F) (v : V4 F) : Aabb F :=
  match op with
  | .mul => let b := { b with min := V4.mul b.min v }; { b with max := V4.mul b.max v }
  | .div => let b := { b with min := V4.div b.min v }; { b with max := V4.div b.max v }
  | .add => let b := { b with min := V4.add b.min v }; { b with max := V4.add b.max v }
  | .sub => let b := { b with min := V4.sub b.min v }; { b with max := V4.sub b.max v }
/-- `one`, /repo/include/math/aabb.hpp:265. -/
@[vec] def one : Option (Aabb F) := ctor (V4.splat (Flt.lit (-1 / 2))) (V4.splat (Flt.lit (1 / 2)))
/-- `two`, /repo/include/math/aabb.hpp:266. -/
@[vec] def two : Option (Aabb F) := ctor (V4.splat (Flt.lit (-1))) (V4.splat (Flt.lit 1))
/-- `half`, /repo/include/math/aabb.hpp:267. -/
@[vec] def half : Option (Aabb F) := ctor (V4.splat (Flt.lit (-1 / 4))) (V4.splat (Flt.lit (1 / 4)))
/-- `zero`, /repo/include/math/aabb.hpp:264. -/
@[vec] def zero : Option (Aabb F) := ctor (V4.splat (Flt.lit 0)) (V4.splat (Flt.lit 0))
/-- `full`: from `f32x4::min` (`FLT_MIN` = 2^-126, /repo/include/math/simd/vector/float.hpp:584) to `f32x4::max`.
/repo/include/math/aabb.hpp:268. -/
@[vec] def full : Option (Aabb F) := ctor (V4.splat (Flt.lit (1 / 2 ^ 126))) (V4.splat fltMax)
end Aabb

namespace Sphere
/-- `one`, /repo/include/math/sphere.hpp:71: radius 0.5 at the default position. -/
@[vec] def one : Sphere F := ctor (Flt.lit (1 / 2)) (V4.splat (Flt.lit 0))
/-- `two`, /repo/include/math/sphere.hpp:72. -/
@[vec] def two : Sphere F := ctor (Flt.lit 1) (V4.splat (Flt.lit 0))
/-- `half`, /repo/include/math/sphere.hpp:73. -/
@[vec] def half : Sphere F := ctor (Flt.lit (1 / 4)) (V4.splat (Flt.lit 0))
end Sphere

namespace Plane
/-- `left`, /repo/include/math/plane.hpp:107. -/
@[vec] def left : Plane F := ctor ⟨Flt.lit (-1), Flt.lit 0, Flt.lit 0, Flt.lit 0⟩ (Flt.lit 0) false
/-- `right`, /repo/include/math/plane.hpp:108. -/
@[vec] def right : Plane F := ctor ⟨Flt.lit 1, Flt.lit 0, Flt.lit 0, Flt.lit 0⟩ (Flt.lit 0) false
/-- `bottom`, /repo/include/math/plane.hpp:109. -/
@[vec] def bottom : Plane F := ctor ⟨Flt.lit 0, Flt.lit (-1), Flt.lit 0, Flt.lit 0⟩ (Flt.lit 0) false
/-- `top`, /repo/include/math/plane.hpp:110. -/
@[vec] def top : Plane F := ctor ⟨Flt.lit 0, Flt.lit 1, Flt.lit 0, Flt.lit 0⟩ (Flt.lit 0) false
/-- `back`, /repo/include/math/plane.hpp:111. -/
@[vec] def back : Plane F := ctor ⟨Flt.lit 0, Flt.lit 0, Flt.lit (-1), Flt.lit 0⟩ (Flt.lit 0) false
/-- `front`, /repo/include/math/plane.hpp:112. -/
@[vec] def front : Plane F := ctor ⟨Flt.lit 0, Flt.lit 0, Flt.lit 1, Flt.lit 0⟩ (Flt.lit 0) false
end Plane

end

/-- `Aabb::inf`, /repo/include/math/aabb.hpp:269. -/
def Aabb.inf : Option (Aabb F32) := Aabb.ctor (V4.splat (F32.inf true)) (V4.splat (F32.inf false))

/-! ## Equality -/

/-- `memcmp(a, b, n)` is zero, on equally long byte strings. -/
def Bin.memcmpEq : List Nat → List Nat → Bool
  | a :: as, b :: bs => if a = b then memcmpEq as bs else false
  | _, _ => true

/-- The 32-bit words of a four-lane float vector in memory. -/
def V4.words (v : V4 F32) : List W := v.toList.map F32.bits
/-- The 32-bit words of a three-lane float vector in memory. -/
def V3.words (v : V3 F32) : List W := v.toList.map F32.bits
/-- The 32-bit words of a two-lane float vector in memory. -/
def V2.words (v : V2 F32) : List W := v.toList.map F32.bits

/-- Member order and size of the objects, as `memcmp` sees them; there is no padding.
/repo/include/math/line.hpp:36-40. -/
def Line.words (l : Line F32) : List W := l.start.words ++ l.end.words
/-- /repo/include/math/triangle.hpp:38-40. -/
def Triangle.words (t : Triangle F32) : List W := t.p0.words ++ t.p1.words ++ t.p2.words
/-- /repo/include/math/ray.hpp:34-40. -/
def Ray.words (r : Ray F32) : List W := r.direction.words ++ r.isParallel.toList ++ r.origin.words
/-- /repo/include/math/plane.hpp:36. -/
def Plane.words (p : Plane F32) : List W := p.normDist.words
/-- /repo/include/math/sphere.hpp:34. -/
def Sphere.words (s : Sphere F32) : List W := s.posRad.words
/-- /repo/include/math/aabb.hpp:40-43. -/
def Aabb.words (b : Aabb F32) : List W := b.min.words ++ b.max.words
/-- /repo/include/math/matrix/float.hpp:36-39. -/
def M2.words (m : M2 F32) : List W := m.c0.words ++ m.c1.words
/-- /repo/include/math/matrix/float.hpp:142-146. -/
def M3.words (m : M3 F32) : List W := m.c0.words ++ m.c1.words ++ m.c2.words
/-- /repo/include/math/matrix/float.hpp:260-265. -/
def M43.words (m : M43 F32) : List W := m.c0.words ++ m.c1.words ++ m.c2.words ++ m.c3.words
/-- /repo/include/math/matrix/float.hpp:369-374. -/
def M4.words (m : M4 F32) : List W := m.c0.words ++ m.c1.words ++ m.c2.words ++ m.c3.words

/-- `!memcmp(this, &v, sizeof(...))`. -/
def memEq (a b : List W) : Bool := Bin.memcmpEq (a.flatMap Bin.bytes) (b.flatMap Bin.bytes)

/-- `line == other`, /repo/include/math/line.hpp:71; `!=` (line 72) is `memcmp != 0`, its negation. -/
def Line.eq (a b : Line F32) : Bool := memEq a.words b.words
/-- `triangle == other`, /repo/include/math/triangle.hpp:63-64. -/
def Triangle.eq (a b : Triangle F32) : Bool := memEq a.words b.words
/-- `ray == other`, /repo/include/math/ray.hpp:90-91. -/
def Ray.eq (a b : Ray F32) : Bool := memEq a.words b.words
/-- `plane == other`, /repo/include/math/plane.hpp:101-102. -/
def Plane.eq (a b : Plane F32) : Bool := memEq a.words b.words
/-- `sphere == other`, /repo/include/math/sphere.hpp:65-66. -/
def Sphere.eq (a b : Sphere F32) : Bool := memEq a.words b.words
/-- `aabb == other`, /repo/include/math/aabb.hpp:258-259. -/
def Aabb.eq (a b : Aabb F32) : Bool := memEq a.words b.words
/-- `float2x2 ==`, /repo/include/math/matrix/float.hpp:121-126. -/
def M2.eq (a b : M2 F32) : Bool := memEq a.words b.words
/-- `float3x3 ==`, /repo/include/math/matrix/float.hpp:238-243. -/
def M3.eq (a b : M3 F32) : Bool := memEq a.words b.words
/-- `float4x3 ==`, /repo/include/math/matrix/float.hpp:347-352. -/
def M43.eq (a b : M43 F32) : Bool := memEq a.words b.words
/-- `float4x4 ==`, /repo/include/math/matrix/float.hpp:500-505. -/
def M4.eq (a b : M4 F32) : Bool := memEq a.words b.words

/-- `isBinaryLess(Aabb, Aabb)`: the first 24 bytes only (`sizeof(float3) * 2`), while an `Aabb` has 32.
/repo/include/math/aabb.hpp:277. -/
def Aabb.isBinaryLess (a b : Aabb F32) : Bool :=
  Bin.memcmpLt ((a.words.flatMap Bin.bytes).take 24) ((b.words.flatMap Bin.bytes).take 24)
/-- `isBinaryLess(f32x4x4, f32x4x4)`, /repo/include/math/simd/matrix/float.hpp:280-283. -/
def M4.isBinaryLess (a b : M4 F32) : Bool := Bin.memcmpLt (a.words.flatMap Bin.bytes) (b.words.flatMap Bin.bytes)

namespace U32x4
/-- `vmaxvq_u32`: the unsigned maximum of the four lanes. -/
def vmaxv (v : V4 W) : W :=
  let m := fun a b : W => if a.ult b then b else a
  m (m (m v.x v.y) v.z) v.w
/-- `areAllTrue` on each instruction set, /repo/include/math/simd/vector/uint.hpp:653-662. -/
def areAllTrue (k : Isa) (v : V4 W) : Bool :=
  if k.hasSse then Sse.areAllTrue v else if k.hasNeon then Intrin.vminv v == 0xFFFFFFFF#32 else V4.areAllTrue v
/-- `areAllFalse`, /repo/include/math/simd/vector/uint.hpp:666-677. -/
def areAllFalse (k : Isa) (v : V4 W) : Bool :=
  if k.hasSse41 then Sse.areAllFalse v else if k.hasSse then Sse.areAllFalse2 v
  else if k.hasNeon then vmaxv v == 0 else V4.areAllFalse v
/-- `areAnyTrue`, /repo/include/math/simd/vector/uint.hpp:681-692. -/
def areAnyTrue (k : Isa) (v : V4 W) : Bool :=
  if k.hasSse41 then Sse.areAnyTrue v else if k.hasSse then Sse.areAnyTrue2 v
  else if k.hasNeon then vmaxv v != 0 else V4.areAnyTrue v
/-- `areAnyFalse`, /repo/include/math/simd/vector/uint.hpp:696-705. -/
def areAnyFalse (k : Isa) (v : V4 W) : Bool :=
  if k.hasSse then Sse.areAnyFalse v else if k.hasNeon then Intrin.vminv v != 0xFFFFFFFF#32 else V4.areAnyFalse v
end U32x4

namespace F32x4x4
/-- `a == b` on `f32x4x4`: numeric, lane by lane. /repo/include/math/simd/matrix/float.hpp:243-246. -/
def eq (k : Isa) (a b : M4 F32) : Bool :=
  U32x4.areAllTrue k (V4.band (V4.band (V4.band (F32x4.cmp k .eq a.c0 b.c0) (F32x4.cmp k .eq a.c1 b.c1))
    (F32x4.cmp k .eq a.c2 b.c2)) (F32x4.cmp k .eq a.c3 b.c3))
/-- `a != b` on `f32x4x4`. /repo/include/math/simd/matrix/float.hpp:247-250. -/
def ne (k : Isa) (a b : M4 F32) : Bool :=
  U32x4.areAnyTrue k (V4.bor (V4.bor (V4.bor (F32x4.cmp k .ne a.c0 b.c0) (F32x4.cmp k .ne a.c1 b.c1))
    (F32x4.cmp k .ne a.c2 b.c2)) (F32x4.cmp k .ne a.c3 b.c3))
end F32x4x4

end Verif
