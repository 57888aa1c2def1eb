import Verif.Model.Mat
import Verif.Model.IntVec

/-!
# Geometric primitives

Models /repo/include/math/aabb.hpp, /repo/source/aabb.cpp, ray.hpp, line.hpp, triangle.hpp, plane.hpp and
sphere.hpp in the SSE4.1 configuration. Points and vectors are four-lane; the fourth lane is data like any
other (some of the code reads it).
-/

namespace Verif

namespace V4
/-- `a & b` on masks, /repo/include/math/simd/vector/uint.hpp (operator&), one `and` per lane. -/
@[vec] def band (a b : V4 W) : V4 W := map2 (· &&& ·) a b
/-- `a | b` on masks, /repo/include/math/simd/vector/uint.hpp (operator|), one `or` per lane. -/
@[vec] def bor (a b : V4 W) : V4 W := map2 (· ||| ·) a b
end V4

section
variable {F : Type} [Flt F]

/-- `a >= b` on floats. -/
@[vec] def ge (a b : F) : Bool := b <=. a
/-- `a > b` on floats. -/
@[vec] def gt (a b : F) : Bool := b <. a

/-- Axis-aligned box. Models /repo/include/math/aabb.hpp:40-43. -/
structure Aabb (F : Type) where
  min : V4 F
  max : V4 F
deriving DecidableEq, Repr

namespace Aabb

/-- The assertion `areAllTrue(f32x4(min, 0) <= f32x4(max, 1))`,
/repo/include/math/aabb.hpp:53, 74, 84, 97. -/
@[vec] def ordered (lo hi : V4 F) : Bool :=
  Sse.areAllTrue (V4.cmp Flt.le (lo.withW (Flt.lit 0)) (hi.withW (Flt.lit 1)))
/-- Constructor; `none` is a failed assertion. /repo/include/math/aabb.hpp:51-54. -/
@[vec] def ctor (lo hi : V4 F) : Option (Aabb F) := if ordered lo hi then some ⟨lo, hi⟩ else none
/-- `setMin`, /repo/include/math/aabb.hpp:72-76. -/
@[vec] def setMin (b : Aabb F) (lo : V4 F) : Option (Aabb F) := if ordered lo b.max then some ⟨lo, b.max⟩ else none
/-- `setMax`, /repo/include/math/aabb.hpp:82-86. -/
@[vec] def setMax (b : Aabb F) (hi : V4 F) : Option (Aabb F) := if ordered b.min hi then some ⟨b.min, hi⟩ else none
/-- `set`, /repo/include/math/aabb.hpp:95-99. -/
@[vec] def set (_ : Aabb F) (lo hi : V4 F) : Option (Aabb F) := if ordered lo hi then some ⟨lo, hi⟩ else none
/-- `trySet`: the returned flag and the box afterwards. /repo/include/math/aabb.hpp:108-114. -/
@[vec] def trySet (b : Aabb F) (lo hi : V4 F) : Bool × Aabb F :=
  if Sse.areAllTrue (V4.cmp gt (lo.withW (Flt.lit 0)) (hi.withW (Flt.lit 1))) then (false, b)
  else (true, ⟨lo, hi⟩)
/-- The assertion `areAllTrue(f32x4(size, 1) >= 0)`, /repo/include/math/aabb.hpp:122, 134, 154, 165. -/
@[vec] def nonneg (s : V4 F) : Bool := Sse.areAllTrue (V4.cmp ge (s.withW (Flt.lit 1)) (V4.splat (Flt.lit 0)))
/-- `setSize(size)`, /repo/include/math/aabb.hpp:120-125. -/
@[vec] def setSize (s : V4 F) : Option (Aabb F) :=
  if nonneg s then some ⟨V4.neg (V4.smul s (Flt.lit (1 / 2))), V4.smul s (Flt.lit (1 / 2))⟩ else none
/-- `setSize(size, position)`, /repo/include/math/aabb.hpp:132-137. -/
@[vec] def setSizeAt (s p : V4 F) : Option (Aabb F) :=
  let e := V4.smul s (Flt.lit (1 / 2))
  if nonneg s then some ⟨V4.sub p e, V4.add p e⟩ else none
/-- `getSize`, /repo/include/math/aabb.hpp:142. -/
@[vec] def getSize (b : Aabb F) : V4 F := V4.sub b.max b.min
/-- `getPosition`, /repo/include/math/aabb.hpp:146. -/
@[vec] def getPosition (b : Aabb F) : V4 F := V4.smul (V4.add b.min b.max) (Flt.lit (1 / 2))
/-- `setExtent(extent)`, /repo/include/math/aabb.hpp:152-156. -/
@[vec] def setExtent (e : V4 F) : Option (Aabb F) := if nonneg e then some ⟨V4.neg e, e⟩ else none
/-- `setExtent(extent, position)`, /repo/include/math/aabb.hpp:163-167. -/
@[vec] def setExtentAt (e p : V4 F) : Option (Aabb F) := if nonneg e then some ⟨V4.sub p e, V4.add p e⟩ else none
/-- `getExtent()`, /repo/include/math/aabb.hpp:172. -/
@[vec] def getExtent (b : Aabb F) : V4 F := V4.smul (V4.sub b.max b.min) (Flt.lit (1 / 2))
/-- `getExtent(extent, position)`, /repo/include/math/aabb.hpp:179-182. -/
@[vec] def getExtentAt (b : Aabb F) : V4 F × V4 F := (b.getExtent, V4.add b.min b.getExtent)
/-- `extend(point)`, /repo/include/math/aabb.hpp:188-191. -/
@[vec] def extendP (b : Aabb F) (p : V4 F) : Aabb F := ⟨Simd.min b.min p, Simd.max b.max p⟩
/-- `extend(aabb)`, /repo/include/math/aabb.hpp:196-199. -/
@[vec] def extendB (b c : Aabb F) : Aabb F := ⟨Simd.min b.min c.min, Simd.max b.max c.max⟩
/-- `shrink(point)`, /repo/include/math/aabb.hpp:205-208. -/
@[vec] def shrinkP (b : Aabb F) (p : V4 F) : Aabb F := ⟨Simd.max b.min p, Simd.min b.max p⟩
/-- `shrink(aabb)`, /repo/include/math/aabb.hpp:213-216. -/
@[vec] def shrinkB (b c : Aabb F) : Aabb F := ⟨Simd.max b.min c.min, Simd.min b.max c.max⟩
/-- `translate`, /repo/include/math/aabb.hpp:222. -/
@[vec] def translate (b : Aabb F) (t : V4 F) : Aabb F := ⟨V4.add b.min t, V4.add b.max t⟩
/-- `scale`, /repo/include/math/aabb.hpp:227. -/
@[vec] def scale (b : Aabb F) (s : V4 F) : Aabb F := ⟨V4.mul b.min s, V4.mul b.max s⟩
/-- `calcArea`, /repo/include/math/aabb.hpp:234-240. -/
@[vec] def calcArea (b : Aabb F) : F :=
  let e := V4.sub b.max b.min
  Simd.dot3 (e.swizzle 0 0 1 2) (e.swizzle 1 2 2 2) *. Flt.lit 2
/-- `calcVolume`, /repo/include/math/aabb.hpp:244-248. -/
@[vec] def calcVolume (b : Aabb F) : F :=
  let e := V4.sub b.max b.min
  e.x *. e.y *. e.z
/-- `isInside(aabb, point)`, /repo/include/math/aabb.hpp:285-288. -/
@[vec] def isInsideP (b : Aabb F) (p : V4 F) : Bool :=
  Sse.areAllTrue (V4.band (V4.cmp Flt.le b.min p) (V4.cmp ge b.max p))
/-- `isInside(aabb, other)`, /repo/include/math/aabb.hpp:295-298. -/
@[vec] def isInsideB (b c : Aabb F) : Bool :=
  Sse.areAllTrue (V4.band (V4.cmp Flt.le b.min c.min) (V4.cmp ge b.max c.max))
/-- `closestPoint(aabb, point)`, /repo/include/math/aabb.hpp:306-309. -/
@[vec] def closestPoint (b : Aabb F) (p : V4 F) : V4 F := Simd.clamp p b.min b.max
/-- `isIntersected(a, b)`, /repo/include/math/aabb.hpp:425-428. -/
@[vec] def isIntersected (a b : Aabb F) : Bool :=
  Sse.areAllTrue (V4.band (V4.cmp Flt.le a.min b.max) (V4.cmp ge a.min b.max))

end Aabb

/-! ## Rays -/

/-- Models /repo/include/math/ray.hpp:31-40. -/
structure Ray (F : Type) where
  direction : V4 F
  isParallel : V4 W
  origin : V4 F
deriving DecidableEq, Repr

namespace Ray
/-- Constructor: `isParallel` keeps its initializer `u32x4::zero`. /repo/include/math/ray.hpp:49-50. -/
@[vec] def ctor (origin direction : V4 F) (normalize : Bool) : Ray F :=
  ⟨if normalize then Simd.normalize3 direction else direction, V4.splat 0, origin⟩
/-- `setDirection`, /repo/include/math/ray.hpp:66-70. -/
@[vec] def setDirection (r : Ray F) (direction : V4 F) (normalize : Bool) : Ray F :=
  { r with
    direction := if normalize then Simd.normalize3 direction else direction
    isParallel := V4.cmp Flt.le (V4.map Flt.abs direction) (V4.splat (Flt.lit (1 / 10 ^ 20))) }
/-- `closestPoint(ray, point)`, /repo/include/math/ray.hpp:109-114. -/
@[vec] def closestPoint (r : Ray F) (p : V4 F) : V4 F :=
  let a := r.origin
  let b := V4.add r.origin r.direction
  let v := V4.sub b a
  let t := Simd.dot3 (V4.sub p a) v /. Simd.dot3 v v
  Simd.fma r.direction (V4.splat (Flt.stdMax t (Flt.lit 0))) a
end Ray

/-- `FLT_MAX` = (2 - 2^-23) * 2^127. -/
@[vec] def fltMax : F := Flt.lit ((2 ^ 24 - 1) * 2 ^ 104)
/-- `-FLT_MAX`. -/
@[vec] def minusFltMax : F := Flt.lit (-((2 ^ 24 - 1) * 2 ^ 104))

namespace Aabb
/-- The values `tMin`, `tMax`, `noIntersection` after line 332 of `raycast2I`,
/repo/include/math/aabb.hpp:320-332 (the same text as `raycast1I`, 360-372). -/
@[vec] def slabs (b : Aabb F) (r : Ray F) : V4 F × V4 F × V4 W :=
  let t1 := V4.mul (V4.sub b.min r.origin) r.direction
  let t2 := V4.mul (V4.sub b.max r.origin) r.direction
  let tMin := V4.select r.isParallel (V4.splat minusFltMax) (Simd.min t1 t2)
  let tMax := V4.select r.isParallel (V4.splat fltMax) (Simd.max t1 t2)
  let tMin := Simd.max tMin (tMin.swizzle 1 2 0 2)
  let tMin := Simd.max tMin (tMin.swizzle 2 0 1 2)
  let tMax := Simd.min tMax (tMax.swizzle 1 2 0 2)
  let tMax := Simd.min tMax (tMax.swizzle 2 0 1 2)
  let noOverlap := V4.bor (V4.cmp Flt.lt r.origin b.min) (V4.cmp gt r.origin b.max)
  let no := V4.bor (V4.bor (V4.cmp gt tMin tMax) (V4.cmp Flt.lt tMax (V4.splat (Flt.lit 0))))
    (V4.band r.isParallel noOverlap)
  let no := V4.bor no (no.swizzle 1 1 1 1)
  let no := V4.bor no (no.swizzle 2 2 2 2)
  (tMin, tMax, no)
/-- `raycast2I`, /repo/include/math/aabb.hpp:318-337. -/
@[vec] def raycast2I (b : Aabb F) (r : Ray F) : V2 F :=
  let s := slabs b r
  ⟨(V4.select s.2.2 (V4.splat fltMax) s.1).x, (V4.select s.2.2 (V4.splat minusFltMax) s.2.1).x⟩
/-- `raycast2`, /repo/include/math/aabb.hpp:345-349. -/
@[vec] def raycast2 (b : Aabb F) (r : Ray F) : V2 F :=
  raycast2I b (r.setDirection (V4.div (V4.splat (Flt.lit 1)) r.direction) true)
/-- `raycast1I`, /repo/include/math/aabb.hpp:358-374. -/
@[vec] def raycast1I (b : Aabb F) (r : Ray F) : F :=
  let s := slabs b r
  (V4.select s.2.2 (V4.splat fltMax) s.1).x
/-- `raycast1`, /repo/include/math/aabb.hpp:382-386. -/
@[vec] def raycast1 (b : Aabb F) (r : Ray F) : F :=
  raycast1I b (r.setDirection (V4.div (V4.splat (Flt.lit 1)) r.direction) true)
/-- `isAabbIntersected(raycastDists)`, /repo/include/math/aabb.hpp:392-396. -/
@[vec] def hit (d : V2 F) : Bool := d.x <=. d.y && Flt.lit 0 <=. d.y
/-- `raycast`, /repo/include/math/aabb.hpp:404-407. -/
@[vec] def raycast (b : Aabb F) (r : Ray F) : Bool := hit (raycast2 b r)
/-- `raycastI`, /repo/include/math/aabb.hpp:414-417. -/
@[vec] def raycastI (b : Aabb F) (r : Ray F) : Bool := hit (raycast2I b r)
end Aabb

/-! ## Triangles, lines, planes, spheres -/

/-- Models /repo/include/math/triangle.hpp:31-40. -/
structure Triangle (F : Type) where
  p0 : V4 F
  p1 : V4 F
  p2 : V4 F
deriving DecidableEq, Repr

namespace Triangle
/-- `isInside(triangle, point)`, /repo/include/math/triangle.hpp:73-80. -/
@[vec] def isInside (t : Triangle F) (p : V4 F) : Bool :=
  let p0 := V4.sub t.p0 p
  let p1 := V4.sub t.p1 p
  let p2 := V4.sub t.p2 p
  let u := Simd.cross3 p1 p2
  let v := Simd.cross3 p2 p0
  let w := Simd.cross3 p0 p1
  if Simd.dot3 u v <. Flt.lit 0 || Simd.dot3 u w <. Flt.lit 0 then false else true
/-- `calcBarycentric`, /repo/include/math/triangle.hpp:89-100. -/
@[vec] def calcBarycentric (t : Triangle F) (p : V4 F) : V4 F :=
  let v0 := V4.sub t.p1 t.p0
  let v1 := V4.sub t.p2 t.p0
  let v2 := V4.sub p t.p0
  let d00 := Simd.dot3 v0 v0
  let d01 := Simd.dot3 v0 v1
  let d11 := Simd.dot3 v1 v1
  let d20 := Simd.dot3 v2 v0
  let d21 := Simd.dot3 v2 v1
  let inv := Flt.lit 1 /. (d00 *. d11 -. d01 *. d01)
  let v := (d11 *. d20 -. d01 *. d21) *. inv
  let w := (d00 *. d21 -. d01 *. d20) *. inv
  ⟨Flt.lit 1 -. v -. w, v, w, Flt.lit 0⟩
end Triangle

/-- Models /repo/include/math/line.hpp:31-40. -/
structure Line (F : Type) where
  start : V4 F
  «end» : V4 F
deriving DecidableEq, Repr

namespace Line
/-- The unclamped parameter `t` and the closest point, /repo/include/math/line.hpp:94-99 (and 81-86). -/
@[vec] def closestPointT (l : Line F) (p : V4 F) : V4 F × F :=
  let d := V4.sub l.end l.start
  let t := Simd.dot3 (V4.sub p l.start) d /. Simd.dot3 d d
  (Simd.fma d (V4.splat (Flt.stdClamp t (Flt.lit 0) (Flt.lit 1))) l.start, t)
/-- `closestPoint(line, point)`, /repo/include/math/line.hpp:81-86. -/
@[vec] def closestPoint (l : Line F) (p : V4 F) : V4 F := (closestPointT l p).1
end Line

/-- Models /repo/include/math/plane.hpp:33-42: the normal in the first three lanes, the distance in the
fourth. -/
structure Plane (F : Type) where
  normDist : V4 F
deriving DecidableEq, Repr

namespace Plane
/-- Constructor, /repo/include/math/plane.hpp:51-52. -/
@[vec] def ctor (n : V4 F) (d : F) (normalize : Bool) : Plane F :=
  ⟨(if normalize then Simd.normalize3 n else n).withW d⟩
/-- `Plane(triangle)`, /repo/include/math/plane.hpp:62-69. -/
@[vec] def ofTriangle (t : Triangle F) : Plane F :=
  let n := Simd.cross3 (V4.sub t.p1 t.p0) (V4.sub t.p2 t.p0)
  let n := if Flt.lit 0 <. Simd.length3 n then Simd.normalize3 n else n
  ⟨n.withW (Simd.dot3 n t.p0)⟩
/-- `setNormal`, /repo/include/math/plane.hpp:81-84. -/
@[vec] def setNormal (pl : Plane F) (n : V4 F) (normalize : Bool) : Plane F :=
  ⟨(if normalize then Simd.normalize3 n else n).withW pl.normDist.w⟩
/-- `setDistance`, /repo/include/math/plane.hpp:94. -/
@[vec] def setDistance (pl : Plane F) (d : F) : Plane F := ⟨pl.normDist.withW d⟩
/-- `normalize`, /repo/include/math/plane.hpp:99. -/
@[vec] def normalize (pl : Plane F) : Plane F := ⟨V4.div pl.normDist (V4.splat (Simd.length3 pl.normDist))⟩
/-- `distance3(plane, point)`, /repo/include/math/plane.hpp:120-123. -/
@[vec] def distance (pl : Plane F) (p : V4 F) : F := Simd.dot3 pl.normDist p +. pl.normDist.w
/-- `closestPoint(plane, point)`, /repo/include/math/plane.hpp:130-133. -/
@[vec] def closestPoint (pl : Plane F) (p : V4 F) : V4 F :=
  V4.sub p (V4.mul pl.normDist (V4.splat (pl.distance p)))
/-- `extractFrustumPlanes`, /repo/include/math/plane.hpp:166-178: the array written. -/
@[vec] def extractFrustum (m : M4 F) : List (Plane F) :=
  let t := Simd.transpose4x4 m
  [ctor ((V4.add t.c3 t.c0).withW (Flt.lit 0)) (t.c3.w +. t.c0.w) false,
   ctor ((V4.sub t.c3 t.c0).withW (Flt.lit 0)) (t.c3.w -. t.c0.w) false,
   ctor ((V4.sub t.c3 t.c1).withW (Flt.lit 0)) (t.c3.w -. t.c1.w) false,
   ctor ((V4.add t.c3 t.c1).withW (Flt.lit 0)) (t.c3.w +. t.c1.w) false,
   ctor (t.c2.withW (Flt.lit 0)) t.c2.w false,
   ctor ((V4.sub t.c3 t.c2).withW (Flt.lit 0)) (t.c3.w -. t.c2.w) false]
/-- `normalizePlanes`, /repo/include/math/plane.hpp:185-189. -/
@[vec] def normalizePlanes (ps : List (Plane F)) : List (Plane F) := ps.map normalize
end Plane

/-- `closestPoint(triangle, point)`, /repo/include/math/plane.hpp:141-157. -/
@[vec] def Triangle.closestPoint (t : Triangle F) (point : V4 F) : V4 F :=
  let p := Plane.closestPoint (Plane.ofTriangle t) point
  if t.isInside p then p
  else
    let c0 := Line.closestPoint ⟨t.p0, t.p1⟩ p
    let c1 := Line.closestPoint ⟨t.p1, t.p2⟩ p
    let c2 := Line.closestPoint ⟨t.p2, t.p0⟩ p
    let v : V4 F := V4.ofV3
      ⟨Simd.lengthSq3 (V4.sub p c0), Simd.lengthSq3 (V4.sub p c1), Simd.lengthSq3 (V4.sub p c2)⟩
    let m := Simd.min3 v
    if m ==. v.x then c0 else if m ==. v.y then c1 else c2

/-- Models /repo/include/math/sphere.hpp:31-35: position in the first three lanes, radius in the fourth. -/
structure Sphere (F : Type) where
  posRad : V4 F
deriving DecidableEq, Repr

namespace Sphere
/-- Constructor, /repo/include/math/sphere.hpp:42-43. -/
@[vec] def ctor (r : F) (p : V4 F) : Sphere F := ⟨p.withW r⟩
/-- `getRadius`, /repo/include/math/sphere.hpp:48. -/
@[vec] def radius (s : Sphere F) : F := s.posRad.w
/-- `setRadius`, /repo/include/math/sphere.hpp:53. -/
@[vec] def setRadius (s : Sphere F) (r : F) : Sphere F := ⟨s.posRad.withW r⟩
/-- `setPosition`, /repo/include/math/sphere.hpp:63. -/
@[vec] def setPosition (s : Sphere F) (p : V4 F) : Sphere F := ⟨p.withW s.posRad.w⟩
/-- `isInside(sphere, point)`, /repo/include/math/sphere.hpp:81-86. -/
@[vec] def isInside (s : Sphere F) (p : V4 F) : Bool :=
  Simd.lengthSq3 (V4.sub s.posRad p) <. s.radius *. s.radius
/-- `closestPoint(sphere, point)`, /repo/include/math/sphere.hpp:94-98. -/
@[vec] def closestPoint (s : Sphere F) (p : V4 F) : V4 F :=
  V4.add s.posRad (V4.smul (Simd.normalize3 (V4.sub p s.posRad)) s.radius)
/-- `isIntersected(sphere, sphere)`, /repo/include/math/sphere.hpp:106-111. -/
@[vec] def isIntersected (a b : Sphere F) : Bool :=
  Simd.lengthSq3 (V4.sub a.posRad b.posRad) <=. (a.radius +. b.radius) *. (a.radius +. b.radius)
/-- `isIntersected(sphere, aabb)`, /repo/include/math/sphere.hpp:118-123. -/
@[vec] def isIntersectedB (a : Sphere F) (b : Aabb F) : Bool :=
  Simd.lengthSq3 (V4.sub a.posRad (b.closestPoint a.posRad)) <. a.radius *. a.radius
end Sphere

/-! ## Frustum culling -/

namespace Aabb
/-- The eight corners `v0 .. v7`, /repo/include/math/aabb.hpp:496-503. -/
@[vec] def corners (b : Aabb F) : List (V4 F) :=
  let lo := b.min
  let hi := b.max
  [⟨lo.x, lo.y, lo.z, Flt.lit 1⟩, ⟨lo.x, lo.y, hi.z, Flt.lit 1⟩, ⟨lo.x, hi.y, lo.z, Flt.lit 1⟩,
   ⟨lo.x, hi.y, hi.z, Flt.lit 1⟩, ⟨hi.x, lo.y, lo.z, Flt.lit 1⟩, ⟨hi.x, lo.y, hi.z, Flt.lit 1⟩,
   ⟨hi.x, hi.y, lo.z, Flt.lit 1⟩, ⟨hi.x, hi.y, hi.z, Flt.lit 1⟩]
/-- The test of one plane against eight points, /repo/include/math/aabb.hpp:507-512 (and 471-476). -/
@[vec] def planeRejects (pl : Plane F) : List (V4 F) → Bool
  | [v0, v1, v2, v3, v4, v5, v6, v7] =>
    let d0 : V4 F := ⟨pl.distance v0, pl.distance v1, pl.distance v2, pl.distance v3⟩
    let d1 : V4 F := ⟨pl.distance v4, pl.distance v5, pl.distance v6, pl.distance v7⟩
    Sse.areAllTrue (V4.band (V4.cmp Flt.lt d0 (V4.splat (Flt.lit 0))) (V4.cmp Flt.lt d1 (V4.splat (Flt.lit 0))))
  | _ => false
/-- The loop over the planes, /repo/include/math/aabb.hpp:469-479. -/
def anyRejects (vs : List (V4 F)) : List (Plane F) → Bool
  | [] => false
  | pl :: rest => if planeRejects pl vs then true else anyRejects vs rest
/-- `isBehindFrustum(planes, planeCount, aabb)`, /repo/include/math/aabb.hpp:490-516. -/
def isBehindFrustum (planes : List (Plane F)) (b : Aabb F) : Bool := anyRejects b.corners planes
/-- `isBehindFrustum(planes, planeCount, aabb, model)`, /repo/include/math/aabb.hpp:454-480. -/
def isBehindFrustumM (planes : List (Plane F)) (b : Aabb F) (model : M4 F) : Bool :=
  anyRejects (b.corners.map (Simd.mulV model)) planes
end Aabb

/-! ## Triangle against box -/

namespace Sat
/-- One of the nine edge-axis tests, /repo/source/aabb.cpp:28-32 (repeated through 80): `true` means the
axis separates. -/
@[vec] def axisSep (c0 c1 c2 a : V4 F) (r : F) : Bool :=
  let p : V4 F := V4.ofV3 ⟨Simd.dot3 c0 a, Simd.dot3 c1 a, Simd.dot3 c2 a⟩
  gt (Flt.stdMax (-. Simd.max3 p) (Simd.min3 p)) r
/-- `isAabbIntersected(position, extent, triangle)`, /repo/source/aabb.cpp:18-93. -/
@[vec] def test (position extent : V4 F) (t : Triangle F) : Bool :=
  let c0 := V4.sub t.p0 position
  let c1 := V4.sub t.p1 position
  let c2 := V4.sub t.p2 position
  let f0 := V4.sub c1 c0
  let f1 := V4.sub c2 c1
  let f2 := V4.sub c0 c2
  let z : F := Flt.lit 0
  if axisSep c0 c1 c2 (V4.ofV3 ⟨z, -. f0.z, f0.y⟩) (extent.y *. Flt.abs f0.z +. extent.z *. Flt.abs f0.y) then false
  else if axisSep c0 c1 c2 (V4.ofV3 ⟨z, -. f1.z, f1.y⟩) (extent.y *. Flt.abs f1.z +. extent.z *. Flt.abs f1.y) then false
  else if axisSep c0 c1 c2 (V4.ofV3 ⟨z, -. f2.z, f2.y⟩) (extent.y *. Flt.abs f2.z +. extent.z *. Flt.abs f2.y) then false
  else if axisSep c0 c1 c2 (V4.ofV3 ⟨f0.z, z, -. f0.x⟩) (extent.x *. Flt.abs f0.z +. extent.z *. Flt.abs f0.x) then false
  else if axisSep c0 c1 c2 (V4.ofV3 ⟨f1.z, z, -. f1.x⟩) (extent.x *. Flt.abs f1.z +. extent.z *. Flt.abs f1.x) then false
  else if axisSep c0 c1 c2 (V4.ofV3 ⟨f2.z, z, -. f2.x⟩) (extent.x *. Flt.abs f2.z +. extent.z *. Flt.abs f2.x) then false
  else if axisSep c0 c1 c2 (V4.ofV3 ⟨-. f0.y, f0.x, z⟩) (extent.x *. Flt.abs f0.y +. extent.y *. Flt.abs f0.x) then false
  else if axisSep c0 c1 c2 (V4.ofV3 ⟨-. f1.y, f1.x, z⟩) (extent.x *. Flt.abs f1.y +. extent.y *. Flt.abs f1.x) then false
  else if axisSep c0 c1 c2 (V4.ofV3 ⟨-. f2.y, f2.x, z⟩) (extent.x *. Flt.abs f2.y +. extent.y *. Flt.abs f2.x) then false
  else
    let m := Simd.transpose3x3 ⟨c0, c1, c2, V4.splat z⟩
    if Simd.max3 m.c0 <. -. extent.x || gt (Simd.min3 m.c0) extent.x || Simd.max3 m.c1 <. -. extent.y ||
        gt (Simd.min3 m.c1) extent.y || Simd.max3 m.c2 <. -. extent.z || gt (Simd.min3 m.c2) extent.z then false
    else
      let n := Simd.cross3 f0 f1
      let d := Flt.abs (Simd.dot3 n c0)
      let r := extent.x *. Flt.abs n.x +. extent.y *. Flt.abs n.y +. extent.z *. Flt.abs n.z
      d <=. r
end Sat

end
end Verif
