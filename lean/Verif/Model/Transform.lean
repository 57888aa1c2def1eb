import Verif.Model.Quat

/-!
# Model matrices

Models /repo/include/math/matrix/transform.hpp.
-/

namespace Verif.Transform
variable {F : Type} [Flt F]

/-- `getTranslation`, /repo/include/math/matrix/transform.hpp:31-34. -/
@[vec] def getTranslation {F : Type} (m : M4 F) : V4 F := m.c3
/-- `setTranslation`, /repo/include/math/matrix/transform.hpp:41-44: the updated matrix. -/
@[vec] def setTranslation {F : Type} (m : M4 F) (t : V4 F) : M4 F := { m with c3 := V4.withW t m.c3.w }
/-- `translate(t)`, /repo/include/math/matrix/transform.hpp:50-54. -/
@[vec] def translate (t : V4 F) : M4 F :=
  ⟨⟨Flt.lit 1, Flt.lit 0, Flt.lit 0, Flt.lit 0⟩, ⟨Flt.lit 0, Flt.lit 1, Flt.lit 0, Flt.lit 0⟩,
   ⟨Flt.lit 0, Flt.lit 0, Flt.lit 1, Flt.lit 0⟩, V4.withW t (Flt.lit 1)⟩
/-- `translate(m, t)`, /repo/include/math/matrix/transform.hpp:61-64. -/
@[vec] def translateR (m : M4 F) (t : V4 F) : M4 F :=
  ⟨m.c0, m.c1, m.c2, V4.withW (V4.add m.c3 (Simd.multiply3x3V m t)) m.c3.w⟩
/-- `translate(t, m)`, /repo/include/math/matrix/transform.hpp:71-74. -/
@[vec] def translateL (t : V4 F) (m : M4 F) : M4 F := ⟨m.c0, m.c1, m.c2, V4.withW (V4.add m.c3 t) m.c3.w⟩
/-- `scale(s)`, /repo/include/math/matrix/transform.hpp:80-84. -/
@[vec] def scale (s : V4 F) : M4 F :=
  ⟨⟨s.x, Flt.lit 0, Flt.lit 0, Flt.lit 0⟩, ⟨Flt.lit 0, s.y, Flt.lit 0, Flt.lit 0⟩,
   ⟨Flt.lit 0, Flt.lit 0, s.z, Flt.lit 0⟩, ⟨Flt.lit 0, Flt.lit 0, Flt.lit 0, Flt.lit 1⟩⟩
/-- `scale(m, s)`, /repo/include/math/matrix/transform.hpp:91-94. -/
@[vec] def scaleR (m : M4 F) (s : V4 F) : M4 F :=
  ⟨V4.mul m.c0 (V4.splat s.x), V4.mul m.c1 (V4.splat s.y), V4.mul m.c2 (V4.splat s.z), m.c3⟩
/-- `scale(s, m)`, /repo/include/math/matrix/transform.hpp:101-105. -/
@[vec] def scaleL (s : V4 F) (m : M4 F) : M4 F :=
  ⟨Simd.mulV (scale s) m.c0, Simd.mulV (scale s) m.c1, Simd.mulV (scale s) m.c2, Simd.mulV (scale s) m.c3⟩
/-- `extractScale`, /repo/include/math/matrix/transform.hpp:111-114. -/
@[vec] def extractScale (m : M4 F) : V4 F :=
  V4.ofV3 ⟨Simd.lengthSq3 m.c0, Simd.lengthSq3 m.c1, Simd.lengthSq3 m.c2⟩
/-- `extractScale2`, /repo/include/math/matrix/transform.hpp:119-122. -/
@[vec] def extractScale2 (m : M4 F) : V2 F := ⟨Simd.lengthSq3 m.c0, Simd.length3 m.c1⟩

/-- `rotate(quat)`, /repo/include/math/matrix/transform.hpp:128-140. -/
@[vec] def rotate (q : V4 F) : M4 F :=
  let x := q.x; let y := q.y; let z := q.z; let w := q.w
  let xx := x *. x; let yy := y *. y; let zz := z *. z
  let xz := x *. z; let xy := x *. y; let yz := y *. z
  let wx := w *. x; let wy := w *. y; let wz := w *. z
  ⟨⟨Flt.lit 1 -. Flt.lit 2 *. (yy +. zz), Flt.lit 2 *. (xy +. wz), Flt.lit 2 *. (xz -. wy), Flt.lit 0⟩,
   ⟨Flt.lit 2 *. (xy -. wz), Flt.lit 1 -. Flt.lit 2 *. (xx +. zz), Flt.lit 2 *. (yz +. wx), Flt.lit 0⟩,
   ⟨Flt.lit 2 *. (xz +. wy), Flt.lit 2 *. (yz -. wx), Flt.lit 1 -. Flt.lit 2 *. (xx +. yy), Flt.lit 0⟩,
   ⟨Flt.lit 0, Flt.lit 0, Flt.lit 0, Flt.lit 1⟩⟩
/-- `rotate(lookFrom, lookTo, up)`, /repo/include/math/matrix/transform.hpp:148-156. -/
@[vec] def rotateLook (lookFrom lookTo up : V4 F) : M4 F :=
  let f := Simd.normalize3 (V4.sub lookTo lookFrom)
  let s := Simd.normalize3 (Simd.cross3 up f)
  let u := Simd.cross3 f s
  ⟨V4.withW s (Flt.lit 0), V4.withW u (Flt.lit 0), V4.withW f (Flt.lit 0),
   ⟨Flt.lit 0, Flt.lit 0, Flt.lit 0, Flt.lit 1⟩⟩
/-- `rotate(front, up)`, /repo/include/math/matrix/transform.hpp:163-170. -/
@[vec] def rotateFront (front up : V4 F) : M4 F :=
  let s := Simd.normalize3 (Simd.cross3 up front)
  let u := Simd.cross3 front s
  ⟨V4.withW s (Flt.lit 0), V4.withW u (Flt.lit 0), V4.withW front (Flt.lit 0),
   ⟨Flt.lit 0, Flt.lit 0, Flt.lit 0, Flt.lit 1⟩⟩
/-- `extractRotation`, /repo/include/math/matrix/transform.hpp:176-185. -/
@[vec] def extractRotation (m : M4 F) : M4 F :=
  let invScale := V4.div (V4.splat (Flt.lit 1)) (extractScale m)
  let c0 := V4.smul m.c0 invScale.x
  let c1 := V4.smul m.c1 invScale.y
  let c2 := V4.smul m.c2 invScale.z
  ⟨V4.withW c0 (Flt.lit 0), V4.withW c1 (Flt.lit 0), V4.withW c2 (Flt.lit 0),
   ⟨Flt.lit 0, Flt.lit 0, Flt.lit 0, Flt.lit 1⟩⟩
/-- `extractRotationOnly`, /repo/include/math/matrix/transform.hpp:191-195. -/
@[vec] def extractRotationOnly (m : M4 F) : M4 F :=
  ⟨V4.withW m.c0 (Flt.lit 0), V4.withW m.c1 (Flt.lit 0), V4.withW m.c2 (Flt.lit 0),
   ⟨Flt.lit 0, Flt.lit 0, Flt.lit 0, Flt.lit 1⟩⟩

/-- The choice of the biggest component in `extractQuat`: its index (0 = w, 1 = x, 2 = y, 3 = z) and four times its square
minus one, /repo/include/math/matrix/transform.hpp:203-225. -/
def biggest (m : M4 F) : Fin 4 × F :=
  let a := m.c0.x; let b := m.c1.y; let c := m.c2.z
  let x := a -. b -. c
  let y := b -. a -. c
  let z := c -. a -. b
  let r : Fin 4 × F := (0, a +. b +. c)
  let r := if r.2 <. x then (1, x) else r
  let r := if r.2 <. y then (2, y) else r
  if r.2 <. z then (3, z) else r
/-- `extractQuat`, /repo/include/math/matrix/transform.hpp:201-242. The `default: abort()` of the switch is unreachable:
the index is one of 0..3. -/
def extractQuat (m : M4 F) : V4 F :=
  let r := biggest m
  let v := Flt.sqrt (r.2 +. Flt.lit 1) *. Flt.lit (1/2)
  let mult := Flt.lit (1/4) /. v
  match r.1 with
  | 0 => ⟨(m.c1.z -. m.c2.y) *. mult, (m.c2.x -. m.c0.z) *. mult, (m.c0.y -. m.c1.x) *. mult, v⟩
  | 1 => ⟨v, (m.c0.y +. m.c1.x) *. mult, (m.c2.x +. m.c0.z) *. mult, (m.c1.z -. m.c2.y) *. mult⟩
  | 2 => ⟨(m.c0.y +. m.c1.x) *. mult, v, (m.c1.z +. m.c2.y) *. mult, (m.c2.x -. m.c0.z) *. mult⟩
  | 3 => ⟨(m.c2.x +. m.c0.z) *. mult, (m.c1.z +. m.c2.y) *. mult, v, (m.c0.y -. m.c1.x) *. mult⟩

/-- `scale == f32x4::one`: all four lanes compare equal, /repo/include/math/simd/vector/float.hpp:508-517. -/
def eq4 (a b : V4 F) : Bool := (a.x ==. b.x) && (a.y ==. b.y) && (a.z ==. b.z) && (a.w ==. b.w)
/-- `calcModel`, /repo/include/math/matrix/transform.hpp:251-256. -/
def calcModel (position rotation s : V4 F) : M4 F :=
  if eq4 s (V4.splat (Flt.lit 1)) then translateL position (rotate (Quat.normalize rotation))
  else Simd.mulM (Simd.mulM (translate position) (rotate (Quat.normalize rotation))) (scale s)
/-- `extractTransform(m, position, rotation, scale)`, /repo/include/math/matrix/transform.hpp:265-270: the three outputs. -/
def extractTransform (m : M4 F) : V4 F × V4 F × V4 F :=
  (getTranslation m, extractQuat (extractRotation m), extractScale m)
/-- `extractTransform(m, position, rotation)`, /repo/include/math/matrix/transform.hpp:278-282: the two outputs. -/
def extractTransform2 (m : M4 F) : V4 F × V4 F := (getTranslation m, extractQuat (extractRotationOnly m))

/-- `lookAt`, /repo/include/math/matrix/transform.hpp:291-299. -/
@[vec] def lookAt (from_ to_ up : V4 F) : M4 F :=
  let f := Simd.normalize3 (V4.sub to_ from_)
  let s := Simd.normalize3 (Simd.cross3 up f)
  let u := Simd.cross3 f s
  Simd.transpose4x4 ⟨V4.withW s (-. Simd.dot3 s from_), V4.withW u (-. Simd.dot3 u from_),
    V4.withW f (-. Simd.dot3 f from_), ⟨Flt.lit 0, Flt.lit 0, Flt.lit 0, Flt.lit 1⟩⟩
/-- The matrix `m` inside `lookAtQuat`, /repo/include/math/matrix/transform.hpp:308-311. The three-column constructor
duplicates the third column. -/
@[vec] def lookAtQuatMatrix (direction up : V4 F) : M4 F :=
  let right := Simd.cross3 up direction
  let c0 := V4.smul right (Flt.lit 1 /. Flt.sqrt (Flt.stdMax (Flt.lit (1 / 100000)) (Simd.dot3 right right)))
  let c1 := Simd.cross3 right c0
  ⟨c0, c1, direction, direction⟩
/-- `lookAtQuat`, /repo/include/math/matrix/transform.hpp:306-313. -/
def lookAtQuat (direction up : V4 F) : V4 F := extractQuat (lookAtQuatMatrix direction up)
/-- `inverseTransRot`, /repo/include/math/matrix/transform.hpp:320-325. -/
@[vec] def inverseTransRot (m : M4 F) : M4 F :=
  let t := Simd.transpose4x4 m
  setTranslation t (V4.neg (Simd.multiply3x3V t (getTranslation m)))

end Verif.Transform
