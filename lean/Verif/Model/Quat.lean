import Verif.Model.Mat
import Verif.Model.FltT

/-!
# Quaternions

Models /repo/include/math/quaternion.hpp. A quaternion is a `V4` with the imaginary part in `x`, `y`, `z` and the real
part in `w` (`quat` derives from `f32x4`).

`sinCos` (the SIMD sine and cosine, /repo/include/math/simd/vector/float.hpp:1306-1340) is a parameter of the two
constructors that call it: it works lane by lane, so it is a function from one lane to the pair (sine, cosine).
-/

namespace Verif.Quat
variable {F : Type} [Flt F]

/-- `quat::identity`, /repo/include/math/quaternion.hpp:143. -/
@[vec] def identity : V4 F := ⟨Flt.lit 0, Flt.lit 0, Flt.lit 0, Flt.lit 1⟩
/-- `quat(float angle, f32x4 axis)`, /repo/include/math/quaternion.hpp:69-74. `sinCos` is the lane function of
/repo/include/math/simd/vector/float.hpp:1306-1340; the selection mask takes the cosine in lane `w`. -/
@[vec] def ofAxisAngle (sinCos : F → F × F) (angle : F) (axis : V4 F) : V4 F :=
  let s := (V4.splat (angle *. Flt.lit (1/2))).map (fun a => (sinCos a).1)
  let c := (V4.splat (angle *. Flt.lit (1/2))).map (fun a => (sinCos a).2)
  V4.select ⟨0#32, 0#32, 0#32, 0xFFFFFFFF#32⟩ c (V4.mul axis s)
/-- `a * b` (quaternion product), /repo/include/math/quaternion.hpp:80-89. -/
@[vec] def mul (a q : V4 F) : V4 F :=
  ⟨a.w *. q.x +. a.x *. q.w +. a.y *. q.z -. a.z *. q.y,
   a.w *. q.y +. a.y *. q.w +. a.z *. q.x -. a.x *. q.z,
   a.w *. q.z +. a.z *. q.w +. a.x *. q.y -. a.y *. q.x,
   a.w *. q.w -. a.x *. q.x -. a.y *. q.y -. a.z *. q.z⟩
/-- `q * v` (rotation of a vector), /repo/include/math/quaternion.hpp:94-98. -/
@[vec] def rotate (q v : V4 F) : V4 F :=
  let cq := Simd.cross3 q v
  let ccq := Simd.cross3 q cq
  Simd.fma (Simd.fma cq (V4.splat q.w) ccq) (V4.splat (Flt.lit 2)) v
/-- `normalize`, /repo/include/math/quaternion.hpp:149. -/
@[vec] def normalize (q : V4 F) : V4 F := Simd.normalize4 q
/-- `conjugate`, /repo/include/math/quaternion.hpp:199-203. The exclusive or with the sign bits of the first three lanes
is a negation of these lanes (`Flt.neg` flips the sign bit in the binary32 instance). -/
@[vec] def conjugate (q : V4 F) : V4 F := ⟨-. q.x, -. q.y, -. q.z, q.w⟩
/-- `inverse`, /repo/include/math/quaternion.hpp:208. -/
@[vec] def inverse (q : V4 F) : V4 F := V4.div (conjugate q) (V4.splat (Simd.dot4 q q))
/-- `v * q` (rotation by the inverse), /repo/include/math/quaternion.hpp:216. -/
@[vec] def rotateInv (v q : V4 F) : V4 F := rotate (inverse q) v
/-- `fromEulerAngles`, /repo/include/math/quaternion.hpp:155-166. -/
@[vec] def fromEulerAngles (sinCos : F → F × F) (e : V4 F) : V4 F :=
  let s := (V4.smul e (Flt.lit (1/2))).map (fun a => (sinCos a).1)
  let c := (V4.smul e (Flt.lit (1/2))).map (fun a => (sinCos a).2)
  ⟨s.x *. c.y *. c.z -. c.x *. s.y *. s.z,
   c.x *. s.y *. c.z +. s.x *. c.y *. s.z,
   c.x *. c.y *. s.z -. s.x *. s.y *. c.z,
   c.x *. c.y *. c.z +. s.x *. s.y *. s.z⟩

/-- `FLT_EPSILON`, 2^-23. Models the constant used in /repo/include/math/quaternion.hpp:115, 184. -/
@[vec] def eps : F := Flt.lit (1 / 8388608)

section
variable [FltT F]

/-- `extractPitch`, /repo/include/math/quaternion.hpp:108-118. -/
def extractPitch (q : V4 F) : F :=
  let yy := Flt.lit 2 *. (q.y *. q.z +. q.w *. q.x)
  let xx := q.w *. q.w -. q.x *. q.x -. q.y *. q.y +. q.z *. q.z
  if (Flt.abs xx <=. eps) || (Flt.abs yy <=. eps) then Flt.lit 2 *. FltT.atan2 q.x q.w
  else FltT.atan2 yy xx
/-- `extractYaw`, /repo/include/math/quaternion.hpp:122-125. -/
def extractYaw (q : V4 F) : F :=
  FltT.asin (Flt.stdClamp (Flt.lit (-2) *. (q.x *. q.z -. q.w *. q.y)) (Flt.lit (-1)) (Flt.lit 1))
/-- `extractRoll`, /repo/include/math/quaternion.hpp:129-133. -/
def extractRoll (q : V4 F) : F :=
  FltT.atan2 (Flt.lit 2 *. (q.x *. q.y +. q.w *. q.z)) (q.w *. q.w +. q.x *. q.x -. q.y *. q.y -. q.z *. q.z)
/-- `extractEulerAngles`, /repo/include/math/quaternion.hpp:137. The three-argument constructor duplicates z. -/
def extractEulerAngles (q : V4 F) : V4 F := V4.ofV3 ⟨extractPitch q, extractYaw q, extractRoll q⟩

/-- `lerp`, /repo/include/math/simd/vector/float.hpp:1359. -/
@[vec] def lerp (a b : V4 F) (t : F) : V4 F := V4.add (V4.smul a (Flt.lit 1 -. t)) (V4.smul b t)
/-- `slerp`, /repo/include/math/quaternion.hpp:175-193. -/
def slerp (a b : V4 F) (t : F) : V4 F :=
  let cosTheta := Simd.dot4 a b
  let flip := cosTheta <. Flt.lit 0
  let c := if flip then V4.neg b else b
  let cosTheta := if flip then -. cosTheta else cosTheta
  if Flt.lit 1 -. eps <. cosTheta then lerp a c t
  else
    let angle := FltT.acos cosTheta
    V4.div (V4.add (V4.smul a (FltT.sin ((Flt.lit 1 -. t) *. angle))) (V4.smul c (FltT.sin (t *. angle))))
      (V4.splat (FltT.sin angle))
end
end Verif.Quat
