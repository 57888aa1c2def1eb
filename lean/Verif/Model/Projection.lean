import Verif.Model.Mat
import Verif.Model.FltT

/-!
# Projection matrices

Models /repo/include/math/matrix/projection.hpp.
-/

namespace Verif.Projection
variable {F : Type} [Flt F]

section
variable [FltT F]
/-- `calcPerspProjInfRevZ`, /repo/include/math/matrix/projection.hpp:39-47. -/
@[vec] def perspInfRevZ (fov aspect near : F) : M4 F :=
  let t := FltT.tan (fov *. Flt.lit (1/2))
  M4.ofRows (Flt.lit 1 /. (aspect *. t)) (Flt.lit 0) (Flt.lit 0) (Flt.lit 0)
    (Flt.lit 0) (Flt.lit (-1) /. t) (Flt.lit 0) (Flt.lit 0)
    (Flt.lit 0) (Flt.lit 0) (Flt.lit 0) near
    (Flt.lit 0) (Flt.lit 0) (Flt.lit 1) (Flt.lit 0)
/-- `calcPerspProjRevZ`, /repo/include/math/matrix/projection.hpp:56-65. -/
@[vec] def perspRevZ (fov aspect near far : F) : M4 F :=
  let t := FltT.tan (fov *. Flt.lit (1/2))
  M4.ofRows (Flt.lit 1 /. (aspect *. t)) (Flt.lit 0) (Flt.lit 0) (Flt.lit 0)
    (Flt.lit 0) (Flt.lit (-1) /. t) (Flt.lit 0) (Flt.lit 0)
    (Flt.lit 0) (Flt.lit 0) (near /. (near -. far)) ((-. (near *. far)) /. (near -. far))
    (Flt.lit 0) (Flt.lit 0) (Flt.lit 1) (Flt.lit 0)
/-- `calcPerspProj`, /repo/include/math/matrix/projection.hpp:74-83. -/
@[vec] def persp (fov aspect near far : F) : M4 F :=
  let t := FltT.tan (fov *. Flt.lit (1/2))
  M4.ofRows (Flt.lit 1 /. (aspect *. t)) (Flt.lit 0) (Flt.lit 0) (Flt.lit 0)
    (Flt.lit 0) (Flt.lit (-1) /. t) (Flt.lit 0) (Flt.lit 0)
    (Flt.lit 0) (Flt.lit 0) (far /. (far -. near)) ((-. (far *. near)) /. (far -. near))
    (Flt.lit 0) (Flt.lit 0) (Flt.lit 1) (Flt.lit 0)
end

/-- `calcOrthoProjRevZ`, /repo/include/math/matrix/projection.hpp:92-99. -/
@[vec] def orthoRevZ (width height depth : V2 F) : M4 F :=
  M4.ofRows (Flt.lit 2 /. (width.y -. width.x)) (Flt.lit 0) (Flt.lit 0)
      ((-. (width.y +. width.x)) /. (width.y -. width.x))
    (Flt.lit 0) (Flt.lit (-2) /. (height.y -. height.x)) (Flt.lit 0)
      ((height.y +. height.x) /. (height.y -. height.x))
    (Flt.lit 0) (Flt.lit 0) (Flt.lit 1 /. (depth.x -. depth.y)) ((-. depth.y) /. (depth.x -. depth.y))
    (Flt.lit 0) (Flt.lit 0) (Flt.lit 0) (Flt.lit 1)
/-- `calcOrthoProj`, /repo/include/math/matrix/projection.hpp:107-114. -/
@[vec] def ortho (width height depth : V2 F) : M4 F :=
  M4.ofRows (Flt.lit 2 /. (width.y -. width.x)) (Flt.lit 0) (Flt.lit 0)
      ((-. (width.y +. width.x)) /. (width.y -. width.x))
    (Flt.lit 0) (Flt.lit (-2) /. (height.y -. height.x)) (Flt.lit 0)
      ((height.y +. height.x) /. (height.y -. height.x))
    (Flt.lit 0) (Flt.lit 0) (Flt.lit 1 /. (depth.y -. depth.x)) ((-. depth.x) /. (depth.y -. depth.x))
    (Flt.lit 0) (Flt.lit 0) (Flt.lit 0) (Flt.lit 1)

end Verif.Projection
