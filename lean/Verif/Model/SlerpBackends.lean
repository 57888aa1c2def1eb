import Verif.Model.Quat
import Verif.Model.VecBackends

/-!
# Spherical interpolation on every SIMD backend
-/

namespace Verif.Quat
variable {F : Type} [Flt F] [FltT F]

/-- `slerp` on a SIMD backend, /repo/include/math/quaternion.hpp:175-193. The backends differ in the order in which `dot4`
sums the products; negation, product, sum and quotient of vectors are lane by lane on all of them. -/
def slerpOn (k : Backend) (a b : V4 F) (t : F) : V4 F :=
  let cosTheta := k.dot4 a b
  let flip := cosTheta <. Flt.lit 0
  let c := if flip then V4.neg b else b
  let cosTheta := if flip then -. cosTheta else cosTheta
  if Flt.lit 1 -. eps <. cosTheta then lerp a c t
  else
    let angle := FltT.acos cosTheta
    V4.div (V4.add (V4.smul a (FltT.sin ((Flt.lit 1 -. t) *. angle))) (V4.smul c (FltT.sin (t *. angle))))
      (V4.splat (FltT.sin angle))

end Verif.Quat
