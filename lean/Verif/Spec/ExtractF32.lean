import Verif.Spec.AngleQuat

/-!
# Quaternions of the same rotation
-/

namespace Verif.Spec
open Quaternion

/-- All lanes of `r` are within `e` of those of `q`, or all are within `e` of those of `-q`, which is the same rotation. -/
def SameTurn (r : V4 F32) (q : ℍ[ℝ]) (e : ℝ) : Prop := NearQ r q e ∨ NearQ r (-q) e

end Verif.Spec
