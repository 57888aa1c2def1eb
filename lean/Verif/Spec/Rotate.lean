import Verif.Spec.Products

/-!
# Rotating a vector by a quaternion, exactly
-/

namespace Verif.Spec
open Quaternion

/-- The first three lanes of a vector as a purely imaginary Hamilton quaternion. -/
noncomputable def pureOf (v : V4 F32) : ℍ[ℝ] := imQ ⟨rv v.x, rv v.y, rv v.z, 0⟩

/-- The first three lanes of `r` are within `e` of the imaginary part of `x`. -/
def NearIm (r : V4 F32) (x : ℍ[ℝ]) (e : ℝ) : Prop := Near r.x x.imI e ∧ Near r.y x.imJ e ∧ Near r.z x.imK e

end Verif.Spec
