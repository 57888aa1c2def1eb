import Verif.Spec.Rotate

/-!
# Where an object's transform puts a point, exactly
-/

namespace Verif.Spec
open Quaternion

/-- The direction `v` scaled by `s` along the axes and then rotated by `q`. -/
noncomputable def turned (q s v : V4 F32) : ℍ[ℝ] :=
  quatOf q * imQ ⟨rv s.x * rv v.x, rv s.y * rv v.y, rv s.z * rv v.z, 0⟩ * (quatOf q)⁻¹

/-- The point `v` scaled by `s`, rotated by `q` and moved by `p`. -/
noncomputable def placed (p q s v : V4 F32) : ℍ[ℝ] := pureOf p + turned q s v

/-- The sum of the sizes of the scaled coordinates. -/
noncomputable def spread (s v : V4 F32) : ℝ := |rv s.x * rv v.x| + |rv s.y * rv v.y| + |rv s.z * rv v.z|

end Verif.Spec
