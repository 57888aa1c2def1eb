import Verif.Spec.Rotate

/-!
# Rotations by an angle about an axis
-/

namespace Verif.Spec
open Quaternion

/-- The quaternion of the rotation about `u` by `θ` radians: `cos (θ / 2) + sin (θ / 2) (u₀ i + u₁ j + u₂ k)`. -/
noncomputable def turn (u : Fin 3 → ℝ) (θ : ℝ) : ℍ[ℝ] :=
  ⟨Real.cos (θ / 2), u 0 * Real.sin (θ / 2), u 1 * Real.sin (θ / 2), u 2 * Real.sin (θ / 2)⟩

/-- All four lanes of `q` are within `e` of the parts of `x`. -/
def NearQ (q : V4 F32) (x : ℍ[ℝ]) (e : ℝ) : Prop := NearIm q x e ∧ Near q.w x.re e

/-- The first three lanes as exact numbers. -/
noncomputable def exact3 (v : V4 F32) : Fin 3 → ℝ := ![rv v.x, rv v.y, rv v.z]

/-- The first three lanes of `r` are within `e` of the coordinates of `x`. -/
def NearV (r : V4 F32) (x : Fin 3 → ℝ) (e : ℝ) : Prop := Near r.x (x 0) e ∧ Near r.y (x 1) e ∧ Near r.z (x 2) e

/-- The length of the first three lanes. -/
noncomputable def len3 (v : V4 F32) : ℝ := Real.sqrt (rv v.x ^ 2 + rv v.y ^ 2 + rv v.z ^ 2)

end Verif.Spec
