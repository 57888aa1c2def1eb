import Mathlib.Analysis.SpecialFunctions.Trigonometric.Basic
import Verif.Spec.Sh

/-!
# The function a list of nine coefficients stands for

The sum of coefficient times normalised real spherical harmonic, written as polynomials in the direction.
-/

namespace Verif.Spec

/-- The value at the unit direction `d` of the function with coefficients `s0` ... `s8` (bands 0, 1 and 2). -/
noncomputable def shFun (s0 s1 s2 s3 s4 s5 s6 s7 s8 : ℝ) (d : V3 ℝ) : ℝ :=
  s0 * (1 / (2 * Real.sqrt Real.pi)) +
  (s1 * (-d.y) + s2 * d.z + s3 * (-d.x)) * (Real.sqrt 3 / (2 * Real.sqrt Real.pi)) +
  (s4 * (d.x * d.y) - s5 * (d.y * d.z) - s7 * (d.x * d.z)) * (Real.sqrt 15 / (2 * Real.sqrt Real.pi)) +
  s6 * (3 * d.z ^ 2 - 1) * (Real.sqrt 5 / (4 * Real.sqrt Real.pi)) +
  s8 * (d.x ^ 2 - d.y ^ 2) * (Real.sqrt 15 / (4 * Real.sqrt Real.pi))

/-- `r` is the least value of `f` on the unit sphere. -/
def LeastOnSphere (f : V3 ℝ → ℝ) (r : ℝ) : Prop :=
  (∀ d, inner3 d d = 1 → r ≤ f d) ∧ ∃ d, inner3 d d = 1 ∧ f d = r
/-- `r` is the greatest value of `f` on the unit sphere. -/
def GreatestOnSphere (f : V3 ℝ → ℝ) (r : ℝ) : Prop :=
  (∀ d, inner3 d d = 1 → f d ≤ r) ∧ ∃ d, inner3 d d = 1 ∧ f d = r

end Verif.Spec
