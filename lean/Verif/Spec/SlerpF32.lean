import Verif.Spec.Accuracy
import Verif.Spec.Quat
import Verif.Spec.Linear
import Mathlib.Analysis.SpecialFunctions.Trigonometric.Inverse

/-!
# Spherical interpolation in binary32
-/

namespace Verif.Spec

/-- All four lanes of `q` are finite and within `e` of those of the exact quaternion `x`. -/
def Near4 (q : V4 F32) (x : V4 ℝ) (e : ℝ) : Prop := Near q.x x.x e ∧ Near q.y x.y e ∧ Near q.z x.z e ∧ Near q.w x.w e

/-- The inner product of two quaternions. -/
def inner4 (a b : V4 ℝ) : ℝ := a.x * b.x + a.y * b.y + a.z * b.z + a.w * b.w

/-- `r` is the point of the unit sphere at the fraction `t` of the arc from `a` to `c`: it makes the angle `t θ` with `a`
and `(1 - t) θ` with `c`, where `θ` is the angle between `a` and `c`. -/
def OnArc (a c r : V4 ℝ) (t : ℝ) : Prop :=
  UnitQuat r ∧ inner4 a r = Real.cos (t * Real.arccos (inner4 a c)) ∧ inner4 r c = Real.cos ((1 - t) * Real.arccos (inner4 a c))

/-- The platform's `std::sin` is right up to four rounding units for arguments from 0 to 2. -/
def SinOk (f : F32 → F32) : Prop := ∀ x, x.isFinite = true → 0 ≤ rv x → rv x ≤ 2 →
  Near (f x) (Real.sin (rv x)) (1 / 2 ^ 22 * Real.sin (rv x) + 1 / 2 ^ 149)

/-- The platform's `std::acos` is right up to four rounding units for arguments from 0 to 1. -/
def AcosOk (f : F32 → F32) : Prop := ∀ x, x.isFinite = true → 0 ≤ rv x → rv x ≤ 1 →
  Near (f x) (Real.arccos (rv x)) (1 / 2 ^ 22 * Real.arccos (rv x) + 1 / 2 ^ 149)

end Verif.Spec
