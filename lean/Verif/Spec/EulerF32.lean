import Verif.Spec.AngleQuat
import Mathlib.Analysis.SpecialFunctions.Complex.Arg

/-!
# Euler angles in binary32
-/

namespace Verif.Spec
open Quaternion

/-- The angles differ by at most `e` up to whole turns. -/
def SameAngle (a b e : ℝ) : Prop := ∃ n : ℤ, |a - b - 2 * Real.pi * n| ≤ e

/-- The platform's `std::atan2(y, x)` is the polar angle of the point (x, y) within 2^-20 (four units in the last place of
pi), up to a whole turn (the sign of zero decides between pi and -pi). -/
def Atan2Ok (f : F32 → F32 → F32) : Prop := ∀ y x, y.isFinite = true → x.isFinite = true → ¬ (rv x = 0 ∧ rv y = 0) →
  (f y x).isFinite = true ∧ SameAngle (rv (f y x)) (Complex.arg ⟨rv x, rv y⟩) (1 / 2 ^ 20)

/-- The platform's `std::asin` is within 2^-21 (four units in the last place of pi / 2) of the arc sine. -/
def AsinOk (f : F32 → F32) : Prop := ∀ x, x.isFinite = true → |rv x| ≤ 1 → Near (f x) (Real.arcsin (rv x)) (1 / 2 ^ 21)

/-- The rotation with the given Euler angles: first `p` about x, then `y` about y, then `r` about z. -/
noncomputable def eulerTurn (p y r : ℝ) : ℍ[ℝ] := turn ![0, 0, 1] r * turn ![0, 1, 0] y * turn ![1, 0, 0] p

end Verif.Spec
