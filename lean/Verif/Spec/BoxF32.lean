import Verif.Spec.Reliable

/-!
# Boxes in binary32
-/

namespace Verif.Spec

/-- The three coordinates of a point. -/
def axes : List (V4 F32 → F32) := [V4.x, V4.y, V4.z]

/-- A coordinate is finite and at most `2^120` in absolute value. -/
def Mild (x : F32) : Prop := x.isFinite = true ∧ |rv x| ≤ 2 ^ 120

end Verif.Spec
