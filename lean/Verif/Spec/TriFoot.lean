import Verif.Spec.Geom

/-!
# The nearest point of a triangle
-/

namespace Verif.Spec

/-- `s` is the foot of the perpendicular from `x` to the plane of the triangle. -/
def Foot (p q r x s : V3 ℝ) : Prop :=
  s ∈ TriPlane p q r ∧ dot (diff x s) (diff q p) = 0 ∧ dot (diff x s) (diff r p) = 0
/-- The points inside a triangle, off its edges. -/
def TriInterior (p q r : V3 ℝ) : Set (V3 ℝ) := {s | ∃ a b c, 0 < a ∧ 0 < b ∧ 0 < c ∧ a + b + c = 1 ∧ s = combo p q r a b c}
/-- The points of the line through `p` and `q`. -/
def LinePts (p q : V3 ℝ) : Set (V3 ℝ) := {s | ∃ t, s = along p (diff q p) t}

end Verif.Spec
