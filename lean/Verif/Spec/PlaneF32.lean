import Verif.Spec.Camera

/-!
# The plane through a triangle, exactly
-/

namespace Verif.Spec

/-- `n` is the unit normal of the triangle `a b c`: it has length one, is perpendicular to both sides at `a`, and sees the
corners `a`, `b`, `c` in counterclockwise order. -/
structure IsTriNormal (n a b c : V3 ℝ) : Prop where
  unit : dot n n = 1
  perp1 : dot n (diff b a) = 0
  perp2 : dot n (diff c a) = 0
  side : 0 < n.x * ((b.y - a.y) * (c.z - a.z) - (b.z - a.z) * (c.y - a.y)) +
    n.y * ((b.z - a.z) * (c.x - a.x) - (b.x - a.x) * (c.z - a.z)) +
    n.z * ((b.x - a.x) * (c.y - a.y) - (b.y - a.y) * (c.x - a.x))

/-- What is asked of a triangle `a b c`: the sine of its angle at `a` is at least `s`, `s` is at least `2^-20`, the sides at `a`
are at most `2^30` long, and their product times `s` is at least `2^-49`. -/
structure TriangleOk (a b c : V3 ℝ) (s : ℝ) : Prop where
  sine : 1 / 2 ^ 20 ≤ s
  angle : dot (diff b a) (diff c a) ^ 2 ≤ (1 - s ^ 2) * (dist2 a b * dist2 a c)
  side1 : Spec.dist a b ≤ 2 ^ 30
  side2 : Spec.dist a c ≤ 2 ^ 30
  area : 1 / 2 ^ 49 ≤ s * (Spec.dist a b * Spec.dist a c)

end Verif.Spec
