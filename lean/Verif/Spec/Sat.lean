import Verif.Spec.Reliable
import Verif.Props.TriangleBox

/-!
# How far rounding can move a triangle-box test
-/

namespace Verif.Spec

/-- The box with center `c` and half size `e`, grown by `d` on every side. -/
def boxAround (c e : V3 ℝ) (d : ℝ) : Set (V3 ℝ) :=
  Box ⟨c.x - (e.x + d), c.y - (e.y + d), c.z - (e.z + d)⟩ ⟨c.x + (e.x + d), c.y + (e.y + d), c.z + (e.z + d)⟩

/-- A coordinate of absolute value at most `L`, either zero or at least `2^-25`. -/
def Sized (L : ℝ) (x : F32) : Prop := x.isFinite = true ∧ |rv x| ≤ L ∧ (rv x = 0 ∨ 1 / 2 ^ 25 ≤ |rv x|)

/-- The sum of the absolute values of the coordinates of a vector. -/
def sumAbs (v : V3 ℝ) : ℝ := |v.x| + |v.y| + |v.z|

/-- The length of the first two edges of a triangle, as sums of absolute coordinates. -/
def edgeSum (p q r : V3 ℝ) : ℝ := sumAbs (diff q p) + sumAbs (diff r q)
/-- The size of the cross product of the two edges. -/
def areaSum (p q r : V3 ℝ) : ℝ := sumAbs (crossP (diff q p) (diff r q))

/-- A test whose coordinates are at most `L`, on a triangle that is not thinner than `L / 2^18`. -/
def SatOk (L : ℝ) (position extent : V4 F32) (t : Triangle F32) : Prop :=
  (∀ x ∈ position.xyz.toList ++ extent.xyz.toList ++ t.p0.xyz.toList ++ t.p1.xyz.toList ++ t.p2.xyz.toList, Sized L x) ∧
  (∀ x ∈ extent.xyz.toList, 0 ≤ rv x) ∧ 1 / 2 ^ 10 ≤ L ∧ L ≤ 2 ^ 18 ∧
  0 < areaSum (pos t.p0) (pos t.p1) (pos t.p2) ∧
  L * edgeSum (pos t.p0) (pos t.p1) (pos t.p2) / 2 ^ 18 ≤ areaSum (pos t.p0) (pos t.p1) (pos t.p2)

/-- The margin: sixteen half units in the last place of the largest coordinate, times a factor that is at least four and grows
as the triangle gets thinner. -/
noncomputable def satMargin (L : ℝ) (t : Triangle F32) : ℝ :=
  L * edgeSum (pos t.p0) (pos t.p1) (pos t.p2) ^ 2 / areaSum (pos t.p0) (pos t.p1) (pos t.p2) / 2 ^ 20

end Verif.Spec
