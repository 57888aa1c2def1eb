import Verif.Spec.Reliable
import Verif.Spec.TriFoot
import Verif.Spec.Sat

/-!
# Barycentric coordinates in binary32
-/

namespace Verif.Spec

/-- A triangle whose two sides at the first vertex have lengths between `2^-20` and `2^20` and enclose there an angle whose
squared sine is at least `1 / K`. -/
def WellShaped (p q r : V3 ℝ) (K : ℝ) : Prop :=
  let e := diff q p
  let f := diff r p
  (1 / 2 ^ 40 ≤ dot e e ∧ dot e e ≤ 2 ^ 40) ∧ (1 / 2 ^ 40 ≤ dot f f ∧ dot f f ≤ 2 ^ 40) ∧
    dot e e * dot f f ≤ K * (dot e e * dot f f - dot e f ^ 2)

/-- `s` is at most `R` times as far from the first vertex as each of the other two vertices. -/
def WithinReach (p q r s : V3 ℝ) (R : ℝ) : Prop :=
  dot (diff s p) (diff s p) ≤ R ^ 2 * dot (diff q p) (diff q p) ∧ dot (diff s p) (diff s p) ≤ R ^ 2 * dot (diff r p) (diff r p)

/-- `a`, `b` and `c` are the weights of the point of the plane that is nearest to `s`. -/
def Weights (p q r s : V3 ℝ) (a b c : ℝ) : Prop := a + b + c = 1 ∧ Foot p q r s (combo p q r a b c)

/-- The square of twice the area of a triangle. -/
def areaSq (p q r : V3 ℝ) : ℝ := dot (crossP (diff q p) (diff r p)) (crossP (diff q p) (diff r p))

/-- Each coordinate of `p` is within `M` of that of `s`. -/
def InBoxAround (M : ℝ) (s p : V3 ℝ) : Prop := |p.x - s.x| ≤ M ∧ |p.y - s.y| ≤ M ∧ |p.z - s.z| ≤ M

end Verif.Spec
