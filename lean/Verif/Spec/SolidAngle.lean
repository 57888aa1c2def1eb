import Mathlib.MeasureTheory.Integral.IntervalIntegral.FundThmCalculus

/-!
# Solid angle of a rectangle on the plane at distance one

A small patch `dx dy` at `(x, y, 1)` is seen from the origin under the solid angle `cos(angle) dx dy / distance^2`,
that is `dx dy / (1 + x^2 + y^2)^(3/2)`.
-/

namespace Verif.Spec
noncomputable section

/-- Solid angle per unit area of the plane `z = 1` at `(x, y, 1)`. -/
def angleDensity (x y : ℝ) : ℝ := 1 / Real.sqrt (1 + x ^ 2 + y ^ 2) ^ 3

/-- Solid angle of the rectangle `[x0, x1] x [y0, y1]` of the plane `z = 1`. -/
def rectAngle (x0 x1 y0 y1 : ℝ) : ℝ := ∫ x in x0..x1, ∫ y in y0..y1, angleDensity x y

end
end Verif.Spec
