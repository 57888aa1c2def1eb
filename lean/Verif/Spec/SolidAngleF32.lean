import Verif.Spec.Accuracy
import Verif.Spec.SolidAngle
import Mathlib.Analysis.SpecialFunctions.Trigonometric.Arctan

/-!
# Solid angles of cube map texels in binary32
-/

namespace Verif.Spec

/-- The platform's `std::atan2(y, x)` is right up to four rounding units for `x` from 1/2 to 4 and `|y|` up to 4. -/
def AtanOk (f : F32 → F32 → F32) : Prop := ∀ y x, y.isFinite = true → x.isFinite = true → 1 / 2 ≤ rv x → rv x ≤ 4 → |rv y| ≤ 4 →
  Near (f y x) (Real.arctan (rv y / rv x)) (1 / 2 ^ 22 * |Real.arctan (rv y / rv x)| + 1 / 2 ^ 149)

/-- The solid angle of the texel in column `i` and row `j` of a cube map face with `n` by `n` texels. The face is the
square from -1 to 1 at distance one; columns and rows are counted from its positive sides. -/
noncomputable def texelAngle (n i j : ℕ) : ℝ :=
  rectAngle (1 - 2 * (i + 1) / n) (1 - 2 * i / n) (1 - 2 * (j + 1) / n) (1 - 2 * j / n)

end Verif.Spec
