import Mathlib.Analysis.SpecialFunctions.Pow.Real
import Verif.Model.Vec

/-!
# Color specification

The published sRGB transfer functions (IEC 61966-2-1) on one channel, and the published linear RGB to CIE XYZ
matrix for the D65 white point.
-/

namespace Verif.Spec

/-- Linear to sRGB, one channel. -/
noncomputable def srgbEnc (x : ℝ) : ℝ :=
  if x ≤ 0.0031308 then 12.92 * x else 1.055 * x ^ ((1 : ℝ) / 2.4) - 0.055
/-- sRGB to linear, one channel. -/
noncomputable def srgbDec (s : ℝ) : ℝ :=
  if s ≤ 0.04045 then s / 12.92 else ((s + 0.055) / 1.055) ^ (2.4 : ℝ)

/-- CIE X, Y, Z of linear RGB: the rows of the published matrix. -/
noncomputable def cieX (r g b : ℝ) : ℝ := 0.4124564 * r + 0.3575761 * g + 0.1804375 * b
/-- Relative luminance. -/
noncomputable def cieY (r g b : ℝ) : ℝ := 0.2126729 * r + 0.7151522 * g + 0.0721750 * b
/-- The third tristimulus value. -/
noncomputable def cieZ (r g b : ℝ) : ℝ := 0.0193339 * r + 0.1191920 * g + 0.9503041 * b

end Verif.Spec
