import Verif.Model.Angles
import Verif.Spec.Linear

/-!
# Angle conversion (C70)
-/

namespace Verif
open Spec

private theorem pi_ne : Real.pi ≠ 0 := Real.pi_ne_zero

/-- C70: `radians` and `degrees` undo each other, on scalars and on every component of the vector overloads. -/
theorem angles_inverse (x : ℝ) (a : V2 ℝ) (b : V3 ℝ) (c : V4 ℝ) :
    degrees (radians x) = x ∧ radians (degrees x) = x ∧
    degrees2 (radians2 a) = a ∧ radians2 (degrees2 a) = a ∧
    degrees3 (radians3 b) = b ∧ radians3 (degrees3 b) = b ∧
    degrees4 (radians4 c) = c ∧ radians4 (degrees4 c) = c ∧
    degreesSimd (radiansSimd c) = c ∧ radiansSimd (degreesSimd c) = c := by
  have h := pi_ne
  have e1 : ∀ t : ℝ, t * (Real.pi / 180) * (180 / Real.pi) = t := fun t => by field_simp
  have e2 : ∀ t : ℝ, t * (180 / Real.pi) * (Real.pi / 180) = t := fun t => by field_simp
  have e3 : ∀ t : ℝ, t * Real.pi / 180 * 180 / Real.pi = t := fun t => by field_simp
  have e4 : ∀ t : ℝ, t * 180 / Real.pi * Real.pi / 180 = t := fun t => by field_simp
  simp only [vec, Rat.cast_ofNat, e1, e2, e3, e4, and_self]

/-- C70: both conversions are linear, a half turn is 180 degrees, and every overload applies the scalar
conversion to each component: in particular the SIMD overloads agree with the scalar ones. -/
theorem angles_linear_agree (x y k : ℝ) (a : V2 ℝ) (b : V3 ℝ) (c : V4 ℝ) :
    radians (x + y) = radians x + radians y ∧ radians (k * x) = k * radians x ∧
    degrees (x + y) = degrees x + degrees y ∧ degrees (k * x) = k * degrees x ∧
    radians (180 : ℝ) = Real.pi ∧ degrees Real.pi = 180 ∧
    vec2 (radians2 a) = ![radians a.x, radians a.y] ∧
    vec3 (radians3 b) = ![radians b.x, radians b.y, radians b.z] ∧
    vec4 (radians4 c) = ![radians c.x, radians c.y, radians c.z, radians c.w] ∧
    vec4 (radiansSimd c) = ![radians c.x, radians c.y, radians c.z, radians c.w] ∧
    vec2 (degrees2 a) = ![degrees a.x, degrees a.y] ∧
    vec3 (degrees3 b) = ![degrees b.x, degrees b.y, degrees b.z] ∧
    vec4 (degrees4 c) = ![degrees c.x, degrees c.y, degrees c.z, degrees c.w] ∧
    vec4 (degreesSimd c) = ![degrees c.x, degrees c.y, degrees c.z, degrees c.w] := by
  have h := pi_ne
  have e1 : ∀ t : ℝ, t * Real.pi / 180 = t * (Real.pi / 180) := fun t => by ring
  have e2 : ∀ t : ℝ, t * 180 / Real.pi = t * (180 / Real.pi) := fun t => by ring
  simp only [vec, vec2, vec3, vec4, Rat.cast_ofNat, e1, e2, true_and, and_true]
  refine ⟨by ring, by ring, by ring, by ring, by ring, by field_simp⟩

/-- C70, in rounded arithmetic the agreement is not exact: for 51 degrees the scalar overload and the SIMD
overload return different `float` values. -/
theorem angles_rounding_differs :
    (radiansSimd (V4.splat (F32.ofRat 51))).x ≠ radians (F32.ofRat 51) := by
  decide +kernel

/-- Concrete case: 90 degrees. -/
example : radians (90 : ℝ) = Real.pi / 2 ∧ degrees (Real.pi / 2) = 90 := by
  have h := pi_ne
  simp only [vec, Rat.cast_ofNat]
  constructor
  · ring
  · field_simp; norm_num

end Verif
