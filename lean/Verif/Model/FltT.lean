import Mathlib.Analysis.SpecialFunctions.Pow.Real
import Mathlib.Analysis.SpecialFunctions.Trigonometric.Inverse
import Mathlib.Analysis.SpecialFunctions.Complex.Arg
import Verif.Model.RealFlt

/-!
# Library functions on `float`

`std::pow`, `std::sin`, ... as operations of a class, with exact real functions as the only instance: the
properties about code that calls them are stated in exact arithmetic.
-/

namespace Verif

/-- The `<cmath>` functions the code calls. Models the calls in /repo/include/math (`std::pow`, `std::exp`,
`std::log`, `std::sin`, `std::cos`, `std::tan`, `std::acos`, `std::asin`, `std::atan2`, `std::fmod`,
`std::floor`, `std::signbit`). -/
class FltT (F : Type) where
  pow : F → F → F
  exp : F → F
  log : F → F
  sin : F → F
  cos : F → F
  tan : F → F
  acos : F → F
  asin : F → F
  /-- `std::atan2(y, x)` -/
  atan2 : F → F → F
  /-- `std::fmod(x, y)`: remainder with the sign of `x` -/
  fmod : F → F → F
  floor : F → F
  signbit : F → Bool

/-- Rounding towards zero on the reals. -/
noncomputable def rtrunc (x : ℝ) : ℝ := if 0 ≤ x then (⌊x⌋ : ℝ) else (⌈x⌉ : ℝ)

/-- Exact library functions. Simplification: there is no negative zero, so `signbit x` is `x < 0`. -/
noncomputable instance : FltT ℝ where
  pow := Real.rpow
  exp := Real.exp
  log := Real.log
  sin := Real.sin
  cos := Real.cos
  tan := Real.tan
  acos := Real.arccos
  asin := Real.arcsin
  atan2 y x := Complex.arg ⟨x, y⟩
  fmod x y := x - y * rtrunc (x / y)
  floor x := (⌊x⌋ : ℝ)
  signbit x := decide (x < 0)

namespace FltT
@[simp, vec] theorem real_pow (a b : ℝ) : FltT.pow a b = a ^ b := rfl
@[simp, vec] theorem real_exp (a : ℝ) : FltT.exp a = Real.exp a := rfl
@[simp, vec] theorem real_log (a : ℝ) : FltT.log a = Real.log a := rfl
@[simp, vec] theorem real_sin (a : ℝ) : FltT.sin a = Real.sin a := rfl
@[simp, vec] theorem real_cos (a : ℝ) : FltT.cos a = Real.cos a := rfl
@[simp, vec] theorem real_tan (a : ℝ) : FltT.tan a = Real.tan a := rfl
@[simp, vec] theorem real_acos (a : ℝ) : FltT.acos a = Real.arccos a := rfl
@[simp, vec] theorem real_asin (a : ℝ) : FltT.asin a = Real.arcsin a := rfl
@[simp, vec] theorem real_atan2 (y x : ℝ) : FltT.atan2 y x = Complex.arg ⟨x, y⟩ := rfl
@[simp, vec] theorem real_floor (a : ℝ) : FltT.floor a = (⌊a⌋ : ℝ) := rfl
@[simp, vec] theorem real_signbit (a : ℝ) : FltT.signbit a = decide (a < 0) := rfl
theorem real_fmod (x y : ℝ) : FltT.fmod x y = x - y * rtrunc (x / y) := rfl
/-- On non-negative arguments `fmod(x, 1)` is the fractional part. -/
theorem real_fmod_one {x : ℝ} (h : 0 ≤ x) : FltT.fmod x 1 = Int.fract x := by
  rw [real_fmod, div_one, one_mul, rtrunc, if_pos h, Int.fract]
end FltT

end Verif
