import Mathlib.Init

/-!
# Decimal printing

Model of `std::to_string` on unsigned integers, used by `Version` and `Color` string conversions.
-/

namespace Verif

/-- The decimal digit character of `d < 10`. -/
def decDigit (d : Nat) : Char := Char.ofNat (48 + d)

/-- `std::to_string(n)` for an unsigned integer: decimal digits, most significant first, no leading
zeros, `"0"` for zero. C++ standard library; called at /repo/include/math/version.hpp:98-122 and
/repo/include/math/color.hpp:167-182. -/
def toDecimal (n : Nat) : List Char :=
  if n < 10 then [decDigit n] else toDecimal (n / 10) ++ [decDigit (n % 10)]
termination_by n
decreasing_by omega

end Verif
