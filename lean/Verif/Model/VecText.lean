import Verif.Model.Decimal
import Verif.Model.F32
import Verif.Model.Vec

/-!
# Text forms of vectors

`std::to_string` is the C++ standard library up to C++23: `%d` for `int`, `%u` for `unsigned`, `%f` for `float` (converted to
`double`, which is exact, and printed with six decimals, rounded to nearest with ties to even on the exact value, as glibc does).
-/

namespace Verif.VecText

/-- `std::to_string(int)`: a minus sign for negative numbers, then the decimal digits. -/
def ofInt (n : BitVec 32) : List Char :=
  if n.toInt < 0 then '-' :: toDecimal n.toInt.natAbs else toDecimal n.toInt.natAbs

/-- `std::to_string(unsigned)`. -/
def ofUint (n : BitVec 32) : List Char := toDecimal n.toNat

/-- The last `k` decimal digits of `n`, with leading zeros. -/
def lastDigits : Nat → Nat → List Char
  | 0, _ => []
  | k + 1, n => lastDigits k (n / 10) ++ [decDigit (n % 10)]

/-- `std::to_string(float)`, i.e. `%f`: sign, integer part, point, six decimals. -/
def ofFloat (x : F32) : List Char :=
  let body :=
    if x.isNaN then ['n', 'a', 'n']
    else if x.isInf then ['i', 'n', 'f']
    else
      let n := F32.rne (F32.magUnits x.mag * 10 ^ 6) (2 ^ 149)
      toDecimal (n / 10 ^ 6) ++ '.' :: lastDigits 6 n
  if x.signBit then '-' :: body else body

variable {α : Type} (str : α → List Char)

/-- `toString` of two components, /repo/include/math/vector/float.hpp:557, int.hpp:561 and uint.hpp:504. -/
def text2 (v : V2 α) : List Char := str v.x ++ [' '] ++ str v.y

/-- `toString` of three components, /repo/include/math/vector/float.hpp:822, int.hpp:669 and uint.hpp:642. -/
def text3 (v : V3 α) : List Char := str v.x ++ [' '] ++ str v.y ++ [' '] ++ str v.z

/-- `toString` of four components, /repo/include/math/vector/float.hpp:1109-1112, int.hpp:783-786 and uint.hpp:780-783, and of
the SIMD vectors, /repo/include/math/simd/vector/float.hpp:621-624, int.hpp:666-669 and uint.hpp:631-634 (the lanes are read
with the getters of `Lanes`). -/
def text4 (v : V4 α) : List Char := str v.x ++ [' '] ++ str v.y ++ [' '] ++ str v.z ++ [' '] ++ str v.w

end Verif.VecText
