import Verif.Model.IntVec

/-!
# `int32` and `uint32` arithmetic as C++17 defines it

The scalar operations that the component-wise operators of /repo/include/math/vector/int.hpp and
/repo/include/math/vector/uint.hpp are made of. `none` is undefined behaviour. Following C++17 (the standard selected at
/repo/CMakeLists.txt:29): signed overflow, division by zero, the quotient or remainder of the smallest number by -1,
shift counts outside 0..31 and left shifts of negative numbers, or past the sign bit into the 33rd bit, are undefined;
unsigned arithmetic is modulo 2^32. The right shift of a negative number is implementation-defined and modelled as
the arithmetic shift that every supported compiler performs.
-/

namespace Verif

/-- The ten binary operators. -/
inductive BinOp
  | add | sub | mul | div | rem | and | or | xor | shr | shl
deriving DecidableEq, Repr

/-- The three unary operators `-`, `!`, `~`. -/
inductive UnOp
  | neg | lnot | bnot
deriving DecidableEq, Repr

namespace S32
/-- A result of signed arithmetic: undefined unless it fits in `int32`. -/
def ofInt? (z : Int) : Option W := if -2147483648 ≤ z ∧ z ≤ 2147483647 then some (BitVec.ofInt 32 z) else none
/-- The built-in binary operators on `int32`, as used at /repo/include/math/vector/int.hpp:87-106. -/
def bin : BinOp → W → W → Option W
  | .add, a, b => ofInt? (a.toInt + b.toInt)
  | .sub, a, b => ofInt? (a.toInt - b.toInt)
  | .mul, a, b => ofInt? (a.toInt * b.toInt)
  | .div, a, b => if b.toInt = 0 then none else ofInt? (a.toInt.tdiv b.toInt)
  | .rem, a, b =>
    if b.toInt = 0 ∨ (a.toInt = -2147483648 ∧ b.toInt = -1) then none else ofInt? (a.toInt.tmod b.toInt)
  | .and, a, b => some (a &&& b)
  | .or, a, b => some (a ||| b)
  | .xor, a, b => some (a ^^^ b)
  | .shr, a, b => if 0 ≤ b.toInt ∧ b.toInt < 32 then some (a.sshiftRight b.toNat) else none
  | .shl, a, b =>
    if 0 ≤ b.toInt ∧ b.toInt < 32 ∧ 0 ≤ a.toInt ∧ a.toInt * 2 ^ b.toNat < 4294967296 then some (a <<< b.toNat) else none
/-- The built-in unary operators on `int32`, as used at /repo/include/math/vector/int.hpp:107-109. -/
def un : UnOp → W → Option W
  | .neg, a => ofInt? (-a.toInt)
  | .lnot, a => some (if a = 0#32 then 1#32 else 0#32)
  | .bnot, a => some (~~~a)
end S32

namespace U32
/-- The built-in binary operators on `uint32`, as used at /repo/include/math/vector/uint.hpp:82-101. -/
def bin : BinOp → W → W → Option W
  | .add, a, b => some (a + b)
  | .sub, a, b => some (a - b)
  | .mul, a, b => some (a * b)
  | .div, a, b => if b = 0#32 then none else some (a.udiv b)
  | .rem, a, b => if b = 0#32 then none else some (a.umod b)
  | .and, a, b => some (a &&& b)
  | .or, a, b => some (a ||| b)
  | .xor, a, b => some (a ^^^ b)
  | .shr, a, b => if b.toNat < 32 then some (a >>> b.toNat) else none
  | .shl, a, b => if b.toNat < 32 then some (a <<< b.toNat) else none
/-- The built-in unary operators on `uint32`, as used at /repo/include/math/vector/uint.hpp:102-104. -/
def un : UnOp → W → Option W
  | .neg, a => some (-a)
  | .lnot, a => some (if a = 0#32 then 1#32 else 0#32)
  | .bnot, a => some (~~~a)
end U32

end Verif
