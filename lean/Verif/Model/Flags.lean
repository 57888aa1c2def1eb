import Mathlib.Init

/-!
# Model of `include/math/flags.hpp`

`DECLARE_ENUM_CLASS_FLAG_OPERATORS(enumType)` for an enum class whose underlying integer type has `w`
bits (`w ≤ 64` for every C++ integer type) and is signed or not.
-/

namespace Verif.Flags

/-- The cast `(uint64)a` of an enum value with `w`-bit underlying type (sign extension when signed).
/repo/include/math/flags.hpp:27, and every other operator. -/
def toU64 {w : Nat} (signed : Bool) (a : BitVec w) : BitVec 64 :=
  if signed then a.signExtend 64 else a.setWidth 64

/-- The cast `(enumType)x` back to the underlying type: the low `w` bits. -/
def ofU64 (w : Nat) (x : BitVec 64) : BitVec w := x.setWidth w

/-- /repo/include/math/flags.hpp:25-28: `operator|`. -/
def bor {w : Nat} (signed : Bool) (a b : BitVec w) : BitVec w := ofU64 w (toU64 signed a ||| toU64 signed b)
/-- /repo/include/math/flags.hpp:29-32: `operator&`. -/
def band {w : Nat} (signed : Bool) (a b : BitVec w) : BitVec w := ofU64 w (toU64 signed a &&& toU64 signed b)
/-- /repo/include/math/flags.hpp:33-36: `operator^`. -/
def bxor {w : Nat} (signed : Bool) (a b : BitVec w) : BitVec w := ofU64 w (toU64 signed a ^^^ toU64 signed b)
/-- /repo/include/math/flags.hpp:37-40: `operator!` — logical not: one when no bit is set, else zero. -/
def lnot {w : Nat} (signed : Bool) (a : BitVec w) : BitVec w :=
  ofU64 w (if toU64 signed a = 0#64 then 1#64 else 0#64)
/-- /repo/include/math/flags.hpp:41-44: `operator~`. -/
def compl {w : Nat} (signed : Bool) (a : BitVec w) : BitVec w := ofU64 w (~~~ toU64 signed a)
/-- /repo/include/math/flags.hpp:45-48: `operator|=`, the new value of the left operand. -/
def orAssign {w : Nat} (signed : Bool) (a b : BitVec w) : BitVec w := bor signed a b
/-- /repo/include/math/flags.hpp:49-52: `operator&=`. -/
def andAssign {w : Nat} (signed : Bool) (a b : BitVec w) : BitVec w := band signed a b
/-- /repo/include/math/flags.hpp:53-56: `operator^=`. -/
def xorAssign {w : Nat} (signed : Bool) (a b : BitVec w) : BitVec w := bxor signed a b
/-- /repo/include/math/flags.hpp:57-60: `hasAnyFlag`. -/
def hasAnyFlag {w : Nat} (signed : Bool) (a flags : BitVec w) : Bool :=
  toU64 signed (band signed a flags) != 0#64
/-- /repo/include/math/flags.hpp:61-64: `hasOneFlag`. -/
def hasOneFlag {w : Nat} (signed : Bool) (a flag : BitVec w) : Bool :=
  toU64 signed (band signed a flag) == toU64 signed a

end Verif.Flags
