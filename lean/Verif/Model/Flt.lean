import Mathlib.Data.Rat.Defs

/-!
# Abstract floating-point scalar

`float` in the C++ code is modelled by a type `F` with the operations of the class `Flt`. The class has
*no laws*: a theorem proved for an arbitrary `F` with `[Flt F]` holds for every rounding behaviour, NaN
and infinity included. Two instances are used elsewhere: IEEE-754 binary32 bit patterns
(`Verif.Model.F32`) and the real numbers (`Verif.Model.RealFlt`).
-/

namespace Verif

/-- Operations the code uses on `float` (C++ built-in operators and `std::sqrt`, `std::fma`, `std::abs`).
Models: the built-in type `float`, used throughout /repo/include/math. -/
class Flt (F : Type) where
  /-- `a + b` -/
  add : F → F → F
  /-- `a - b` -/
  sub : F → F → F
  /-- `a * b` -/
  mul : F → F → F
  /-- `a / b` -/
  div : F → F → F
  /-- `-a` -/
  neg : F → F
  /-- `a < b` (false when an operand is NaN) -/
  lt : F → F → Bool
  /-- `a <= b` -/
  le : F → F → Bool
  /-- `a == b` -/
  eq : F → F → Bool
  /-- a literal, e.g. `0.5f` -/
  lit : Rat → F
  /-- `std::fma(a, b, c)` / `_mm_fmadd_ps` : `a * b + c` -/
  fma : F → F → F → F
  /-- `std::sqrt(a)` -/
  sqrt : F → F
  /-- `std::abs(a)` -/
  abs : F → F

@[inherit_doc] scoped infixl:65 " +. " => Flt.add
@[inherit_doc] scoped infixl:65 " -. " => Flt.sub
@[inherit_doc] scoped infixl:70 " *. " => Flt.mul
@[inherit_doc] scoped infixl:70 " /. " => Flt.div
@[inherit_doc] scoped prefix:75 "-. " => Flt.neg
@[inherit_doc] scoped infix:50 " <. " => Flt.lt
@[inherit_doc] scoped infix:50 " <=. " => Flt.le
@[inherit_doc] scoped infix:50 " ==. " => Flt.eq

namespace Flt
variable {F : Type} [Flt F]

/-- `_mm_min_ps` on one lane: the second operand unless `a < b`.
Models /repo/include/math/simd/vector/float.hpp:748-757 (SSE branch), per lane. -/
def mmMin (a b : F) : F := if a <. b then a else b

/-- `_mm_max_ps` on one lane: the second operand unless `a > b`.
Models /repo/include/math/simd/vector/float.hpp:764-773 (SSE branch), per lane. -/
def mmMax (a b : F) : F := if b <. a then a else b

/-- `std::min(a, b)`: `(b < a) ? b : a`. -/
def stdMin (a b : F) : F := if b <. a then b else a

/-- `std::max(a, b)`: `(a < b) ? b : a`. -/
def stdMax (a b : F) : F := if a <. b then b else a

/-- `std::clamp(v, lo, hi)`: `(v < lo) ? lo : (hi < v) ? hi : v`. -/
def stdClamp (v lo hi : F) : F := if v <. lo then lo else if hi <. v then hi else v

end Flt
end Verif
