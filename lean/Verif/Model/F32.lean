import Verif.Model.Flt
import Mathlib.Data.Nat.Log
import Mathlib.Data.Nat.Sqrt

/-!
# IEEE-754 binary32

`float` as a 32-bit pattern. Comparisons, sign operations and arithmetic (round to nearest, ties to
even, the default rounding mode) are defined by exact integer arithmetic: every finite binary32 value is
an integer multiple of `2^-149`, called its *units*.

This models the hardware/compiler semantics of `float` on x86-64 (SSE) with the default rounding mode,
no flush-to-zero and no contraction except where the code calls a fused operation. NaN payloads are not
modelled: every NaN produced by arithmetic is the quiet NaN `0x7FC00000`.
-/

namespace Verif

/-- A binary32 value as its bit pattern. Models the built-in type `float`. -/
structure F32 where
  bits : BitVec 32
deriving DecidableEq

namespace F32

/-- Sign bit (`std::signbit`). -/
def signBit (x : F32) : Bool := x.bits.getLsbD 31

/-- The low 31 bits: biased exponent and fraction. -/
def mag (x : F32) : Nat := x.bits.toNat % 2 ^ 31

/-- The magnitude of the infinities, `0x7F800000`. -/
def infMag : Nat := 0x7F800000

/-- NaN test. -/
def isNaN (x : F32) : Bool := decide (infMag < x.mag)

/-- Neither NaN nor infinite. -/
def isFinite (x : F32) : Bool := decide (x.mag < infMag)

/-- Infinity test. -/
def isInf (x : F32) : Bool := decide (x.mag = infMag)

/-- Build a pattern from sign and magnitude. -/
def ofParts (s : Bool) (m : Nat) : F32 := ⟨BitVec.ofNat 32 (m + if s then 2 ^ 31 else 0)⟩

/-- Sign-magnitude integer order key: IEEE comparison of non-NaN values is comparison of keys. -/
def key (x : F32) : Int := if x.signBit then -(x.mag : Int) else (x.mag : Int)

/-- IEEE `<`. -/
def ltb (a b : F32) : Bool := !a.isNaN && !b.isNaN && decide (a.key < b.key)
/-- IEEE `<=`. -/
def leb (a b : F32) : Bool := !a.isNaN && !b.isNaN && decide (a.key ≤ b.key)
/-- IEEE `==` (so `+0 == -0`, and NaN is not equal to itself). -/
def eqb (a b : F32) : Bool := !a.isNaN && !b.isNaN && decide (a.key = b.key)

/-- Units (multiples of `2^-149`) of the magnitude `m` of a finite value: exponent field `e = m / 2^23`,
fraction `f = m % 2^23`; subnormals are `f`, normals `(2^23 + f) * 2^(e-1)`. -/
def magUnits (m : Nat) : Nat :=
  if m / 2 ^ 23 = 0 then m % 2 ^ 23 else (2 ^ 23 + m % 2 ^ 23) * 2 ^ (m / 2 ^ 23 - 1)

/-- Signed units of a finite value: the value is `units * 2^-149`. -/
def units (x : F32) : Int := if x.signBit then -(magUnits x.mag : Int) else (magUnits x.mag : Int)

/-- The rational value of a finite binary32 number. -/
def toRat (x : F32) : Rat := (x.units : Rat) / (2 ^ 149 : Nat)

/-- Round the non-negative rational `n / d` to an integer, nearest, ties to even. -/
def rne (n d : Nat) : Nat :=
  let q := n / d
  let r := n % d
  if 2 * r < d then q else if d < 2 * r then q + 1 else q + q % 2

/-- Exponent shift used for a value with integer part `q` (in units): the spacing of binary32 values
around it is `2^s` units. -/
def spacing (q : Nat) : Nat := if q < 2 ^ 24 then 0 else Nat.log2 q - 23

/-- Round the non-negative rational `n / d` units to a binary32 magnitude (possibly infinite). -/
def roundMag (n d : Nat) : Nat :=
  let s := spacing (n / d)
  let m := rne n (d * 2 ^ s) + s * 2 ^ 23
  if m < infMag then m else infMag

/-- The quiet NaN produced by invalid operations. -/
def nan : F32 := ⟨0x7FC00000⟩
/-- Signed infinity. -/
def inf (s : Bool) : F32 := ofParts s infMag
/-- Signed zero. -/
def zero (s : Bool) : F32 := ofParts s 0

/-- Round a rational number (given in units as `z / d`, `d > 0`, `z ≠ 0`) to binary32. -/
def roundUnits (z : Int) (d : Nat) : F32 := ofParts (decide (z < 0)) (roundMag z.natAbs d)

/-- A decimal literal: the nearest binary32 value. -/
def ofRat (q : Rat) : F32 := roundUnits (q.num * 2 ^ 149) q.den

/-- Conversion of an unsigned integer to `float`. -/
def ofNat (n : Nat) : F32 := roundUnits ((n : Int) * 2 ^ 149) 1

/-- `-a`: flip the sign bit. -/
def fneg (a : F32) : F32 := ⟨a.bits ^^^ 0x80000000⟩

/-- `std::abs(a)`: clear the sign bit. -/
def fabs (a : F32) : F32 := ⟨a.bits &&& 0x7FFFFFFF⟩

/-- `a + b`. -/
def fadd (a b : F32) : F32 :=
  if a.isNaN || b.isNaN then nan
  else if a.isInf then (if b.isInf && (a.signBit != b.signBit) then nan else a)
  else if b.isInf then b
  else
    let u := a.units + b.units
    if u = 0 then zero (a.signBit && b.signBit) else roundUnits u 1

/-- `a - b`. -/
def fsub (a b : F32) : F32 := if b.isNaN then nan else fadd a (fneg b)

/-- `a * b`. -/
def fmul (a b : F32) : F32 :=
  let s := a.signBit != b.signBit
  if a.isNaN || b.isNaN then nan
  else if a.isInf || b.isInf then (if a.mag = 0 || b.mag = 0 then nan else inf s)
  else
    let u := a.units * b.units
    if u = 0 then zero s else roundUnits u (2 ^ 149)

/-- `a / b`. -/
def fdiv (a b : F32) : F32 :=
  let s := a.signBit != b.signBit
  if a.isNaN || b.isNaN then nan
  else if a.isInf then (if b.isInf then nan else inf s)
  else if b.isInf then zero s
  else if b.mag = 0 then (if a.mag = 0 then nan else inf s)
  else if a.mag = 0 then zero s
  else ofParts s (roundMag (a.units.natAbs * 2 ^ 149) b.units.natAbs)

/-- `std::fma(a, b, c)`, one rounding. -/
def ffma (a b c : F32) : F32 :=
  let s := a.signBit != b.signBit
  if a.isNaN || b.isNaN || c.isNaN then nan
  else if a.isInf || b.isInf then
    (if a.mag = 0 || b.mag = 0 then nan
     else if c.isInf && (c.signBit != s) then nan else inf s)
  else if c.isInf then c
  else
    let u := a.units * b.units + c.units * 2 ^ 149
    if u = 0 then (if a.units * b.units = 0 && c.units = 0 then zero (s && c.signBit) else zero false)
    else roundUnits u (2 ^ 149)

/-- `std::sqrt(a)`: correctly rounded. The integer square root is taken with 64 extra bits and a sticky
bit, so that rounding the approximation rounds the exact root. -/
def fsqrt (a : F32) : F32 :=
  if a.isNaN then nan
  else if a.mag = 0 then a
  else if a.signBit then nan
  else if a.isInf then a
  else
    let n := a.units.natAbs * 2 ^ 149 * 2 ^ 128
    let r := Nat.sqrt n
    ofParts false (roundMag (2 * r + if r * r = n then 0 else 1) (2 ^ 65))

/-- Truncation toward zero of a finite value to an integer (`(int)x` before the range check). -/
def truncInt (x : F32) : Int := Int.tdiv x.units (2 ^ 149)

/-- IEEE binary32 instance of the abstract scalar. -/
instance : Flt F32 where
  add := fadd
  sub := fsub
  mul := fmul
  div := fdiv
  neg := fneg
  lt := ltb
  le := leb
  eq := eqb
  lit := ofRat
  fma := ffma
  sqrt := fsqrt
  abs := fabs

end F32
end Verif
