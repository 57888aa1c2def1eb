import Verif.Model.Decimal

/-!
# Model of `include/math/version.hpp`
-/

namespace Verif

/-- /repo/include/math/version.hpp:36-41: four `uint8` parts. -/
structure Version where
  major : BitVec 8
  minor : BitVec 8
  patch : BitVec 8
  build : BitVec 8
deriving DecidableEq

namespace Version

/-- /repo/include/math/version.hpp:57-59: `Version(uint32 version)`. -/
def decode (version : BitVec 32) : Version where
  major := ((version >>> 24) &&& 0xFF#32).setWidth 8
  minor := ((version >>> 16) &&& 0xFF#32).setWidth 8
  patch := ((version >>> 8) &&& 0xFF#32).setWidth 8
  build := (version &&& 0xFF#32).setWidth 8

/-- /repo/include/math/version.hpp:64-67: `operator uint32`. -/
def encode (v : Version) : BitVec 32 :=
  (v.major.setWidth 32 <<< 24) ||| (v.minor.setWidth 32 <<< 16) |||
    (v.patch.setWidth 32 <<< 8) ||| v.build.setWidth 32

/-- /repo/include/math/version.hpp:88. -/
def lt (a b : Version) : Bool := a.encode.ult b.encode
/-- /repo/include/math/version.hpp:89. -/
def gt (a b : Version) : Bool := b.encode.ult a.encode
/-- /repo/include/math/version.hpp:90. -/
def le (a b : Version) : Bool := a.encode.ule b.encode
/-- /repo/include/math/version.hpp:91. -/
def ge (a b : Version) : Bool := b.encode.ule a.encode
/-- /repo/include/math/version.hpp:92. -/
def eq (a b : Version) : Bool := a.encode == b.encode
/-- /repo/include/math/version.hpp:93. -/
def ne (a b : Version) : Bool := a.encode != b.encode

/-- /repo/include/math/version.hpp:73-86: `operator[]`; `none` models the failed assertion `i <= 3`.
The struct has four consecutive `uint8` members, so indexing memory is indexing the members. -/
def part (v : Version) (i : Nat) : Option (BitVec 8) :=
  match i with
  | 0 => some v.major
  | 1 => some v.minor
  | 2 => some v.patch
  | 3 => some v.build
  | _ => none

/-- /repo/include/math/version.hpp:98-101. Strings are modelled as lists of characters. -/
def toString4 (v : Version) : List Char :=
  toDecimal v.major.toNat ++ ['.'] ++ toDecimal v.minor.toNat ++ ['.'] ++
    toDecimal v.patch.toNat ++ ['.'] ++ toDecimal v.build.toNat
/-- /repo/include/math/version.hpp:105-108. -/
def toString3 (v : Version) : List Char :=
  toDecimal v.major.toNat ++ ['.'] ++ toDecimal v.minor.toNat ++ ['.'] ++ toDecimal v.patch.toNat
/-- /repo/include/math/version.hpp:112-115. -/
def toString2 (v : Version) : List Char :=
  toDecimal v.major.toNat ++ ['.'] ++ toDecimal v.minor.toNat
/-- /repo/include/math/version.hpp:119-122. -/
def toString1 (v : Version) : List Char := toDecimal v.major.toNat

end Version
end Verif
