import Mathlib.Init

/-!
# Specification vocabulary for text

Independent of the model: how a reader interprets a string of digits.
-/

namespace Verif.Spec

/-- Value of one decimal digit character, if it is one. -/
def decimalDigit? (c : Char) : Option Nat :=
  if '0' ≤ c ∧ c ≤ '9' then some (c.toNat - '0'.toNat) else none

/-- Read a non-empty string of decimal digits. -/
def readDecimal (s : List Char) : Option Nat :=
  match s with
  | [] => none
  | _ => s.foldl (fun acc c => do return 10 * (← acc) + (← decimalDigit? c)) (some 0)

/-- Value of one hexadecimal digit character in either case, if it is one. -/
def hexDigit? (c : Char) : Option Nat :=
  if '0' ≤ c ∧ c ≤ '9' then some (c.toNat - '0'.toNat)
  else if 'A' ≤ c ∧ c ≤ 'F' then some (c.toNat - 'A'.toNat + 10)
  else if 'a' ≤ c ∧ c ≤ 'f' then some (c.toNat - 'a'.toNat + 10)
  else none

/-- Read a non-empty string of hexadecimal digits. -/
def readHex (s : List Char) : Option Nat :=
  match s with
  | [] => none
  | _ => s.foldl (fun acc c => do return 16 * (← acc) + (← hexDigit? c)) (some 0)

/-- Split a string at every occurrence of the separator. -/
def splitAt (sep : Char) : List Char → List (List Char)
  | [] => [[]]
  | c :: cs =>
    if c = sep then [] :: splitAt sep cs
    else match splitAt sep cs with
      | [] => [[c]]
      | part :: parts => (c :: part) :: parts

end Verif.Spec
