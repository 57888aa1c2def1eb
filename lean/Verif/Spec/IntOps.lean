import Verif.Model.CInt

/-!
# What the operators mean on numbers

Independent of the model: relations between the operands and the result, read as numbers (`toInt`, `toNat`) or as
32 bits. `r` is always a 32-bit word, so an equation such as `r.toInt = a.toInt + b.toInt` also says that the sum fits.
-/

namespace Verif.Spec

/-- `r` is the result of `a op b` on `int32`. -/
def sBin : BinOp → W → W → W → Prop
  | .add, a, b, r => r.toInt = a.toInt + b.toInt
  | .sub, a, b, r => r.toInt = a.toInt - b.toInt
  | .mul, a, b, r => r.toInt = a.toInt * b.toInt
  | .div, a, b, r => b.toInt ≠ 0 ∧ r.toInt = a.toInt.tdiv b.toInt
  | .rem, a, b, r =>
    b.toInt ≠ 0 ∧ a.toInt.tdiv b.toInt < 2 ^ 31 ∧ r.toInt = a.toInt - b.toInt * a.toInt.tdiv b.toInt
  | .and, a, b, r => ∀ k < 32, r.getLsbD k = (a.getLsbD k && b.getLsbD k)
  | .or, a, b, r => ∀ k < 32, r.getLsbD k = (a.getLsbD k || b.getLsbD k)
  | .xor, a, b, r => ∀ k < 32, r.getLsbD k = (a.getLsbD k ^^ b.getLsbD k)
  | .shr, a, b, r => ∃ n : Nat, n < 32 ∧ b.toInt = n ∧ r.toInt = a.toInt / 2 ^ n
  | .shl, a, b, r => ∃ n : Nat, n < 32 ∧ b.toInt = n ∧ 0 ≤ a.toInt ∧ (r.toNat : Int) = a.toInt * 2 ^ n

/-- `r` is the result of `a op b` on `uint32`. -/
def uBin : BinOp → W → W → W → Prop
  | .add, a, b, r => r.toNat = (a.toNat + b.toNat) % 2 ^ 32
  | .sub, a, b, r => (r.toNat : Int) = ((a.toNat : Int) - b.toNat) % 2 ^ 32
  | .mul, a, b, r => r.toNat = (a.toNat * b.toNat) % 2 ^ 32
  | .div, a, b, r => b.toNat ≠ 0 ∧ r.toNat = a.toNat / b.toNat
  | .rem, a, b, r => b.toNat ≠ 0 ∧ r.toNat = a.toNat % b.toNat
  | .and, a, b, r => ∀ k < 32, r.getLsbD k = (a.getLsbD k && b.getLsbD k)
  | .or, a, b, r => ∀ k < 32, r.getLsbD k = (a.getLsbD k || b.getLsbD k)
  | .xor, a, b, r => ∀ k < 32, r.getLsbD k = (a.getLsbD k ^^ b.getLsbD k)
  | .shr, a, b, r => b.toNat < 32 ∧ r.toNat = a.toNat / 2 ^ b.toNat
  | .shl, a, b, r => b.toNat < 32 ∧ r.toNat = a.toNat * 2 ^ b.toNat % 2 ^ 32

/-- `r` is the result of `op a` on `int32`. -/
def sUn : UnOp → W → W → Prop
  | .neg, a, r => r.toInt = -a.toInt
  | .lnot, a, r => r.toInt = if a.toInt = 0 then 1 else 0
  | .bnot, a, r => ∀ k < 32, r.getLsbD k = !a.getLsbD k

/-- `r` is the result of `op a` on `uint32`. -/
def uUn : UnOp → W → W → Prop
  | .neg, a, r => (r.toNat + a.toNat) % 2 ^ 32 = 0
  | .lnot, a, r => r.toNat = if a.toNat = 0 then 1 else 0
  | .bnot, a, r => ∀ k < 32, r.getLsbD k = !a.getLsbD k

/-- Comparison of two numbers. -/
def cmpInt : Cmp → Int → Int → Prop
  | .lt, a, b => a < b
  | .gt, a, b => a > b
  | .le, a, b => a ≤ b
  | .ge, a, b => a ≥ b
  | .eq, a, b => a = b
  | .ne, a, b => a ≠ b

/-- A lane of a comparison result: all ones when the claim holds, zero otherwise. -/
def isMask (r : W) (p : Prop) : Prop := (p ∧ r.toNat = 2 ^ 32 - 1) ∨ (¬p ∧ r.toNat = 0)

end Verif.Spec
