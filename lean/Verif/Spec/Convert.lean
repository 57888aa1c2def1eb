import Verif.Spec.Accuracy
import Verif.Spec.Float

/-!
# Numbers converted between integers and floats
-/

namespace Verif.Spec

/-- `n` is `q` without its fraction. -/
def Trunc (q : ℝ) (n : ℤ) : Prop := (0 ≤ q → (n : ℝ) ≤ q ∧ q < n + 1) ∧ (q ≤ 0 → (n : ℝ) - 1 < q ∧ q ≤ n)

/-- The signed word `w` is the float `x` without its fraction. -/
def TruncI (x : F32) (w : BitVec 32) : Prop := x.isFinite = true ∧ Trunc (rv x) w.toInt

/-- The unsigned word `w` is the float `x` without its fraction. -/
def TruncU (x : F32) (w : BitVec 32) : Prop := x.isFinite = true ∧ Trunc (rv x) w.toNat

/-- The float `x` is a float closest to the signed word `w`. -/
def RoundI (w : BitVec 32) (x : F32) : Prop := x.IsNearest (w.toInt : ℝ)

/-- The float `x` is a float closest to the unsigned word `w`. -/
def RoundU (w : BitVec 32) (x : F32) : Prop := x.IsNearest (w.toNat : ℝ)

end Verif.Spec
