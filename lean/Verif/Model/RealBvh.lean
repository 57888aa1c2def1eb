import Verif.Model.Bvh
import Verif.Model.RealFlt

/-! # Lanes holding integers, in exact arithmetic -/

namespace Verif

/-- In exact arithmetic an integer stored in a lane is that integer: only the fact that it is read back matters.
Models the unions of /repo/include/math/simd/vector/float.hpp:40-50 and the conversions between `int32` and
`float`. -/
noncomputable instance : FltB ℝ where
  ofBits b := (b.toNat : ℝ)
  toBits x := BitVec.ofNat 32 ⌊x⌋₊
  toBits_ofBits b := by rw [Nat.floor_natCast]; simp
  toInt32 x :=
    let t := if 0 ≤ x then ⌊x⌋ else ⌈x⌉
    if -(2 ^ 31) ≤ t ∧ t < 2 ^ 31 then some t else none
  ofInt z := (z : ℝ)

end Verif
