import Mathlib.Analysis.SpecialFunctions.Log.Base
import Verif.Model.F32

/-!
# Mip chain specification
-/

namespace Verif.Spec

/-- Number of levels obtained by halving (rounding down) until 1. -/
def mipLevels (s : Nat) : Nat := if s < 2 then 1 else 1 + mipLevels (s / 2)
termination_by s
decreasing_by omega

/-- Size after `m` halvings, never below 1. -/
def sizeAfter (s : Nat) : Nat → Nat
  | 0 => max 1 s
  | m + 1 => max 1 (sizeAfter s m / 2)

/-- `L` is the correctly rounded base-2 logarithm: for every positive finite argument its result is finite and no
finite binary32 value is closer to the exact logarithm. -/
def CorrectlyRoundedLog2 (L : F32 → F32) : Prop :=
  ∀ x : F32, x.isFinite = true → 0 < x.toRat → (L x).isFinite = true ∧
    ∀ y : F32, y.isFinite = true →
      |((L x).toRat : ℝ) - Real.logb 2 (x.toRat : ℝ)| ≤ |(y.toRat : ℝ) - Real.logb 2 (x.toRat : ℝ)|

/-- `E` is the base-2 exponential at the non-negative integers: exact while the result is a finite binary32 value,
not finite beyond. -/
def ExactExp2 (E : F32 → F32) : Prop :=
  ∀ m : Nat, m < 256 → if m < 128 then (E (F32.ofNat m)).isFinite = true ∧ (E (F32.ofNat m)).toRat = 2 ^ m
    else (E (F32.ofNat m)).isFinite = false

end Verif.Spec
