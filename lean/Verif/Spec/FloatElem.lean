import Verif.Spec.Accuracy
import Verif.Spec.Float
import Mathlib.Algebra.Order.Floor.Ring

/-!
# What the element-wise floating-point functions must return
-/

namespace Verif.Spec

/-- `r` is the C remainder of `x` by `y`: the exact number with the sign of `x` and a magnitude below that of `y` that differs
from `x` by a whole multiple of `y`. An infinite divisor returns `x`; NaN, an infinite `x` or a zero `y` give NaN. -/
def RemOk (x y r : F32) : Prop :=
  (x.isFinite → y.isFinite → rv y ≠ 0 →
    r.isFinite ∧ r.signBit = x.signBit ∧ |rv r| < |rv y| ∧ ∃ n : ℤ, rv x = n * rv y + rv r) ∧
  (x.isFinite → y.isInf → r = x) ∧
  ((x.isNaN ∨ y.isNaN ∨ x.isInf ∨ rv y = 0) → r.isNaN)

/-- `r` is a floored remainder of `n` by `d` up to rounding: `n - k * d` for a whole number `k` that is `⌊n / d⌋` up to the
rounding of the quotient. -/
def FloorRemNear (n d r : F32) : Prop :=
  ∃ k : ℤ, rv n / rv d - 1 - (|rv n / rv d| / 2 ^ 24 + 1 / 2 ^ 150) < k ∧ k ≤ rv n / rv d + (|rv n / rv d| / 2 ^ 24 + 1 / 2 ^ 150) ∧
    Near r (rv n - k * rv d) ((|rv n| + |rv d|) / 2 ^ 22 + 1 / 2 ^ 149)

/-- `r` is `v` moved into the unit interval: exactly the fractional part when `v` is not negative, and the binary32 value
nearest to one minus the fractional part of `-v` otherwise. Infinities and NaN give NaN. -/
def RepeatOk (v r : F32) : Prop :=
  (v.isFinite → r.isFinite ∧ 0 ≤ rv r ∧ rv r ≤ 1 ∧ (0 ≤ rv v → rv r = Int.fract (rv v)) ∧
    (rv v < 0 → r.IsNearest (1 - Int.fract (-rv v)))) ∧
  (v.isFinite = false → r.isNaN)

/-- Two results are the same number, or both are NaN. -/
def SameFloat (a b : F32) : Prop := (a.isNaN ∧ b.isNaN) ∨ (a.isNaN = false ∧ b.isNaN = false ∧ a.key = b.key)

/-- `r` is the interpolation `a (1 - t) + b t` up to four roundings. -/
def LerpNear (a b t r : F32) : Prop :=
  Near r (rv a * (1 - rv t) + rv b * rv t) (4 / 2 ^ 24 * (|rv a| * |1 - rv t| + |rv b| * |rv t|) + 1 / 2 ^ 148)

/-- `r` is the interpolation `a + t (b - a)` up to four roundings. -/
def LerpNear1 (a b t r : F32) : Prop :=
  Near r (rv a + rv t * (rv b - rv a)) (4 / 2 ^ 24 * (|rv a| + |rv t| * |rv b - rv a|) + 1 / 2 ^ 148)

/-- `r` is `a * b + c` with a single rounding. -/
def FmaOk (a b c r : F32) : Prop :=
  a.isFinite → b.isFinite → c.isFinite → |rv a * rv b + rv c| ≤ 2 ^ 127 → r.IsNearest (rv a * rv b + rv c)

/-- `r` is `a * b + c` with at most two roundings. -/
def FmaNear (a b c r : F32) : Prop :=
  a.isFinite → b.isFinite → c.isFinite → |rv a| * |rv b| + |rv c| ≤ 2 ^ 126 →
    Near r (rv a * rv b + rv c) (((1 + 1 / 2 ^ 24) ^ 2 - 1) * (|rv a| * |rv b| + |rv c|) + 1 / 2 ^ 149)

/-- `r` is the magnitude of `x`: same magnitude bits, NaN and infinity included, and a clear sign. -/
def AbsOk (x r : F32) : Prop :=
  r.signBit = false ∧ r.mag = x.mag ∧ (x.isFinite → r.isFinite ∧ rv r = |rv x|) ∧ (x.isNaN ↔ r.isNaN)

/-- `r` is the correctly rounded square root of `x`; NaN for negative arguments. -/
def SqrtOk (x r : F32) : Prop :=
  (x.isFinite → 0 ≤ rv x → r.IsNearest (Real.sqrt (rv x))) ∧ (x.isFinite → rv x < 0 → r.isNaN) ∧ (x.isNaN → r.isNaN) ∧
    (x = F32.inf false → r = x)

/-- `r` is `-1` for every value with the sign bit set, negative zero included, and `1` otherwise. -/
def SignOk (x r : F32) : Prop := r.isFinite ∧ rv r = if x.signBit then -1 else 1

end Verif.Spec
