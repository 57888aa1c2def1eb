import Mathlib.Tactic.Linarith
import Mathlib.Tactic.FieldSimp
import Mathlib.Algebra.Order.Field.Rat
import Verif.Proofs.F32Arith

/-!
# Rounding error of binary32

Rounding returns a nearest binary32 value; its error is at most half a spacing, so relatively at most `2^-24`,
or absolutely `2^-150`.
-/

namespace Verif
namespace F32

/-! ### Representable values -/

/-- `k * 2^s` units with `k ≤ 2^24` is the value of some magnitude. -/
theorem exists_mag (s : Nat) : ∀ k : Nat, k ≤ 2 ^ 24 → ∃ m, magUnits m = k * 2 ^ s ∧ m ≤ k + s * 2 ^ 23 := by
  induction s with
  | zero => intro k hk; exact ⟨k, by simpa using magUnits_eq 0 k hk (Or.inl rfl), by omega⟩
  | succ s ih =>
    intro k hk
    by_cases h : 2 ^ 23 ≤ k
    · exact ⟨_, magUnits_eq (s + 1) k hk (Or.inr h), le_rfl⟩
    · obtain ⟨m, e, hm⟩ := ih (2 * k) (by omega)
      refine ⟨m, ?_, by omega⟩
      rw [e, Nat.pow_succ]; ring

/-- A representable signed value rounds to itself. -/
theorem roundUnits_exact (x : F32) (hx : x.isFinite) (d : Nat) (hd : 0 < d) :
    (roundUnits (x.units * d) d).key = x.key := by
  rw [roundUnits_key]
  simp only [isFinite, decide_eq_true_eq] at hx
  have e : (x.units * d).natAbs = magUnits x.mag * d := by
    rw [Int.natAbs_mul]
    unfold units
    split <;> simp
  rw [e, roundMag_exact _ _ hd hx]
  have hd' : (0 : Int) < d := by exact_mod_cast hd
  have hm0 := magUnits_zero
  unfold units key
  split
  · by_cases h0 : x.mag = 0
    · rw [h0, hm0]; simp
    · have : 0 < magUnits x.mag := by
        have := magUnits_strictMono (show 0 < x.mag by omega)
        omega
      rw [if_pos]
      have : (0 : Int) < magUnits x.mag := by exact_mod_cast this
      nlinarith
  · rw [if_neg]
    have : (0 : Int) ≤ magUnits x.mag := by positivity
    nlinarith

/-! ### Error in units -/

theorem rne_err (n d : Nat) (hd : 0 < d) : 2 * |(rne n d : Int) * d - n| ≤ d := by
  have e : (n : Int) = d * (n / d : Nat) + (n % d : Nat) := by exact_mod_cast (Nat.div_add_mod n d).symm
  have hr : (n % d) < d := Nat.mod_lt n hd
  have habs : ∀ t : Int, |t| ≤ max t (-t) := fun t => le_refl _
  unfold rne
  simp only
  set q := n / d
  set r := n % d
  rw [e]
  split
  · rename_i h
    rw [show (q : Int) * d - (d * q + r) = -r by ring, abs_neg, abs_of_nonneg (by positivity)]
    omega
  · split
    · rename_i h1 h2
      push_cast
      rw [show ((q : Int) + 1) * d - (d * q + r) = d - r by ring, abs_of_nonneg (by omega)]
      omega
    · rename_i h1 h2
      have h3 : 2 * r = d := by omega
      rcases Nat.mod_two_eq_zero_or_one q with h | h <;> rw [h]
      · push_cast
        rw [show ((q : Int) + 0) * d - (d * q + r) = -r by ring, abs_neg, abs_of_nonneg (by positivity)]
        omega
      · push_cast
        rw [show ((q : Int) + 1) * d - (d * q + r) = d - r by ring, abs_of_nonneg (by omega)]
        omega

theorem roundMag_units {n d : Nat} (hd : 0 < d) (h : roundMag n d < infMag) :
    magUnits (roundMag n d) = rne n (d * 2 ^ spacing (n / d)) * 2 ^ spacing (n / d) ∧
    roundMag n d = rne n (d * 2 ^ spacing (n / d)) + spacing (n / d) * 2 ^ 23 := by
  obtain ⟨h1, h2⟩ := rne_spacing_bounds n d hd
  have e : roundMag n d = rne n (d * 2 ^ spacing (n / d)) + spacing (n / d) * 2 ^ 23 := by
    unfold roundMag at h ⊢
    simp only at h ⊢
    split at h
    · rw [if_pos (by assumption)]
    · omega
  refine ⟨?_, e⟩
  rw [e, magUnits_eq _ _ h1 h2]

theorem roundMag_err {n d : Nat} (hd : 0 < d) (h : roundMag n d < infMag) :
    2 * |(magUnits (roundMag n d) : Int) * d - n| ≤ d * 2 ^ spacing (n / d) := by
  rw [(roundMag_units hd h).1]
  have := rne_err n (d * 2 ^ spacing (n / d)) (by positivity)
  push_cast at this ⊢
  rw [mul_assoc, mul_comm ((2 : Int) ^ _) (d : Int)]
  exact this

theorem magUnits_gap (s k : Nat) (hk : k ≤ 2 ^ 24) (h : s = 0 ∨ 2 ^ 23 ≤ k) :
    k * 2 ^ s + 2 ^ s ≤ magUnits (k + s * 2 ^ 23 + 1) := by
  by_cases h2 : k = 2 ^ 24
  · subst h2
    have : 2 ^ 24 + s * 2 ^ 23 + 1 = (2 ^ 23 + 1) + (s + 1) * 2 ^ 23 := by omega
    rw [this, magUnits_eq (s + 1) (2 ^ 23 + 1) (by norm_num) (Or.inr (by norm_num)), pow_succ 2 s]
    have : 0 < 2 ^ s := by positivity
    nlinarith
  · rw [show k + s * 2 ^ 23 + 1 = (k + 1) + s * 2 ^ 23 by omega, magUnits_eq s (k + 1) (by omega) (by omega)]
    ring_nf; omega

/-- No magnitude is closer than the rounded one. -/
theorem roundMag_nearest {n d : Nat} (hd : 0 < d) (h : roundMag n d < infMag) (m' : Nat) :
    |(magUnits (roundMag n d) : Int) * d - n| ≤ |(magUnits m' : Int) * d - n| := by
  have err := roundMag_err hd h
  obtain ⟨e1, e2⟩ := roundMag_units hd h
  obtain ⟨h1, h2⟩ := rne_spacing_bounds n d hd
  obtain ⟨-, hq⟩ := spacing_bounds (n / d)
  set s := spacing (n / d)
  set k := rne n (d * 2 ^ s)
  have hd' : (0 : Int) < d := by exact_mod_cast hd
  have hs' : (0 : Int) < 2 ^ s := by positivity
  rcases lt_trichotomy m' (roundMag n d) with hlt | heq | hgt
  · -- below
    rcases h2 with hs0 | hk
    · -- spacing one
      have : magUnits m' + 1 ≤ magUnits (roundMag n d) := magUnits_strictMono hlt
      have : (magUnits m' : Int) + 1 ≤ magUnits (roundMag n d) := by exact_mod_cast this
      rw [hs0] at err
      simp only [pow_zero, mul_one] at err
      have e3 : (magUnits m' : Int) * d + d ≤ magUnits (roundMag n d) * d := by nlinarith
      rw [abs_le] at *
      have a1 := abs_le.1 (le_refl |(magUnits (roundMag n d) : Int) * d - n|)
      have : -|(magUnits m' : Int) * d - n| ≤ (magUnits m' : Int) * d - n := neg_abs_le _
      constructor <;> omega
    · by_cases hk2 : k = 2 ^ 23 ∧ s ≠ 0
      · -- the value is at least the rounded one
        have hq' : 2 ^ 23 * 2 ^ s ≤ n / d := by omega
        have hn : 2 ^ 23 * 2 ^ s * d ≤ n := (Nat.le_div_iff_mul_le hd).1 hq'
        have hn' : (magUnits (roundMag n d) : Int) * d ≤ n := by
          rw [e1, hk2.1]; exact_mod_cast hn
        have : (magUnits m' : Int) < magUnits (roundMag n d) := by exact_mod_cast magUnits_strictMono hlt
        have e3 : (magUnits m' : Int) * d ≤ magUnits (roundMag n d) * d := by nlinarith
        rw [abs_of_nonpos (by omega), abs_of_nonpos (by omega)]
        omega
      · have hle : m' ≤ (k - 1) + s * 2 ^ 23 := by omega
        have hmono := magUnits_strictMono.monotone hle
        have hk1 : s = 0 ∨ 2 ^ 23 ≤ k - 1 := by omega
        rw [magUnits_eq s (k - 1) (by omega) hk1] at hmono
        have h3 : (magUnits m' : Int) + 2 ^ s ≤ magUnits (roundMag n d) := by
          rw [e1]
          have : (k - 1) * 2 ^ s + 2 ^ s = k * 2 ^ s := by
            have : k = (k - 1) + 1 := by omega
            nlinarith
          have : magUnits m' + 2 ^ s ≤ k * 2 ^ s := by omega
          exact_mod_cast this
        have e3 : (magUnits m' : Int) * d + d * 2 ^ s ≤ magUnits (roundMag n d) * d := by nlinarith
        have : -|(magUnits m' : Int) * d - n| ≤ (magUnits m' : Int) * d - n := neg_abs_le _
        have : -|(magUnits (roundMag n d) : Int) * d - n| ≤ (magUnits (roundMag n d) : Int) * d - n := neg_abs_le _
        have : (magUnits (roundMag n d) : Int) * d - n ≤ |(magUnits (roundMag n d) : Int) * d - n| := le_abs_self _
        generalize (d : Int) * 2 ^ s = w at *
        omega
  · rw [heq]
  · -- above
    have hle : roundMag n d + 1 ≤ m' := hgt
    have hmono := magUnits_strictMono.monotone hle
    rw [e2] at hmono
    have hg := magUnits_gap s k h1 h2
    have h3 : (magUnits (roundMag n d) : Int) + 2 ^ s ≤ magUnits m' := by
      rw [e1]
      have : k * 2 ^ s + 2 ^ s ≤ magUnits m' := hg.trans hmono
      exact_mod_cast this
    have e3 : (magUnits (roundMag n d) : Int) * d + d * 2 ^ s ≤ magUnits m' * d := by nlinarith
    have : (magUnits m' : Int) * d - n ≤ |(magUnits m' : Int) * d - n| := le_abs_self _
    have : -|(magUnits (roundMag n d) : Int) * d - n| ≤ (magUnits (roundMag n d) : Int) * d - n := neg_abs_le _
    have : (magUnits (roundMag n d) : Int) * d - n ≤ |(magUnits (roundMag n d) : Int) * d - n| := le_abs_self _
    generalize (d : Int) * 2 ^ s = w at *
    omega

/-! ### Signed statements -/

private theorem round_abs (z : Int) (d : Nat) :
    |(roundUnits z d).units * d - z| = |(magUnits (roundMag z.natAbs d) : Int) * d - z.natAbs| := by
  unfold units
  rw [roundUnits_sign, roundUnits_mag]
  by_cases h : z < 0
  · simp only [h, decide_true, if_true]
    rw [show (-(magUnits (roundMag z.natAbs d) : Int)) * d - z =
      -((magUnits (roundMag z.natAbs d) : Int) * d - z.natAbs) by
        rw [show (z.natAbs : Int) = -z by omega]; ring, abs_neg]
  · simp only [h, decide_false, Bool.false_eq_true, if_false]
    rw [show (z.natAbs : Int) = z by omega]

private theorem round_fin {z : Int} {d : Nat} (h : (roundUnits z d).isFinite) : roundMag z.natAbs d < infMag := by
  simpa [isFinite, roundUnits_mag] using h

/-- In units: the rounded value is a nearest one. -/
theorem roundUnits_nearest {z : Int} {d : Nat} (hd : 0 < d) (h : (roundUnits z d).isFinite) (y : F32) :
    |(roundUnits z d).units * d - z| ≤ |y.units * d - z| := by
  rw [round_abs]
  refine (roundMag_nearest hd (round_fin h) y.mag).trans ?_
  have hy : (0 : Int) ≤ (magUnits y.mag : Int) * d := by positivity
  have e : |y.units * d| = (magUnits y.mag : Int) * d := by
    unfold units
    split
    · rw [show -(magUnits y.mag : Int) * d = -((magUnits y.mag : Int) * d) by ring, abs_neg, abs_of_nonneg hy]
    · rw [abs_of_nonneg hy]
  rw [← e, Int.natCast_natAbs]
  exact abs_abs_sub_abs_le_abs_sub _ _

theorem toRat_mul (x : F32) : x.toRat * 2 ^ 149 = x.units := by
  unfold toRat; push_cast; field_simp; norm_num

/-- The rational number in units `z / d`. -/
def quo (z : Int) (d : Nat) : Rat := (z : Rat) / (d * 2 ^ 149)

private theorem quo_sub (x : F32) (z : Int) (d : Nat) (hd : 0 < d) :
    x.toRat - quo z d = ((x.units * d - z : Int) : Rat) / (d * 2 ^ 149) := by
  have : (0 : Rat) < d := by exact_mod_cast hd
  unfold toRat quo
  push_cast
  field_simp
  norm_num
  ring

/-- Rounding returns a nearest binary32 value. -/
theorem round_nearest {z : Int} {d : Nat} (hd : 0 < d) (h : (roundUnits z d).isFinite) (y : F32) :
    |(roundUnits z d).toRat - quo z d| ≤ |y.toRat - quo z d| := by
  have hd' : (0 : Rat) < d := by exact_mod_cast hd
  rw [quo_sub _ _ _ hd, quo_sub _ _ _ hd, abs_div, abs_div]
  apply div_le_div_of_nonneg_right _ (abs_nonneg _)
  exact_mod_cast roundUnits_nearest hd h y

/-- Rounding error: half a unit, or `2^-24` of the value. -/
theorem round_error {z : Int} {d : Nat} (hd : 0 < d) (h : (roundUnits z d).isFinite) :
    |(roundUnits z d).toRat - quo z d| ≤ max (|quo z d| / 2 ^ 24) (1 / 2 ^ 150) := by
  have hd' : (0 : Rat) < d := by exact_mod_cast hd
  have err := roundMag_err hd (round_fin h)
  obtain ⟨-, hq⟩ := spacing_bounds (z.natAbs / d)
  rw [quo_sub _ _ _ hd, abs_div, abs_of_pos (show (0 : Rat) < d * 2 ^ 149 by positivity)]
  have e : |((roundUnits z d).units * d - z : Int)| = |(magUnits (roundMag z.natAbs d) : Int) * d - z.natAbs| :=
    round_abs z d
  have e' : |(((roundUnits z d).units * d - z : Int) : Rat)| =
      ((|(magUnits (roundMag z.natAbs d) : Int) * d - z.natAbs| : Int) : Rat) := by
    rw [← e]; push_cast; rfl
  rw [e']
  generalize |(magUnits (roundMag z.natAbs d) : Int) * d - z.natAbs| = E at *
  rcases hq with hs | hs
  · rw [hs] at err
    simp only [pow_zero, mul_one] at err
    apply le_max_of_le_right
    rw [div_le_div_iff₀ (by positivity) (by positivity)]
    have : (2 : Rat) * E ≤ d := by exact_mod_cast err
    have : (2 : Rat) ^ 150 = 2 * 2 ^ 149 := by norm_num
    rw [this]
    nlinarith
  · apply le_max_of_le_left
    have hn : 2 ^ 23 * 2 ^ spacing (z.natAbs / d) * d ≤ z.natAbs := (Nat.le_div_iff_mul_le hd).1 hs
    have h2 : (2 : Int) ^ 24 * E ≤ z.natAbs := by
      have hn' : (2 : Int) ^ 23 * 2 ^ spacing (z.natAbs / d) * d ≤ z.natAbs := by exact_mod_cast hn
      nlinarith
    have h3 : (2 : Rat) ^ 24 * E ≤ |(z : Rat)| := by
      have : ((2 ^ 24 * E : Int) : Rat) ≤ ((z.natAbs : Int) : Rat) := by exact_mod_cast h2
      rw [Int.natCast_natAbs] at this
      push_cast at this
      exact this
    unfold quo
    rw [abs_div, abs_of_pos (show (0 : Rat) < d * 2 ^ 149 by positivity), div_div,
      div_le_div_iff₀ (by positivity) (by positivity)]
    have hp : (0 : Rat) < d * 2 ^ 149 := by positivity
    nlinarith

/-- With an integral number of units (sums of binary32 values) there is no underflow. -/
theorem round_error_int {z : Int} (h : (roundUnits z 1).isFinite) :
    |(roundUnits z 1).toRat - quo z 1| ≤ |quo z 1| / 2 ^ 24 := by
  by_cases hs : spacing (z.natAbs / 1) = 0
  · have hu := (roundMag_units one_pos (round_fin h)).1
    rw [hs] at hu
    have r1 : rne z.natAbs (1 * 2 ^ 0) = z.natAbs := by
      have := rne_mul z.natAbs 1 one_pos
      simpa using this
    rw [r1] at hu
    have e := round_abs z 1
    rw [hu] at e
    simp only [pow_zero, mul_one, Nat.cast_one, sub_self, abs_zero] at e
    rw [quo_sub _ _ _ one_pos]
    have : (roundUnits z 1).units * (1 : Nat) - z = 0 := by
      have := abs_eq_zero.1 e
      push_cast; omega
    rw [this]
    simp only [Int.cast_zero, zero_div, abs_zero]
    positivity
  · have h0 := round_error one_pos h
    rcases le_max_iff.1 h0 with h1 | h1
    · exact h1
    · refine h1.trans ?_
      obtain ⟨-, hq⟩ := spacing_bounds (z.natAbs / 1)
      have hq : 2 ^ 23 * 2 ^ spacing (z.natAbs / 1) ≤ z.natAbs / 1 := by tauto
      have : 2 ^ 23 * 2 ≤ z.natAbs := by
        have : 2 ≤ 2 ^ spacing (z.natAbs / 1) := by
          calc 2 = 2 ^ 1 := rfl
            _ ≤ _ := Nat.pow_le_pow_right (by norm_num) (by omega)
        rw [Nat.div_one] at *
        calc 2 ^ 23 * 2 ≤ 2 ^ 23 * 2 ^ spacing z.natAbs := Nat.mul_le_mul_left _ this
          _ ≤ _ := hq
      have hz : (2 : Rat) ^ 24 ≤ |(z : Rat)| := by
        have : ((2 ^ 24 : Nat) : Rat) ≤ ((z.natAbs : Int) : Rat) := by exact_mod_cast (by omega : 2 ^ 24 ≤ z.natAbs)
        rw [Int.natCast_natAbs] at this
        push_cast at this
        exact this
      unfold quo
      rw [abs_div, abs_of_pos (show (0 : Rat) < ((1 : Nat) : Rat) * 2 ^ 149 by positivity), div_div,
        div_le_div_iff₀ (by positivity) (by positivity)]
      push_cast
      nlinarith

/-- The largest finite binary32 value. -/
def maxRat : Rat := (2 ^ 24 - 1) * 2 ^ 104

private theorem maxMag : magUnits (infMag - 1) = (2 ^ 24 - 1) * 2 ^ 253 := by decide +kernel

theorem maxRat_eq : maxRat = ((magUnits (infMag - 1) : Nat) : Rat) / 2 ^ 149 := by
  rw [maxMag]; unfold maxRat; push_cast; norm_num

/-- Values up to the largest finite one do not overflow. -/
theorem round_finite {z : Int} {d : Nat} (hd : 0 < d) (h : |quo z d| ≤ maxRat) : (roundUnits z d).isFinite := by
  have hd' : (0 : Rat) < d := by exact_mod_cast hd
  simp only [isFinite, roundUnits_mag, decide_eq_true_eq]
  have hz : z.natAbs ≤ magUnits (infMag - 1) * d := by
    unfold quo at h
    rw [abs_div, abs_of_pos (show (0 : Rat) < d * 2 ^ 149 by positivity), div_le_iff₀ (by positivity), maxRat_eq] at h
    have : |(z : Rat)| ≤ ((magUnits (infMag - 1) * d : Nat) : Rat) := by
      push_cast
      calc |(z : Rat)| ≤ _ := h
        _ = _ := by field_simp
    have h2 : ((z.natAbs : Nat) : Rat) = |(z : Rat)| := by
      rw [← Int.cast_abs, ← Int.natCast_natAbs]; rfl
    rw [← h2] at this
    exact_mod_cast this
  have := roundMag_mono (n1 := z.natAbs) (d1 := d) (n2 := magUnits (infMag - 1) * d) (d2 := d) hd hd
    (Nat.mul_le_mul_right _ hz)
  rw [roundMag_exact (infMag - 1) d hd (by decide)] at this
  have : 0 < infMag := by decide
  omega

theorem key_isFinite {a b : F32} (h : a.key = b.key) : a.isFinite = b.isFinite := by
  rw [Bool.eq_iff_iff, finite_iff_key, finite_iff_key, h]
theorem key_toRat {a b : F32} (h : a.key = b.key) : a.toRat = b.toRat :=
  le_antisymm ((toRat_le_iff a b).2 h.le) ((toRat_le_iff b a).2 h.ge)

private theorem quo_add (a b : F32) : quo (a.units + b.units) 1 = a.toRat + b.toRat := by
  unfold quo toRat; push_cast; ring
private theorem quo_mul (a b : F32) : quo (a.units * b.units) (2 ^ 149) = a.toRat * b.toRat := by
  unfold quo toRat; push_cast; field_simp; norm_num
private theorem quo_fma (a b c : F32) :
    quo (a.units * b.units + c.units * 2 ^ 149) (2 ^ 149) = a.toRat * b.toRat + c.toRat := by
  unfold quo toRat; push_cast; field_simp; norm_num; ring

/-! ### Error of the operations -/

/-- Addition of finite values. -/
theorem fadd_err {a b : F32} (ha : a.isFinite) (hb : b.isFinite) (h : |a.toRat + b.toRat| ≤ maxRat) :
    (fadd a b).isFinite ∧ |(fadd a b).toRat - (a.toRat + b.toRat)| ≤ |a.toRat + b.toRat| / 2 ^ 24 := by
  rw [← quo_add] at *
  have hf := round_finite one_pos h
  have hk := (fadd_finite ha hb).2
  refine ⟨by rw [key_isFinite hk]; exact hf, ?_⟩
  rw [key_toRat hk]
  exact round_error_int hf

theorem fneg_toRat (a : F32) : (fneg a).toRat = -a.toRat := by
  unfold toRat; rw [fneg_units]; push_cast; ring

/-- Subtraction of finite values. -/
theorem fsub_err {a b : F32} (ha : a.isFinite) (hb : b.isFinite) (h : |a.toRat - b.toRat| ≤ maxRat) :
    (fsub a b).isFinite ∧ |(fsub a b).toRat - (a.toRat - b.toRat)| ≤ |a.toRat - b.toRat| / 2 ^ 24 := by
  have e : fsub a b = fadd a (fneg b) := by
    unfold fsub; rw [finite_not_nan hb]; simp
  rw [e, sub_eq_add_neg a.toRat, ← fneg_toRat] at *
  exact fadd_err ha (by rw [fneg_finite]; exact hb) h

/-- Multiplication of finite values. -/
theorem fmul_err {a b : F32} (ha : a.isFinite) (hb : b.isFinite) (h : |a.toRat * b.toRat| ≤ maxRat) :
    (fmul a b).isFinite ∧
      |(fmul a b).toRat - a.toRat * b.toRat| ≤ max (|a.toRat * b.toRat| / 2 ^ 24) (1 / 2 ^ 150) := by
  rw [← quo_mul] at *
  have hf := round_finite (by positivity) h
  have hk := (fmul_finite ha hb).2
  refine ⟨by rw [key_isFinite hk]; exact hf, ?_⟩
  rw [key_toRat hk]
  exact round_error (by positivity) hf

/-- Fused multiply-add of finite values. -/
theorem ffma_err {a b c : F32} (ha : a.isFinite) (hb : b.isFinite) (hc : c.isFinite)
    (h : |a.toRat * b.toRat + c.toRat| ≤ maxRat) :
    (ffma a b c).isFinite ∧ |(ffma a b c).toRat - (a.toRat * b.toRat + c.toRat)| ≤
      max (|a.toRat * b.toRat + c.toRat| / 2 ^ 24) (1 / 2 ^ 150) := by
  rw [← quo_fma] at *
  have hf := round_finite (by positivity) h
  have hk := (ffma_finite ha hb hc).2
  refine ⟨by rw [key_isFinite hk]; exact hf, ?_⟩
  rw [key_toRat hk]
  exact round_error (by positivity) hf

/-- Integers up to `2^24` convert exactly. -/
theorem toRat_ofNat {n : Nat} (hn : n ≤ 2 ^ 24) : (ofNat n).isFinite ∧ (ofNat n).toRat = n := by
  obtain ⟨m, e, hm⟩ := exists_mag 149 n hn
  have hm' : m < infMag := by unfold infMag; omega
  have hr : roundMag (n * 2 ^ 149) 1 = m := by
    have := roundMag_exact m 1 one_pos hm'
    rwa [e, Nat.mul_one] at this
  have ha : ((n : Int) * 2 ^ 149).natAbs = n * 2 ^ 149 := by
    rw [Int.natAbs_mul]; simp
  have hmag : (ofNat n).mag = m := by unfold ofNat; rw [roundUnits_mag, ha, hr]
  have hsign : (ofNat n).signBit = false := by
    unfold ofNat; rw [roundUnits_sign]; simp
  refine ⟨by simp [isFinite, hmag, hm'], ?_⟩
  unfold toRat units
  rw [hsign, hmag, e]
  push_cast
  simp

end F32
end Verif
