import Verif.Model.F32
import Mathlib.Tactic.Common
import Mathlib.Tactic.Ring
import Mathlib.Tactic.Linarith
import Mathlib.Tactic.Positivity
import Mathlib.Tactic.NormNum
import Mathlib.Data.Rat.Cast.Order
import Mathlib.Algebra.Order.Field.Rat

/-!
# Facts about the binary32 model

Order laws, injectivity, agreement of comparison with the rational values, exactness and monotonicity of
rounding.
-/

namespace Verif
namespace F32

theorem mag_lt (x : F32) : x.mag < 2 ^ 31 := Nat.mod_lt _ (by decide)

theorem toNat_eq (x : F32) : x.bits.toNat = x.mag + if x.signBit then 2 ^ 31 else 0 := by
  have h := x.bits.isLt
  have hs : x.signBit = decide (2 ^ 31 ≤ x.bits.toNat) := by
    rw [signBit, BitVec.getLsbD]
    rw [Nat.testBit_eq_decide_div_mod_eq]
    congr 1
    simp only [eq_iff_iff]
    omega
  unfold mag
  rw [hs]
  by_cases h2 : 2 ^ 31 ≤ x.bits.toNat
  · rw [if_pos (decide_eq_true h2)]; omega
  · rw [if_neg (by simpa using h2)]; omega

theorem ofParts_toNat (s : Bool) (m : Nat) (h : m < 2 ^ 31) :
    (ofParts s m).bits.toNat = m + if s then 2 ^ 31 else 0 := by
  unfold ofParts
  rw [BitVec.toNat_ofNat]
  apply Nat.mod_eq_of_lt
  cases s <;> simp <;> omega

@[simp] theorem ofParts_mag (s : Bool) (m : Nat) (h : m < 2 ^ 31) : (ofParts s m).mag = m := by
  unfold mag
  rw [ofParts_toNat s m h]
  cases s <;> simp <;> omega

@[simp] theorem ofParts_signBit (s : Bool) (m : Nat) (h : m < 2 ^ 31) : (ofParts s m).signBit = s := by
  have h1 := toNat_eq (ofParts s m)
  rw [ofParts_toNat s m h, ofParts_mag s m h] at h1
  cases s <;> cases h2 : (ofParts _ m).signBit <;> simp_all

theorem ext_parts {x y : F32} (hs : x.signBit = y.signBit) (hm : x.mag = y.mag) : x = y := by
  have := toNat_eq x
  rw [hs, hm, ← toNat_eq y] at this
  cases x; cases y
  simp only [F32.mk.injEq]
  exact BitVec.eq_of_toNat_eq this

/-! ### Order -/

theorem ltb_iff {a b : F32} : ltb a b = true ↔ a.isNaN = false ∧ b.isNaN = false ∧ a.key < b.key := by
  simp [ltb, and_assoc]

theorem leb_iff {a b : F32} : leb a b = true ↔ a.isNaN = false ∧ b.isNaN = false ∧ a.key ≤ b.key := by
  simp [leb, and_assoc]

theorem eqb_iff {a b : F32} : eqb a b = true ↔ a.isNaN = false ∧ b.isNaN = false ∧ a.key = b.key := by
  simp [eqb, and_assoc]

theorem leb_eq_lt_or_eq (a b : F32) : leb a b = (ltb a b || eqb a b) := by
  rw [Bool.eq_iff_iff, Bool.or_eq_true, leb_iff, ltb_iff, eqb_iff]
  constructor
  · rintro ⟨h1, h2, h3⟩
    rcases lt_or_eq_of_le h3 with h | h
    · exact Or.inl ⟨h1, h2, h⟩
    · exact Or.inr ⟨h1, h2, h⟩
  · rintro (⟨h1, h2, h⟩ | ⟨h1, h2, h⟩)
    · exact ⟨h1, h2, le_of_lt h⟩
    · exact ⟨h1, h2, le_of_eq h⟩

/-! ### Units -/

theorem magUnits_eq (s k : Nat) (hk : k ≤ 2 ^ 24) (h : s = 0 ∨ 2 ^ 23 ≤ k) :
    magUnits (k + s * 2 ^ 23) = k * 2 ^ s := by
  unfold magUnits
  by_cases h1 : k < 2 ^ 23
  · have hs : s = 0 := by omega
    subst hs
    have : (k + 0 * 2 ^ 23) / 2 ^ 23 = 0 := by omega
    rw [if_pos this]; simp; omega
  · by_cases h2 : k = 2 ^ 24
    · subst h2
      have e1 : (2 ^ 24 + s * 2 ^ 23) / 2 ^ 23 = s + 2 := by omega
      have e2 : (2 ^ 24 + s * 2 ^ 23) % 2 ^ 23 = 0 := by omega
      rw [e1, e2, if_neg (by omega), show s + 2 - 1 = s + 1 by omega, Nat.pow_succ]
      ring
    · have e1 : (k + s * 2 ^ 23) / 2 ^ 23 = s + 1 := by omega
      have e2 : (k + s * 2 ^ 23) % 2 ^ 23 = k - 2 ^ 23 := by omega
      rw [e1, e2, if_neg (by omega), show s + 1 - 1 = s by omega,
        show 2 ^ 23 + (k - 2 ^ 23) = k by omega]

theorem mag_decomp (m : Nat) : ∃ s k, m = k + s * 2 ^ 23 ∧ k < 2 ^ 24 ∧ (s = 0 ∨ 2 ^ 23 ≤ k) := by
  by_cases h : m < 2 ^ 23
  · exact ⟨0, m, by omega, by omega, Or.inl rfl⟩
  · exact ⟨m / 2 ^ 23 - 1, 2 ^ 23 + m % 2 ^ 23, by omega, by omega, Or.inr (by omega)⟩

theorem magUnits_lt_succ (m : Nat) : magUnits m < magUnits (m + 1) := by
  obtain ⟨s, k, rfl, hk, h⟩ := mag_decomp m
  rw [magUnits_eq s k (by omega) h, show k + s * 2 ^ 23 + 1 = (k + 1) + s * 2 ^ 23 by omega,
    magUnits_eq s (k + 1) (by omega) (by omega)]
  exact Nat.mul_lt_mul_of_pos_right (by omega) (by positivity)

theorem magUnits_strictMono : StrictMono magUnits := strictMono_nat_of_lt_succ magUnits_lt_succ

theorem magUnits_zero : magUnits 0 = 0 := by simp [magUnits]

theorem units_lt_iff (a b : F32) : a.units < b.units ↔ a.key < b.key := by
  have h := magUnits_strictMono
  have h0 := magUnits_zero
  have p : ∀ m, magUnits m = 0 ↔ m = 0 := fun m => by rw [← h0]; exact h.injective.eq_iff
  unfold units key
  have key1 : magUnits a.mag < magUnits b.mag ↔ a.mag < b.mag := h.lt_iff_lt
  have key2 : magUnits b.mag < magUnits a.mag ↔ b.mag < a.mag := h.lt_iff_lt
  have p1 := p a.mag; have p2 := p b.mag
  cases a.signBit <;> cases b.signBit <;> simp <;> omega

theorem toRat_lt_iff (a b : F32) : a.toRat < b.toRat ↔ a.key < b.key := by
  rw [← units_lt_iff]
  unfold toRat
  rw [div_lt_div_iff_of_pos_right (by positivity)]
  exact Int.cast_lt

theorem toRat_le_iff (a b : F32) : a.toRat ≤ b.toRat ↔ a.key ≤ b.key := by
  rw [← not_lt, toRat_lt_iff, not_lt]

/-- The comparison of finite values is comparison of the rational numbers they denote. -/
theorem ltb_finite {a b : F32} (ha : a.isFinite) (hb : b.isFinite) :
    ltb a b = true ↔ a.toRat < b.toRat := by
  rw [ltb_iff, toRat_lt_iff]
  simp only [isFinite, decide_eq_true_eq] at ha hb
  simp [isNaN]; omega

theorem leb_finite {a b : F32} (ha : a.isFinite) (hb : b.isFinite) :
    leb a b = true ↔ a.toRat ≤ b.toRat := by
  rw [leb_iff, toRat_le_iff]
  simp only [isFinite, decide_eq_true_eq] at ha hb
  simp [isNaN]; omega

/-! ### Rounding -/

theorem rne_mul (k d : Nat) (hd : 0 < d) : rne (k * d) d = k := by
  unfold rne
  simp [Nat.mul_div_cancel k hd, hd]

theorem rne_bounds (n d : Nat) : n / d ≤ rne n d ∧ rne n d ≤ n / d + 1 := by
  unfold rne
  simp only
  split
  · omega
  · split <;> omega

theorem rne_mono {n1 d1 n2 d2 : Nat} (h1 : 0 < d1) (h2 : 0 < d2) (h : n1 * d2 ≤ n2 * d1) :
    rne n1 d1 ≤ rne n2 d2 := by
  have hq : n1 / d1 ≤ n2 / d2 := by
    rw [Nat.le_div_iff_mul_le h2]
    have : n1 / d1 * d1 ≤ n1 := Nat.div_mul_le_self n1 d1
    have h3 : n1 / d1 * d2 * d1 ≤ n2 * d1 := by
      calc n1 / d1 * d2 * d1 = (n1 / d1 * d1) * d2 := by ring
        _ ≤ n1 * d2 := Nat.mul_le_mul_right _ this
        _ ≤ n2 * d1 := h
    exact Nat.le_of_mul_le_mul_right h3 h1
  rcases lt_or_eq_of_le hq with hlt | heq
  · have := (rne_bounds n1 d1).2
    have := (rne_bounds n2 d2).1
    omega
  · have e1 := Nat.div_add_mod n1 d1
    have e2 := Nat.div_add_mod n2 d2
    set r1 := n1 % d1
    set r2 := n2 % d2
    have hr : r1 * d2 ≤ r2 * d1 := by
      rw [← e1, ← e2, heq] at h
      have : d1 * (n2 / d2) * d2 = d2 * (n2 / d2) * d1 := by ring
      nlinarith
    unfold rne
    simp only [← heq]
    change (if 2 * r1 < d1 then n1 / d1 else if d1 < 2 * r1 then n1 / d1 + 1 else n1 / d1 + n1 / d1 % 2) ≤
      (if 2 * r2 < d2 then n1 / d1 else if d2 < 2 * r2 then n1 / d1 + 1 else n1 / d1 + n1 / d1 % 2)
    by_cases c1 : 2 * r1 < d1
    · rw [if_pos c1]; split
      · exact le_rfl
      · split <;> omega
    · rw [if_neg c1]
      have c2 : ¬ 2 * r2 < d2 := by
        intro c2
        have : d1 * d2 ≤ 2 * r1 * d2 := Nat.mul_le_mul_right _ (not_lt.1 c1)
        have : 2 * r2 * d1 < d2 * d1 := Nat.mul_lt_mul_of_pos_right c2 h1
        nlinarith
      rw [if_neg c2]
      by_cases c3 : d1 < 2 * r1
      · rw [if_pos c3]
        have c4 : d2 < 2 * r2 := by
          have : d1 * d2 < 2 * r1 * d2 := Nat.mul_lt_mul_of_pos_right c3 h2
          by_contra c4
          have : 2 * r2 * d1 ≤ d2 * d1 := Nat.mul_le_mul_right _ (not_lt.1 c4)
          nlinarith
        rw [if_pos c4]
      · rw [if_neg c3]; split <;> omega

theorem spacing_mono {q1 q2 : Nat} (h : q1 ≤ q2) : spacing q1 ≤ spacing q2 := by
  unfold spacing
  by_cases h1 : q1 < 2 ^ 24
  · rw [if_pos h1]; exact Nat.zero_le _
  · have h2 : ¬ q2 < 2 ^ 24 := by omega
    rw [if_neg h1, if_neg h2]
    have : Nat.log2 q1 ≤ Nat.log2 q2 := by
      rw [Nat.log2_eq_log_two, Nat.log2_eq_log_two]
      exact Nat.log_mono_right h
    omega

theorem spacing_bounds (q : Nat) :
    q < 2 ^ 24 * 2 ^ spacing q ∧ (spacing q = 0 ∨ 2 ^ 23 * 2 ^ spacing q ≤ q) := by
  unfold spacing
  by_cases h : q < 2 ^ 24
  · rw [if_pos h]; exact ⟨by omega, Or.inl rfl⟩
  · rw [if_neg h]
    have h0 : q ≠ 0 := by omega
    have hle : 24 ≤ Nat.log2 q := (Nat.le_log2 h0).2 (not_lt.1 h)
    constructor
    · rw [← Nat.pow_add, show 24 + (Nat.log2 q - 23) = Nat.log2 q + 1 by omega]
      exact Nat.lt_log2_self
    · right
      rw [← Nat.pow_add, show 23 + (Nat.log2 q - 23) = Nat.log2 q by omega]
      exact Nat.log2_self_le h0

theorem rne_spacing_bounds (n d : Nat) (_hd : 0 < d) :
    rne n (d * 2 ^ spacing (n / d)) ≤ 2 ^ 24 ∧
      (spacing (n / d) = 0 ∨ 2 ^ 23 ≤ rne n (d * 2 ^ spacing (n / d))) := by
  obtain ⟨h1, h2⟩ := spacing_bounds (n / d)
  set s := spacing (n / d)
  have hb := rne_bounds n (d * 2 ^ s)
  rw [← Nat.div_div_eq_div_mul] at hb
  have hs : 0 < 2 ^ s := by positivity
  constructor
  · have : n / d / 2 ^ s < 2 ^ 24 := (Nat.div_lt_iff_lt_mul hs).2 h1
    omega
  · rcases h2 with h2 | h2
    · exact Or.inl h2
    · right
      have : 2 ^ 23 ≤ n / d / 2 ^ s := (Nat.le_div_iff_mul_le hs).2 h2
      omega

theorem roundMag_le (n d : Nat) : roundMag n d ≤ infMag := by
  unfold roundMag; simp only; split <;> omega

theorem roundMag_lt (n d : Nat) : roundMag n d < 2 ^ 31 :=
  lt_of_le_of_lt (roundMag_le n d) (by decide)

/-- Rounding to binary32 is monotone. -/
theorem roundMag_mono {n1 d1 n2 d2 : Nat} (h1 : 0 < d1) (h2 : 0 < d2) (h : n1 * d2 ≤ n2 * d1) :
    roundMag n1 d1 ≤ roundMag n2 d2 := by
  have hq : n1 / d1 ≤ n2 / d2 := by
    rw [Nat.le_div_iff_mul_le h2]
    have : n1 / d1 * d1 ≤ n1 := Nat.div_mul_le_self n1 d1
    have h3 : n1 / d1 * d2 * d1 ≤ n2 * d1 := by
      calc n1 / d1 * d2 * d1 = (n1 / d1 * d1) * d2 := by ring
        _ ≤ n1 * d2 := Nat.mul_le_mul_right _ this
        _ ≤ n2 * d1 := h
    exact Nat.le_of_mul_le_mul_right h3 h1
  have hm : rne n1 (d1 * 2 ^ spacing (n1 / d1)) + spacing (n1 / d1) * 2 ^ 23 ≤
      rne n2 (d2 * 2 ^ spacing (n2 / d2)) + spacing (n2 / d2) * 2 ^ 23 := by
    have hs := spacing_mono hq
    have b1 := rne_spacing_bounds n1 d1 h1
    have b2 := rne_spacing_bounds n2 d2 h2
    rcases lt_or_eq_of_le hs with hlt | heq
    · set s1 := spacing (n1 / d1)
      set s2 := spacing (n2 / d2)
      have : 2 ^ 23 ≤ rne n2 (d2 * 2 ^ s2) := by
        rcases b2.2 with h | h
        · omega
        · exact h
      have := b1.1
      omega
    · rw [← heq]
      have : rne n1 (d1 * 2 ^ spacing (n1 / d1)) ≤ rne n2 (d2 * 2 ^ spacing (n1 / d1)) := by
        apply rne_mono (by positivity) (by positivity)
        calc n1 * (d2 * 2 ^ spacing (n1 / d1)) = n1 * d2 * 2 ^ spacing (n1 / d1) := by ring
          _ ≤ n2 * d1 * 2 ^ spacing (n1 / d1) := Nat.mul_le_mul_right _ h
          _ = n2 * (d1 * 2 ^ spacing (n1 / d1)) := by ring
      omega
  unfold roundMag
  simp only
  split <;> split <;> omega

/-- A representable magnitude rounds to itself. -/
theorem roundMag_exact (m d : Nat) (hd : 0 < d) (hm : m < infMag) :
    roundMag (magUnits m * d) d = m := by
  obtain ⟨s, k, rfl, hk, h⟩ := mag_decomp m
  rw [magUnits_eq s k (by omega) h]
  have hdiv : k * 2 ^ s * d / d = k * 2 ^ s := Nat.mul_div_cancel _ hd
  have hs : spacing (k * 2 ^ s) = s := by
    unfold spacing
    by_cases hs0 : s = 0
    · subst hs0; rw [if_pos (by omega)]
    · have hk' : 2 ^ 23 ≤ k := by omega
      have hge : 2 ^ 24 ≤ k * 2 ^ s := by
        calc 2 ^ 24 = 2 ^ 23 * 2 ^ 1 := by norm_num
          _ ≤ k * 2 ^ s := Nat.mul_le_mul hk' (Nat.pow_le_pow_right (by decide) (by omega))
      rw [if_neg (by omega)]
      have : Nat.log2 (k * 2 ^ s) = 23 + s := by
        rw [Nat.log2_eq_iff (by omega)]
        constructor
        · rw [Nat.pow_add]; exact Nat.mul_le_mul_right _ hk'
        · rw [show 23 + s + 1 = 24 + s by omega, Nat.pow_add]
          exact Nat.mul_lt_mul_of_pos_right hk (by positivity)
      omega
  unfold roundMag
  simp only [hdiv, hs]
  rw [show k * 2 ^ s * d = k * (d * 2 ^ s) by ring, rne_mul _ _ (by positivity), if_pos hm]

theorem roundUnits_mag (z : Int) (d : Nat) : (roundUnits z d).mag = roundMag z.natAbs d :=
  ofParts_mag _ _ (roundMag_lt _ _)

theorem roundUnits_sign (z : Int) (d : Nat) : (roundUnits z d).signBit = decide (z < 0) :=
  ofParts_signBit _ _ (roundMag_lt _ _)

theorem roundUnits_not_nan (z : Int) (d : Nat) : (roundUnits z d).isNaN = false := by
  have := roundMag_le z.natAbs d
  simp [isNaN, roundUnits_mag]; omega

theorem roundUnits_key (z : Int) (d : Nat) :
    (roundUnits z d).key = if z < 0 then -(roundMag z.natAbs d : Int) else (roundMag z.natAbs d : Int) := by
  unfold key
  rw [roundUnits_sign, roundUnits_mag]
  simp

/-- Rounding is monotone on signed rationals. -/
theorem roundUnits_mono {z1 z2 : Int} {d1 d2 : Nat} (h1 : 0 < d1) (h2 : 0 < d2) (h : z1 * d2 ≤ z2 * d1) :
    (roundUnits z1 d1).key ≤ (roundUnits z2 d2).key := by
  rw [roundUnits_key, roundUnits_key]
  have hp1 : (0 : Int) < d1 := by exact_mod_cast h1
  have hp2 : (0 : Int) < d2 := by exact_mod_cast h2
  by_cases c1 : z1 < 0 <;> by_cases c2 : z2 < 0
  · rw [if_pos c1, if_pos c2]
    have : roundMag z2.natAbs d2 ≤ roundMag z1.natAbs d1 := by
      apply roundMag_mono h2 h1
      have e1 : (z1.natAbs : Int) = -z1 := by omega
      have e2 : (z2.natAbs : Int) = -z2 := by omega
      have : (z2.natAbs : Int) * d1 ≤ (z1.natAbs : Int) * d2 := by rw [e1, e2]; nlinarith
      exact_mod_cast this
    omega
  · rw [if_pos c1, if_neg c2]; omega
  · exfalso
    have : 0 ≤ z1 * d2 := mul_nonneg (by omega) hp2.le
    have : z2 * d1 < 0 := mul_neg_of_neg_of_pos c2 hp1
    omega
  · rw [if_neg c1, if_neg c2]
    have : roundMag z1.natAbs d1 ≤ roundMag z2.natAbs d2 := by
      apply roundMag_mono h1 h2
      have e1 : (z1.natAbs : Int) = z1 := by omega
      have e2 : (z2.natAbs : Int) = z2 := by omega
      have : (z1.natAbs : Int) * d2 ≤ (z2.natAbs : Int) * d1 := by rw [e1, e2]; exact h
      exact_mod_cast this
    exact_mod_cast this

end F32
end Verif
