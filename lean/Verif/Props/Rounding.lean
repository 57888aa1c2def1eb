import Verif.Model.Rounding
import Verif.Proofs.F32Div
import Verif.Props.SimdInt

/-!
# C80: rounding to integers
-/

namespace Verif
open F32

/-- What each rounding function must return for the rational `q`: the integer `n`. For `round`, one of the nearest
integers. -/
def Spec.rounds (r : Rnd) (q : Rat) (n : Int) : Prop :=
  match r with
  | .round => |(n : Rat) - q| ≤ 1 / 2
  | .floor => (n : Rat) ≤ q ∧ q < n + 1
  | .ceil => (n : Rat) - 1 < q ∧ q ≤ n
  | .trunc => |(n : Rat)| ≤ |q| ∧ |q| < |(n : Rat)| + 1 ∧ 0 ≤ n * q

/-- Special values are kept and the sign bit of a finite argument is kept by zero results. -/
def Spec.keepsSpecial (x y : F32) : Prop :=
  (x.isNaN → y.isNaN) ∧ (x.isInf → y = x) ∧ (x.isFinite → y.toRat = 0 → y.signBit = x.signBit)

namespace F32

theorem units_big {x : F32} (hx : x.isFinite) (hb : 2 ^ 172 ≤ x.units.natAbs) : (2 ^ 149 : Int) ∣ x.units := by
  obtain ⟨s, k, hm, hk, hs⟩ := mag_decomp x.mag
  have hu : magUnits x.mag = k * 2 ^ s := by rw [hm]; exact magUnits_eq s k hk.le hs
  have habs : x.units.natAbs = k * 2 ^ s := by unfold units; rw [hu]; split <;> simp [Int.natAbs_mul, Int.natAbs_pow]
  have h149 : 149 ≤ s := by
    by_contra hlt
    have h1 : s ≤ 148 := by omega
    have h2 : k * 2 ^ s < 2 ^ 24 * 2 ^ 148 :=
      Nat.lt_of_lt_of_le ((Nat.mul_lt_mul_right (by positivity)).2 hk) (Nat.mul_le_mul_left _ (Nat.pow_le_pow_right (by norm_num) h1))
    have h3 : (2 : Nat) ^ 24 * 2 ^ 148 = 2 ^ 172 := by norm_num
    rw [habs] at hb
    omega
  rw [← Int.natAbs_dvd_natAbs, habs]
  show 2 ^ 149 ∣ k * 2 ^ s
  exact Dvd.dvd.mul_left (pow_dvd_pow 2 h149) k

/-- An integer up to 2^23 in magnitude, or any integer whose multiple is a value, is representable. -/
theorem integral_round {x : F32} (hx : x.isFinite) (z : Int) (hz : z * 2 ^ 149 = x.units ∨ z.natAbs ≤ 2 ^ 24) :
    (roundUnits (z * 2 ^ 149) 1).isFinite ∧ (roundUnits (z * 2 ^ 149) 1).toRat = z := by
  obtain ⟨y, hyf, hyu⟩ : ∃ y : F32, y.isFinite ∧ y.units = z * 2 ^ 149 := by
    rcases hz with hz | hz
    · exact ⟨x, hx, hz.symm⟩
    obtain ⟨m, hm, hmle⟩ := exists_mag 149 z.natAbs hz
    have hmlt : m < infMag := by unfold infMag; omega
    have hm31 : m < 2 ^ 31 := by unfold infMag at hmlt; omega
    refine ⟨ofParts (decide (z < 0)) m, ?_, ?_⟩
    · unfold isFinite; rw [ofParts_mag _ _ hm31]; exact decide_eq_true hmlt
    · unfold units; rw [ofParts_mag _ _ hm31, ofParts_signBit _ _ hm31, hm]
      by_cases hneg : z < 0
      · rw [decide_eq_true hneg, if_pos rfl]; push_cast; rw [abs_of_neg hneg]; ring
      · rw [decide_eq_false hneg, if_neg (by simp)]; push_cast; rw [abs_of_nonneg (not_lt.1 hneg)]
  have he := roundUnits_exact y hyf 1 one_pos
  rw [Nat.cast_one, mul_one, hyu] at he
  refine ⟨by rw [key_isFinite he]; exact hyf, ?_⟩
  rw [key_toRat he]
  unfold toRat; rw [hyu]; push_cast
  rw [mul_div_assoc, div_self (by positivity), mul_one]

theorem near_bound {z u D : Int} (hD : 0 < D) (h1 : |z * D - u| < D) (h2 : |u| < 2 ^ 23 * D) : z.natAbs ≤ 2 ^ 23 := by
  rw [abs_lt] at h1 h2
  have h3 : z < 2 ^ 23 + 1 := by
    apply lt_of_mul_lt_mul_right _ hD.le; linarith
  have h4 : -(2 ^ 23 + 1) < z := by
    apply lt_of_mul_lt_mul_right _ hD.le; linarith
  omega

theorem near_exact {z n D : Int} (hD : 0 < D) (h1 : |z * D - n * D| < D) : z = n := by
  rw [← sub_mul, abs_mul, abs_of_pos hD] at h1
  have : |z - n| < 1 := by by_contra hc; exact absurd h1 (by nlinarith [not_lt.1 hc])
  have := abs_lt.1 this; omega

/-- Rounding to an integer is exact. -/
theorem toIntegral_finite {g : Int → Int} {x : F32} (hx : x.isFinite)
    (hnear : ∀ u : Int, |g u * 2 ^ 149 - u| < 2 ^ 149) :
    (toIntegral g x).isFinite ∧ (toIntegral g x).toRat = g x.units := by
  unfold toIntegral
  rw [if_neg (by rw [finite_not_nan hx]; simp), if_neg (by rw [finite_not_inf hx]; simp)]
  by_cases h0 : g x.units = 0
  · rw [if_pos h0, h0]
    exact ⟨by cases x.signBit <;> decide, by rw [show (zero x.signBit).toRat = 0 from (toRat_zero_iff _).2 (by cases x.signBit <;> decide)]; simp⟩
  rw [if_neg h0]
  apply integral_round hx
  by_cases hb : 2 ^ 172 ≤ x.units.natAbs
  · obtain ⟨n, hn⟩ := units_big hx hb
    left
    rw [hn, mul_comm (2 ^ 149) n, near_exact (by positivity) (hnear (n * 2 ^ 149))]
  · right
    refine (near_bound (by positivity) (hnear x.units) ?_).trans (by norm_num)
    rw [Int.abs_eq_natAbs, ← pow_add]; exact_mod_cast not_le.1 hb

theorem toIntegral_special (g : Int → Int) (x : F32)
    (hnear : ∀ u : Int, |g u * 2 ^ 149 - u| < 2 ^ 149) : Spec.keepsSpecial x (toIntegral g x) := by
  refine ⟨fun h => ?_, fun h => ?_, fun h h0 => ?_⟩
  · unfold toIntegral; rw [if_pos h]; decide
  · have : x.isNaN = false := by
      unfold isNaN; unfold isInf at h; have := of_decide_eq_true h; exact decide_eq_false (by omega)
    unfold toIntegral; rw [this, if_neg (by simp), if_pos h]
  · have := (toIntegral_finite h hnear).2
    rw [h0] at this
    have hz : g x.units = 0 := by exact_mod_cast this.symm
    unfold toIntegral
    rw [if_neg (by rw [finite_not_nan h]; simp), if_neg (by rw [finite_not_inf h]; simp), if_pos hz]
    cases x.signBit <;> decide

theorem units_rat (x : F32) : (x.units : Rat) = x.toRat * 2 ^ 149 := (toRat_mul x).symm

/-- A relation between an integer and the units, read as one between the integer and the value. -/
theorem rat_of_int {a : Int} {x : F32} : (a * 2 ^ 149 ≤ x.units ↔ (a : Rat) ≤ x.toRat) ∧
    (x.units ≤ a * 2 ^ 149 ↔ x.toRat ≤ a) := by
  have hp : (0 : Rat) < 2 ^ 149 := by positivity
  constructor
  · rw [← @Int.cast_le Rat, Int.cast_mul, units_rat, Int.cast_pow, Int.cast_ofNat]; exact mul_le_mul_iff_left₀ hp
  · rw [← @Int.cast_le Rat, Int.cast_mul, units_rat, Int.cast_pow, Int.cast_ofNat]; exact mul_le_mul_iff_left₀ hp

theorem rat_near {a : Int} {x : F32} (h : 2 * |a * 2 ^ 149 - x.units| ≤ 2 ^ 149) : |(a : Rat) - x.toRat| ≤ 1 / 2 := by
  have hp : (0 : Rat) < 2 ^ 149 := by positivity
  have h1 : ((2 * |a * 2 ^ 149 - x.units| : Int) : Rat) ≤ ((2 ^ 149 : Int) : Rat) := Int.cast_le.2 h
  rw [Int.cast_mul, Int.cast_abs, Int.cast_sub, Int.cast_mul, units_rat, Int.cast_pow, Int.cast_ofNat, ← sub_mul, abs_mul,
    abs_of_pos hp] at h1
  have h2 : |(a : Rat) - x.toRat| * 2 ^ 149 ≤ 1 / 2 * 2 ^ 149 := by
    generalize (2 : Rat) ^ 149 = D at *; linarith
  exact le_of_mul_le_mul_right h2 hp

end F32

/-! The integer functions behind the roundings, for any positive denominator. -/
section
variable {D : Int} (hD : 0 < D) (u : Int)
include hD

theorem floor_bounds : u / D * D ≤ u ∧ u < (u / D + 1) * D :=
  ⟨Int.ediv_mul_le _ hD.ne', Int.lt_ediv_add_one_mul_self u hD⟩

theorem floor_near : |u / D * D - u| < D := by
  have h := floor_bounds hD u; rw [abs_lt]; constructor <;> linarith
theorem ceil_bounds : (-(-u / D) - 1) * D < u ∧ u ≤ -(-u / D) * D := by
  have h := floor_bounds hD (-u); constructor <;> linarith
theorem ceil_near : |-(-u / D) * D - u| < D := by
  have h := ceil_bounds hD u; rw [abs_lt]; constructor <;> linarith
theorem trunc_pos (h : 0 ≤ u) : u.tdiv D = u / D := Int.tdiv_eq_ediv_of_nonneg h
theorem trunc_neg (h : u < 0) : u.tdiv D = -(-u / D) := by
  have : u = -(-u) := (neg_neg u).symm
  conv_lhs => rw [this, Int.neg_tdiv, Int.tdiv_eq_ediv_of_nonneg (by omega)]
theorem trunc_near : |u.tdiv D * D - u| < D := by
  rcases lt_or_ge u 0 with h | h
  · rw [trunc_neg hD u h]; exact ceil_near hD u
  · rw [trunc_pos hD u h]; exact floor_near hD u

/-- Halves away from zero. -/
theorem away_near : 2 * |(if u < 0 then -((2 * -u + D) / (2 * D)) else (2 * u + D) / (2 * D)) * D - u| ≤ D := by
  split
  · have h := floor_bounds (D := 2 * D) (by linarith) (2 * -u + D)
    generalize (2 * -u + D) / (2 * D) = q at *
    rcases abs_cases (-q * D - u) with ⟨e, _⟩ | ⟨e, _⟩ <;> rw [e] <;> linarith
  · have h := floor_bounds (D := 2 * D) (by linarith) (2 * u + D)
    generalize (2 * u + D) / (2 * D) = q at *
    rcases abs_cases (q * D - u) with ⟨e, _⟩ | ⟨e, _⟩ <;> rw [e] <;> linarith

theorem away_tie (h : 2 * |(if u < 0 then -((2 * -u + D) / (2 * D)) else (2 * u + D) / (2 * D)) * D - u| = D) :
    |u| ≤ |(if u < 0 then -((2 * -u + D) / (2 * D)) else (2 * u + D) / (2 * D))| * D := by
  revert h
  split
  next hu =>
    have h := floor_bounds (D := 2 * D) (by linarith) (2 * -u + D)
    generalize (2 * -u + D) / (2 * D) = q at *
    intro h2
    have hq : 0 ≤ q := by by_contra hc; nlinarith [not_le.1 hc]
    rw [abs_neg, abs_of_nonneg hq, abs_of_neg hu]
    rcases abs_cases (-q * D - u) with ⟨e, _⟩ | ⟨e, _⟩ <;> rw [e] at h2 <;> linarith
  next hu =>
    have h := floor_bounds (D := 2 * D) (by linarith) (2 * u + D)
    generalize (2 * u + D) / (2 * D) = q at *
    intro h2
    have hq : 0 ≤ q := by by_contra hc; nlinarith [not_le.1 hc]
    rw [abs_of_nonneg hq, abs_of_nonneg (not_lt.1 hu)]
    rcases abs_cases (q * D - u) with ⟨e, _⟩ | ⟨e, _⟩ <;> rw [e] at h2 <;> linarith

/-- Halves to even. -/
theorem even_near : 2 * |(if 2 * (u % D) < D then u / D else if D < 2 * (u % D) then u / D + 1
    else u / D + u / D % 2) * D - u| ≤ D := by
  have h := Int.emod_add_mul_ediv u D
  have h1 := Int.emod_nonneg u hD.ne'
  have h2 := Int.emod_lt_of_pos u hD
  have h3 := Int.emod_two_eq (u / D)
  generalize u / D = q at *
  generalize u % D = r at *
  subst h
  split
  · rcases abs_cases (q * D - (r + D * q)) with ⟨e, _⟩ | ⟨e, _⟩ <;> rw [e] <;> linarith
  split
  · rcases abs_cases ((q + 1) * D - (r + D * q)) with ⟨e, _⟩ | ⟨e, _⟩ <;> rw [e] <;> linarith
  · rcases h3 with h3 | h3 <;> rw [h3]
    · rcases abs_cases ((q + 0) * D - (r + D * q)) with ⟨e, _⟩ | ⟨e, _⟩ <;> rw [e] <;> linarith
    · rcases abs_cases ((q + 1) * D - (r + D * q)) with ⟨e, _⟩ | ⟨e, _⟩ <;> rw [e] <;> linarith

theorem even_tie (h : 2 * |(if 2 * (u % D) < D then u / D else if D < 2 * (u % D) then u / D + 1
    else u / D + u / D % 2) * D - u| = D) :
    (if 2 * (u % D) < D then u / D else if D < 2 * (u % D) then u / D + 1 else u / D + u / D % 2) % 2 = 0 := by
  revert h
  have h := Int.emod_add_mul_ediv u D
  have h1 := Int.emod_nonneg u hD.ne'
  have h2 := Int.emod_lt_of_pos u hD
  generalize u / D = q at *
  generalize u % D = r at *
  subst h
  split
  · intro h3; exfalso
    rcases abs_cases (q * D - (r + D * q)) with ⟨e, _⟩ | ⟨e, _⟩ <;> rw [e] at h3 <;> linarith
  split
  · intro h3; exfalso
    rcases abs_cases ((q + 1) * D - (r + D * q)) with ⟨e, _⟩ | ⟨e, _⟩ <;> rw [e] at h3 <;> linarith
  · intro _; omega

theorem half_lt {z : Int} (h : 2 * |z * D - u| ≤ D) : |z * D - u| < D := by linarith [abs_nonneg (z * D - u)]
end

theorem D_pos : (0 : Int) < 2 ^ 149 := by positivity

theorem rat_tie {a : Int} {x : F32} (h : |(a : Rat) - x.toRat| = 1 / 2) : 2 * |a * 2 ^ 149 - x.units| = 2 ^ 149 := by
  have h2 : ((2 * |a * 2 ^ 149 - x.units| : Int) : Rat) = ((2 ^ 149 : Int) : Rat) := by
    rw [Int.cast_mul, Int.cast_abs, Int.cast_sub, Int.cast_mul, units_rat, Int.cast_pow, Int.cast_ofNat, ← sub_mul, abs_mul, h,
      abs_of_pos (by positivity : (0 : Rat) < 2 ^ 149)]
    generalize (2 : Rat) ^ 149 = D
    ring
  exact_mod_cast h2

theorem rat_abs {a : Int} {x : F32} (h : |x.units| ≤ |a| * 2 ^ 149) : |x.toRat| ≤ |(a : Rat)| := by
  have hp : (0 : Rat) < 2 ^ 149 := by positivity
  have h2 : ((|x.units| : Int) : Rat) ≤ ((|a| * 2 ^ 149 : Int) : Rat) := Int.cast_le.2 h
  rw [Int.cast_abs, Int.cast_mul, Int.cast_abs, units_rat, Int.cast_pow, Int.cast_ofNat, abs_mul, abs_of_pos hp] at h2
  exact le_of_mul_le_mul_right h2 hp

/-- Every `<cmath>` rounding function, on every argument. -/
theorem rnd_std (r : Rnd) (x : F32) : Spec.keepsSpecial x (r.std x) ∧
    (x.isFinite → (r.std x).isFinite ∧ ∃ n : Int, (r.std x).toRat = n ∧ Spec.rounds r x.toRat n ∧
      (r = .round → |(n : Rat) - x.toRat| = 1 / 2 → |x.toRat| ≤ |(n : Rat)|)) := by
  cases r
  · refine ⟨toIntegral_special _ x fun u => half_lt D_pos u (away_near D_pos u), fun hx => ?_⟩
    obtain ⟨h1, h2⟩ := toIntegral_finite hx fun u => half_lt D_pos u (away_near D_pos u)
    refine ⟨h1, _, h2, rat_near (away_near D_pos _), fun _ ht => ?_⟩
    have h3 := away_tie D_pos _ (rat_tie ht)
    generalize (if x.units < 0 then _ else _ : Int) = n at h3 ⊢
    exact rat_abs h3
  · refine ⟨toIntegral_special _ x (floor_near D_pos), fun hx => ?_⟩
    obtain ⟨h1, h2⟩ := toIntegral_finite hx (floor_near D_pos)
    have hb := floor_bounds D_pos x.units
    refine ⟨h1, _, h2, ⟨rat_of_int.1.1 hb.1, ?_⟩, by simp⟩
    have := mt rat_of_int.1.2 (not_le.2 hb.2)
    push_cast at this ⊢; exact not_le.1 this
  · refine ⟨toIntegral_special _ x (ceil_near D_pos), fun hx => ?_⟩
    obtain ⟨h1, h2⟩ := toIntegral_finite hx (ceil_near D_pos)
    have hb := ceil_bounds D_pos x.units
    refine ⟨h1, _, h2, ⟨?_, rat_of_int.2.1 hb.2⟩, by simp⟩
    have := mt rat_of_int.2.2 (not_le.2 hb.1)
    push_cast at this ⊢; exact not_le.1 this
  · refine ⟨toIntegral_special _ x (trunc_near D_pos), fun hx => ?_⟩
    obtain ⟨h1, h2⟩ := toIntegral_finite hx (trunc_near D_pos)
    refine ⟨h1, _, h2, ?_, by simp⟩
    rcases lt_or_ge x.units 0 with hu | hu
    · rw [trunc_neg D_pos _ hu]
      have hb := ceil_bounds D_pos x.units
      have hq : x.toRat ≤ ((0 : Int) : Rat) := rat_of_int.2.1 (by rw [zero_mul]; exact hu.le)
      have b1 := rat_of_int.2.1 hb.2
      have b2 := mt rat_of_int.2.2 (not_le.2 hb.1)
      have hn : -(-x.units / 2 ^ 149) ≤ 0 := by
        have := Int.ediv_nonneg (a := -x.units) (b := 2 ^ 149) (by omega) D_pos.le; omega
      generalize -(-x.units / 2 ^ 149) = n at *
      have hn' : (n : Rat) ≤ 0 := by exact_mod_cast hn
      push_cast at hq b2
      rw [Spec.rounds, abs_of_nonpos hn', abs_of_nonpos hq]
      exact ⟨by linarith, by linarith [not_le.1 b2], mul_nonneg_of_nonpos_of_nonpos hn' hq⟩
    · rw [trunc_pos D_pos _ hu]
      have hb := floor_bounds D_pos x.units
      have hq : ((0 : Int) : Rat) ≤ x.toRat := rat_of_int.1.1 (by rw [zero_mul]; exact hu)
      have b1 := rat_of_int.1.1 hb.1
      have b2 := mt rat_of_int.1.2 (not_le.2 hb.2)
      have hn : 0 ≤ x.units / 2 ^ 149 := Int.ediv_nonneg hu D_pos.le
      generalize x.units / 2 ^ 149 = n at *
      have hn' : (0 : Rat) ≤ n := by exact_mod_cast hn
      push_cast at hq b2
      rw [Spec.rounds, abs_of_nonneg hn', abs_of_nonneg hq]
      exact ⟨by linarith, by linarith [not_le.1 b2], mul_nonneg hn' hq⟩

/-- The rounding instruction of SSE4.1 and NEON behind `round`. -/
theorem rnd_even (x : F32) : Spec.keepsSpecial x (froundEven x) ∧
    (x.isFinite → (froundEven x).isFinite ∧ ∃ n : Int, (froundEven x).toRat = n ∧ Spec.rounds .round x.toRat n ∧
      (|(n : Rat) - x.toRat| = 1 / 2 → n % 2 = 0)) := by
  refine ⟨toIntegral_special _ x fun u => half_lt D_pos u (even_near D_pos u), fun hx => ?_⟩
  obtain ⟨h1, h2⟩ := toIntegral_finite hx fun u => half_lt D_pos u (even_near D_pos u)
  exact ⟨h1, _, h2, rat_near (even_near D_pos _), fun ht => even_tie D_pos _ (rat_tie ht)⟩

theorem round_agree_int {D : Int} (hD : 0 < D) {a b u : Int} (ha : 2 * |a * D - u| ≤ D) (hb : 2 * |b * D - u| ≤ D)
    (ht : 2 * |a * D - u| ≠ D) : a = b := by
  have h1 := lt_of_le_of_ne ha ht
  apply near_exact hD
  rw [show a * D - b * D = (a * D - u) - (b * D - u) by ring]
  have := abs_sub (a * D - u) (b * D - u)
  linarith

/-- The two kinds of rounding differ only on halves. -/
theorem round_agree (x : F32) (hx : x.isFinite) (ht : ∀ n : Int, |(n : Rat) - x.toRat| ≠ 1 / 2) :
    froundEven x = froundAway x := by
  have ha := away_near D_pos x.units
  have hb := even_near D_pos x.units
  have h : ∀ n : Int, 2 * |n * 2 ^ 149 - x.units| ≠ 2 ^ 149 := by
    intro n hn
    apply ht n
    have hp : (0 : Rat) < 2 ^ 149 := by positivity
    have h1 : ((2 * |n * 2 ^ 149 - x.units| : Int) : Rat) = ((2 ^ 149 : Int) : Rat) := by rw [hn]
    rw [Int.cast_mul, Int.cast_abs, Int.cast_sub, Int.cast_mul, units_rat, Int.cast_pow, Int.cast_ofNat, ← sub_mul, abs_mul,
      abs_of_pos hp] at h1
    generalize (2 : Rat) ^ 149 = D at *
    have h2 : (2 * |(n : Rat) - x.toRat| - 1) * D = 0 := by push_cast at h1; linarith
    rcases mul_eq_zero.1 h2 with h3 | h3
    · linarith
    · exact absurd h3 hp.ne'
  have := round_agree_int D_pos hb ha (h _)
  unfold froundEven froundAway toIntegral
  simp only [this]

/-! ## The library functions -/

/-- A lane of a rounding function is right: special values kept, and for a finite argument the exact integer. -/
def Spec.rndLane (r : Rnd) (x y : F32) : Prop :=
  Spec.keepsSpecial x y ∧ (x.isFinite → y.isFinite ∧ ∃ n : Int, y.toRat = n ∧ Spec.rounds r x.toRat n)

theorem std_lane (r : Rnd) (x : F32) : Spec.rndLane r x (r.std x) :=
  ⟨(rnd_std r x).1, fun h => ⟨((rnd_std r x).2 h).1, let ⟨n, a, b, _⟩ := ((rnd_std r x).2 h).2; ⟨n, a, b⟩⟩⟩

theorem even_lane (x : F32) : Spec.rndLane .round x (froundEven x) :=
  ⟨(rnd_even x).1, fun h => ⟨((rnd_even x).2 h).1, let ⟨n, a, b, _⟩ := ((rnd_even x).2 h).2; ⟨n, a, b⟩⟩⟩

/-- `round`, `floor`, `ceil`, `trunc` of `float2`, `float3`, `float4`. -/
theorem float2_rnd (r : Rnd) (v : V2 F32) (i : Fin 2) : Spec.rndLane r (v.get i) ((Float2.rnd r v).get i) := by
  have : (Float2.rnd r v).get i = r.std (v.get i) := by cases r <;> fin_cases i <;> rfl
  rw [this]; exact std_lane r _
theorem float3_rnd (r : Rnd) (v : V3 F32) (i : Fin 3) : Spec.rndLane r (v.get i) ((Float3.rnd r v).get i) := by
  have : (Float3.rnd r v).get i = r.std (v.get i) := by cases r <;> fin_cases i <;> rfl
  rw [this]; exact std_lane r _
theorem float4_rnd (r : Rnd) (v : V4 F32) (i : Fin 4) : Spec.rndLane r (v.get i) ((Float4.rnd r v).get i) := by
  have : (Float4.rnd r v).get i = r.std (v.get i) := by cases r <;> fin_cases i <;> rfl
  rw [this]; exact std_lane r _

/-- The same functions of `f32x4`, on every instruction set. -/
theorem f32x4_rnd (k : Isa) (r : Rnd) (v : V4 F32) (i : Fin 4) : Spec.rndLane r (v.get i) ((F32x4.rnd k r v).get i) := by
  have : (F32x4.rnd k r v).get i = r.std (v.get i) ∨ r = .round ∧ (F32x4.rnd k r v).get i = froundEven (v.get i) := by
    cases k <;> cases r <;> fin_cases i <;> first | exact Or.inl rfl | exact Or.inr ⟨rfl, rfl⟩
  rcases this with h | ⟨rfl, h⟩ <;> rw [h]
  · exact std_lane r _
  · exact even_lane _

/-- `floor`, `ceil` and `trunc` of `f32x4` are those of `float4`, bit for bit; `round` too, unless a lane is halfway
between two integers. -/
theorem f32x4_rnd_same_partial (k : Isa) (r : Rnd) (v : V4 F32)
    (h : r = .round → ∀ i : Fin 4, (v.get i).isFinite ∧ ∀ n : Int, |(n : Rat) - (v.get i).toRat| ≠ 1 / 2) :
    F32x4.rnd k r v = Float4.rnd r v := by
  have hr : r = .round → v.map froundEven = Float4.rnd .round v := by
    intro e
    have h' := h e
    simp only [V4.map, Float4.rnd]
    rw [round_agree v.x (h' 0).1 (h' 0).2, round_agree v.y (h' 1).1 (h' 1).2, round_agree v.z (h' 2).1 (h' 2).2,
      round_agree v.w (h' 3).1 (h' 3).2]
  cases r <;> simp only [F32x4.rnd]
  · split
    · exact hr rfl
    split
    · exact hr rfl
    · rfl
  all_goals split; rfl; split <;> rfl

/-- Halfway values round differently: `round(2.5)` is 3 for `float4` and for plain SSE2, but 2 with SSE4.1 and NEON. -/
theorem f32x4_round_half_differs :
    (F32x4.rnd .sse41 .round (V4.splat ⟨0x40200000⟩)).x = ⟨0x40000000⟩ ∧
    (F32x4.rnd .neon .round (V4.splat ⟨0x40200000⟩)).x = ⟨0x40000000⟩ ∧
    (F32x4.rnd .sse2 .round (V4.splat ⟨0x40200000⟩)).x = ⟨0x40400000⟩ ∧
    (Float4.rnd .round (V4.splat ⟨0x40200000⟩)).x = ⟨0x40400000⟩ := by
  decide +kernel

/-- The documented examples: `round` 1.5 and -1.5, `floor` 1.7 and -1.7, `ceil` 1.4 and -1.4, `trunc` 1.7 and -1.9. -/
example : Float4.rnd .round ⟨⟨0x3FC00000⟩, ⟨0xBFC00000⟩, nan, inf true⟩ = ⟨⟨0x40000000⟩, ⟨0xC0000000⟩, nan, inf true⟩ := by
  decide +kernel
example : Float2.rnd .floor ⟨F32.ofRat (17 / 10), F32.ofRat (-17 / 10)⟩ = ⟨⟨0x3F800000⟩, ⟨0xC0000000⟩⟩ := by decide +kernel
example : Float2.rnd .ceil ⟨F32.ofRat (14 / 10), F32.ofRat (-14 / 10)⟩ = ⟨⟨0x40000000⟩, ⟨0xBF800000⟩⟩ := by decide +kernel
example : Float2.rnd .trunc ⟨F32.ofRat (17 / 10), F32.ofRat (-19 / 10)⟩ = ⟨⟨0x3F800000⟩, ⟨0xBF800000⟩⟩ := by decide +kernel
example : (F32.mk 0x3FC00000).isFinite := by decide

end Verif
