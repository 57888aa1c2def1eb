import Mathlib.Tactic.LinearCombination
import Mathlib.Tactic.Positivity
import Verif.Model.ShMin
import Verif.Spec.ShMin
import Verif.Props.ShRotate
import Verif.Props.FloatOps

/-!
# The minimum search of spherical harmonics (C101)

`shmin` must tell whether the function goes negative: a non-negative result promises a function without negative
values, and the result is (close to) the least value.
-/

namespace Verif
open Sh Spec

/-- The exact table of `shmin`. -/
noncomputable def minTable : List ℝ := minCa (Real.sqrt 3) (Real.sqrt 5) (Real.sqrt 15) (Real.sqrt Real.pi)

namespace ShMinProof

theorem sp : 0 < Real.sqrt Real.pi := Real.sqrt_pos.2 Real.pi_pos

/-- The least value of a quadratic on `[-1, 1]`, the way `shmin` computes it. -/
noncomputable def qmin (a b c : ℝ) : ℝ :=
  if 0 < a ∧ -1 ≤ -b / (2 * a) ∧ -b / (2 * a) ≤ 1 then a * (-b / (2 * a)) * (-b / (2 * a)) + b * (-b / (2 * a)) + c
  else min (a + b + c) (a - b + c)

theorem qmin_le (a b c z : ℝ) (h : -1 ≤ z) (h' : z ≤ 1) : qmin a b c ≤ a * z ^ 2 + b * z + c := by
  unfold qmin
  split
  · rename_i k
    obtain ⟨ha, -, -⟩ := k
    have e : b = -(2 * a) * (-b / (2 * a)) := by field_simp
    set w := -b / (2 * a)
    rw [e]
    nlinarith [mul_nonneg ha.le (sq_nonneg (z - w))]
  · rename_i k
    rw [min_le_iff]
    have h1 : 0 ≤ z + 1 := by linarith
    have h2 : 0 ≤ 1 - z := by linarith
    have hz2 : 0 ≤ 1 - z ^ 2 := by nlinarith
    rcases le_or_gt a 0 with ha | ha
    · rcases le_or_gt 0 b with hb | hb
      · right
        nlinarith [mul_nonneg (neg_nonneg.2 ha) hz2, mul_nonneg hb h1]
      · left
        nlinarith [mul_nonneg (neg_nonneg.2 ha) hz2, mul_nonneg (neg_nonneg.2 hb.le) h2]
    · have : -b / (2 * a) < -1 ∨ 1 < -b / (2 * a) := by
        by_contra hn
        push Not at hn
        exact k ⟨ha, hn.1, hn.2⟩
      rcases this with q | q
      · rw [div_lt_iff₀ (by positivity)] at q
        right
        nlinarith [mul_nonneg h1 (by linarith : 0 ≤ b - 2 * a), mul_nonneg ha.le (mul_nonneg h1 h1)]
      · rw [lt_div_iff₀ (by positivity)] at q
        left
        nlinarith [mul_nonneg h2 (by linarith : 0 ≤ -b - 2 * a), mul_nonneg ha.le (mul_nonneg h2 h2)]

theorem qmin_attained (a b c : ℝ) : ∃ z, -1 ≤ z ∧ z ≤ 1 ∧ a * z ^ 2 + b * z + c = qmin a b c := by
  unfold qmin
  split
  · rename_i k
    exact ⟨_, k.2.1, k.2.2, by ring⟩
  · rcases min_choice (a + b + c) (a - b + c) with e | e <;> rw [e]
    · exact ⟨1, by norm_num, by norm_num, by ring⟩
    · exact ⟨-1, by norm_num, by norm_num, by ring⟩

theorem stdMin_real (x y : ℝ) : Flt.stdMin x y = min x y := by
  simp only [Flt.stdMin, Flt.real_lt, decide_eq_true_eq]
  split
  · rename_i h; exact (min_eq_right h.le).symm
  · rename_i h; exact (min_eq_left (not_lt.1 h)).symm

/-- The values of `a`, `b`, `c`, `d` and the first `minimum` in exact arithmetic. -/
theorem bound_eq (t0 t1 t2 t3 t4 t5 t6 t7 t8 : ℝ) :
    let p := Real.sqrt Real.pi
    let m2 := Real.sqrt 15 / (4 * p) * Real.sqrt (t8 * t8 + t4 * t4)
    let a := 3 * (Real.sqrt 5 / (4 * p)) * t6 + m2
    let b := Real.sqrt 3 / (2 * p) * t2
    let c := 1 / (2 * p) * t0 - Real.sqrt 5 / (4 * p) * t6 - m2
    let d := Real.sqrt 15 / (2 * p) * Real.sqrt (t5 * t5 + t7 * t7)
    minBound minTable [t0, t1, t2, t3, t4, t5, t6, t7, t8] = some (⟨a, b, c, d⟩, qmin a b c - 1 / 2 * d) := by
  intro p m2 a b c d
  simp only [minBound, minTable, minCa, stdMin_real]
  congr 1
  simp only [Prod.mk.injEq, Meridian.mk.injEq, qmin, vec, Flt.real_lt, Flt.real_le]
  push_cast
  refine ⟨⟨rfl, rfl, rfl, rfl⟩, ?_⟩
  simp only [Bool.and_eq_true, decide_eq_true_eq, and_assoc]
  have h5 : (0.5 : ℝ) = 1 / 2 := by norm_num
  rw [h5]

/-- Band 2 of the function. -/
noncomputable def band2 (t4 t5 t6 t7 t8 : ℝ) (d : V3 ℝ) : ℝ :=
  (t4 * (d.x * d.y) - t5 * (d.y * d.z) - t7 * (d.x * d.z)) * (Real.sqrt 15 / (2 * Real.sqrt Real.pi)) +
  t6 * (3 * d.z ^ 2 - 1) * (Real.sqrt 5 / (4 * Real.sqrt Real.pi)) +
  t8 * (d.x ^ 2 - d.y ^ 2) * (Real.sqrt 15 / (4 * Real.sqrt Real.pi))

theorem band2_inner (t4 t5 t6 t7 t8 : ℝ) (d : V3 ℝ) :
    band2 t4 t5 t6 t7 t8 d =
      inner5 ⟨t4, t5, t6, t7, t8⟩ (harmonics2 d) * (Real.sqrt 15 / (2 * Real.sqrt Real.pi)) := by
  have e : Real.sqrt 15 = Real.sqrt 3 * Real.sqrt 5 := by rw [← Real.sqrt_mul (by norm_num)]; norm_num
  have h3 : Real.sqrt 3 ≠ 0 := by positivity
  have h := sp.ne'
  simp only [band2, inner5, harmonics2, e]
  field_simp
  ring

theorem shFun_band (s0 s1 s2 s3 s4 s5 s6 s7 s8 : ℝ) (d : V3 ℝ) :
    shFun s0 s1 s2 s3 s4 s5 s6 s7 s8 d = s0 * (1 / (2 * Real.sqrt Real.pi)) +
      (s1 * (-d.y) + s2 * d.z + s3 * (-d.x)) * (Real.sqrt 3 / (2 * Real.sqrt Real.pi)) +
      band2 s4 s5 s6 s7 s8 d := by
  simp only [shFun, band2]; ring

theorem cauchy (p q u v : ℝ) : -(Real.sqrt (p * p + q * q) * Real.sqrt (u * u + v * v)) ≤ p * u + q * v := by
  rw [← Real.sqrt_mul (add_nonneg (mul_self_nonneg p) (mul_self_nonneg q))]
  have : |p * u + q * v| ≤ Real.sqrt ((p * p + q * q) * (u * u + v * v)) := by
    apply Real.abs_le_sqrt
    nlinarith [sq_nonneg (p * v - q * u)]
  linarith [neg_abs_le (p * u + q * v)]

/-- The lower bound on band 2 that `shmin` relies on. -/
theorem band2_low (t4 t5 t6 t7 t8 : ℝ) (d : V3 ℝ) (hd : inner3 d d = 1) :
    3 * (Real.sqrt 5 / (4 * Real.sqrt Real.pi)) * t6 * d.z ^ 2 - Real.sqrt 5 / (4 * Real.sqrt Real.pi) * t6 -
      Real.sqrt 15 / (4 * Real.sqrt Real.pi) * Real.sqrt (t8 * t8 + t4 * t4) * (1 - d.z ^ 2) -
      1 / 2 * (Real.sqrt 15 / (2 * Real.sqrt Real.pi) * Real.sqrt (t5 * t5 + t7 * t7)) ≤ band2 t4 t5 t6 t7 t8 d := by
  simp only [inner3] at hd
  have hk : 0 < Real.sqrt 15 / (4 * Real.sqrt Real.pi) := by have := sp; positivity
  have e2 : Real.sqrt 15 / (2 * Real.sqrt Real.pi) = 2 * (Real.sqrt 15 / (4 * Real.sqrt Real.pi)) := by
    have := sp.ne'; field_simp; ring
  rw [band2, e2]
  set K := Real.sqrt 15 / (4 * Real.sqrt Real.pi)
  have c1 := cauchy t8 t4 (d.x ^ 2 - d.y ^ 2) (2 * (d.x * d.y))
  have r1 : Real.sqrt ((d.x ^ 2 - d.y ^ 2) * (d.x ^ 2 - d.y ^ 2) + 2 * (d.x * d.y) * (2 * (d.x * d.y))) =
      1 - d.z ^ 2 := by
    rw [show (d.x ^ 2 - d.y ^ 2) * (d.x ^ 2 - d.y ^ 2) + 2 * (d.x * d.y) * (2 * (d.x * d.y)) =
      (d.x ^ 2 + d.y ^ 2) ^ 2 by ring, Real.sqrt_sq (by positivity)]
    linarith
  rw [r1] at c1
  have c2 := cauchy t5 t7 (-(d.y * d.z)) (-(d.x * d.z))
  have r2 : Real.sqrt (-(d.y * d.z) * -(d.y * d.z) + -(d.x * d.z) * -(d.x * d.z)) ≤ 1 / 2 := by
    apply Real.sqrt_le_iff.2
    refine ⟨by norm_num, ?_⟩
    have : d.x * d.x + d.y * d.y = 1 - d.z * d.z := by linarith
    nlinarith [sq_nonneg (d.z * d.z - 1 / 2)]
  have r3 := mul_le_mul_of_nonneg_left r2 (Real.sqrt_nonneg (t5 * t5 + t7 * t7))
  nlinarith [mul_le_mul_of_nonneg_left c1 hk.le, mul_le_mul_of_nonneg_left (c2.trans' (neg_le_neg r3)) hk.le]

theorem axes_pos (s2 : ℝ) (h : 0 < s2) : minAxes 0 s2 0 = (⟨⟨1, 0, 0⟩, ⟨0, 1, 0⟩, ⟨0, 0, 1⟩⟩ : M3 ℝ) := by
  simp [minAxes, vec, Real.sqrt_mul_self h.le, h.ne']

theorem axes_neg (s2 : ℝ) (h : s2 < 0) : minAxes 0 s2 0 = (⟨⟨-1, 0, 0⟩, ⟨0, 1, 0⟩, ⟨0, 0, -1⟩⟩ : M3 ℝ) := by
  have e : Real.sqrt (s2 * s2) = -s2 := by rw [← neg_mul_neg]; exact Real.sqrt_mul_self (by linarith)
  simp [minAxes, vec, e, h.ne]

theorem half_sq : Real.sqrt (1 / 2) * Real.sqrt (1 / 2) = 1 / 2 := Real.mul_self_sqrt (by norm_num)
theorem three_sq : Real.sqrt 3 * Real.sqrt 3 = 3 := Real.mul_self_sqrt (by norm_num)

/-- When band 1 points along the z axis the rotation of `shmin` only changes two signs. -/
theorem axis_rotate (s0 s2 s4 s5 s6 s7 s8 : ℝ) (h : s2 ≠ 0) :
    ∃ e : ℝ, (e = 1 ∨ e = -1) ∧ rotateSh3Bands [s0, 0, s2, 0, s4, s5, s6, s7, s8] (minAxes 0 s2 0) =
      some [s0, 0, s2, 0, e * s4, e * s5, s6, s7, s8] := by
  have h2 := half_sq
  have h3 := three_sq
  have n3 : Real.sqrt 3 ≠ 0 := by positivity
  have i3 : (2 * Real.sqrt 3)⁻¹ * Real.sqrt 3 = 1 / 2 := by field_simp
  rcases lt_or_gt_of_ne h with hn | hp
  · refine ⟨-1, Or.inr rfl, ?_⟩
    rw [axes_neg s2 hn]
    simp only [rotateSh3Bands, rotateBand1_transposed]
    simp only [vec, inner3, Option.some.injEq, List.cons.injEq, and_true, true_and]
    push_cast
    generalize Real.sqrt (1 / 2) = r at *
    generalize Real.sqrt 3 = q at *
    have h5 : (0.5 : ℝ) = 1 / 2 := by norm_num
    rw [h5]
    refine ⟨by ring, by ring, by ring, ?_, ?_, ?_, ?_, ?_⟩ <;> grind
  · refine ⟨1, Or.inl rfl, ?_⟩
    rw [axes_pos s2 hp]
    simp only [rotateSh3Bands, rotateBand1_transposed]
    simp only [vec, inner3, Option.some.injEq, List.cons.injEq, and_true, true_and]
    push_cast
    generalize Real.sqrt (1 / 2) = r at *
    generalize Real.sqrt 3 = q at *
    have h5 : (0.5 : ℝ) = 1 / 2 := by norm_num
    rw [h5]
    refine ⟨by ring, by ring, by ring, ?_, ?_, ?_, ?_, ?_⟩ <;> grind

/-- The bound `shmin` computes first, when band 1 points along the z axis: it is a lower bound of the function. -/
theorem axis_bound (s0 s2 s4 s5 s6 s7 s8 : ℝ) (d : V3 ℝ) (hd : inner3 d d = 1) :
    let p := Real.sqrt Real.pi
    let m2 := Real.sqrt 15 / (4 * p) * Real.sqrt (s8 * s8 + s4 * s4)
    let a := 3 * (Real.sqrt 5 / (4 * p)) * s6 + m2
    let b := Real.sqrt 3 / (2 * p) * s2
    let c := 1 / (2 * p) * s0 - Real.sqrt 5 / (4 * p) * s6 - m2
    let k := Real.sqrt 15 / (2 * p) * Real.sqrt (s5 * s5 + s7 * s7)
    qmin a b c - 1 / 2 * k ≤ shFun s0 0 s2 0 s4 s5 s6 s7 s8 d := by
  intro p m2 a b c k
  have hz : -1 ≤ d.z ∧ d.z ≤ 1 := by
    simp only [inner3] at hd
    constructor <;> nlinarith [mul_self_nonneg d.x, mul_self_nonneg d.y]
  have h1 := qmin_le a b c d.z hz.1 hz.2
  have h2 := band2_low s4 s5 s6 s7 s8 d hd
  rw [shFun_band]
  have e : a * d.z ^ 2 + b * d.z + c = s0 * (1 / (2 * p)) + (s2 * d.z) * (Real.sqrt 3 / (2 * p)) +
      (3 * (Real.sqrt 5 / (4 * p)) * s6 * d.z ^ 2 - Real.sqrt 5 / (4 * p) * s6 - m2 * (1 - d.z ^ 2)) := by
    simp only [a, b, c]; ring
  linarith

theorem pow_three_half (x : ℝ) (hx : 0 ≤ x) : x ^ ((1.5 : ℚ) : ℝ) = x * Real.sqrt x := by
  rw [Real.sqrt_eq_rpow]
  rcases hx.eq_or_lt with rfl | hp
  · rw [Real.zero_rpow (by norm_num)]; ring
  · nth_rewrite 2 [← Real.rpow_one x]
    rw [← Real.rpow_add hp]
    norm_num

/-- One iteration of the loop without the `d` term is an exact step to the vertex of the quadratic. -/
theorem newton_step (a b c z : ℝ) (n : Nat) (ha : a ≠ 0) (hz : z ^ 2 ≤ 1) :
    minNewton ⟨a, b, c, 0⟩ (n + 1) z =
      let w := if z ^ 2 = 1 then z else -b / (2 * a)
      if |w| ≤ 1 ∧ 0.00001 < |z - w| then minNewton ⟨a, b, c, 0⟩ n w else some (a * z ^ 2 + b * z + c, w) := by
  have hd : (z * z - 1) * (0 - 2 * 0 * z * z + (b + 2 * a * z) * Real.sqrt (1 - z * z)) /
      (3 * 0 * z - 2 * 0 * z * z * z - 2 * a * (1 - z * z) ^ ((1.5 : ℚ) : ℝ)) =
      z - (if z ^ 2 = 1 then z else -b / (2 * a)) := by
    rw [pow_three_half _ (by nlinarith)]
    split
    · rename_i h
      have : z * z - 1 = 0 := by linarith [h, sq z]
      rw [this]; simp
    · rename_i h
      have hp : 0 < 1 - z * z := by
        rcases hz.lt_or_eq with k | k
        · linarith [sq z]
        · exact absurd k h
      have hs := Real.sqrt_pos.2 hp
      set q := Real.sqrt (1 - z * z)
      have hp' := hp.ne'
      have hs' := hs.ne'
      have h1 : 0 - 2 * 0 * z * z + (b + 2 * a * z) * q = (b + 2 * a * z) * q := by ring
      have h2 : 3 * 0 * z - 2 * 0 * z * z * z - 2 * a * ((1 - z * z) * q) = -(2 * a * (1 - z * z) * q) := by ring
      rw [h1, h2, div_eq_iff (by simp [ha, hp', hs'])]
      field_simp
      ring
  set w := if z ^ 2 = 1 then z else -b / (2 * a) with hw
  have hv : a * z * z + b * z + c + 0 * z * Real.sqrt (1 - z * z) = a * z ^ 2 + b * z + c := by ring
  simp only [minNewton, vec, Flt.real_lt, Flt.real_le]
  push_cast at hd ⊢
  rw [hd, hv, sub_sub_cancel]
  simp only [Bool.and_eq_true, decide_eq_true_eq]

/-- The loop without the `d` term. -/
theorem newton_zonal (a b c : ℝ) (n : Nat) (ha : a ≠ 0) :
    minNewton ⟨a, b, c, 0⟩ (n + 2) (-Real.sqrt (1 / 2)) =
      let w := -b / (2 * a)
      if |w| ≤ 1 ∧ 0.00001 < |-Real.sqrt (1 / 2) - w| then some (a * w ^ 2 + b * w + c, w)
      else some (a * (-Real.sqrt (1 / 2)) ^ 2 + b * (-Real.sqrt (1 / 2)) + c, w) := by
  have hz : (-Real.sqrt (1 / 2)) ^ 2 = 1 / 2 := by rw [neg_sq]; exact Real.sq_sqrt (by norm_num)
  rw [newton_step a b c _ (n + 1) ha (by rw [hz]; norm_num)]
  have hne : ¬ (-Real.sqrt (1 / 2)) ^ 2 = 1 := by rw [hz]; norm_num
  simp only [if_neg hne]
  split
  · rename_i h
    have hw : (-b / (2 * a)) ^ 2 ≤ 1 := by
      rw [← sq_abs]; nlinarith [abs_nonneg (-b / (2 * a)), h.1]
    rw [newton_step a b c _ n ha hw]
    simp only [ite_self, sub_self, abs_zero]
    rw [if_neg (by norm_num)]
  · rfl

/-- `shmin` on a function of `z` alone. -/
theorem zonal_run (s0 s2 s6 : ℝ) (n : Nat) (h2 : s2 ≠ 0) (h6 : s6 ≠ 0) :
    let p := Real.sqrt Real.pi
    let a := 3 * (Real.sqrt 5 / (4 * p)) * s6
    let b := Real.sqrt 3 / (2 * p) * s2
    let c := 1 / (2 * p) * s0 - Real.sqrt 5 / (4 * p) * s6
    let w := -b / (2 * a)
    let z := -Real.sqrt (1 / 2)
    shmin (n + 2) minTable [s0, 0, s2, 0, 0, 0, s6, 0, 0] = some ([s0, 0, s2, 0, 0, 0, s6, 0, 0],
      if qmin a b c < 0 then
        if 1 < |w| then min (a + b + c) (a - b + c)
        else if 0.00001 < |z - w| then a * w ^ 2 + b * w + c else a * z ^ 2 + b * z + c
      else qmin a b c) := by
  intro p a b c w z
  obtain ⟨e, he, hr⟩ := axis_rotate s0 s2 0 0 s6 0 0 h2
  simp only [mul_zero] at hr
  have hb := bound_eq s0 0 s2 0 0 0 s6 0 0
  simp only [mul_zero, add_zero, Real.sqrt_zero, sub_zero] at hb
  have ha : a ≠ 0 := by
    have := sp.ne'
    simp only [a, p]
    positivity
  have hn := newton_zonal a b c n ha
  simp only [shmin, hr, Option.bind_some, hb, Flt.real_lt, Flt.real_lit, Flt.real_neg, FltC.real_sqrtHalf, stdMin_real,
    Flt.real_add, Flt.real_sub, Flt.real_abs, decide_eq_true_eq, Rat.cast_zero, Rat.cast_one]
  by_cases hq : qmin a b c < 0
  · rw [if_pos hq, if_pos hq]
    change Option.map _ (minNewton ⟨a, b, c, 0⟩ (n + 2) z) = _
    rw [hn]
    change Option.map _ (if |w| ≤ 1 ∧ _ < |z - w| then some (a * w ^ 2 + b * w + c, w)
      else some (a * z ^ 2 + b * z + c, w)) = _
    by_cases h1 : 1 < |w|
    · rw [if_neg (fun k => absurd k.1 (not_le.2 h1)), if_pos h1]
      simp only [Option.map_some, if_pos h1]
      rfl
    · rw [if_neg h1]
      by_cases h3 : 0.00001 < |z - w|
      · rw [if_pos ⟨not_lt.1 h1, h3⟩, if_pos h3]
        simp [h1]
      · rw [if_neg (fun k => h3 k.2), if_neg h3]
        simp [h1]
  · rw [if_neg hq, if_neg hq]

theorem zonal_fun (s0 s2 s6 : ℝ) (d : V3 ℝ) :
    let p := Real.sqrt Real.pi
    shFun s0 0 s2 0 0 0 s6 0 0 d = 3 * (Real.sqrt 5 / (4 * p)) * s6 * d.z ^ 2 + Real.sqrt 3 / (2 * p) * s2 * d.z +
      (1 / (2 * p) * s0 - Real.sqrt 5 / (4 * p) * s6) := by
  simp only [shFun]; ring

theorem unit_z (d : V3 ℝ) (hd : inner3 d d = 1) : -1 ≤ d.z ∧ d.z ≤ 1 := by
  simp only [inner3] at hd
  constructor <;> nlinarith [mul_self_nonneg d.x, mul_self_nonneg d.y]

theorem dir_of_z (z : ℝ) (h : -1 ≤ z) (h' : z ≤ 1) : inner3 ⟨Real.sqrt (1 - z ^ 2), 0, z⟩ ⟨Real.sqrt (1 - z ^ 2), 0, z⟩ = 1 := by
  simp only [inner3]
  rw [Real.mul_self_sqrt (by nlinarith)]
  ring

end ShMinProof
open ShMinProof

/-- The function of the specification is the sum of coefficient times normalised basis value, with the basis the code
computes. -/
theorem shFun_is_basis_sum (s0 s1 s2 s3 s4 s5 s6 s7 s8 : ℝ) (d : V3 ℝ) (a0 : List ℝ) (h : a0.length = 9) :
    ∃ b0 b1 b2 b3 b4 b5 b6 b7 b8, computeShBasis d a0 = some [b0, b1, b2, b3, b4, b5, b6, b7, b8] ∧
      shFun s0 s1 s2 s3 s4 s5 s6 s7 s8 d =
        s0 * Real.sqrt (shNormSq 0 0) * b0 + s1 * Real.sqrt (shNormSq 1 (-1)) * b1 +
        s2 * Real.sqrt (shNormSq 1 0) * b2 + s3 * Real.sqrt (shNormSq 1 1) * b3 +
        s4 * Real.sqrt (shNormSq 2 (-2)) * b4 + s5 * Real.sqrt (shNormSq 2 (-1)) * b5 +
        s6 * Real.sqrt (shNormSq 2 0) * b6 + s7 * Real.sqrt (shNormSq 2 1) * b7 +
        s8 * Real.sqrt (shNormSq 2 2) * b8 := by
  refine ⟨_, _, _, _, _, _, _, _, _, shBasis_polynomials d a0 h, ?_⟩
  have hp := Real.pi_pos
  have hs := sp
  have hs2 : Real.sqrt Real.pi ^ 2 = Real.pi := Real.sq_sqrt hp.le
  have key : ∀ (k q v : ℝ), 0 ≤ k → 0 < q → v = k / (q ^ 2 * Real.pi) →
      Real.sqrt v = Real.sqrt k / (q * Real.sqrt Real.pi) := by
    intro k q v hk hq e
    rw [e, show q ^ 2 * Real.pi = (q * Real.sqrt Real.pi) ^ 2 by rw [mul_pow, hs2], Real.sqrt_div hk,
      Real.sqrt_sq (by positivity)]
  have n0 := key 1 2 (shNormSq 0 0) (by norm_num) (by norm_num) (by norm_num [shNormSq])
  have n1 : ∀ m : Int, (m = -1 ∨ m = 0 ∨ m = 1) →
      Real.sqrt (shNormSq 1 m) = Real.sqrt 3 / (2 * Real.sqrt Real.pi) := by
    rintro m (rfl | rfl | rfl) <;> apply key <;> norm_num [shNormSq, Nat.factorial] <;> field_simp <;> norm_num
  have n20 : Real.sqrt (shNormSq 2 0) = Real.sqrt 5 / (2 * Real.sqrt Real.pi) := by
    apply key <;> norm_num [shNormSq, Nat.factorial]
  have n21 : ∀ m : Int, (m = -1 ∨ m = 1) →
      Real.sqrt (shNormSq 2 m) = Real.sqrt 15 / (6 * Real.sqrt Real.pi) := by
    rintro m (rfl | rfl) <;> apply key <;> norm_num [shNormSq, Nat.factorial] <;> field_simp <;> norm_num
  have n22 : ∀ m : Int, (m = -2 ∨ m = 2) →
      Real.sqrt (shNormSq 2 m) = Real.sqrt 15 / (12 * Real.sqrt Real.pi) := by
    rintro m (rfl | rfl) <;> apply key <;> norm_num [shNormSq, Nat.factorial] <;> field_simp <;> norm_num
  rw [n0, n1 _ (Or.inl rfl), n1 _ (Or.inr (Or.inl rfl)), n1 _ (Or.inr (Or.inr rfl)), n20, n21 _ (Or.inl rfl),
    n21 _ (Or.inr rfl), n22 _ (Or.inl rfl), n22 _ (Or.inr rfl), Real.sqrt_one]
  simp only [shFun]
  field_simp
  ring

/-- C101, partial: when the directional band points along the z axis and `shmin` answers without entering its loop
(fuel 0 is enough), the answer is not negative and is a lower bound of the function on the whole sphere, for all other
coefficients; and it does enter the loop only when the bound `m` it computes, which is always a lower bound, is
negative. What is missing: directions off the z axis (false, `shmin_direction_counterexample`) and the answers of the
loop (`shmin_zonal_partial`, `shmin_maximum_counterexample`). -/
theorem shmin_bound_partial (s0 s2 s4 s5 s6 s7 s8 : ℝ) (h : s2 ≠ 0) :
    (∃ m, (∀ d, inner3 d d = 1 → m ≤ shFun s0 0 s2 0 s4 s5 s6 s7 s8 d) ∧
      (0 ≤ m → ∃ out, shmin 0 minTable [s0, 0, s2, 0, s4, s5, s6, s7, s8] = some (out, m))) ∧
    ∀ out r, shmin 0 minTable [s0, 0, s2, 0, s4, s5, s6, s7, s8] = some (out, r) →
      0 ≤ r ∧ (∀ d, inner3 d d = 1 → r ≤ shFun s0 0 s2 0 s4 s5 s6 s7 s8 d) ∧
      ∀ n, shmin n minTable [s0, 0, s2, 0, s4, s5, s6, s7, s8] = some (out, r) := by
  obtain ⟨e, he, hr⟩ := axis_rotate s0 s2 s4 s5 s6 s7 s8 h
  have hb := bound_eq s0 0 s2 0 (e * s4) (e * s5) s6 s7 s8
  have e2 : ∀ x y : ℝ, y + e * x * (e * x) = y + x * x := by
    intro x y; rcases he with rfl | rfl <;> ring
  have e3 : ∀ x y : ℝ, e * x * (e * x) + y = x * x + y := by
    intro x y; rcases he with rfl | rfl <;> ring
  simp only [e2, e3] at hb
  have low := axis_bound s0 s2 s4 s5 s6 s7 s8
  simp only at hb low
  set m := qmin _ _ _ - 1 / 2 * _ with hm
  have run : ∀ n, 0 ≤ m → shmin n minTable [s0, 0, s2, 0, s4, s5, s6, s7, s8] =
      some ([s0, 0, s2, 0, e * s4, e * s5, s6, s7, s8], m) := by
    intro n h0
    simp only [shmin, hr, Option.bind_some, hb]
    rw [if_neg]
    simpa [Flt.real_lt] using h0
  refine ⟨⟨m, low, fun h0 => ⟨_, run 0 h0⟩⟩, ?_⟩
  intro out r hs
  by_cases h0 : 0 ≤ m
  · rw [run 0 h0] at hs
    cases hs
    exact ⟨h0, low, fun n => run n h0⟩
  · exfalso
    simp only [shmin, hr, Option.bind_some, hb] at hs
    rw [if_pos (by simpa [Flt.real_lt] using h0)] at hs
    simp [minNewton] at hs

/-- C101, partial: for a function of `z` alone with a positive band-2 coefficient `shmin` ends after at most two
iterations, leaves the array as it was, and returns the least value of the function on the sphere up to
`10^-10` times the quadratic coefficient; never less than the least value. What is missing: a negative coefficient
(false, `shmin_maximum_counterexample`), and the functions that are not of `z` alone. -/
theorem shmin_zonal_partial (s0 s2 s6 : ℝ) (h2 : s2 ≠ 0) (h6 : 0 < s6) (n : Nat) :
    ∃ r μ, shmin (n + 2) minTable [s0, 0, s2, 0, 0, 0, s6, 0, 0] = some ([s0, 0, s2, 0, 0, 0, s6, 0, 0], r) ∧
      LeastOnSphere (shFun s0 0 s2 0 0 0 s6 0 0) μ ∧ μ ≤ r ∧
      r ≤ μ + 3 * (Real.sqrt 5 / (4 * Real.sqrt Real.pi)) * s6 * (1 / 10) ^ 10 ∧ (0 ≤ μ → r = μ) := by
  have run := zonal_run s0 s2 s6 n h2 h6.ne'
  have hf := zonal_fun s0 s2 s6
  simp only at run hf
  have ha : 0 < 3 * (Real.sqrt 5 / (4 * Real.sqrt Real.pi)) * s6 := by have := sp; positivity
  set a := 3 * (Real.sqrt 5 / (4 * Real.sqrt Real.pi)) * s6
  set b := Real.sqrt 3 / (2 * Real.sqrt Real.pi) * s2
  set c := 1 / (2 * Real.sqrt Real.pi) * s0 - Real.sqrt 5 / (4 * Real.sqrt Real.pi) * s6
  have hb : b = -(2 * a) * (-b / (2 * a)) := by field_simp
  set w := -b / (2 * a) with hw
  have hz : (-Real.sqrt (1 / 2)) ^ 2 = 1 / 2 := by rw [neg_sq]; exact Real.sq_sqrt (by norm_num)
  set z := -Real.sqrt (1 / 2)
  have hz1 : -1 ≤ z ∧ z ≤ 1 := by constructor <;> nlinarith
  have least : LeastOnSphere (shFun s0 0 s2 0 0 0 s6 0 0) (qmin a b c) := by
    constructor
    · intro d hd
      rw [hf]
      exact qmin_le a b c d.z (unit_z d hd).1 (unit_z d hd).2
    · obtain ⟨x, h1, h2, h3⟩ := qmin_attained a b c
      exact ⟨_, dir_of_z x h1 h2, by rw [hf]; exact h3⟩
  have hpos : 0 ≤ a * (1 / 10) ^ 10 := by positivity
  rcases lt_or_ge (qmin a b c) 0 with hq | hq
  · rw [if_pos hq] at run
    refine ⟨_, _, run, least, ?_, ?_, fun h => absurd h (not_le.2 hq)⟩
    · split
      · exact le_min (by have := qmin_le a b c 1 (by norm_num) le_rfl; linarith)
          (by have := qmin_le a b c (-1) le_rfl (by norm_num); linarith)
      · rename_i h1
        have := abs_le.1 (not_lt.1 h1)
        split
        · exact qmin_le a b c w this.1 this.2
        · exact qmin_le a b c z hz1.1 hz1.2
    · split
      · rename_i h1
        have : qmin a b c = min (a + b + c) (a - b + c) := by
          rw [qmin, if_neg]
          rintro ⟨-, k1, k2⟩
          exact absurd (abs_le.2 ⟨k1, k2⟩) (not_le.2 h1)
        rw [this]; linarith
      · rename_i h1
        have h1 := abs_le.1 (not_lt.1 h1)
        have : qmin a b c = a * w * w + b * w + c := by
          rw [qmin, if_pos ⟨ha, h1.1, h1.2⟩]
        rw [this]
        split
        · nlinarith
        · rename_i h3
          have h3 := not_lt.1 h3
          have h4 : (z - w) ^ 2 ≤ (1 / 10) ^ 10 := by
            rw [← sq_abs]
            have : ((1 : ℝ) / 10) ^ 10 = 0.00001 ^ 2 := by norm_num
            rw [this]
            exact pow_le_pow_left₀ (abs_nonneg _) h3 2
          have h5 := mul_le_mul_of_nonneg_left h4 ha.le
          have h6 : a * z ^ 2 + b * z + c - (a * w * w + b * w + c) = a * (z - w) ^ 2 := by
            rw [hb]; ring
          linarith
  · rw [if_neg (not_lt.2 hq)] at run
    exact ⟨_, _, run, least, le_rfl, by linarith, fun _ => rfl⟩

/-- C101, the code violates the claim: for a function of `z` alone with a negative band-2 coefficient that goes
negative at a pole, and a small enough band-1 coefficient, the loop runs to the vertex of a concave quadratic:
`shmin` returns the greatest value of the function instead of the least. -/
theorem shmin_returns_maximum (s0 s2 s6 : ℝ) (h2 : 0 < s2) (h6 : s6 < 0) (hv : s2 ≤ Real.sqrt 15 * -s6) (n : Nat)
    (neg : shFun s0 0 s2 0 0 0 s6 0 0 ⟨0, 0, -1⟩ < 0) :
    ∃ r, shmin (n + 2) minTable [s0, 0, s2, 0, 0, 0, s6, 0, 0] = some ([s0, 0, s2, 0, 0, 0, s6, 0, 0], r) ∧
      GreatestOnSphere (shFun s0 0 s2 0 0 0 s6 0 0) r := by
  have run := zonal_run s0 s2 s6 n h2.ne' h6.ne
  have hf := zonal_fun s0 s2 s6
  simp only at run hf
  have hp := sp
  have h15 : Real.sqrt 15 = Real.sqrt 3 * Real.sqrt 5 := by rw [← Real.sqrt_mul (by norm_num)]; norm_num
  have ha : 3 * (Real.sqrt 5 / (4 * Real.sqrt Real.pi)) * s6 < 0 := by
    have : 0 < 3 * (Real.sqrt 5 / (4 * Real.sqrt Real.pi)) := by positivity
    nlinarith
  have hw1 : -(Real.sqrt 3 / (2 * Real.sqrt Real.pi) * s2) / (2 * (3 * (Real.sqrt 5 / (4 * Real.sqrt Real.pi)) * s6)) =
      s2 / (Real.sqrt 15 * -s6) := by
    have h3 := Real.mul_self_sqrt (show (0:ℝ) ≤ 3 by norm_num)
    have n5 : Real.sqrt 5 ≠ 0 := by positivity
    have n3 : Real.sqrt 3 ≠ 0 := by positivity
    have n6 := h6.ne
    rw [h15]
    field_simp
    nlinarith
  have hd : 0 < Real.sqrt 15 * -s6 := mul_pos (by positivity) (by linarith)
  have hw2 : 0 < s2 / (Real.sqrt 15 * -s6) := div_pos h2 hd
  have hw3 : s2 / (Real.sqrt 15 * -s6) ≤ 1 := (div_le_one hd).2 hv
  rw [← hw1] at hw2 hw3
  set a := 3 * (Real.sqrt 5 / (4 * Real.sqrt Real.pi)) * s6
  set b := Real.sqrt 3 / (2 * Real.sqrt Real.pi) * s2
  set c := 1 / (2 * Real.sqrt Real.pi) * s0 - Real.sqrt 5 / (4 * Real.sqrt Real.pi) * s6
  have hb : b = -(2 * a) * (-b / (2 * a)) := by
    have := ha.ne
    field_simp
  set w := -b / (2 * a) with hw
  have hz : (-Real.sqrt (1 / 2)) ^ 2 = 1 / 2 := by rw [neg_sq]; exact Real.sq_sqrt (by norm_num)
  have hz0 : 0 < Real.sqrt (1 / 2) := by positivity
  have hq : qmin a b c < 0 := by
    rw [hf] at neg
    exact (qmin_le a b c (-1) le_rfl (by norm_num)).trans_lt neg
  have habs : |w| ≤ 1 := abs_le.2 ⟨by linarith, hw3⟩
  have hgap : 0.00001 < |-Real.sqrt (1 / 2) - w| := by
    have : (1 : ℝ) / 2 < Real.sqrt (1 / 2) := by
      rw [neg_sq] at hz; nlinarith
    rw [abs_of_neg (by linarith)]
    norm_num at this ⊢
    linarith
  rw [if_pos hq, if_neg (not_lt.2 habs), if_pos hgap] at run
  refine ⟨_, run, ?_, ?_⟩
  · intro d hd
    rw [hf, hb]
    nlinarith [mul_nonneg (neg_nonneg.2 ha.le) (sq_nonneg (d.z - w))]
  · exact ⟨_, dir_of_z w (by linarith) hw3, by rw [hf]⟩

/-- C101, a concrete instance: coefficients `1, 0, 1, 0, 0, 0, -1, 0, 0`. The function is negative at a pole and
`shmin` answers with a positive number. -/
theorem shmin_maximum_counterexample :
    shFun 1 0 1 0 0 0 (-1) 0 0 ⟨0, 0, -1⟩ < 0 ∧
    ∀ n, ∃ out r, shmin (n + 2) minTable [1, 0, 1, 0, 0, 0, -1, 0, 0] = some (out, r) ∧ 0 < r := by
  have hp := sp
  have h3 : 0 < Real.sqrt 3 := by positivity
  have h5 : (2 : ℝ) ≤ Real.sqrt 5 := Real.le_sqrt_of_sq_le (by norm_num)
  have h15 : (1 : ℝ) ≤ Real.sqrt 15 := Real.le_sqrt_of_sq_le (by norm_num)
  have hn : shFun 1 0 1 0 0 0 (-1) 0 0 ⟨0, 0, -1⟩ < 0 := by
    have e : shFun 1 0 1 0 0 0 (-1) 0 0 ⟨0, 0, -1⟩ =
        (1 - Real.sqrt 3 - Real.sqrt 5) / (2 * Real.sqrt Real.pi) := by
      simp only [shFun]; field_simp; ring
    rw [e]
    exact div_neg_of_neg_of_pos (by linarith) (by positivity)
  refine ⟨hn, fun n => ?_⟩
  obtain ⟨r, run, hr, -⟩ := shmin_returns_maximum 1 1 (-1) one_pos (by norm_num) (by norm_num) n hn
  refine ⟨_, r, run, lt_of_lt_of_le ?_ (hr ⟨1, 0, 0⟩ (by simp [inner3]))⟩
  have e : shFun 1 0 1 0 0 0 (-1) 0 0 ⟨1, 0, 0⟩ = (2 + Real.sqrt 5) / (4 * Real.sqrt Real.pi) := by
    simp only [shFun]; field_simp; ring
  rw [e]
  positivity

/-- C101, the code violates the claim: light from a horizontal direction along x. Band 1 is rotated the wrong way, so
`shmin` does not see it: it answers with the constant part, for every amount of band-1 light, although the function
is negative on the far side. -/
theorem shmin_direction_counterexample (s0 s3 : ℝ) (h0 : 0 < s0) (h3 : s0 < Real.sqrt 3 * -s3) (n : Nat) :
    (∃ out r, shmin n minTable [s0, 0, 0, s3, 0, 0, 0, 0, 0] = some (out, r) ∧ 0 < r) ∧
    shFun s0 0 0 s3 0 0 0 0 0 ⟨-1, 0, 0⟩ < 0 := by
  have hp := sp
  have hs3 : s3 < 0 := by
    by_contra hn
    have : 0 < Real.sqrt 3 := by positivity
    nlinarith
  constructor
  · have e : Real.sqrt (s3 * s3) = -s3 := by rw [← neg_mul_neg]; exact Real.sqrt_mul_self (by linarith)
    have ax : minAxes 0 0 s3 = (⟨⟨0, 0, 1⟩, ⟨0, 1, 0⟩, ⟨-1, 0, 0⟩⟩ : M3 ℝ) := by
      simp [minAxes, vec, e, hs3.ne]
    have hr : rotateSh3Bands [s0, 0, 0, s3, 0, 0, 0, 0, 0] (minAxes 0 0 s3) = some [s0, s3, 0, 0, 0, 0, 0, 0, 0] := by
      rw [ax]
      simp only [rotateSh3Bands, rotateBand1_transposed]
      simp [vec, inner3]
    have hb := bound_eq s0 s3 0 0 0 0 0 0 0
    simp only [mul_zero, add_zero, Real.sqrt_zero, sub_zero] at hb
    have hm : qmin 0 0 (1 / (2 * Real.sqrt Real.pi) * s0) = 1 / (2 * Real.sqrt Real.pi) * s0 := by
      simp [qmin]
    rw [hm] at hb
    have hc : 0 < 1 / (2 * Real.sqrt Real.pi) * s0 := by positivity
    refine ⟨[s0, s3, 0, 0, 0, 0, 0, 0, 0], _, ?_, hc⟩
    · simp only [shmin, hr, Option.bind_some, hb]
      rw [if_neg (by simpa [Flt.real_lt] using hc.le)]
  · have e : shFun s0 0 0 s3 0 0 0 0 0 ⟨-1, 0, 0⟩ = (s0 - Real.sqrt 3 * -s3) / (2 * Real.sqrt Real.pi) := by
      simp only [shFun]; field_simp; ring
    rw [e]
    exact div_neg_of_neg_of_pos (by linarith) (by positivity)

namespace ShMinProof
open F32

/-- A zero or a NaN. -/
def ZN (x : F32) : Prop := x.isNaN = true ∨ x.mag = 0

theorem units_zero {x : F32} (h : x.mag = 0) : x.units = 0 := by
  simp [F32.units, h, magUnits]

theorem zero_mag (s : Bool) : (F32.zero s).mag = 0 := by cases s <;> decide

theorem zn_mul {a b : F32} (h : ZN a ∨ ZN b) : ZN (Flt.mul a b) := by
  change ZN (fmul a b)
  unfold fmul
  by_cases hn : (a.isNaN || b.isNaN) = true
  · rw [if_pos hn]; left; decide
  · rw [if_neg hn]
    rw [Bool.or_eq_true, not_or] at hn
    have h0 : a.mag = 0 ∨ b.mag = 0 := h.imp (fun k => k.resolve_left hn.1) (fun k => k.resolve_left hn.2)
    by_cases hi : (a.isInf || b.isInf) = true
    · rw [if_pos hi, if_pos (by simpa using h0)]; left; decide
    · rw [if_neg hi]
      have : a.units * b.units = 0 := by
        rcases h0 with k | k <;> simp [units_zero k]
      simp only [this, if_true]
      right; exact zero_mag _

theorem zn_add {a b : F32} (ha : ZN a) (hb : ZN b) : ZN (Flt.add a b) := by
  change ZN (fadd a b)
  unfold fadd
  by_cases hn : (a.isNaN || b.isNaN) = true
  · rw [if_pos hn]; left; decide
  · rw [if_neg hn]
    rw [Bool.or_eq_true, not_or] at hn
    have h1 := ha.resolve_left hn.1
    have h2 := hb.resolve_left hn.2
    have i1 : a.isInf = false := by simp [F32.isInf, h1, infMag]
    have i2 : b.isInf = false := by simp [F32.isInf, h2, infMag]
    simp only [i1, i2, Bool.false_eq_true, if_false, units_zero h1, units_zero h2, add_zero, if_true]
    right; exact zero_mag _

theorem fneg_mag (a : F32) : (fneg a).mag = a.mag := (fneg_parts a).1

theorem zn_neg {a : F32} (h : ZN a) : ZN (Flt.neg a) := by
  change ZN (fneg a)
  rcases h with h | h
  · left; rw [fneg_isNaN]; exact h
  · right; rw [fneg_mag]; exact h

theorem zn_sub {a b : F32} (ha : ZN a) (hb : ZN b) : ZN (Flt.sub a b) := by
  change ZN (fsub a b)
  unfold fsub
  split
  · left; decide
  · exact zn_add ha (zn_neg hb)

theorem zn_sqrt {a : F32} (h : ZN a) : ZN (Flt.sqrt a) := by
  change ZN (fsqrt a)
  unfold fsqrt
  split
  · left; decide
  · rename_i hn
    have := h.resolve_left hn
    rw [if_pos this]; exact h

/-- Normalising a component of a zero (or NaN) vector gives a NaN. -/
theorem zn_normalize {v l : F32} (hv : ZN v) (hl : ZN l) :
    (Flt.mul v (Flt.div (Flt.lit 1) l) : F32).isNaN = true := by
  change (fmul v (fdiv _ l)).isNaN = true
  by_cases hvn : v.isNaN = true
  · exact fmul_nan (Or.inl hvn)
  by_cases hln : l.isNaN = true
  · exact fmul_nan (Or.inr (fdiv_nan (Or.inr hln)))
  have v0 := hv.resolve_left hvn
  have l0 := hl.resolve_left hln
  have il : l.isInf = false := by simp [F32.isInf, l0, infMag]
  have e : fdiv (Flt.lit 1) l = F32.inf ((Flt.lit 1 : F32).signBit != l.signBit) := by
    unfold fdiv
    have h1 : (Flt.lit 1 : F32).isNaN = false := by decide
    have h2 : (Flt.lit 1 : F32).isInf = false := by decide
    have h3 : (Flt.lit 1 : F32).mag ≠ 0 := by decide
    simp only [h1, h2, Bool.not_eq_true _ ▸ hln, il, l0, Bool.or_self, Bool.false_eq_true, if_false, if_true, h3]
  rw [e]
  unfold fmul
  have k1 : ∀ s, (F32.inf s).isNaN = false := by decide
  have k2 : ∀ s, (F32.inf s).isInf = true := by decide
  simp only [k1, k2, Bool.not_eq_true _ ▸ hvn, v0, Bool.or_self, Bool.false_eq_true, if_false, Bool.or_true, if_true,
    decide_true, Bool.true_or]
  decide

theorem na {a b : F32} (h : a.isNaN = true ∨ b.isNaN = true) : (Flt.add a b : F32).isNaN = true := fadd_nan h
theorem ns {a b : F32} (h : a.isNaN = true ∨ b.isNaN = true) : (Flt.sub a b : F32).isNaN = true := fsub_nan h
theorem nm {a b : F32} (h : a.isNaN = true ∨ b.isNaN = true) : (Flt.mul a b : F32).isNaN = true := fmul_nan h
theorem nn {a : F32} (h : a.isNaN = true) : (Flt.neg a : F32).isNaN = true := (fneg_isNaN a).trans h
theorem nq {a : F32} (h : a.isNaN = true) : (Flt.sqrt a : F32).isNaN = true := by
  change (fsqrt a).isNaN = true
  unfold fsqrt
  rw [if_pos h]; decide

/-- With no light along x and z the first two rows of the rotation are NaN. -/
theorem axes_nan (s1 s2 s3 : F32) (h2 : ZN s2) (h3 : ZN s3) :
    let m := minAxes s1 s2 s3
    (m.c0.x.isNaN = true ∧ m.c1.x.isNaN = true ∧ m.c2.x.isNaN = true) ∧
    (m.c0.y.isNaN = true ∧ m.c1.y.isNaN = true ∧ m.c2.y.isNaN = true) := by
  have z0 : ZN (Flt.lit 0 : F32) := Or.inr (by decide)
  -- the z axis: zero (or NaN) in x and z
  have hx : ZN (V3.map Flt.neg (V3.normalize (⟨Flt.neg s3, Flt.neg s1, s2⟩ : V3 F32))).x :=
    zn_neg (zn_mul (Or.inl (zn_neg h3)))
  have hz : ZN (V3.map Flt.neg (V3.normalize (⟨Flt.neg s3, Flt.neg s1, s2⟩ : V3 F32))).z :=
    zn_neg (zn_mul (Or.inl h2))
  intro m
  simp only [m, minAxes]
  generalize V3.map Flt.neg (V3.normalize (⟨Flt.neg s3, Flt.neg s1, s2⟩ : V3 F32)) = zA at *
  have cx : ZN (V3.cross zA ⟨Flt.lit 0, Flt.lit 1, Flt.lit 0⟩).x :=
    zn_sub (zn_mul (Or.inr z0)) (zn_mul (Or.inl hz))
  have cy : ZN (V3.cross zA ⟨Flt.lit 0, Flt.lit 1, Flt.lit 0⟩).y :=
    zn_sub (zn_mul (Or.inr z0)) (zn_mul (Or.inr z0))
  have cz : ZN (V3.cross zA ⟨Flt.lit 0, Flt.lit 1, Flt.lit 0⟩).z :=
    zn_sub (zn_mul (Or.inl hx)) (zn_mul (Or.inr z0))
  generalize V3.cross zA ⟨Flt.lit 0, Flt.lit 1, Flt.lit 0⟩ = cr at *
  have hl : ZN (V3.length cr) :=
    zn_sqrt (zn_add (zn_add (zn_mul (Or.inl cx)) (zn_mul (Or.inl cy))) (zn_mul (Or.inl cz)))
  have nx : (V3.normalize cr).x.isNaN = true := zn_normalize cx hl
  have ny : (V3.normalize cr).y.isNaN = true := zn_normalize cy hl
  have nz : (V3.normalize cr).z.isNaN = true := zn_normalize cz hl
  generalize V3.normalize cr = xA at *
  exact ⟨⟨nx, ny, nz⟩, ns (Or.inl (nm (Or.inl ny))), ns (Or.inl (nm (Or.inl nz))), ns (Or.inl (nm (Or.inl nx)))⟩

theorem proj_nan (v : V3 F32) (hx : v.x.isNaN = true) (hy : v.y.isNaN = true) :
    (projectVecToSH2K v).a0.isNaN = true ∧ (projectVecToSH2K v).a1.isNaN = true ∧
    (projectVecToSH2K v).a3.isNaN = true ∧ (projectVecToSH2K v).a4.isNaN = true :=
  ⟨nm (Or.inl hy), nn (nm (Or.inl hy)), nn (nm (Or.inr hx)), nm (Or.inr (ns (Or.inl (nm (Or.inl hx)))))⟩

theorem row_nan (m0 m1 m2 m3 m4 : F32) (v : V5 F32) (h : m0.isNaN = true) : (mulRow m0 m1 m2 m3 m4 v).isNaN = true :=
  na (Or.inl (na (Or.inl (na (Or.inl (na (Or.inl (nm (Or.inl h)))))))))

theorem bound_nan (c0 c1 c2 c3 c4 c5 c6 c7 c8 s0 s1 s2 s3 s4 s5 s6 s7 s8 : F32) (h : s5.isNaN = true) :
    ∃ q r, minBound [c0, c1, c2, c3, c4, c5, c6, c7, c8] [s0, s1, s2, s3, s4, s5, s6, s7, s8] = some (q, r) ∧
      r.isNaN = true :=
  ⟨_, _, rfl, ns (Or.inr (nm (Or.inr (nm (Or.inr (nq (na (Or.inl (nm (Or.inl h))))))))))⟩

theorem lt_nan {a b : F32} (h : a.isNaN = true) : Flt.lt a b = false := by
  change ltb a b = false
  unfold ltb; rw [h]; rfl

end ShMinProof

/-- C101, the code violates the claim on floats: when the directional band has no x and no z part (no direction at
all, or light from straight above or below), `shmin` divides zero by zero and returns NaN, for all other coefficients,
every table and every `std::pow`. A NaN is not less than zero, so `deringingSH` takes the channel for non-negative. -/
theorem shmin_vertical_counterexample [FltT F32] (n : Nat) (c0 c1 c2 c3 c4 c5 c6 c7 c8 s0 s1 s4 s5 s6 s7 s8 : F32)
    (b2 b3 : Bool) :
    ∃ out r, shmin n [c0, c1, c2, c3, c4, c5, c6, c7, c8]
        [s0, s1, F32.zero b2, F32.zero b3, s4, s5, s6, s7, s8] = some (out, r) ∧
      r.isNaN = true ∧ Flt.lt r (Flt.lit 0) = false := by
  obtain ⟨⟨x0, x1, x2⟩, y0, y1, y2⟩ := axes_nan s1 (F32.zero b2) (F32.zero b3) (Or.inr (zero_mag b2)) (Or.inr (zero_mag b3))
  simp only [shmin]
  generalize minAxes s1 (F32.zero b2) (F32.zero b3) = m at *
  obtain ⟨p0, p1, p3, p4⟩ := proj_nan m.c0 x0 y0
  have r0 : (rotateBand2 ⟨s4, s5, s6, s7, s8⟩ m).a0.isNaN = true := row_nan _ _ _ _ _ _ p0
  have r4 : (rotateBand2 ⟨s4, s5, s6, s7, s8⟩ m).a4.isNaN = true := row_nan _ _ _ _ _ _ p4
  have r1 : (rotateBand2 ⟨s4, s5, s6, s7, s8⟩ m).a1.isNaN = true := row_nan _ _ _ _ _ _ p1
  simp only [rotateSh3Bands, Option.bind_some]
  generalize rotateBand2 ⟨s4, s5, s6, s7, s8⟩ m = t at *
  generalize rotateBand1 ⟨s1, F32.zero b2, F32.zero b3⟩ m = u at *
  obtain ⟨q, r, e, hn⟩ := bound_nan c0 c1 c2 c3 c4 c5 c6 c7 c8 s0 u.x u.y u.z t.a0 t.a1 t.a2 t.a3 t.a4 r1
  rw [e]
  simp only [Option.bind_some, lt_nan hn]
  exact ⟨_, r, rfl, hn, lt_nan hn⟩

/-- Concrete cases: the hypotheses are met, and one early answer is a positive lower bound. -/
example : ∃ out r, shmin 0 minTable [(1 : ℝ), 0, (1 : ℝ) / 10, 0, 0, 0, 0, 0, 0] = some (out, r) := by
  obtain ⟨e, -, hr⟩ := axis_rotate 1 (1 / 10) 0 0 0 0 0 (by norm_num)
  simp only [mul_zero] at hr
  have hb := bound_eq 1 0 (1 / 10) 0 0 0 0 0 0
  simp only [mul_zero, add_zero, Real.sqrt_zero, sub_zero] at hb
  refine ⟨[1, 0, 1 / 10, 0, 0, 0, 0, 0, 0], qmin 0 (Real.sqrt 3 / (2 * Real.sqrt Real.pi) * (1 / 10))
    (1 / (2 * Real.sqrt Real.pi) * 1), ?_⟩
  · simp only [shmin, hr, Option.bind_some, hb]
    rw [if_neg]
    have h3 : Real.sqrt 3 ≤ 2 := Real.sqrt_le_iff.2 ⟨by norm_num, by norm_num⟩
    have hp := sp
    simp only [Flt.real_lt, Flt.real_lit, Rat.cast_zero, decide_eq_true_eq, not_lt, qmin, lt_irrefl, false_and,
      if_false]
    refine le_min ?_ ?_
    · positivity
    · have : 0 + -(Real.sqrt 3 / (2 * Real.sqrt Real.pi) * (1 / 10)) + 1 / (2 * Real.sqrt Real.pi) * 1 =
          (1 - Real.sqrt 3 / 10) / (2 * Real.sqrt Real.pi) := by field_simp; ring
      rw [sub_eq_add_neg, this]
      apply div_nonneg <;> [linarith; positivity]

example : (1 : ℝ) ≠ 0 ∧ (0 : ℝ) < 1 ∧ (1 : ℝ) < Real.sqrt 3 * - -1 := by
  refine ⟨one_ne_zero, one_pos, ?_⟩
  have : (1 : ℝ) < Real.sqrt 3 := Real.lt_sqrt_of_sq_lt (by norm_num)
  linarith

end Verif
