import Verif.Spec.SlerpF32
import Verif.Proofs.SlerpReal
import Verif.Proofs.F32Rel
import Verif.Props.Quat
import Verif.Props.BoxF32
import Verif.Props.VecAccuracy
import Verif.Props.LengthAccuracy
import Verif.Model.SlerpBackends

/-!
# C135: spherical interpolation in binary32
-/

namespace Verif
open F32 Spec

namespace SlerpF32
open SlerpReal

/-- The weight of an end at the fraction `s` and the angle `θ`. -/
noncomputable def W (s θ : ℝ) : ℝ := if θ = 0 then s else Real.sin (s * θ) / Real.sin θ

theorem W_zero {s y : ℝ} (hs : 0 ≤ s) (hs1 : s ≤ 1) (hy : 0 < y) (hy' : y ≤ 1.6) :
    |Real.sin (s * y) / Real.sin y - s| ≤ 0.75 * (1 - Real.cos y) := by
  refine le_of_forall_pos_le_add fun ε hε => ?_
  obtain ⟨η, h0, h1, h2⟩ : ∃ η, 0 < η ∧ η < y ∧ 0.3 * η ^ 2 ≤ ε := by
    refine ⟨min (y / 2) (min 1 ε), by positivity, (min_le_left _ _).trans_lt (by linarith), ?_⟩
    have a : min (y / 2) (min 1 ε) ≤ 1 := (min_le_right _ _).trans (min_le_left _ _)
    have b : min (y / 2) (min 1 ε) ≤ ε := (min_le_right _ _).trans (min_le_right _ _)
    have c : 0 < min (y / 2) (min 1 ε) := by positivity
    nlinarith
  have l := weight_lip hs hs1 h0 h1 hy'
  have w := weight_small hs hs1 h0 (h1.le.trans hy')
  have hp := Real.pi_gt_d2
  have m : Real.cos y ≤ Real.cos η := Real.cos_le_cos_of_nonneg_of_le_pi h0.le (by norm_num at *; linarith) h1.le
  rw [abs_of_nonpos (show Real.cos y - Real.cos η ≤ 0 by linarith)] at l
  have := Real.cos_le_one η
  have t := abs_add_le (Real.sin (s * y) / Real.sin y - Real.sin (s * η) / Real.sin η) (Real.sin (s * η) / Real.sin η - s)
  rw [sub_add_sub_cancel] at t
  linarith

theorem W_lip {s x y : ℝ} (hs : 0 ≤ s) (hs1 : s ≤ 1) (hx : 0 ≤ x) (hy : 0 ≤ y) (hx' : x ≤ 1.6) (hy' : y ≤ 1.6) :
    |W s y - W s x| ≤ 0.75 * |Real.cos y - Real.cos x| := by
  unfold W
  rcases hx.eq_or_lt with rfl | hx
  · rcases hy.eq_or_lt with rfl | hy
    · simp
    · rw [if_neg hy.ne', if_pos rfl, Real.cos_zero, abs_sub_comm (Real.cos y), abs_of_nonneg (show 0 ≤ 1 - Real.cos y by linarith [Real.cos_le_one y])]
      exact W_zero hs hs1 hy hy'
  · rcases hy.eq_or_lt with rfl | hy
    · rw [if_neg hx.ne', if_pos rfl, Real.cos_zero, abs_sub_comm, abs_of_nonneg (show 0 ≤ 1 - Real.cos x by linarith [Real.cos_le_one x])]
      exact W_zero hs hs1 hx hx'
    · rw [if_neg hx.ne', if_neg hy.ne']
      exact weight_lip' hs hs1 hx hy hx' hy'

theorem W_le {s x : ℝ} (hs : 0 ≤ s) (hs1 : s ≤ 1) (hx : 0 ≤ x) (hx' : x ≤ 1.6) : 0 ≤ W s x ∧ W s x ≤ 1.01 := by
  unfold W
  rcases hx.eq_or_lt with rfl | hx
  · rw [if_pos rfl]; exact ⟨hs, by norm_num at *; linarith⟩
  · rw [if_neg hx.ne']; exact weight_le hs hs1 hx hx'

/-- The exact interpolation between two lanes. -/
noncomputable def mix (θ t x y : ℝ) : ℝ := x * W (1 - t) θ + y * W t θ

/-- The exact interpolation. -/
noncomputable def arc (A C : V4 ℝ) (t : ℝ) : V4 ℝ :=
  let θ := Real.arccos (inner4 A C)
  ⟨mix θ t A.x C.x, mix θ t A.y C.y, mix θ t A.z C.z, mix θ t A.w C.w⟩

theorem inner_eq (a b : V4 ℝ) : dotProduct (vec4 a) (vec4 b) = inner4 a b := by
  simp [vec4, dotProduct, Fin.sum_univ_four, inner4]

theorem unit_eq {A C : V4 ℝ} (hA : UnitQuat A) (hC : UnitQuat C) (h : 1 ≤ inner4 A C) : A = C := by
  unfold UnitQuat inner4 at *
  have e : (A.x - C.x) ^ 2 + (A.y - C.y) ^ 2 + (A.z - C.z) ^ 2 + (A.w - C.w) ^ 2 ≤ 0 := by nlinarith
  have z : ∀ {p q : ℝ}, (p - q) ^ 2 ≤ 0 → p = q := fun {p q} h => by
    have := pow_eq_zero_iff (n := 2) (by norm_num) |>.1 (le_antisymm h (sq_nonneg (p - q)))
    linarith
  have s1 := sq_nonneg (A.x - C.x)
  have s2 := sq_nonneg (A.y - C.y)
  have s3 := sq_nonneg (A.z - C.z)
  have s4 := sq_nonneg (A.w - C.w)
  cases A; cases C
  simp only [V4.mk.injEq]
  exact ⟨z (by linarith), z (by linarith), z (by linarith), z (by linarith)⟩

theorem inner_le {A C : V4 ℝ} (hA : UnitQuat A) (hC : UnitQuat C) : inner4 A C ≤ 1 ∧ -1 ≤ inner4 A C := by
  unfold UnitQuat inner4 at *
  constructor
  · nlinarith [sq_nonneg (A.x - C.x), sq_nonneg (A.y - C.y), sq_nonneg (A.z - C.z), sq_nonneg (A.w - C.w)]
  · nlinarith [sq_nonneg (A.x + C.x), sq_nonneg (A.y + C.y), sq_nonneg (A.z + C.z), sq_nonneg (A.w + C.w)]

/-- The angle between two unit quaternions. -/
theorem theta {A C : V4 ℝ} (hA : UnitQuat A) (hC : UnitQuat C) (h : -0.02 ≤ inner4 A C) :
    0 ≤ Real.arccos (inner4 A C) ∧ Real.arccos (inner4 A C) ≤ 1.6 ∧ Real.cos (Real.arccos (inner4 A C)) = inner4 A C := by
  obtain ⟨h1, h2⟩ := inner_le hA hC
  have c := Real.cos_arccos h2 h1
  exact ⟨Real.arccos_nonneg _, angle_le (Real.arccos_nonneg _) (Real.arccos_le_pi _) (by rw [c]; exact h), c⟩

theorem arc_on {A C : V4 ℝ} (hA : UnitQuat A) (hC : UnitQuat C) (h : -0.02 ≤ inner4 A C) (t : ℝ) : OnArc A C (arc A C t) t := by
  obtain ⟨t0, t1, hc⟩ := theta hA hC h
  unfold OnArc arc mix W
  rcases t0.eq_or_lt with h0 | hp
  · have e : A = C := unit_eq hA hC (by rw [← hc, ← h0, Real.cos_zero])
    subst e
    rw [← h0]
    simp only [if_pos, mul_zero, Real.cos_zero]
    have e : ∀ x : ℝ, x * (1 - t) + x * t = x := fun x => by ring
    simp only [e]
    have : inner4 A A = 1 := by unfold inner4; unfold UnitQuat at hA; linarith
    exact ⟨hA, this, this⟩
  · generalize Real.arccos (inner4 A C) = θ at *
    have sp : Real.sin θ ≠ 0 := by have := sin_ge hp.le t1; exact (by linarith : 0 < Real.sin θ).ne'
    have := slerp_core A C t θ hA hC (by rw [inner_eq, hc]) sp _ rfl
    simp only [inner_eq] at this
    have e : ∀ x y : ℝ, (x * Real.sin ((1 - t) * θ) + y * Real.sin (t * θ)) / Real.sin θ =
        x * (Real.sin ((1 - t) * θ) / Real.sin θ) + y * (Real.sin (t * θ) / Real.sin θ) := fun x y => by ring
    simp only [e] at this
    simp only [if_neg hp.ne']
    exact this

/-- One lane of the linear branch. -/
theorem lerp_lane {a c s t : F32} {A C e d : ℝ} (fa : Near a A e) (fc : Near c C e) (hA : |A| ≤ 1) (hC : |C| ≤ 1) (he : e ≤ 1 / 2 ^ 10)
    (ft : t.isFinite = true) (t0 : 0 ≤ t.val) (t1 : t.val ≤ 1) (hs : Near s (1 - t.val) (uro * (1 - t.val))) {θ : ℝ}
    (θ0 : 0 ≤ θ) (θ1 : θ ≤ 1.6) (hd : 1 - Real.cos θ ≤ d) :
    Near (fadd (fmul a s) (fmul c t)) (mix θ t.val A C) (1.01 * e + 3.1 * uro + 1.5 * d) := by
  have hu := uro_pos
  have hu' : uro ≤ 1 / 1000 := by unfold uro; norm_num
  have e0 : 0 ≤ e := (abs_nonneg _).trans fa.2
  have p1 := Approx.mul (show Approx a A e from fa) (show Approx s (1 - t.val) (uro * (1 - t.val)) from hs) 1 (1 - t.val) hA
    (by rw [abs_of_nonneg (by linarith)]) (by
      have : (1 + e) * (1 - t.val + uro * (1 - t.val)) ≤ (1 + 1) * (1 + 1) := by
        apply mul_le_mul <;> nlinarith
      norm_num at *; linarith)
  have p2 := Approx.mul (show Approx c C e from fc) (Approx.self ft) 1 t.val hC (by rw [abs_of_nonneg t0]) (by
      have : (1 + e) * (t.val + 0) ≤ (1 + 1) * (1 + 1) := by
        apply mul_le_mul <;> linarith
      norm_num at *; linarith)
  have g1 : ulp ((1 + e) * (1 - t.val + uro * (1 - t.val))) + ulp ((1 + e) * (t.val + 0)) ≤ uro * 1.01 + 1 / 2 ^ 149 := by
    unfold ulp
    have : (1 + e) * (1 - t.val + uro * (1 - t.val)) + (1 + e) * (t.val + 0) ≤ 1.001 * 1.001 := by
      rw [← mul_add]
      apply mul_le_mul <;> nlinarith
    clear p1 p2
    generalize (1 + e) * (1 - t.val + uro * (1 - t.val)) = X at *
    generalize (1 + e) * (t.val + 0) = Y at *
    rw [BoxF32.small_u]
    norm_num at *
    linarith
  have eu : e * (uro * (1 - t.val)) ≤ 0.001 * uro := by
    have : e * (uro * (1 - t.val)) ≤ 0.001 * (uro * 1) := by gcongr <;> linarith
    linarith
  have ut : uro * (1 - t.val) ≤ uro := by nlinarith
  have mix0 : |A * (1 - t.val) + C * t.val| ≤ 1 := by
    have := abs_add_le (A * (1 - t.val)) (C * t.val)
    rw [abs_mul, abs_mul, abs_of_nonneg t0, abs_of_nonneg (show 0 ≤ 1 - t.val by linarith)] at this
    have m1 := mul_le_mul_of_nonneg_right hA (show 0 ≤ 1 - t.val by linarith)
    have m2 := mul_le_mul_of_nonneg_right hC t0
    linarith
  have e1 : (0 : ℝ) ≤ e * 0 := by simp
  have q := p1.add p2 1.01 (by norm_num at *; linarith) (by norm_num)
  refine ⟨q.1, ?_⟩
  have qq := q.2
  have w1 := W_lip (show 0 ≤ 1 - t.val by linarith) (show 1 - t.val ≤ 1 by linarith) θ0 le_rfl θ1 (by norm_num)
  have w2 := W_lip t0 t1 θ0 le_rfl θ1 (by norm_num)
  have hW0 : ∀ s, W s 0 = s := fun s => by simp [W]
  rw [hW0, Real.cos_zero, abs_of_nonneg (show 0 ≤ 1 - Real.cos θ by linarith [Real.cos_le_one θ])] at w1 w2
  have dm : |A * (1 - t.val) + C * t.val - mix θ t.val A C| ≤ 1.5 * d := by
    unfold mix
    rw [show A * (1 - t.val) + C * t.val - (A * W (1 - t.val) θ + C * W t.val θ) = A * (1 - t.val - W (1 - t.val) θ) +
      C * (t.val - W t.val θ) by ring]
    refine (abs_add_le _ _).trans ?_
    rw [abs_mul, abs_mul]
    have m1 := mul_le_mul hA w1 (abs_nonneg _) (by norm_num)
    have m2 := mul_le_mul hC w2 (abs_nonneg _) (by norm_num)
    linarith
  have t3 := abs_add_le ((fadd (fmul a s) (fmul c t)).val - (A * (1 - t.val) + C * t.val)) (A * (1 - t.val) + C * t.val - mix θ t.val A C)
  rw [sub_add_sub_cancel] at t3
  change |(fadd (fmul a s) (fmul c t)).val - mix θ t.val A C| ≤ _
  have ul : ulp 1.01 ≤ 1.011 * uro := by unfold ulp uro; norm_num
  have sm : (1 : ℝ) / 2 ^ 149 ≤ 0.001 * uro := by unfold uro; norm_num
  norm_num at *
  linarith

set_option maxHeartbeats 2000000 in
/-- One lane of the other branch. -/
theorem arc_lane {a c S1 S2 S0 : F32} {A C e x t : ℝ} (fa : Near a A e) (fc : Near c C e) (hA : |A| ≤ 1) (hC : |C| ≤ 1)
    (he : e ≤ 1 / 2 ^ 10) (t0 : 0 ≤ t) (t1 : t ≤ 1) (x0 : 1 / 2 ^ 12 ≤ x) (x1 : x ≤ 1.6)
    (h1 : Near S1 (Real.sin ((1 - t) * x)) (6.1 * (uro * x))) (h2 : Near S2 (Real.sin (t * x)) (6.1 * (uro * x)))
    (h0 : Near S0 (Real.sin x) (4.1 * (uro * Real.sin x))) :
    Near (fdiv (fadd (fmul a S1) (fmul c S2)) S0) (mix x t A C) (1.8 * e + 38 * uro) := by
  have hu := uro_pos
  have hu' : uro ≤ 1 / 2 ^ 20 := by unfold uro; norm_num
  have e0 : 0 ≤ e := (abs_nonneg _).trans fa.2
  have xp : 0 < x := lt_of_lt_of_le (by norm_num) x0
  have t1' : 0 ≤ 1 - t := by linarith
  have sx := sin_ge xp.le x1
  have sp : 0 < Real.sin x := by linarith
  have y1 : |Real.sin ((1 - t) * x)| ≤ (1 - t) * x := (Real.abs_sin_le_abs).trans (by rw [abs_of_nonneg (mul_nonneg t1' xp.le)])
  have y2 : |Real.sin (t * x)| ≤ t * x := (Real.abs_sin_le_abs).trans (by rw [abs_of_nonneg (mul_nonneg t0 xp.le)])
  have P0 : 0 < uro * x := mul_pos hu xp
  have Px : uro * x ≤ 1 / 2 ^ 20 * x := by gcongr
  have eP : e * (uro * x) ≤ 1 / 2 ^ 10 * (uro * x) := by gcongr
  have uP : uro * (uro * x) ≤ 1 / 2 ^ 20 * (uro * x) := by gcongr
  have small : (1 : ℝ) / 2 ^ 149 ≤ 0.0001 * (uro * x) := by
    have : uro * (1 / 2 ^ 12) ≤ uro * x := by gcongr
    unfold uro at *
    norm_num at *
    linarith
  have tx1 : (1 - t) * x ≤ x := by nlinarith
  have tx2 : t * x ≤ x := by nlinarith
  have tx1' : 0 ≤ (1 - t) * x := mul_nonneg t1' xp.le
  have tx2' : 0 ≤ t * x := mul_nonneg t0 xp.le
  have bnd : ∀ y : ℝ, 0 ≤ y → y ≤ x → (1 + e) * (y + 6.1 * (uro * x)) < 2 ^ 127 := by
    intro y h h'
    have : (1 + e) * (y + 6.1 * (uro * x)) ≤ 2 * 3 := by
      apply mul_le_mul <;> norm_num at * <;> linarith
    norm_num at *; linarith
  have p1 := Approx.mul (show Approx a A e from fa) (show Approx S1 _ _ from h1) 1 ((1 - t) * x) hA y1 (bnd _ tx1' tx1)
  have p2 := Approx.mul (show Approx c C e from fc) (show Approx S2 _ _ from h2) 1 (t * x) hC y2 (bnd _ tx2' tx2)
  have g1 : ulp ((1 + e) * ((1 - t) * x + 6.1 * (uro * x))) + ulp ((1 + e) * (t * x + 6.1 * (uro * x))) ≤ 1.002 * (uro * x) := by
    have : (1 + e) * ((1 - t) * x + 6.1 * (uro * x)) + (1 + e) * (t * x + 6.1 * (uro * x)) ≤ 1.0015 * x := by
      rw [← mul_add, show (1 - t) * x + 6.1 * (uro * x) + (t * x + 6.1 * (uro * x)) = x + 12.2 * (uro * x) by ring]
      have : (1 + e) * (x + 12.2 * (uro * x)) ≤ (1 + 1 / 2 ^ 10) * (1.0001 * x) := by
        apply mul_le_mul <;> norm_num at * <;> linarith
      norm_num at *; linarith
    have := mul_le_mul_of_nonneg_left this hu.le
    unfold ulp
    have du : ∀ z : ℝ, z / 2 ^ 24 = uro * z := fun z => by unfold uro; ring
    rw [du, du]
    have h150 : (1 : ℝ) / 2 ^ 150 + 1 / 2 ^ 150 = 1 / 2 ^ 149 := by norm_num
    linarith
  generalize ulp ((1 + e) * ((1 - t) * x + 6.1 * (uro * x))) = u1 at *
  generalize ulp ((1 + e) * (t * x + 6.1 * (uro * x))) = u2 at *
  -- the numerator
  have num : Approx (fadd (fmul a S1) (fmul c S2)) (A * Real.sin ((1 - t) * x) + C * Real.sin (t * x)) (e * x + 14.4 * (uro * x)) := by
    have N : |A * Real.sin ((1 - t) * x) + C * Real.sin (t * x)| ≤ x := by
      have := abs_add_le (A * Real.sin ((1 - t) * x)) (C * Real.sin (t * x))
      rw [abs_mul, abs_mul] at this
      have m1 := mul_le_mul hA y1 (abs_nonneg _) (by norm_num)
      have m2 := mul_le_mul hC y2 (abs_nonneg _) (by norm_num)
      linarith
    have ex : e * x ≤ 1 / 2 ^ 10 * x := by gcongr
    have q := p1.add p2 (1.01 * x) (by norm_num at *; linarith) (by norm_num at *; linarith)
    refine q.mono ?_
    have ul : ulp (1.01 * x) ≤ 1.0101 * (uro * x) := by
      have e : ulp (1.01 * x) = 1.01 * (uro * x) + 1 / 2 ^ 150 := by unfold ulp uro; ring
      rw [e]
      norm_num at *; linarith
    norm_num at *
    linarith
  -- the quotient
  have mixe : mix x t A C = (A * Real.sin ((1 - t) * x) + C * Real.sin (t * x)) / Real.sin x := by
    unfold mix W
    rw [if_neg xp.ne', if_neg xp.ne']; ring
  have mb : |mix x t A C| ≤ 2.02 := by
    unfold mix
    obtain ⟨a1, a2⟩ := W_le t1' (by linarith : 1 - t ≤ 1) xp.le x1
    obtain ⟨b1, b2⟩ := W_le t0 t1 xp.le x1
    refine (abs_add_le _ _).trans ?_
    rw [abs_mul, abs_mul, abs_of_nonneg a1, abs_of_nonneg b1]
    have m1 := mul_le_mul hA a2 a1 (by norm_num)
    have m2 := mul_le_mul hC b2 b1 (by norm_num)
    norm_num at *
    linarith
  generalize A * Real.sin ((1 - t) * x) + C * Real.sin (t * x) = N at *
  generalize fadd (fmul a S1) (fmul c S2) = n at *
  have hS : |S0.val - Real.sin x| ≤ 4.1 * (uro * Real.sin x) := h0.2
  obtain ⟨s1, s2⟩ := abs_le.1 hS
  have us : uro * Real.sin x ≤ 1 / 2 ^ 20 * Real.sin x := by gcongr
  have S0p : 0.57 * x ≤ S0.val := by norm_num at *; linarith
  have S0q : 0 < S0.val := by linarith
  have Q : |n.val / S0.val - mix x t A C| ≤ 1.76 * e + 34 * uro := by
    have e1 : n.val / S0.val - mix x t A C = ((n.val - N) - mix x t A C * (S0.val - Real.sin x)) / S0.val := by
      rw [mixe]; field_simp; ring
    rw [e1, abs_div, abs_of_pos S0q, div_le_iff₀ S0q]
    refine (abs_sub _ _).trans ?_
    rw [abs_mul]
    have m1 := mul_le_mul mb hS (abs_nonneg _) (by norm_num)
    have m2 : (1.76 * e + 34 * uro) * (0.57 * x) ≤ (1.76 * e + 34 * uro) * S0.val := by gcongr
    have m3 := num.2
    have ux : uro * Real.sin x ≤ uro * x := mul_le_mul_of_nonneg_left (Real.sin_le xp.le) hu.le
    have ex : 0 ≤ e * x := by positivity
    norm_num at *
    nlinarith
  have qb : |n.val / S0.val| ≤ 2.1 := by
    have := abs_add_le (n.val / S0.val - mix x t A C) (mix x t A C)
    rw [sub_add_cancel] at this
    norm_num at *; linarith
  have d := fdiv_approx num.1 h0.1 S0q.ne' qb (by norm_num)
  refine ⟨d.1, ?_⟩
  change |(fdiv n S0).val - _| ≤ _
  have tr := abs_add_le ((fdiv n S0).val - n.val / S0.val) (n.val / S0.val - mix x t A C)
  rw [sub_add_sub_cancel] at tr
  have ul : ulp 2.1 ≤ 2.2 * uro := by unfold ulp uro; norm_num
  have := d.2
  norm_num at *
  linarith

/-! ## The sines -/

theorem sin_step {f : F32 → F32} (hf : SinOk f) {b : F32} {y x : ℝ} (fb : b.isFinite = true) (b0 : 0 ≤ b.val)
    (hb : |b.val - y| ≤ 2.01 * (uro * x)) (y0 : 0 ≤ y) (yx : y ≤ x) (x0 : 1 / 2 ^ 12 ≤ x) (x1 : x ≤ 1.6) :
    Near (f b) (Real.sin y) (6.1 * (uro * x)) := by
  have hu := uro_pos
  have xp : 0 < x := lt_of_lt_of_le (by norm_num) x0
  have Px : uro * x ≤ 1 / 2 ^ 20 * x := mul_le_mul_of_nonneg_right (by unfold uro; norm_num) xp.le
  have small : (1 : ℝ) / 2 ^ 149 ≤ 0.0001 * (uro * x) := by
    have : uro * (1 / 2 ^ 12) ≤ uro * x := by gcongr
    unfold uro at *
    norm_num at *
    linarith
  obtain ⟨k1, k2⟩ := abs_le.1 hb
  have b2 : b.val ≤ 2 := by norm_num at *; linarith
  obtain ⟨n1, n2⟩ := hf b fb b0 b2
  refine ⟨n1, ?_⟩
  change |(f b).val - Real.sin b.val| ≤ 1 / 2 ^ 22 * Real.sin b.val + 1 / 2 ^ 149 at n2
  change |(f b).val - Real.sin y| ≤ _
  have s := Real.sin_le b0
  have l := Real.abs_sin_sub_sin_le b.val y
  have t := abs_add_le ((f b).val - Real.sin b.val) (Real.sin b.val - Real.sin y)
  rw [sub_add_sub_cancel] at t
  have e : 1 / 2 ^ 22 * Real.sin b.val ≤ 4 * (uro * (1.001 * x)) := by
    have : uro * b.val ≤ uro * (1.001 * x) := by
      apply mul_le_mul_of_nonneg_left _ hu.le
      norm_num at *; linarith
    have : uro * Real.sin b.val ≤ uro * b.val := mul_le_mul_of_nonneg_left s hu.le
    have e : (1 : ℝ) / 2 ^ 22 = 4 * uro := by unfold uro; norm_num
    rw [e]; linarith
  norm_num at *
  linarith

/-- The rounded product of a rounded fraction and the angle. -/
theorem frac_step {s α : F32} {r : ℝ} (fs : s.isFinite = true) (fα : α.isFinite = true) (r0 : 0 ≤ r) (r1 : r ≤ 1)
    (hs : |s.val - r| ≤ uro * r) (x0 : 1 / 2 ^ 12 ≤ α.val) (x1 : α.val ≤ 1.6) :
    (fmul s α).isFinite = true ∧ 0 ≤ (fmul s α).val ∧ |(fmul s α).val - r * α.val| ≤ 2.01 * (uro * α.val) := by
  have hu := uro_pos
  have hu' : uro ≤ 1 / 2 ^ 20 := by unfold uro; norm_num
  have xp : 0 < α.val := lt_of_lt_of_le (by norm_num) x0
  have small : (1 : ℝ) / 2 ^ 150 ≤ 0.0001 * (uro * α.val) := by
    have : uro * (1 / 2 ^ 12) ≤ uro * α.val := mul_le_mul_of_nonneg_left x0 hu.le
    unfold uro at *
    norm_num at *
    linarith
  obtain ⟨k1, k2⟩ := abs_le.1 hs
  have ur : uro * r ≤ 1 / 2 ^ 20 * r := mul_le_mul_of_nonneg_right hu' r0
  have s0 : 0 ≤ s.val := by norm_num at *; linarith
  have s1 : s.val ≤ 1.001 := by norm_num at *; linarith
  have sx0 : 0 ≤ s.val * α.val := mul_nonneg s0 xp.le
  have sx1 : s.val * α.val ≤ 1.001 * α.val := mul_le_mul_of_nonneg_right s1 xp.le
  obtain ⟨m1, m2⟩ := fmul_rel fs fα (by rw [abs_of_nonneg sx0]; norm_num at *; linarith)
  rw [abs_of_nonneg sx0] at m2
  refine ⟨m1, ?_, ?_⟩
  · have n := BoxF32.nearest_ge (BoxF32.mul_near fs fα (by rw [abs_of_nonneg sx0]; norm_num at *; linarith)) SatF32.lit0.1
      (by rw [SatF32.lit0.2]; exact sx0)
    rwa [SatF32.lit0.2] at n
  · have d : |s.val * α.val - r * α.val| ≤ uro * α.val := by
      rw [← sub_mul, abs_mul, abs_of_pos xp]
      apply mul_le_mul_of_nonneg_right _ xp.le
      nlinarith
    have t := abs_add_le ((fmul s α).val - s.val * α.val) (s.val * α.val - r * α.val)
    rw [sub_add_sub_cancel] at t
    have := mul_le_mul_of_nonneg_left sx1 hu.le
    norm_num at *
    linarith

/-- The angle the code computes. -/
theorem acos_step {f : F32 → F32} (hf : AcosOk f) {d : F32} (fd : d.isFinite = true) (d0 : 0 ≤ d.val) (d1 : d.val ≤ 1 - 1 / 2 ^ 23) :
    (f d).isFinite = true ∧ 1 / 2 ^ 12 ≤ (f d).val ∧ (f d).val ≤ 1.6 ∧ |Real.cos (f d).val - d.val| ≤ 6.4 * uro := by
  obtain ⟨n1, n2⟩ := hf d fd d0 (by change d.val ≤ 1; norm_num at *; linarith)
  change |(f d).val - Real.arccos d.val| ≤ 1 / 2 ^ 22 * Real.arccos d.val + 1 / 2 ^ 149 at n2
  have c := Real.cos_arccos (show -1 ≤ d.val by linarith) (show d.val ≤ 1 by norm_num at *; linarith)
  have p0 := Real.arccos_nonneg d.val
  have p1 : Real.arccos d.val ≤ 1.5708 := by
    have h1 := Real.arccos_le_pi_div_two.2 d0
    have h2 := Real.pi_lt_d4
    norm_num at h2 ⊢; linarith
  have p2 : 1 / 2 ^ 11 ≤ Real.arccos d.val := by
    have := Real.one_sub_sq_div_two_le_cos (x := Real.arccos d.val)
    rw [c] at this
    have : ((1 : ℝ) / 2 ^ 11) ^ 2 ≤ Real.arccos d.val ^ 2 := by norm_num at *; linarith
    exact abs_le_of_sq_le_sq' this p0 |>.2
  have l := Real.abs_cos_sub_cos_le (f d).val (Real.arccos d.val)
  rw [c] at l
  generalize Real.arccos d.val = φ at *
  obtain ⟨k1, k2⟩ := abs_le.1 n2
  refine ⟨n1, ?_, ?_, ?_⟩
  · norm_num at *; linarith
  · norm_num at *; linarith
  · refine l.trans (n2.trans ?_)
    unfold uro
    norm_num at *; linarith

/-- Weights at two angles. -/
theorem mix_lip {A C t x y : ℝ} (hA : |A| ≤ 1) (hC : |C| ≤ 1) (t0 : 0 ≤ t) (t1 : t ≤ 1) (hx : 0 ≤ x) (hy : 0 ≤ y) (hx' : x ≤ 1.6)
    (hy' : y ≤ 1.6) : |mix y t A C - mix x t A C| ≤ 1.5 * |Real.cos y - Real.cos x| := by
  have w1 := W_lip (show 0 ≤ 1 - t by linarith) (show 1 - t ≤ 1 by linarith) hx hy hx' hy'
  have w2 := W_lip t0 t1 hx hy hx' hy'
  unfold mix
  rw [show A * W (1 - t) y + C * W t y - (A * W (1 - t) x + C * W t x) = A * (W (1 - t) y - W (1 - t) x) +
    C * (W t y - W t x) by ring]
  refine (abs_add_le _ _).trans ?_
  rw [abs_mul, abs_mul]
  have m1 := mul_le_mul hA w1 (abs_nonneg _) (by norm_num)
  have m2 := mul_le_mul hC w2 (abs_nonneg _) (by norm_num)
  linarith

/-! ## The dot product -/

theorem prod_near {a b A B e : ℝ} (ha : |a - A| ≤ e) (hb : |b - B| ≤ e) :
    |a * b - A * B| ≤ e * (|A| + |B|) + e ^ 2 ∧ |a * b| ≤ (A ^ 2 + B ^ 2) / 2 + e * (|A| + |B|) + e ^ 2 := by
  have e0 : 0 ≤ e := (abs_nonneg _).trans ha
  have h : |a * b - A * B| ≤ e * (|A| + |B|) + e ^ 2 := by
    rw [show a * b - A * B = (a - A) * (b - B) + ((a - A) * B + A * (b - B)) by ring]
    refine (abs_add_le _ _).trans ?_
    have := abs_add_le ((a - A) * B) (A * (b - B))
    rw [abs_mul, abs_mul] at this
    rw [abs_mul]
    have m1 := mul_le_mul ha hb (abs_nonneg _) e0
    have m2 := mul_le_mul_of_nonneg_right ha (abs_nonneg B)
    have m3 := mul_le_mul_of_nonneg_left hb (abs_nonneg A)
    nlinarith
  refine ⟨h, ?_⟩
  have := abs_add_le (a * b - A * B) (A * B)
  rw [sub_add_cancel, abs_mul A B] at this
  have s := sq_nonneg (|A| - |B|)
  have sa := sq_abs A
  have sb := sq_abs B
  nlinarith

theorem abs_sum {A : V4 ℝ} (hA : UnitQuat A) : |A.x| + |A.y| + |A.z| + |A.w| ≤ 2 := by
  unfold UnitQuat at hA
  have a1 := sq_abs A.x
  have a2 := sq_abs A.y
  have a3 := sq_abs A.z
  have a4 := sq_abs A.w
  nlinarith [sq_nonneg (|A.x| - 1 / 2), sq_nonneg (|A.y| - 1 / 2), sq_nonneg (|A.z| - 1 / 2), sq_nonneg (|A.w| - 1 / 2)]

theorem lane_le {A : V4 ℝ} (hA : UnitQuat A) : |A.x| ≤ 1 ∧ |A.y| ≤ 1 ∧ |A.z| ≤ 1 ∧ |A.w| ≤ 1 := by
  unfold UnitQuat at hA
  have s1 := sq_nonneg A.x
  have s2 := sq_nonneg A.y
  have s3 := sq_nonneg A.z
  have s4 := sq_nonneg A.w
  refine ⟨?_, ?_, ?_, ?_⟩ <;> · rw [← sq_le_one_iff_abs_le_one]; linarith

theorem dot_err (k : Backend) {a b : V4 F32} {A B : V4 ℝ} {e : ℝ} (hA : UnitQuat A) (hB : UnitQuat B) (ha : Near4 a A e)
    (hb : Near4 b B e) (he : e ≤ 1 / 2 ^ 10) : Near (k.dot4 a b) (inner4 A B) (4.01 * e + 4.05 * uro) := by
  obtain ⟨a1, a2, a3, a4⟩ := ha
  obtain ⟨b1, b2, b3, b4⟩ := hb
  have e0 : 0 ≤ e := (abs_nonneg _).trans a1.2
  obtain ⟨p1, q1⟩ := prod_near a1.2 b1.2
  obtain ⟨p2, q2⟩ := prod_near a2.2 b2.2
  obtain ⟨p3, q3⟩ := prod_near a3.2 b3.2
  obtain ⟨p4, q4⟩ := prod_near a4.2 b4.2
  have sA := abs_sum hA
  have sB := abs_sum hB
  have S := dot_accuracy.2.2.2.2 k a b (by simp [AllFinite, V4.toList]; exact ⟨a1.1, a2.1, a3.1, a4.1⟩)
    (by simp [AllFinite, V4.toList]; exact ⟨b1.1, b2.1, b3.1, b4.1⟩)
  unfold SumOk at S
  simp only [absProd, sumProd, List.map_cons, List.map_nil, List.sum_cons, List.sum_nil, add_zero, List.length_cons, List.length_nil] at S
  have eS : e * (|A.x| + |A.y| + |A.z| + |A.w|) ≤ e * 2 := mul_le_mul_of_nonneg_left sA e0
  have eT : e * (|B.x| + |B.y| + |B.z| + |B.w|) ≤ e * 2 := mul_le_mul_of_nonneg_left sB e0
  have ee : e ^ 2 ≤ 1 / 2 ^ 10 * e := by rw [pow_two]; exact mul_le_mul_of_nonneg_right he e0
  unfold UnitQuat at hA hB
  have P : |rv a.x * rv b.x| + (|rv a.y * rv b.y| + (|rv a.z * rv b.z| + |rv a.w * rv b.w|)) ≤ 1.005 := by
    norm_num at *; linarith
  generalize |rv a.x * rv b.x| + (|rv a.y * rv b.y| + (|rv a.z * rv b.z| + |rv a.w * rv b.w|)) = P0 at *
  have P00 : P0 ≤ 2 ^ 126 := P.trans (by norm_num)
  obtain ⟨n1, n2⟩ := S P00
  refine ⟨n1, ?_⟩
  have t := abs_add_le (rv (k.dot4 a b) - (rv a.x * rv b.x + (rv a.y * rv b.y + (rv a.z * rv b.z + rv a.w * rv b.w))))
    ((rv a.x * rv b.x + (rv a.y * rv b.y + (rv a.z * rv b.z + rv a.w * rv b.w))) - inner4 A B)
  rw [sub_add_sub_cancel] at t
  have i : |(rv a.x * rv b.x + (rv a.y * rv b.y + (rv a.z * rv b.z + rv a.w * rv b.w))) - inner4 A B| ≤ 4.01 * e := by
    unfold inner4
    rw [show (rv a.x * rv b.x + (rv a.y * rv b.y + (rv a.z * rv b.z + rv a.w * rv b.w))) -
      (A.x * B.x + A.y * B.y + A.z * B.z + A.w * B.w) = (rv a.x * rv b.x - A.x * B.x) + (rv a.y * rv b.y - A.y * B.y) +
      (rv a.z * rv b.z - A.z * B.z) + (rv a.w * rv b.w - A.w * B.w) by ring]
    refine (abs_add_le _ _).trans ?_
    refine (add_le_add_left ((abs_add_le _ _).trans (add_le_add_left (abs_add_le _ _) _)) _).trans ?_
    norm_num at *; linarith
  have v : ((1 + 1 / 2 ^ 24 : ℝ) ^ (0 + 1 + 1 + 1 + 1) - 1) * P0 ≤ ((1 + 1 / 2 ^ 24 : ℝ) ^ (0 + 1 + 1 + 1 + 1) - 1) * 1.005 :=
    mul_le_mul_of_nonneg_left P (by norm_num)
  refine t.trans ((add_le_add (n2.trans (add_le_add_left v _)) i).trans ?_)
  unfold uro
  push_cast
  norm_num
  linarith

/-! ## Both branches -/

theorem eps_lit : (ofRat (1 / 8388608)).isFinite = true ∧ (ofRat (1 / 8388608)).val = 1 / 2 ^ 23 := by
  have h : (ofRat (1 / 8388608)).isFinite = true ∧ (ofRat (1 / 8388608)).units = 2 ^ 126 := by decide +kernel
  refine ⟨h.1, ?_⟩
  rw [val_units, h.2]
  norm_num

theorem bound_lit : (fsub (ofRat 1) (ofRat (1 / 8388608))).isFinite = true ∧
    (fsub (ofRat 1) (ofRat (1 / 8388608))).val = 1 - 1 / 2 ^ 23 := by
  have h : (fsub (ofRat 1) (ofRat (1 / 8388608))).isFinite = true ∧
      (fsub (ofRat 1) (ofRat (1 / 8388608))).units = (2 ^ 23 - 1) * 2 ^ 126 := by decide +kernel
  refine ⟨h.1, ?_⟩
  rw [val_units, h.2]
  push_cast
  norm_num

/-- The branches after the choice of the end. -/
def tail (T : FltT F32) (o l : F32) (a c : V4 F32) (d t : F32) : V4 F32 :=
  if ltb l d = true then V4.add (V4.smul a (fsub o t)) (V4.smul c t)
  else
    V4.div (V4.add (V4.smul a (T.sin (fmul (fsub o t) (T.acos d)))) (V4.smul c (T.sin (fmul t (T.acos d)))))
      (V4.splat (T.sin (T.acos d)))

theorem tail_near (T : FltT F32) (hs : SinOk T.sin) (hc : AcosOk T.acos) {o l : F32} (ho : o.isFinite = true ∧ o.val = 1)
    (hl : l.isFinite = true ∧ l.val = 1 - 1 / 2 ^ 23) {a c : V4 F32} {d t : F32} {A C : V4 ℝ} {e : ℝ} (hA : UnitQuat A) (hC : UnitQuat C)
    (na : Near4 a A e) (nc : Near4 c C e) (he : e ≤ 1 / 2 ^ 10) (ft : t.isFinite = true) (t0 : 0 ≤ t.val) (t1 : t.val ≤ 1)
    (d0 : 0 ≤ d.val) (nd : Near d (inner4 A C) (4.01 * e + 4.05 * uro)) :
    Near4 (tail T o l a c d t) (arc A C t.val) (8 * e + 54 * uro) := by
  have hu := uro_pos
  have hu' : uro ≤ 1 / 2 ^ 20 := by unfold uro; norm_num
  obtain ⟨a1, a2, a3, a4⟩ := na
  obtain ⟨c1, c2, c3, c4⟩ := nc
  have e0 : 0 ≤ e := (abs_nonneg _).trans a1.2
  obtain ⟨A1, A2, A3, A4⟩ := lane_le hA
  obtain ⟨C1, C2, C3, C4⟩ := lane_le hC
  obtain ⟨fd, bd⟩ := nd
  change |d.val - _| ≤ _ at bd
  obtain ⟨bd1, bd2⟩ := abs_le.1 bd
  obtain ⟨θ0, θ1, θc⟩ := theta hA hC (by norm_num at *; linarith)
  have ns : Near (fsub o t) (1 - t.val) (uro * (1 - t.val)) := by
    have := fsub_err' ho.1 ft (by rw [ho.2, abs_of_nonneg (show 0 ≤ 1 - t.val by linarith)]; norm_num; linarith)
    rw [ho.2, abs_of_nonneg (show 0 ≤ 1 - t.val by linarith)] at this
    exact this
  unfold tail arc
  by_cases hb : ltb l d = true
  · rw [if_pos hb]
    rw [Reliable.flt_iff hl.1 fd, hl.2] at hb
    have hd : 1 - Real.cos (Real.arccos (inner4 A C)) ≤ 2 * uro + (4.01 * e + 4.05 * uro) := by
      rw [θc]
      have : 2 * uro = 1 / 2 ^ 23 := by unfold uro; norm_num
      linarith
    have L : ∀ {x y : F32} {X Y : ℝ}, Near x X e → Near y Y e → |X| ≤ 1 → |Y| ≤ 1 →
        Near (fadd (fmul x (fsub o t)) (fmul y t)) (mix (Real.arccos (inner4 A C)) t.val X Y) (8 * e + 54 * uro) := by
      intro x y X Y nx ny hX hY
      obtain ⟨r1, r2⟩ := lerp_lane nx ny hX hY he ft t0 t1 ns θ0 θ1 hd
      exact ⟨r1, r2.trans (by norm_num; linarith)⟩
    exact ⟨L a1 c1 A1 C1, L a2 c2 A2 C2, L a3 c3 A3 C3, L a4 c4 A4 C4⟩
  · rw [if_neg hb]
    rw [Reliable.flt_iff hl.1 fd, hl.2, not_lt] at hb
    obtain ⟨fα, x0, x1, hx⟩ := acos_step hc fd d0 hb
    generalize T.acos d = α at *
    have xp : 0 < α.val := lt_of_lt_of_le (by norm_num) x0
    obtain ⟨f1, g1, h1⟩ := frac_step ns.1 fα (show 0 ≤ 1 - t.val by linarith) (by linarith) ns.2 x0 x1
    obtain ⟨f2, g2, h2⟩ := frac_step (r := t.val) ft fα t0 t1 (by rw [sub_self, abs_zero]; exact mul_nonneg hu.le t0) x0 x1
    have s1 := sin_step hs f1 g1 h1 (mul_nonneg (by linarith) xp.le) (by nlinarith) x0 x1
    have s2 := sin_step hs f2 g2 h2 (mul_nonneg t0 xp.le) (by nlinarith) x0 x1
    have s0 : Near (T.sin α) (Real.sin α.val) (4.1 * (uro * Real.sin α.val)) := by
      obtain ⟨r1, r2⟩ := hs α fα xp.le (by change α.val ≤ 2; norm_num at *; linarith)
      refine ⟨r1, r2.trans ?_⟩
      change 1 / 2 ^ 22 * Real.sin α.val + 1 / 2 ^ 149 ≤ _
      have := SlerpReal.sin_ge xp.le x1
      unfold uro
      norm_num at *; linarith
    have L : ∀ {x y : F32} {X Y : ℝ}, Near x X e → Near y Y e → |X| ≤ 1 → |Y| ≤ 1 →
        Near (fdiv (fadd (fmul x (T.sin (fmul (fsub o t) α))) (fmul y (T.sin (fmul t α)))) (T.sin α))
          (mix (Real.arccos (inner4 A C)) t.val X Y) (8 * e + 54 * uro) := by
      intro x y X Y nx ny hX hY
      obtain ⟨r1, r2⟩ := arc_lane nx ny hX hY he t0 t1 x0 x1 s1 s2 s0
      refine ⟨r1, ?_⟩
      have m := mix_lip hX hY t0 t1 θ0 xp.le θ1 x1
      rw [θc] at m
      generalize rv (fdiv (fadd (fmul x (T.sin (fmul (fsub o t) α))) (fmul y (T.sin (fmul t α)))) (T.sin α)) = z at *
      have c := abs_add_le (Real.cos α.val - d.val) (d.val - inner4 A C)
      rw [sub_add_sub_cancel] at c
      have tt := abs_add_le (z - mix α.val t.val X Y) (mix α.val t.val X Y - mix (Real.arccos (inner4 A C)) t.val X Y)
      rw [sub_add_sub_cancel] at tt
      norm_num at *; linarith
    exact ⟨L a1 c1 A1 C1, L a2 c2 A2 C2, L a3 c3 A3 C3, L a4 c4 A4 C4⟩

theorem neg_near {a : F32} {A e : ℝ} (h : Near a A e) : Near (fneg a) (-A) e := by
  refine ⟨by rw [fneg_finite]; exact h.1, ?_⟩
  change |(fneg a).val - _| ≤ _
  rw [SatF32.neg_val, show -a.val - -A = -(a.val - A) by ring, abs_neg]
  exact h.2

end SlerpF32
open SlerpF32

/-- C135: on every SIMD backend, with `sin` and `acos` right up to four rounding units, `slerp` of two quaternions within
`e` of exact unit quaternions is within `8 e + 54 · 2^-24` of the point at the fraction `t` of the arc from the first to the
second or its opposite, taken on the side where the angle is at most a right angle up to the rounding of the dot product. -/
theorem slerp_f32 (T : FltT F32) (hs : SinOk T.sin) (hc : AcosOk T.acos) (k : Backend) (a b : V4 F32) (A B : V4 ℝ) (t : F32) (e : ℝ)
    (hA : UnitQuat A) (hB : UnitQuat B) (ha : Near4 a A e) (hb : Near4 b B e) (he : e ≤ 1 / 2 ^ 10) (ft : t.isFinite = true)
    (t0 : 0 ≤ rv t) (t1 : rv t ≤ 1) :
    ∃ C R : V4 ℝ, (C = B ∨ C = V4.neg B) ∧ -(5 * e + 5 / 2 ^ 24) ≤ inner4 A C ∧ OnArc A C R (rv t) ∧
      Near4 (Quat.slerpOn k a b t) R (8 * e + 54 / 2 ^ 24) := by
  have hu := uro_pos
  have hu' : uro ≤ 1 / 2 ^ 20 := by unfold uro; norm_num
  have e0 : 0 ≤ e := (abs_nonneg _).trans ha.1.2
  have D := dot_err k hA hB ha hb he
  have e54 : 8 * e + 54 / 2 ^ 24 = 8 * e + 54 * uro := by unfold uro; ring
  have e5 : 5 * e + 5 / 2 ^ 24 = 5 * e + 5 * uro := by unfold uro; ring
  rw [e54, e5]
  have form : Quat.slerpOn k a b t = tail T (ofRat 1) (fsub (ofRat 1) (ofRat (1 / 8388608))) a
      (if ltb (k.dot4 a b) (ofRat 0) = true then V4.neg b else b)
      (if ltb (k.dot4 a b) (ofRat 0) = true then fneg (k.dot4 a b) else k.dot4 a b) t := by exact rfl
  rw [form]
  clear form
  generalize k.dot4 a b = d at *
  have ho := LenAcc.one_lit
  have hl := bound_lit
  have hz := SatF32.lit0
  generalize fsub (ofRat 1) (ofRat (1 / 8388608)) = l at *
  generalize ofRat 1 = o at *
  generalize ofRat 0 = z at *
  have fin : ∀ {c : V4 F32} {C : V4 ℝ} {d : F32}, UnitQuat C → Near4 c C e → 0 ≤ d.val → Near d (inner4 A C) (4.01 * e + 4.05 * uro) →
      -(5 * e + 5 * uro) ≤ inner4 A C ∧ OnArc A C (arc A C t.val) t.val ∧ Near4 (tail T o l a c d t) (arc A C t.val) (8 * e + 54 * uro) := by
    intro c C d hC nc d0 nd
    obtain ⟨b1, b2⟩ := abs_le.1 nd.2
    change _ ≤ d.val - _ at b1
    change d.val - _ ≤ _ at b2
    have lo : -(5 * e + 5 * uro) ≤ inner4 A C := by norm_num at *; linarith
    exact ⟨lo, arc_on hA hC (by norm_num at *; linarith) _, tail_near T hs hc ho hl hA hC ha nc he ft t0 t1 d0 nd⟩
  by_cases h : ltb d z = true
  · rw [if_pos h, if_pos h]
    rw [Reliable.flt_iff D.1 hz.1, hz.2] at h
    have := fin (c := V4.neg b) (C := V4.neg B) (d := fneg d) (by unfold UnitQuat at *; simp [vec]; linarith)
      ⟨neg_near hb.1, neg_near hb.2.1, neg_near hb.2.2.1, neg_near hb.2.2.2⟩ (by rw [SatF32.neg_val]; linarith) (by
        have e : inner4 A (V4.neg B) = -inner4 A B := by simp [inner4, vec]; ring
        rw [e]; exact neg_near D)
    exact ⟨V4.neg B, _, Or.inr rfl, this⟩
  · rw [if_neg h, if_neg h]
    rw [Reliable.flt_iff D.1 hz.1, hz.2, not_lt] at h
    exact ⟨B, _, Or.inl rfl, fin hB hb h D⟩

/-! ## Non-vacuity -/

private theorem near_value {y : ℝ} (h1 : 0 ≤ y) (h2 : y ≤ 2 ^ 40) : ∃ r : F32, Near r y (1 / 2 ^ 22 * y + 1 / 2 ^ 149) := by
  rcases h1.eq_or_lt with rfl | hy
  · refine ⟨ofRat 0, SatF32.lit0.1, ?_⟩
    change |(ofRat 0).val - 0| ≤ _
    rw [SatF32.lit0.2]; norm_num
  obtain ⟨q, q1, q2⟩ := exists_rat_btwn (show y < y + y / 2 ^ 24 by linarith [show 0 < y / 2 ^ 24 by positivity])
  have a := lit_approx q (2 * y) (by rw [abs_le]; norm_num at *; constructor <;> linarith) (by norm_num at *; linarith)
  refine ⟨_, a.1, ?_⟩
  have a2 := abs_le.1 a.2
  change |F32.val _ - _| ≤ _
  have u : ulp (2 * y) ≤ y / 2 ^ 23 + 1 / 2 ^ 149 := by unfold ulp; norm_num at *; linarith
  rw [abs_le]; norm_num at *; constructor <;> linarith

/-- Functions that meet the assumptions about the standard library. -/
theorem trigOk_exists : ∃ T : FltT F32, SinOk T.sin ∧ AcosOk T.acos := by
  have k1 : ∀ x : F32, ∃ r : F32, x.isFinite = true → 0 ≤ rv x → rv x ≤ 2 →
      Near r (Real.sin (rv x)) (1 / 2 ^ 22 * Real.sin (rv x) + 1 / 2 ^ 149) := by
    intro x
    by_cases h : 0 ≤ rv x ∧ rv x ≤ 2
    · obtain ⟨r, hr⟩ := near_value (Real.sin_nonneg_of_nonneg_of_le_pi h.1 (by linarith [Real.pi_gt_three, h.2]))
        ((Real.sin_le_one _).trans (by norm_num))
      exact ⟨r, fun _ _ _ => hr⟩
    · exact ⟨⟨0⟩, fun _ h1 h2 => (h ⟨h1, h2⟩).elim⟩
  have k2 : ∀ x : F32, ∃ r : F32, x.isFinite = true → 0 ≤ rv x → rv x ≤ 1 →
      Near r (Real.arccos (rv x)) (1 / 2 ^ 22 * Real.arccos (rv x) + 1 / 2 ^ 149) := by
    intro x
    obtain ⟨r, hr⟩ := near_value (Real.arccos_nonneg (rv x)) ((Real.arccos_le_pi (rv x)).trans (by linarith [Real.pi_le_four]))
    exact ⟨r, fun _ _ _ => hr⟩
  choose f hf using k1
  choose g hg using k2
  exact ⟨⟨fun x _ => x, id, id, f, id, id, g, id, fun x _ => x, fun x _ => x, id, fun _ => false⟩, hf, hg⟩

/-- Non-vacuity: half way from the identity to the half turn about x, on every backend. -/
example (z o h : F32) (fz : z.isFinite = true ∧ rv z = 0) (fo : o.isFinite = true ∧ rv o = 1) (fh : h.isFinite = true ∧ rv h = 1 / 2)
    (k : Backend) : ∃ (T : FltT F32) (C R : V4 ℝ), (C = ⟨1, 0, 0, 0⟩ ∨ C = V4.neg ⟨1, 0, 0, 0⟩) ∧ OnArc ⟨0, 0, 0, 1⟩ C R (1 / 2) ∧
      Near4 (@Quat.slerpOn _ _ T k ⟨z, z, z, o⟩ ⟨o, z, z, z⟩ h) R (54 / 2 ^ 24) := by
  obtain ⟨T, hs, hc⟩ := trigOk_exists
  have nz : Near z 0 0 := ⟨fz.1, by rw [fz.2]; simp⟩
  have no : Near o 1 0 := ⟨fo.1, by rw [fo.2]; simp⟩
  obtain ⟨C, R, h1, -, h3, h4⟩ := slerp_f32 T hs hc k ⟨z, z, z, o⟩ ⟨o, z, z, z⟩ ⟨0, 0, 0, 1⟩ ⟨1, 0, 0, 0⟩ h 0 (by norm_num [UnitQuat])
    (by norm_num [UnitQuat]) ⟨nz, nz, nz, no⟩ ⟨no, nz, nz, nz⟩ (by norm_num) fh.1 (by rw [fh.2]; norm_num) (by rw [fh.2]; norm_num)
  rw [fh.2] at h3
  rw [show (8 * 0 + 54 / 2 ^ 24 : ℝ) = 54 / 2 ^ 24 by norm_num] at h4
  exact ⟨T, C, R, h1, h3, h4⟩

/-- The numbers 0, 1 and 1/2 exist. -/
example : ∃ z o h : F32, (z.isFinite = true ∧ rv z = 0) ∧ (o.isFinite = true ∧ rv o = 1) ∧ (h.isFinite = true ∧ rv h = 1 / 2) :=
  ⟨_, _, _, SatF32.lit0, LenAcc.one_lit, BoxF32.half_lit⟩

/-- The generic model of `slerp` is the one for the SSE4.1 backend. -/
example (T : FltT F32) (a b : V4 F32) (t : F32) : Quat.slerpOn .sse41 a b t = Quat.slerp a b t := rfl

end Verif
