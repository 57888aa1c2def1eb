import Verif.Props.EulerExtract
import Verif.Props.AngleQuat
import Verif.Props.SolidAngleF32
import Verif.Spec.EulerF32
import Mathlib.Analysis.SpecialFunctions.Complex.LogBounds

/-!
# C143: Euler angles read from a quaternion in binary32
-/

namespace Verif
open F32 Flt Spec Real Quaternion

namespace EulerP

/-- The error of an entry of the rotation matrix computed from lanes with the error `e`. -/
noncomputable def dlt (e : ℝ) : ℝ := 8.1 * e + 1e-6

theorem const {r : F32} {q : Rat} (h : r.isFinite = true ∧ r.toRat = q) : Approx r (q : ℝ) 0 := by
  refine ⟨h.1, ?_⟩
  unfold val; rw [h.2]; simp
theorem two_a : Approx (lit 2 : F32) 2 0 := by
  have := const (r := (lit 2 : F32)) (q := 2) (by decide +kernel)
  push_cast at this; exact this
theorem mtwo_a : Approx (lit (-2) : F32) (-2) 0 := by
  have := const (r := (lit (-2) : F32)) (q := -2) (by decide +kernel)
  push_cast at this; exact this
theorem one_a : Approx (lit 1 : F32) 1 0 := by
  have := const (r := (lit 1 : F32)) (q := 1) (by decide +kernel)
  push_cast at this; exact this
theorem mone_a : Approx (lit (-1) : F32) (-1) 0 := by
  have := const (r := (lit (-1) : F32)) (q := -1) (by decide +kernel)
  push_cast at this; exact this
theorem eps_a : Approx (Quat.eps : F32) (1 / 2 ^ 23) 0 := by
  have := const (r := (Quat.eps : F32)) (q := 1 / 2 ^ 23) (by decide +kernel)
  push_cast at this; exact this

theorem prod2 {a b : F32} {x y e : ℝ} (ha : Approx a x e) (hb : Approx b y e) (hx : |x| ≤ 1) (hy : |y| ≤ 1) (he : e ≤ 1e-3) :
    Approx (fmul a b) (x * y) (2.001 * e + 1.01 / 2 ^ 24) := by
  have e0 : 0 ≤ e := (abs_nonneg _).trans ha.2
  have q : e * e ≤ 1e-3 * e := mul_le_mul_of_nonneg_right he e0
  refine (ha.mul hb 1 1 hx hy ?_).mono ?_
  · norm_num at *; linarith
  · unfold ulp; norm_num at *; linarith

theorem sum2 {a b c d : F32} {x y z w e : ℝ} (ha : Approx a x e) (hb : Approx b y e) (hc : Approx c z e) (hd : Approx d w e)
    (hx : |x| ≤ 1) (hy : |y| ≤ 1) (hz : |z| ≤ 1) (hw : |w| ≤ 1) (he : e ≤ 1e-3) :
    Approx (fadd (fmul a b) (fmul c d)) (x * y + z * w) (4.002 * e + 4.1 / 2 ^ 24) ∧
    Approx (fsub (fmul a b) (fmul c d)) (x * y - z * w) (4.002 * e + 4.1 / 2 ^ 24) := by
  have p := prod2 ha hb hx hy he
  have q := prod2 hc hd hz hw he
  have b1 : |x * y| ≤ 1 := by rw [abs_mul]; exact mul_le_one₀ hx (abs_nonneg _) hy
  have b2 : |z * w| ≤ 1 := by rw [abs_mul]; exact mul_le_one₀ hz (abs_nonneg _) hw
  constructor
  · refine (p.add q 2.01 ?_ (by norm_num)).mono ?_
    · have := abs_add_le (x * y) (z * w); norm_num at *; linarith
    · unfold ulp; norm_num at *; linarith
  · refine (p.sub q 2.01 ?_ (by norm_num)).mono ?_
    · have := abs_sub (x * y) (z * w); norm_num at *; linarith
    · unfold ulp; norm_num at *; linarith

/-! ## Angles -/

theorem arg_near {C S c θ d : ℝ} (hC : |C - c * cos θ| ≤ d) (hS : |S - c * sin θ| ≤ d) (hd : 2.9 * d ≤ c) (c0 : 0 < c) :
    ¬ (C = 0 ∧ S = 0) ∧ SameAngle (Complex.arg ⟨C, S⟩) θ (2.2 * d / c) := by
  have d0 : 0 ≤ d := (abs_nonneg _).trans hC
  obtain ⟨z, hz⟩ : ∃ z : ℂ, z = (c : ℂ) * (Complex.cos θ + Complex.sin θ * Complex.I) := ⟨_, rfl⟩
  have nz : ‖z‖ = c := by
    rw [hz, norm_mul, ← Complex.exp_mul_I, Complex.norm_exp_ofReal_mul_I, mul_one, Complex.norm_real, norm_eq_abs, abs_of_pos c0]
  have z0 : z ≠ 0 := by rw [← norm_pos_iff, nz]; exact c0
  have zre : z.re = c * cos θ := by rw [hz]; simp [Complex.cos_ofReal_re, Complex.sin_ofReal_re]
  have zim : z.im = c * sin θ := by rw [hz]; simp [Complex.cos_ofReal_re, Complex.sin_ofReal_re]
  obtain ⟨w, hw⟩ : ∃ w : ℂ, w = ⟨C, S⟩ := ⟨_, rfl⟩
  have hn : ‖w - z‖ ≤ 1.4143 * d := by
    rw [Complex.norm_def, Complex.normSq_apply]
    apply Real.sqrt_le_iff.2
    have a1 : (w - z).re = C - c * cos θ := by rw [Complex.sub_re, zre, hw]
    have a2 : (w - z).im = S - c * sin θ := by rw [Complex.sub_im, zim, hw]
    rw [a1, a2]
    have := abs_le.1 hC
    have := abs_le.1 hS
    refine ⟨by positivity, ?_⟩
    have s1 : (C - c * cos θ) * (C - c * cos θ) ≤ d * d := by nlinarith
    have s2 : (S - c * sin θ) * (S - c * sin θ) ≤ d * d := by nlinarith
    norm_num at *; nlinarith
  obtain ⟨ζ, hζ⟩ : ∃ ζ : ℂ, ζ = (w - z) / z := ⟨_, rfl⟩
  have nζ : ‖ζ‖ ≤ 1.4143 * d / c := by
    rw [hζ, norm_div, nz]; gcongr
  have hhalf : ‖ζ‖ ≤ 1 / 2 := by
    refine nζ.trans ?_
    rw [div_le_iff₀ c0]; norm_num at *; linarith
  have e : w = z * (1 + ζ) := by rw [hζ]; field_simp; ring
  have one0 : (1 : ℂ) + ζ ≠ 0 := by
    intro hc
    have : ζ = -1 := by linear_combination hc
    rw [this] at hhalf; simp at hhalf; norm_num at hhalf
  have w0 : w ≠ 0 := by rw [e]; exact mul_ne_zero z0 one0
  refine ⟨fun h => w0 (by rw [hw, h.1, h.2]; rfl), ?_⟩
  have l := Complex.norm_log_one_add_half_le_self hhalf
  have la : |Complex.arg (1 + ζ)| ≤ 3 / 2 * ‖ζ‖ := by
    rw [← Complex.log_im]; exact (Complex.abs_im_le_norm _).trans l
  have ang : ((Complex.arg w : ℝ) : Real.Angle) = ((θ + Complex.arg (1 + ζ) : ℝ) : Real.Angle) := by
    rw [e, Complex.arg_mul_coe_angle z0 one0, Real.Angle.coe_add]
    congr 1
    rw [hz]
    have := Complex.arg_mul_cos_add_sin_mul_I_coe_angle c0 (θ : Real.Angle)
    rw [Real.Angle.cos_coe, Real.Angle.sin_coe] at this
    rw [← this]; simp
  obtain ⟨n, hn⟩ := Real.Angle.angle_eq_iff_two_pi_dvd_sub.1 ang
  refine ⟨n, ?_⟩
  rw [← hw, show Complex.arg w - θ - 2 * π * n = Complex.arg (1 + ζ) by linarith]
  refine la.trans ?_
  have : 3 / 2 * (1.4143 * d / c) ≤ 2.2 * d / c := by
    rw [← mul_div_assoc]; gcongr ?_ / _; norm_num; linarith
  linarith

theorem SameAngle.add {a b c e f : ℝ} (h : SameAngle a b e) (k : SameAngle b c f) : SameAngle a c (f + e) := by
  obtain ⟨n, hn⟩ := h
  obtain ⟨m, hm⟩ := k
  refine ⟨n + m, ?_⟩
  have := abs_add_le (a - b - 2 * π * n) (b - c - 2 * π * m)
  push_cast
  rw [show a - c - 2 * π * ((n : ℝ) + m) = (a - b - 2 * π * n) + (b - c - 2 * π * m) by ring]
  linarith

theorem asin_near {s y d : ℝ} (hs : |s| ≤ 1) (hy : |y| ≤ π / 2) (h : |s - sin y| ≤ d) :
    |arcsin s - y| * cos y ≤ π * d ∧ |arcsin s - y| ≤ π * √(d / 2) := by
  have d0 : 0 ≤ d := (abs_nonneg _).trans h
  obtain ⟨s1, s2⟩ := abs_le.1 hs
  obtain ⟨y1, y2⟩ := abs_le.1 hy
  have a1 := neg_pi_div_two_le_arcsin s
  have a2 := arcsin_le_pi_div_two s
  have es : sin (arcsin s) = s := sin_arcsin s1 s2
  generalize arcsin s = a at *
  subst es
  have pp := pi_pos
  rw [sin_sub_sin, abs_mul, abs_mul, abs_of_pos (by norm_num : (0 : ℝ) < 2)] at h
  have D0 := abs_nonneg (a - y)
  have D1 : |a - y| ≤ π := abs_le.2 ⟨by linarith, by linarith⟩
  have sD : |a - y| / π ≤ |sin ((a - y) / 2)| := by
    have := mul_le_sin (x := |a - y| / 2) (by linarith) (by linarith)
    have e : |sin ((a - y) / 2)| = sin (|a - y| / 2) := by
      rcases abs_cases (a - y) with ⟨q, _⟩ | ⟨q, _⟩
      · rw [q, abs_of_nonneg]; exact sin_nonneg_of_nonneg_of_le_pi (by linarith) (by linarith)
      · rw [q, neg_div, sin_neg, abs_of_nonpos]; exact sin_nonpos_of_nonpos_of_neg_pi_le (by linarith) (by linarith)
    rw [e]; refine le_trans (le_of_eq ?_) this; field_simp
  have sD' : sin (|a - y| / 2) = |sin ((a - y) / 2)| := by
    rcases abs_cases (a - y) with ⟨q, _⟩ | ⟨q, _⟩
    · rw [q, abs_of_nonneg]; exact sin_nonneg_of_nonneg_of_le_pi (by linarith) (by linarith)
    · rw [q, neg_div, sin_neg, abs_of_nonpos]; exact sin_nonpos_of_nonpos_of_neg_pi_le (by linarith) (by linarith)
  have ca : cos ((a + y) / 2) = cos (|a + y| / 2) := by
    rcases abs_cases (a + y) with ⟨q, _⟩ | ⟨q, _⟩
    · rw [q]
    · rw [q, neg_div, cos_neg]
  have sum : |a + y| + |a - y| ≤ π := by
    rcases abs_cases (a + y) with ⟨q, _⟩ | ⟨q, _⟩ <;> rcases abs_cases (a - y) with ⟨q', _⟩ | ⟨q', _⟩ <;> rw [q, q'] <;> linarith
  have c1 : |sin ((a - y) / 2)| ≤ cos ((a + y) / 2) := by
    rw [ca, ← sD', ← cos_pi_div_two_sub]
    exact cos_le_cos_of_nonneg_of_le_pi (by linarith [abs_nonneg (a + y)]) (by linarith) (by linarith)
  have c2 : cos y / 2 ≤ cos ((a + y) / 2) := by
    have t0 : |a + y| ≤ π / 2 + |y| := by
      have := abs_add_le a y
      have : |a| ≤ π / 2 := abs_le.2 ⟨by linarith, a2⟩
      linarith
    have t1 : cos (π / 4 + |y| / 2) ≤ cos ((a + y) / 2) := by
      rw [ca]
      exact cos_le_cos_of_nonneg_of_le_pi (by linarith [abs_nonneg (a + y)]) (by linarith) (by linarith)
    have t2 : cos (π / 4 + |y| / 2) = sin (π / 4 - |y| / 2) := by
      rw [← cos_pi_div_two_sub]; congr 1; ring
    have t3 : cos y = 2 * sin (π / 4 - |y| / 2) * cos (π / 4 - |y| / 2) := by
      rw [← sin_two_mul, ← cos_abs y, ← sin_pi_div_two_sub]; congr 1; ring
    have t4 : 0 ≤ sin (π / 4 - |y| / 2) := sin_nonneg_of_nonneg_of_le_pi (by linarith) (by linarith [abs_nonneg y])
    have t5 := cos_le_one (π / 4 - |y| / 2)
    nlinarith
  have c0 : 0 ≤ cos ((a + y) / 2) := (abs_nonneg _).trans c1
  rw [abs_of_nonneg c0] at h
  have cy : 0 ≤ cos y := cos_nonneg_of_mem_Icc ⟨by linarith, y2⟩
  have q0 : 0 ≤ |a - y| / π := by positivity
  constructor
  · have m : 2 * (|a - y| / π) * (cos y / 2) ≤ d := by
      refine le_trans ?_ h
      exact mul_le_mul (by linarith) c2 (by linarith) (by positivity)
    have e : |a - y| * cos y = π * (2 * (|a - y| / π) * (cos y / 2)) := by field_simp
    rw [e]; exact mul_le_mul_of_nonneg_left m pp.le
  · have m : 2 * (|a - y| / π) * (|a - y| / π) ≤ d := by
      refine le_trans ?_ h
      exact mul_le_mul (by linarith) (sD.trans c1) q0 (by positivity)
    have : |a - y| / π ≤ √(d / 2) := Real.le_sqrt_of_sq_le (by rw [sq]; linarith)
    rw [div_le_iff₀ pp] at this
    linarith

/-! ## The entries -/

theorem off {k a b c d : F32} {x y z w e K : ℝ} (hk : Approx k K 0) (hK : |K| = 2) (ha : Approx a x e) (hb : Approx b y e) (hc : Approx c z e) (hd : Approx d w e)
    (hx : |x| ≤ 1) (hy : |y| ≤ 1) (hz : |z| ≤ 1) (hw : |w| ≤ 1) (he : e ≤ 1e-3) :
    Approx (fmul k (fadd (fmul a b) (fmul c d))) (K * (x * y + z * w)) (dlt e) ∧
    Approx (fmul k (fsub (fmul a b) (fmul c d))) (K * (x * y - z * w)) (dlt e) := by
  obtain ⟨p, m⟩ := sum2 ha hb hc hd hx hy hz hw he
  have e0 : 0 ≤ e := (abs_nonneg _).trans ha.2
  have b1 : |x * y| ≤ 1 := by rw [abs_mul]; exact mul_le_one₀ hx (abs_nonneg _) hy
  have b2 : |z * w| ≤ 1 := by rw [abs_mul]; exact mul_le_one₀ hz (abs_nonneg _) hw
  constructor
  · refine (hk.mul p 2 2 hK.le ((abs_add_le _ _).trans (by linarith)) ?_).mono ?_
    · norm_num at *; linarith
    · unfold ulp dlt; norm_num at *; linarith
  · refine (hk.mul m 2 2 hK.le ((abs_sub _ _).trans (by linarith)) ?_).mono ?_
    · norm_num at *; linarith
    · unfold ulp dlt; norm_num at *; linarith

theorem diag {a b c d : F32} {x y z w e : ℝ} (ha : Approx a x e) (hb : Approx b y e) (hc : Approx c z e) (hd : Approx d w e)
    (hx : |x| ≤ 1) (hy : |y| ≤ 1) (hz : |z| ≤ 1) (hw : |w| ≤ 1) (he : e ≤ 1e-3) :
    Approx (fadd (fsub (fsub (fmul a a) (fmul b b)) (fmul c c)) (fmul d d)) (x * x - y * y - z * z + w * w) (dlt e) ∧
    Approx (fsub (fsub (fadd (fmul a a) (fmul b b)) (fmul c c)) (fmul d d)) (x * x + y * y - z * z - w * w) (dlt e) := by
  obtain ⟨p, m⟩ := sum2 ha ha hb hb hx hx hy hy he
  have q := prod2 hc hc hz hz he
  have s := prod2 hd hd hw hw he
  have e0 : 0 ≤ e := (abs_nonneg _).trans ha.2
  have sq1 : ∀ t : ℝ, |t| ≤ 1 → 0 ≤ t * t ∧ t * t ≤ 1 := fun t ht => ⟨mul_self_nonneg t, by
    rw [← abs_mul_abs_self]; exact mul_le_one₀ ht (abs_nonneg _) ht⟩
  obtain ⟨x0, x1⟩ := sq1 x hx
  obtain ⟨y0, y1⟩ := sq1 y hy
  obtain ⟨z0, z1⟩ := sq1 z hz
  obtain ⟨w0, w1⟩ := sq1 w hw
  constructor
  · have r1 := (m.sub q 2.01 (by
      have : |x * x - y * y - z * z| ≤ 2 := abs_le.2 ⟨by linarith, by linarith⟩
      norm_num at *; linarith) (by norm_num)).mono (e' := 6.003 * e + 7.2 / 2 ^ 24) (by unfold ulp; norm_num at *; linarith)
    refine (r1.add s 2.02 ?_ (by norm_num)).mono ?_
    · have : |x * x - y * y - z * z + w * w| ≤ 2 := abs_le.2 ⟨by linarith, by linarith⟩
      norm_num at *; linarith
    · unfold ulp dlt; norm_num at *; linarith
  · have r1 := (p.sub q 2.01 (by
      have : |x * x + y * y - z * z| ≤ 2 := abs_le.2 ⟨by linarith, by linarith⟩
      norm_num at *; linarith) (by norm_num)).mono (e' := 6.003 * e + 7.2 / 2 ^ 24) (by unfold ulp; norm_num at *; linarith)
    refine (r1.sub s 2.02 ?_ (by norm_num)).mono ?_
    · have : |x * x + y * y - z * z - w * w| ≤ 2 := abs_le.2 ⟨by linarith, by linarith⟩
      norm_num at *; linarith
    · unfold ulp dlt; norm_num at *; linarith

theorem turns (p y r : ℝ) : eulerTurn p y r = toQ (Quat.fromEulerAngles sinCosR ⟨p, y, r, 0⟩) := by
  unfold eulerTurn
  apply Quaternion.ext <;> simp only [Quaternion.imI_mul, Quaternion.imJ_mul, Quaternion.imK_mul, Quaternion.re_mul] <;>
    simp [turn, toQ, vec, sinCosR, div_eq_mul_inv] <;> ring

/-- The lanes of a float quaternion near a rotation given by Euler angles. -/
theorem lanes {q : V4 F32} {p y r e : ℝ} (h : NearQ q (eulerTurn p y r) e) : ∃ Q : V4 ℝ,
    (Approx q.x Q.x e ∧ Approx q.y Q.y e ∧ Approx q.z Q.z e ∧ Approx q.w Q.w e) ∧ (|Q.x| ≤ 1 ∧ |Q.y| ≤ 1 ∧ |Q.z| ≤ 1 ∧ |Q.w| ≤ 1) ∧
    2 * (Q.y * Q.z + Q.w * Q.x) = cos y * sin p ∧ Q.w * Q.w - Q.x * Q.x - Q.y * Q.y + Q.z * Q.z = cos y * cos p ∧
    -2 * (Q.x * Q.z - Q.w * Q.y) = sin y ∧ 2 * (Q.x * Q.y + Q.w * Q.z) = cos y * sin r ∧
    Q.w * Q.w + Q.x * Q.x - Q.y * Q.y - Q.z * Q.z = cos y * cos r := by
  rw [turns] at h
  have en := Euler.entries ⟨p, y, r, 0⟩
  have un : UnitQuat _ := (euler_spec ⟨p, y, r, 0⟩).2
  generalize Quat.fromEulerAngles sinCosR ⟨p, y, r, 0⟩ = Q at *
  refine ⟨Q, ⟨h.1.1, h.1.2.1, h.1.2.2, h.2⟩, ?_, en⟩
  unfold UnitQuat at un
  have b : ∀ t : ℝ, t ^ 2 ≤ 1 → |t| ≤ 1 := fun t ht => abs_le_one_iff_mul_self_le_one.2 (by rw [← sq]; exact ht)
  have := sq_nonneg Q.x
  have := sq_nonneg Q.y
  have := sq_nonneg Q.z
  have := sq_nonneg Q.w
  exact ⟨b _ (by linarith), b _ (by linarith), b _ (by linarith), b _ (by linarith)⟩

/-- `std::clamp` to the unit interval around zero. -/
theorem unit_clamp {v : F32} {s d : ℝ} (h : Approx v s d) (hs : |s| ≤ 1) :
    |(stdClamp v (lit (-1)) (lit 1) : F32).val| ≤ 1 ∧ Approx (stdClamp v (lit (-1)) (lit 1)) s d := by
  obtain ⟨s1, s2⟩ := abs_le.1 hs
  obtain ⟨h1, h2⟩ := abs_le.1 h.2
  have o := one_a
  have m := mone_a
  have eo := o.eq
  have em := m.eq
  have c1 : (v <. (lit (-1) : F32)) = true ↔ v.val < -1 := by
    rw [← em, show ((v <. (lit (-1) : F32)) = true ↔ v.toRat < (lit (-1) : F32).toRat) from ltb_finite h.1 m.1]
    unfold val; exact_mod_cast Iff.rfl
  have c2 : ((lit 1 : F32) <. v) = true ↔ 1 < v.val := by
    rw [← eo, show (((lit 1 : F32) <. v) = true ↔ (lit 1 : F32).toRat < v.toRat) from ltb_finite o.1 h.1]
    unfold val; exact_mod_cast Iff.rfl
  unfold stdClamp
  by_cases k1 : v.val < -1
  · rw [if_pos (c1.2 k1), em]
    exact ⟨by norm_num, m.1, by rw [em, abs_le]; constructor <;> linarith⟩
  · rw [if_neg (mt c1.1 k1)]
    by_cases k2 : 1 < v.val
    · rw [if_pos (c2.2 k2), eo]
      exact ⟨by norm_num, o.1, by rw [eo, abs_le]; constructor <;> linarith⟩
    · rw [if_neg (mt c2.1 k2)]
      exact ⟨abs_le.2 ⟨by linarith, by linarith⟩, h⟩

end EulerP

open EulerP

/-- C143: the yaw read from a float quaternion near the rotation with the given Euler angles: the error grows with the secant
of the yaw, but never beyond a root of the error of the entries. -/
theorem extractYaw_f32 (T : FltT F32) (hT : AsinOk T.asin) (q : V4 F32) (p y r e : ℝ) (he : e ≤ 1e-3) (hq : NearQ q (eulerTurn p y r) e)
    (hy : |y| ≤ π / 2) :
    Near (Quat.extractYaw q) y (π * √((8.1 * e + 1e-6) / 2) + 1 / 2 ^ 21) ∧
    (0 < cos y → Near (Quat.extractYaw q) y (π * (8.1 * e + 1e-6) / cos y + 1 / 2 ^ 21)) := by
  obtain ⟨Q, ⟨ax, ay, az, aw⟩, ⟨bx, bY, bz, bw⟩, -, -, es, -, -⟩ := lanes hq
  have v := (off mtwo_a (by norm_num) ax az aw ay bx bz bw bY he).2
  rw [es] at v
  obtain ⟨c1, c2⟩ := unit_clamp v (abs_sin_le_one y)
  have f := hT _ c2.1 c1
  obtain ⟨n1, n2⟩ := asin_near c1 hy c2.2
  have hd : 8.1 * e + 1e-6 = dlt e := rfl
  rw [hd]
  change (T.asin _).isFinite = true ∧ |rv (T.asin _) - arcsin (val _)| ≤ _ at f
  have key : ∀ B, |arcsin (stdClamp (fmul (lit (-2)) (fsub (fmul q.x q.z) (fmul q.w q.y))) (lit (-1)) (lit 1)).val - y| ≤ B →
      Near (Quat.extractYaw q) y (B + 1 / 2 ^ 21) := by
    intro B hB
    refine ⟨f.1, ?_⟩
    have := abs_add_le (rv (T.asin (stdClamp (fmul (lit (-2)) (fsub (fmul q.x q.z) (fmul q.w q.y))) (lit (-1)) (lit 1))) -
      arcsin (stdClamp (fmul (lit (-2)) (fsub (fmul q.x q.z) (fmul q.w q.y))) (lit (-1)) (lit 1)).val)
      (arcsin (stdClamp (fmul (lit (-2)) (fsub (fmul q.x q.z) (fmul q.w q.y))) (lit (-1)) (lit 1)).val - y)
    rw [sub_add_sub_cancel] at this
    exact this.trans (by linarith [f.2])
  exact ⟨key _ n2, fun c0 => key _ (by rw [le_div_iff₀ c0]; exact n1)⟩

/-- C143: the roll, short of gimbal lock. -/
theorem extractRoll_f32 (T : FltT F32) (hT : Atan2Ok T.atan2) (q : V4 F32) (p y r e : ℝ) (he : e ≤ 1e-3) (hq : NearQ q (eulerTurn p y r) e)
    (hy : 2.9 * (8.1 * e + 1e-6) ≤ cos y) :
    (Quat.extractRoll q).isFinite = true ∧ SameAngle (rv (Quat.extractRoll q)) r (2.2 * (8.1 * e + 1e-6) / cos y + 1 / 2 ^ 20) := by
  obtain ⟨Q, ⟨ax, ay, az, aw⟩, ⟨bx, bY, bz, bw⟩, -, -, -, es, ec⟩ := lanes hq
  have e0 : 0 ≤ e := (abs_nonneg _).trans ax.2
  have v := (off two_a (by norm_num) ax ay aw az bx bY bw bz he).1
  have u := (diag aw ax ay az bw bx bY bz he).2
  rw [es] at v
  rw [ec] at u
  obtain ⟨n0, n1⟩ := arg_near u.2 v.2 hy (by norm_num at *; linarith)
  have f := hT _ _ v.1 u.1 n0
  exact ⟨f.1, SameAngle.add f.2 n1⟩

/-- C143 (partial): the pitch, short of gimbal lock and where the two entries it is computed from are clearly above
FLT_EPSILON. Missing: the other angles, where `extractPitch_wrong` (C123) shows that it is not the pitch. -/
theorem extractPitch_f32_partial (T : FltT F32) (hT : Atan2Ok T.atan2) (q : V4 F32) (p y r e : ℝ) (he : e ≤ 1e-3)
    (hq : NearQ q (eulerTurn p y r) e) (hy : 2.9 * (8.1 * e + 1e-6) ≤ cos y)
    (hs : 8.1 * e + 1.2e-6 ≤ |cos y * sin p|) (hc : 8.1 * e + 1.2e-6 ≤ |cos y * cos p|) :
    (Quat.extractPitch q).isFinite = true ∧ SameAngle (rv (Quat.extractPitch q)) p (2.2 * (8.1 * e + 1e-6) / cos y + 1 / 2 ^ 20) := by
  obtain ⟨Q, ⟨ax, ay, az, aw⟩, ⟨bx, bY, bz, bw⟩, es, ec, -, -, -⟩ := lanes hq
  have e0 : 0 ≤ e := (abs_nonneg _).trans ax.2
  have v := (off two_a (by norm_num) ay az aw ax bY bz bw bx he).1
  have u := (diag aw ax ay az bw bx bY bz he).1
  rw [es] at v
  rw [ec] at u
  obtain ⟨n0, n1⟩ := arg_near u.2 v.2 hy (by norm_num at *; linarith)
  have f := hT _ _ v.1 u.1 n0
  have big : ∀ {a : F32} {x : ℝ}, Approx a x (dlt e) → 8.1 * e + 1.2e-6 ≤ |x| → ¬ (Flt.abs a <=. (Quat.eps : F32)) = true := by
    intro a x ha hx hc
    have ep := eps_a
    have fa : (fabs a).isFinite = true := (F32x4.fabs_val a ha.1).1
    have h1 := (leb_finite fa ep.1).1 hc
    have h2 : (fabs a).val ≤ (Quat.eps : F32).val := by unfold val; exact_mod_cast h1
    rw [ep.eq, (F32x4.fabs_val a ha.1).2] at h2
    have := abs_sub_abs_le_abs_sub x a.val
    rw [abs_sub_comm] at this
    have := ha.2
    unfold dlt at this
    norm_num at *; linarith
  have g : Quat.extractPitch q = T.atan2 (fmul (lit 2) (fadd (fmul q.y q.z) (fmul q.w q.x)))
      (fadd (fsub (fsub (fmul q.w q.w) (fmul q.x q.x)) (fmul q.y q.y)) (fmul q.z q.z)) := by
    unfold Quat.extractPitch
    dsimp only
    rw [if_neg]
    · rfl
    · rw [Bool.or_eq_true, not_or]
      exact ⟨big u hc, big v hs⟩
  rw [g]
  exact ⟨f.1, SameAngle.add f.2 n1⟩

/-- C143 (partial): Euler angles in binary32 put into a quaternion and read again. Missing: the pitch where its guard fires. -/
theorem euler_readback_f32_partial (T : FltT F32) (hA : AsinOk T.asin) (hT : Atan2Ok T.atan2) (t : FTarget) (a : V4 F32)
    (fa : AllFinite a.xyz.toList) (ha : ∀ x ∈ a.xyz.toList, |rv x| ≤ 16000) (hy : |rv a.y| ≤ π / 2) (hc : 1e-4 ≤ cos (rv a.y)) :
    Near (Quat.extractYaw (Quat.fromEulerAngles (F32x4.sinCos1 t) a)) (rv a.y) (4.7e-5 / cos (rv a.y) + 1 / 2 ^ 21) ∧
    SameAngle (rv (Quat.extractRoll (Quat.fromEulerAngles (F32x4.sinCos1 t) a))) (rv a.z) (3.3e-5 / cos (rv a.y) + 1 / 2 ^ 20) ∧
    (1.5e-5 ≤ |cos (rv a.y) * sin (rv a.x)| → 1.5e-5 ≤ |cos (rv a.y) * cos (rv a.x)| →
      SameAngle (rv (Quat.extractPitch (Quat.fromEulerAngles (F32x4.sinCos1 t) a))) (rv a.x) (3.3e-5 / cos (rv a.y) + 1 / 2 ^ 20)) := by
  have q := euler_f32 t a fa ha
  change NearQ _ (eulerTurn (rv a.x) (rv a.y) (rv a.z)) _ at q
  have c0 : 0 < cos (rv a.y) := by norm_num at hc; linarith
  have grow : ∀ {x b : ℝ} {A B : ℝ}, SameAngle x b A → A ≤ B → SameAngle x b B := fun ⟨n, hn⟩ h => ⟨n, hn.trans h⟩
  have k1 : 2.2 * (8.1 * 1.7e-6 + 1e-6) / cos (rv a.y) + 1 / 2 ^ 20 ≤ 3.3e-5 / cos (rv a.y) + 1 / 2 ^ 20 := by
    gcongr; norm_num
  have k2 : π * (8.1 * 1.7e-6 + 1e-6) / cos (rv a.y) + 1 / 2 ^ 21 ≤ 4.7e-5 / cos (rv a.y) + 1 / 2 ^ 21 := by
    have := pi_lt_d2
    gcongr; norm_num at *; linarith
  have e1 : (1.7e-6 : ℝ) ≤ 1e-3 := by norm_num
  have e2 : 2.9 * (8.1 * 1.7e-6 + 1e-6) ≤ cos (rv a.y) := by norm_num at *; linarith
  refine ⟨Approx.mono ((extractYaw_f32 T hA _ _ _ _ _ e1 q hy).2 c0) k2, grow (extractRoll_f32 T hT _ _ _ _ _ e1 q e2).2 k1, ?_⟩
  intro h1 h2
  exact grow (extractPitch_f32_partial T hT _ _ _ _ _ e1 q e2 (by norm_num at *; linarith) (by norm_num at *; linarith)).2 k1

private theorem near_value {y : ℝ} (h2 : |y| ≤ 2 ^ 40) : ∃ r : F32, Near r y (1 / 2 ^ 22 * |y| + 1 / 2 ^ 149) := by
  by_cases hy : y = 0
  · subst hy
    refine ⟨ofRat 0, SatF32.lit0.1, ?_⟩
    change |(ofRat 0).val - 0| ≤ _
    rw [SatF32.lit0.2]; norm_num
  have hp : 0 < |y| := abs_pos.2 hy
  obtain ⟨q, q1, q2⟩ := exists_rat_btwn (show y < y + |y| / 2 ^ 24 by linarith [show 0 < |y| / 2 ^ 24 by positivity])
  have qa : |(q : ℝ)| ≤ 2 * |y| := by
    have := abs_add_le ((q : ℝ) - y) y
    rw [sub_add_cancel, abs_of_pos (show 0 < (q : ℝ) - y by linarith)] at this
    norm_num at *; linarith
  have a := lit_approx q (2 * |y|) qa (by norm_num at *; linarith)
  refine ⟨_, a.1, ?_⟩
  have a2 := abs_le.1 a.2
  change |F32.val _ - _| ≤ _
  have u : ulp (2 * |y|) ≤ |y| / 2 ^ 23 + 1 / 2 ^ 149 := by unfold ulp; norm_num at *; linarith
  obtain ⟨a3, a4⟩ := a2
  rw [abs_le]; norm_num at *; constructor <;> linarith

/-- Functions that meet the assumptions about `asin` and `atan2`. -/
theorem atan2Ok_exists : ∃ T : FltT F32, AsinOk T.asin ∧ Atan2Ok T.atan2 := by
  have k : ∀ v : ℝ, |v| ≤ π → ∃ r : F32, Near r v (1 / 2 ^ 22 * |v| + 1 / 2 ^ 149) := by
    intro v hv
    exact near_value (hv.trans (by have := Real.pi_le_four; norm_num; linarith))
  have a : ∀ y x : F32, ∃ r : F32, Near r (Complex.arg ⟨rv x, rv y⟩) (1 / 2 ^ 20) := by
    intro y x
    obtain ⟨r, hr⟩ := k _ (Complex.abs_arg_le_pi ⟨rv x, rv y⟩)
    have := Complex.abs_arg_le_pi ⟨rv x, rv y⟩
    have := pi_lt_d2
    exact ⟨r, Approx.mono hr (by norm_num at *; linarith)⟩
  have b : ∀ x : F32, ∃ r : F32, Near r (Real.arcsin (rv x)) (1 / 2 ^ 21) := by
    intro x
    have h : |Real.arcsin (rv x)| ≤ π / 2 := abs_le.2 ⟨Real.neg_pi_div_two_le_arcsin _, Real.arcsin_le_pi_div_two _⟩
    have := pi_pos
    obtain ⟨r, hr⟩ := k _ (h.trans (by linarith))
    have := pi_lt_d2
    exact ⟨r, Approx.mono hr (by norm_num at *; linarith)⟩
  choose f hf using a
  choose g hg using b
  refine ⟨⟨fun x _ => x, id, id, id, id, id, id, g, f, fun x _ => x, id, fun _ => false⟩, fun x _ _ => hg x, fun y x _ _ _ => ⟨(hf y x).1, 0, ?_⟩⟩
  simpa using (hf y x).2

/-- Non-vacuity: a yaw of one half with a pitch of one and a roll of 12, almost two turns. -/
example : ∃ T : FltT F32, ∀ t, SameAngle (rv (Quat.extractRoll (Quat.fromEulerAngles (F32x4.sinCos1 t) (⟨lit 1, lit 0.5, lit 12, lit 0⟩ : V4 F32)))) 12 5e-5 := by
  obtain ⟨T, hA, hT⟩ := atan2Ok_exists
  refine ⟨T, fun t => ?_⟩
  have h1 := one_a
  have h2 := const (r := (lit 0.5 : F32)) (q := 0.5) (by decide +kernel)
  have h3 := const (r := (lit 12 : F32)) (q := 12) (by decide +kernel)
  have e1 : rv (lit 1 : F32) = 1 := h1.eq
  have e2 : rv (lit 0.5 : F32) = 1/2 := h2.eq.trans (by norm_num)
  have e3 : rv (lit 12 : F32) = 12 := by have := h3.eq; push_cast at this; exact this
  have f1 := h1.1
  have f2 := h2.1
  have f3 := h3.1
  clear h1 h2 h3
  generalize (lit 1 : F32) = a1 at *
  generalize (lit 0.5 : F32) = a2 at *
  generalize (lit 12 : F32) = a3 at *
  generalize (lit 0 : F32) = a0 at *
  have c : (7/8 : ℝ) ≤ cos (1/2) := by have := one_sub_sq_div_two_le_cos (x := 1/2); norm_num at *; linarith
  obtain ⟨-, ⟨n, hn⟩, -⟩ := euler_readback_f32_partial T hA hT t ⟨a1, a2, a3, a0⟩
    (by intro x hx; simp only [V4.xyz, V3.toList, List.mem_cons, List.not_mem_nil, or_false] at hx; rcases hx with rfl | rfl | rfl <;> assumption)
    (by
      intro x hx; simp only [V4.xyz, V3.toList, List.mem_cons, List.not_mem_nil, or_false] at hx
      rcases hx with rfl | rfl | rfl
      exacts [by rw [e1]; norm_num, by rw [e2]; norm_num, by rw [e3]; norm_num])
    (by change |rv a2| ≤ _; rw [e2, abs_of_pos (by norm_num)]; have := pi_gt_three; linarith)
    (by change _ ≤ cos (rv a2); rw [e2]; norm_num at *; linarith)
  change |_ - rv a3 - _| ≤ 3.3e-5 / cos (rv a2) + _ at hn
  rw [e3, e2] at hn
  refine ⟨n, hn.trans ?_⟩
  have : 3.3e-5 / cos (1/2) ≤ 3.3e-5 / (7/8) := by gcongr
  norm_num at *; linarith

end Verif
