import Verif.Props.Place
import Verif.Props.Transform
import Verif.Spec.Camera

/-!
# C115: cameras in binary32
-/

namespace Verif
open F32 Spec Matrix Quaternion VecAcc ProductsP RotateP PlaceP

namespace CamP

/-! ## Vectors as pure quaternions -/

/-- The cross product of the imaginary parts. -/
noncomputable def cr (a b : ℍ[ℝ]) : ℍ[ℝ] :=
  ⟨0, a.imJ * b.imK - a.imK * b.imJ, a.imK * b.imI - a.imI * b.imK, a.imI * b.imJ - a.imJ * b.imI⟩
@[simp] theorem cr_re (a b : ℍ[ℝ]) : (cr a b).re = 0 := rfl
@[simp] theorem cr_imI (a b : ℍ[ℝ]) : (cr a b).imI = a.imJ * b.imK - a.imK * b.imJ := rfl
@[simp] theorem cr_imJ (a b : ℍ[ℝ]) : (cr a b).imJ = a.imK * b.imI - a.imI * b.imK := rfl
@[simp] theorem cr_imK (a b : ℍ[ℝ]) : (cr a b).imK = a.imI * b.imJ - a.imJ * b.imI := rfl
/-- The components in absolute value. -/
noncomputable def mag (a : ℍ[ℝ]) : ℍ[ℝ] := ⟨|a.re|, |a.imI|, |a.imJ|, |a.imK|⟩
/-- The scalar product of the imaginary parts. -/
noncomputable def dt (a b : ℍ[ℝ]) : ℝ := a.imI * b.imI + a.imJ * b.imJ + a.imK * b.imK

theorem cr_sq (a b : ℍ[ℝ]) : ‖cr a b‖ ^ 2 = (a.imI ^ 2 + a.imJ ^ 2 + a.imK ^ 2) * (b.imI ^ 2 + b.imJ ^ 2 + b.imK ^ 2) - dt a b ^ 2 := by
  rw [norm_sq]; simp only [cr, dt]; ring

theorem im_sq_le (a : ℍ[ℝ]) : a.imI ^ 2 + a.imJ ^ 2 + a.imK ^ 2 ≤ ‖a‖ ^ 2 := by
  rw [norm_sq]; linarith [sq_nonneg a.re]

theorem cr_le (a b : ℍ[ℝ]) : ‖cr a b‖ ≤ ‖a‖ * ‖b‖ := by
  refine le_of_sq_le_sq ?_ (by positivity)
  rw [cr_sq, mul_pow]
  have := mul_le_mul (im_sq_le a) (im_sq_le b) (by positivity) (by positivity)
  linarith [sq_nonneg (dt a b)]

theorem dt_le (a b : ℍ[ℝ]) : |dt a b| ≤ ‖a‖ * ‖b‖ := by
  refine le_of_sq_le_sq ?_ (by positivity)
  rw [sq_abs, mul_pow]
  have := mul_le_mul (im_sq_le a) (im_sq_le b) (by positivity) (by positivity)
  linarith [cr_sq a b, sq_nonneg ‖cr a b‖]

theorem mag_norm (a : ℍ[ℝ]) : ‖mag a‖ = ‖a‖ := by
  rw [← sq_eq_sq₀ (norm_nonneg _) (norm_nonneg _), norm_sq, norm_sq]; simp [mag]

theorem cr_sub (a b c d : ℍ[ℝ]) : cr a b - cr c d = cr (a - c) b + cr c (b - d) := by
  ext <;> simp <;> ring

theorem dt_sub (a b c : ℍ[ℝ]) : dt a b - dt c b = dt (a - c) b := by
  simp [dt]; ring

theorem cr_smul (r : ℝ) (a b : ℍ[ℝ]) : cr a (r • b) = r • cr a b := by
  ext <;> simp <;> ring

/-- A pure quaternion with components at most `e`. -/
theorem norm_le3 {q : ℍ[ℝ]} {e : ℝ} (h0 : q.re = 0) (h1 : |q.imI| ≤ e) (h2 : |q.imJ| ≤ e) (h3 : |q.imK| ≤ e) :
    ‖q‖ ≤ 7 / 4 * e := by
  have e0 := (abs_nonneg _).trans h1
  refine le_of_sq_le_sq ?_ (by linarith)
  rw [norm_sq, h0]
  have s : ∀ x : ℝ, |x| ≤ e → x ^ 2 ≤ e ^ 2 := fun x h => by rw [← sq_abs]; gcongr
  nlinarith [s _ h1, s _ h2, s _ h3, sq_nonneg e]

/-- A pure quaternion with components at most `c` times those of a unit vector, plus `e`. -/
theorem norm_le_rel {q y : ℍ[ℝ]} {c e : ℝ} (hc : 0 ≤ c) (he : 0 ≤ e) (h0 : q.re = 0) (hy : ‖y‖ = 1) (h1 : |q.imI| ≤ c * |y.imI| + e)
    (h2 : |q.imJ| ≤ c * |y.imJ| + e) (h3 : |q.imK| ≤ c * |y.imK| + e) : ‖q‖ ≤ c + 2 * e := by
  refine le_of_sq_le_sq ?_ (by linarith)
  rw [norm_sq, h0]
  have s : ∀ x z : ℝ, |x| ≤ c * |z| + e → x ^ 2 ≤ c ^ 2 * z ^ 2 + 2 * (c * e) * |z| + e ^ 2 := fun x z h => by
    rw [← sq_abs]
    have : |x| ^ 2 ≤ (c * |z| + e) ^ 2 := by gcongr
    have hz := sq_abs z
    nlinarith
  have hs := im_sq_le y
  rw [hy] at hs
  have l : |y.imI| + |y.imJ| + |y.imK| ≤ 2 := by
    rw [← sq_abs y.imI, ← sq_abs y.imJ, ← sq_abs y.imK] at hs
    nlinarith [sq_nonneg (|y.imI| - |y.imJ|), sq_nonneg (|y.imI| - |y.imK|), sq_nonneg (|y.imJ| - |y.imK|), abs_nonneg y.imI,
      abs_nonneg y.imJ, abs_nonneg y.imK]
  have p1 := mul_le_mul_of_nonneg_left l (mul_nonneg hc he)
  have p2 := mul_le_mul_of_nonneg_left hs (sq_nonneg c)
  nlinarith [s _ _ h1, s _ _ h2, s _ _ h3, sq_nonneg e]

/-- Dividing by the length. -/
theorem unit_norm {a : ℍ[ℝ]} (h : 0 < ‖a‖) : ‖‖a‖⁻¹ • a‖ = 1 := by
  rw [norm_smul, norm_inv, norm_norm]; exact inv_mul_cancel₀ h.ne'

theorem unit_close {a b : ℍ[ℝ]} (ha : 0 < ‖a‖) (hb : 0 < ‖b‖) : ‖‖a‖⁻¹ • a - ‖b‖⁻¹ • b‖ ≤ 2 * ‖a - b‖ / ‖b‖ := by
  have e : ‖a‖⁻¹ • a - ‖b‖⁻¹ • b = ‖b‖⁻¹ • (a - b) + ((‖b‖ - ‖a‖) / ‖b‖) • (‖a‖⁻¹ • a) := by
    rw [smul_smul, smul_sub, show (‖b‖ - ‖a‖) / ‖b‖ * ‖a‖⁻¹ = ‖a‖⁻¹ - ‖b‖⁻¹ by field_simp, sub_smul]
    abel
  rw [e]
  refine (norm_add_le _ _).trans ?_
  rw [norm_smul, norm_smul ((‖b‖ - ‖a‖) / ‖b‖), unit_norm ha, norm_div, norm_inv, norm_norm, Real.norm_eq_abs]
  have : |‖b‖ - ‖a‖| ≤ ‖a - b‖ := by rw [abs_sub_comm]; exact abs_norm_sub_norm_le a b
  have h2 : |‖b‖ - ‖a‖| / ‖b‖ ≤ ‖a - b‖ / ‖b‖ := by gcongr
  rw [show 2 * ‖a - b‖ / ‖b‖ = ‖b‖⁻¹ * ‖a - b‖ + ‖a - b‖ / ‖b‖ by field_simp; ring]
  linarith

/-! ## The steps in binary32 -/

theorem pure_re (v : V4 F32) : (pureOf v).re = 0 := rfl

theorem normSq_xyz (v : V4 F32) : normSq v.xyz.toList = ‖pureOf v‖ ^ 2 := by
  rw [pure_sq]; simp [Spec.normSq, V4.xyz, V3.toList]; ring

theorem fin_xyz3 {v : V4 F32} (h1 : v.x.isFinite = true) (h2 : v.y.isFinite = true) (h3 : v.z.isFinite = true) :
    AllFinite v.xyz.toList := by
  intro x hx
  simp [V4.xyz, V3.toList] at hx
  rcases hx with rfl | rfl | rfl <;> assumption

/-- `normalize3`. -/
theorem unit_step (k : Backend) {v : V4 F32} (fv : AllFinite v.xyz.toList) (h1 : 1 / 2 ^ 50 ≤ ‖pureOf v‖) (h2 : ‖pureOf v‖ ≤ 2 ^ 62) :
    AllFinite (k.normalize3 v).xyz.toList ∧ ‖pureOf (k.normalize3 v) - ‖pureOf v‖⁻¹ • pureOf v‖ ≤ 61 / 10 / 2 ^ 24 := by
  have hp : 0 < ‖pureOf v‖ := lt_of_lt_of_le (by positivity) h1
  have h := normalize_accuracy.2.2.2.1 k v fv (by
      rw [normSq_xyz]
      calc (1 : ℝ) / 2 ^ 100 = (1 / 2 ^ 50) ^ 2 := by norm_num
        _ ≤ _ := by gcongr) (by
      rw [normSq_xyz]
      calc ‖pureOf v‖ ^ 2 ≤ (2 ^ 62) ^ 2 := by gcongr
        _ ≤ _ := by norm_num)
  rw [normSq_xyz, Real.sqrt_sq hp.le] at h
  simp only [V4.xyz, V3.toList, List.forall₂_cons, List.forall₂_nil_left_iff, and_true] at h
  obtain ⟨⟨f1, g1⟩, ⟨f2, g2⟩, ⟨f3, g3⟩⟩ := h
  refine ⟨fin_xyz3 f1 f2 f3, ?_⟩
  have := norm_le_rel (q := pureOf (k.normalize3 v) - ‖pureOf v‖⁻¹ • pureOf v) (y := ‖pureOf v‖⁻¹ • pureOf v) (c := 6 / 2 ^ 24)
    (e := 1 / 2 ^ 149) (by positivity) (by positivity) (by simp [pureOf]) (unit_norm hp)
    (by simpa [pureOf, div_eq_inv_mul] using g1) (by simpa [pureOf, div_eq_inv_mul] using g2) (by simpa [pureOf, div_eq_inv_mul] using g3)
  exact this.trans (by norm_num)

/-- `to - from`. -/
theorem diff_step {a b : V4 F32} (fa : AllFinite a.xyz.toList) (fb : AllFinite b.xyz.toList) (h : ‖pureOf a - pureOf b‖ ≤ 2 ^ 100) :
    AllFinite (V4.sub a b).xyz.toList ∧ ‖pureOf (V4.sub a b) - (pureOf a - pureOf b)‖ ≤ 1 / 2 ^ 24 * ‖pureOf a - pureOf b‖ := by
  obtain ⟨a1, a2, a3⟩ := fin3 fa
  obtain ⟨b1, b2, b3⟩ := fin3 fb
  obtain ⟨i1, i2, i3⟩ := im_le (pureOf a - pureOf b)
  have c : (2 : ℝ) ^ 100 < 2 ^ 127 := by norm_num
  obtain ⟨f1, g1⟩ := fsub_err' (a := a.x) (b := b.x) a1 b1 ((i1.trans h).trans_lt c)
  obtain ⟨f2, g2⟩ := fsub_err' (a := a.y) (b := b.y) a2 b2 ((i2.trans h).trans_lt c)
  obtain ⟨f3, g3⟩ := fsub_err' (a := a.z) (b := b.z) a3 b3 ((i3.trans h).trans_lt c)
  refine ⟨fin_xyz3 f1 f2 f3, ?_⟩
  refine le_of_sq_le_sq ?_ (by positivity)
  rw [norm_sq, mul_pow, norm_sq]
  have s : ∀ x z : ℝ, |x| ≤ uro * |z| → x ^ 2 ≤ (1 / 2 ^ 24) ^ 2 * z ^ 2 := fun x z h => by
    rw [← sq_abs, ← sq_abs z, ← mul_pow]
    unfold uro at h
    gcongr
  have t1 := s _ _ g1
  have t2 := s _ _ g2
  have t3 := s _ _ g3
  have e0 : (pureOf a - pureOf b).re = 0 := by simp [pureOf]
  have e0' : (pureOf (V4.sub a b) - (pureOf a - pureOf b)).re = 0 := by simp [pureOf]
  rw [e0, e0']
  change (0 : ℝ) ^ 2 + ((fsub a.x b.x).val - (a.x.val - b.x.val)) ^ 2 + ((fsub a.y b.y).val - (a.y.val - b.y.val)) ^ 2 +
    ((fsub a.z b.z).val - (a.z.val - b.z.val)) ^ 2 ≤ (1 / 2 ^ 24) ^ 2 * (0 ^ 2 + (a.x.val - b.x.val) ^ 2 + (a.y.val - b.y.val) ^ 2 +
    (a.z.val - b.z.val) ^ 2)
  linarith

/-- `cross3`. -/
theorem cross_step (k : Backend) {a b : V4 F32} (fa : AllFinite a.xyz.toList) (fb : AllFinite b.xyz.toList)
    (h : ‖pureOf a‖ * ‖pureOf b‖ ≤ 2 ^ 126) :
    AllFinite (k.cross3 a b).xyz.toList ∧ ‖pureOf (k.cross3 a b) - cr (pureOf a) (pureOf b)‖ ≤
      352 / 100 / 2 ^ 24 * (‖pureOf a‖ * ‖pureOf b‖) + 1 / 2 ^ 147 := by
  obtain ⟨c1, c2, c3⟩ := cross_accuracy.2 k a b fa fb
  have A := pure_sq a
  have B := pure_sq b
  have A0 := norm_nonneg (pureOf a)
  have B0 := norm_nonneg (pureOf b)
  have p1 := pair c1 (cauchy2 A0 B0 (by linarith [sq_nonneg (rv a.x)]) (by linarith [sq_nonneg (rv b.x)])) h
  have p2 := pair c2 (cauchy2 A0 B0 (by linarith [sq_nonneg (rv a.y)]) (by linarith [sq_nonneg (rv b.y)])) h
  have p3 := pair c3 (cauchy2 A0 B0 (by linarith [sq_nonneg (rv a.z)]) (by linarith [sq_nonneg (rv b.z)])) h
  refine ⟨fin_xyz3 p1.1 p2.1 p3.1, ?_⟩
  refine (norm_le3 (q := pureOf (k.cross3 a b) - cr (pureOf a) (pureOf b)) (by simp [pureOf]) p1.2 p2.2 p3.2).trans ?_
  have := mul_nonneg A0 B0
  nlinarith

/-- `dot3`. -/
theorem dot_step (k : Backend) {a b : V4 F32} (fa : AllFinite a.xyz.toList) (fb : AllFinite b.xyz.toList)
    (h : ‖pureOf a‖ * ‖pureOf b‖ ≤ 2 ^ 126) :
    (k.dot3 a b).isFinite = true ∧ |(k.dot3 a b).val - dt (pureOf a) (pureOf b)| ≤
      301 / 100 / 2 ^ 24 * (‖pureOf a‖ * ‖pureOf b‖) + 3 / 2 ^ 149 := by
  have hs := dot_accuracy.2.2.2.1 k a b fa fb
  have A := pure_sq a
  have B := pure_sq b
  have A0 := norm_nonneg (pureOf a)
  have B0 := norm_nonneg (pureOf b)
  have e1 : absProd [(rv a.x, rv b.x), (rv a.y, rv b.y), (rv a.z, rv b.z)] = |rv a.x| * |rv b.x| + |rv a.y| * |rv b.y| + |rv a.z| * |rv b.z| := by
    simp [absProd, abs_mul]; ring
  have e2 : sumProd [(rv a.x, rv b.x), (rv a.y, rv b.y), (rv a.z, rv b.z)] = dt (pureOf a) (pureOf b) := by
    simp [sumProd, dt, pureOf]; ring
  have e3 : (List.length [(rv a.x, rv b.x), (rv a.y, rv b.y), (rv a.z, rv b.z)]) = 3 := rfl
  have hW : |rv a.x| * |rv b.x| + |rv a.y| * |rv b.y| + |rv a.z| * |rv b.z| ≤ ‖pureOf a‖ * ‖pureOf b‖ := by
    have := dt_le (mag (pureOf a)) (mag (pureOf b))
    rw [mag_norm, mag_norm] at this
    exact (le_abs_self _).trans this
  have h' := hs (by rw [e1]; exact hW.trans h)
  rw [e1, e2, e3] at h'
  refine ⟨h'.1, h'.2.trans ?_⟩
  have p0 : 0 ≤ |rv a.x| * |rv b.x| + |rv a.y| * |rv b.y| + |rv a.z| * |rv b.z| := by positivity
  have u3 : ((1 : ℝ) + 1 / 2 ^ 24) ^ 3 - 1 ≤ 301 / 100 / 2 ^ 24 := by norm_num
  have := mul_le_mul u3 hW p0 (by norm_num)
  push_cast
  linarith

set_option maxHeartbeats 1000000 in
/-- The three directions `lookAt` computes. -/
theorem frame (k : Backend) {f t up : V4 F32} {σ : ℝ} (ff : AllFinite f.xyz.toList) (ft : AllFinite t.xyz.toList)
    (fu : AllFinite up.xyz.toList) {D F W S : ℍ[ℝ]} (eD : D = pureOf t - pureOf f) (eF : F = ‖D‖⁻¹ • D) (eW : W = cr (pureOf up) F)
    (eS : S = ‖W‖⁻¹ • W) (h1 : 1 / 2 ^ 49 ≤ ‖D‖) (h2 : ‖D‖ ≤ 2 ^ 60) (h3 : 1 / 2 ^ 26 ≤ ‖pureOf up‖) (h4 : ‖pureOf up‖ ≤ 2 ^ 60)
    (hσ : 1 / 2 ^ 20 ≤ σ) (hW : σ * ‖pureOf up‖ ≤ ‖W‖) :
    ∃ f' s' u' : V4 F32, k.normalize3 (V4.sub t f) = f' ∧ k.normalize3 (k.cross3 up f') = s' ∧ k.cross3 f' s' = u' ∧
      AllFinite f'.xyz.toList ∧ AllFinite s'.xyz.toList ∧ AllFinite u'.xyz.toList ∧
      ‖pureOf f' - F‖ ≤ 82 / 10 / 2 ^ 24 / σ ∧ ‖pureOf s' - S‖ ≤ 31 / 2 ^ 24 / σ ∧ ‖pureOf u' - cr F S‖ ≤ 43 / 2 ^ 24 / σ ∧
      ‖pureOf f'‖ ≤ 1001 / 1000 ∧ ‖pureOf s'‖ ≤ 1001 / 1000 ∧ ‖pureOf u'‖ ≤ 101 / 100 := by
  have n0 : 0 < ‖D‖ := lt_of_lt_of_le (by positivity) h1
  have u0 : 0 < ‖pureOf up‖ := lt_of_lt_of_le (by positivity) h3
  have s0 : 0 < σ := lt_of_lt_of_le (by positivity) hσ
  have W0 : 0 < ‖W‖ := lt_of_lt_of_le (by positivity) hW
  have nF : ‖F‖ = 1 := by rw [eF]; exact unit_norm n0
  have nS : ‖S‖ = 1 := by rw [eS]; exact unit_norm W0
  have σ1 : σ ≤ 1 := by
    have := hW.trans (eW ▸ cr_le _ _)
    rw [nF, mul_one] at this
    by_contra hc
    push Not at hc
    nlinarith
  have i1 : 1 ≤ 1 / σ := by rw [le_div_iff₀ s0]; linarith
  -- the line of sight
  obtain ⟨a1, a2⟩ := diff_step ft ff (by rw [← eD]; exact h2.trans (by norm_num))
  rw [← eD] at a2
  have a3 : |‖pureOf (V4.sub t f)‖ - ‖D‖| ≤ 1 / 2 ^ 24 * ‖D‖ := (abs_norm_sub_norm_le _ _).trans a2
  rw [abs_le] at a3
  have a4 : 1 / 2 ^ 50 ≤ ‖pureOf (V4.sub t f)‖ := by linarith
  obtain ⟨b1, b2⟩ := unit_step k a1 a4 (by linarith)
  have b3 := unit_close (lt_of_lt_of_le (by positivity) a4) n0
  rw [← eF] at b3
  have b4 : 2 * ‖pureOf (V4.sub t f) - D‖ / ‖D‖ ≤ 2 / 2 ^ 24 := by rw [div_le_iff₀ n0]; linarith
  generalize k.normalize3 (V4.sub t f) = f' at *
  have b5 : ‖pureOf f' - F‖ ≤ 81 / 10 / 2 ^ 24 := by
    have := norm_add_le (pureOf f' - ‖pureOf (V4.sub t f)‖⁻¹ • pureOf (V4.sub t f)) (‖pureOf (V4.sub t f)‖⁻¹ • pureOf (V4.sub t f) - F)
    rw [sub_add_sub_cancel] at this
    refine this.trans ?_
    linarith
  have b6 : ‖pureOf f'‖ ≤ 1 + 81 / 10 / 2 ^ 24 := by
    have := norm_add_le (pureOf f' - F) F
    rw [sub_add_cancel, nF] at this
    linarith
  -- the side
  have c0 : ‖pureOf up‖ * ‖pureOf f'‖ ≤ (1 + 81 / 10 / 2 ^ 24) * ‖pureOf up‖ := by nlinarith
  obtain ⟨c1, c2⟩ := cross_step k fu b1 (c0.trans (by linarith))
  have c3 : ‖pureOf (k.cross3 up f') - W‖ ≤ 117 / 10 / 2 ^ 24 * ‖pureOf up‖ := by
    have e1 : cr (pureOf up) (pureOf f') - W = cr (pureOf up) (pureOf f' - F) := by
      rw [eW, cr_sub]
      ext <;> simp
    have e2 := cr_le (pureOf up) (pureOf f' - F)
    have e3 := mul_le_mul_of_nonneg_left b5 u0.le
    have := norm_add_le (pureOf (k.cross3 up f') - cr (pureOf up) (pureOf f')) (cr (pureOf up) (pureOf f') - W)
    rw [sub_add_sub_cancel, e1] at this
    have e4 : (1 : ℝ) / 2 ^ 147 ≤ 1 / 2 ^ 100 * ‖pureOf up‖ := by linarith
    refine this.trans ?_
    linarith
  have c4 : |‖pureOf (k.cross3 up f')‖ - ‖W‖| ≤ 117 / 10 / 2 ^ 24 * ‖pureOf up‖ := (abs_norm_sub_norm_le _ _).trans c3
  rw [abs_le] at c4
  have c5 : 1 / 2 ^ 20 * ‖pureOf up‖ ≤ ‖W‖ := le_trans (by gcongr) hW
  have c6 : ‖W‖ ≤ ‖pureOf up‖ := by
    have := cr_le (pureOf up) F
    rwa [← eW, nF, mul_one] at this
  have c7 : 1 / 2 ^ 50 ≤ ‖pureOf (k.cross3 up f')‖ := by linarith
  obtain ⟨d1, d2⟩ := unit_step k c1 c7 (by linarith)
  have d3 := unit_close (lt_of_lt_of_le (by positivity) c7) W0
  rw [← eS] at d3
  have d4 : 2 * ‖pureOf (k.cross3 up f') - W‖ / ‖W‖ ≤ 234 / 10 / 2 ^ 24 * (1 / σ) := by
    rw [mul_one_div, div_le_div_iff₀ W0 s0]
    have := mul_le_mul_of_nonneg_left c3 s0.le
    have := mul_le_mul_of_nonneg_left hW (by positivity : (0 : ℝ) ≤ 117 / 10 / 2 ^ 24)
    linarith
  have nG := unit_norm (lt_of_lt_of_le (by positivity) c7)
  generalize hs' : k.normalize3 (k.cross3 up f') = s' at *
  have d5 : ‖pureOf s' - S‖ ≤ 295 / 10 / 2 ^ 24 * (1 / σ) := by
    have := norm_add_le (pureOf s' - ‖pureOf (k.cross3 up f')‖⁻¹ • pureOf (k.cross3 up f'))
      (‖pureOf (k.cross3 up f')‖⁻¹ • pureOf (k.cross3 up f') - S)
    rw [sub_add_sub_cancel] at this
    refine this.trans ?_
    linarith
  have d6 : ‖pureOf s'‖ ≤ 1 + 61 / 10 / 2 ^ 24 := by
    have := norm_add_le (pureOf s' - ‖pureOf (k.cross3 up f')‖⁻¹ • pureOf (k.cross3 up f'))
      (‖pureOf (k.cross3 up f')‖⁻¹ • pureOf (k.cross3 up f'))
    rw [sub_add_cancel, nG] at this
    linarith
  -- the upward direction
  have g0 : ‖pureOf f'‖ * ‖pureOf s'‖ ≤ 1 + 15 / 2 ^ 24 :=
    (mul_le_mul b6 d6 (norm_nonneg _) (by positivity)).trans (by norm_num)
  obtain ⟨g1, g2⟩ := cross_step k b1 d1 (g0.trans (by norm_num))
  have g3 : ‖pureOf (k.cross3 f' s') - cr F S‖ ≤ 43 / 2 ^ 24 * (1 / σ) := by
    have e2 := cr_le (pureOf f' - F) (pureOf s')
    have e3 := cr_le F (pureOf s' - S)
    rw [nF, one_mul] at e3
    have e4 : ‖pureOf f' - F‖ * ‖pureOf s'‖ ≤ 82 / 10 / 2 ^ 24 :=
      (mul_le_mul b5 d6 (norm_nonneg _) (by positivity)).trans (by norm_num)
    have := norm_add_le (pureOf (k.cross3 f' s') - cr (pureOf f') (pureOf s')) (cr (pureOf f') (pureOf s') - cr F S)
    rw [sub_add_sub_cancel] at this
    rw [cr_sub] at this
    have e5 := norm_add_le (cr (pureOf f' - F) (pureOf s')) (cr F (pureOf s' - S))
    refine this.trans ?_
    linarith
  have g4 : ‖pureOf (k.cross3 f' s')‖ ≤ 101 / 100 := by
    have := norm_add_le (pureOf (k.cross3 f' s') - cr (pureOf f') (pureOf s')) (cr (pureOf f') (pureOf s'))
    rw [sub_add_cancel] at this
    have e2 := cr_le (pureOf f') (pureOf s')
    refine this.trans ?_
    linarith
  refine ⟨f', s', _, rfl, hs', rfl, b1, d1, g1, ?_, ?_, ?_, b6.trans (by norm_num), d6.trans (by norm_num), g4⟩
  · rw [div_eq_mul_one_div _ σ]; linarith
  · rw [div_eq_mul_one_div _ σ]; linarith
  · rw [div_eq_mul_one_div _ σ]; exact g3

/-! ## The exact frame -/

/-- The exact values of the first three lanes. -/
noncomputable def ex (v : V4 F32) : V4 ℝ := ⟨rv v.x, rv v.y, rv v.z, 0⟩

theorem pt_ex (v : V4 F32) : pt (ex v) = pt v := rfl

theorem dist_pure (f t : V4 F32) : Spec.dist (pt f) (pt t) = ‖pureOf t - pureOf f‖ := by
  rw [← sq_eq_sq₀ (show 0 ≤ Spec.dist (pt f) (pt t) from Real.sqrt_nonneg _) (norm_nonneg _), norm_sq, Spec.dist, Real.sq_sqrt (by unfold dist2; positivity)]
  have e : (pureOf t - pureOf f).re = 0 := by simp [pureOf]
  rw [e]
  change (rv f.x - rv t.x) ^ 2 + (rv f.y - rv t.y) ^ 2 + (rv f.z - rv t.z) ^ 2 =
    0 ^ 2 + (rv t.x - rv f.x) ^ 2 + (rv t.y - rv f.y) ^ 2 + (rv t.z - rv f.z) ^ 2
  ring

theorem length_pure (v : V4 F32) : lengthOf (pt v) = ‖pureOf v‖ := by
  rw [← sq_eq_sq₀ (show 0 ≤ lengthOf (pt v) from Real.sqrt_nonneg _) (norm_nonneg _), pure_sq, lengthOf, Spec.dist, Real.sq_sqrt (by unfold dist2; positivity)]
  change (0 - rv v.x) ^ 2 + (0 - rv v.y) ^ 2 + (0 - rv v.z) ^ 2 = _
  ring

/-- Dividing by the length, on exact vectors. -/
theorem imQ_normalize {v : V4 ℝ} (h : 0 < ‖imQ v‖) : imQ (Simd.normalize3 v) = ‖imQ v‖⁻¹ • imQ v := by
  have hv : pt v ≠ ⟨0, 0, 0⟩ := by
    intro e
    simp only [real_pt, V3.mk.injEq] at e
    have : imQ v = 0 := by ext <;> simp [e.1, e.2.1, e.2.2]
    rw [this] at h; simp at h
  obtain ⟨n, n0, n1, -, n2, -⟩ := normalize3_unit v hv
  have : n = ‖imQ v‖ := by
    rw [← sq_eq_sq₀ n0.le (norm_nonneg _), n1, norm_sq]; simp [dot]; ring
  rw [real_pt, V3.mk.injEq] at n2
  rw [← this]
  ext <;> simp [n2.1, n2.2.1, n2.2.2, div_eq_inv_mul]

theorem clear_cross {f t up : V4 F32} {D : ℍ[ℝ]} {σ : ℝ} (eD : D = pureOf t - pureOf f) (n0 : 0 < ‖D‖)
    (h : UpClear (pt f) (pt t) (pt up) σ) : σ * ‖pureOf up‖ ≤ ‖cr (pureOf up) (‖D‖⁻¹ • D)‖ := by
  rw [cr_smul, norm_smul, norm_inv, norm_norm, inv_mul_eq_div, le_div_iff₀ n0]
  refine le_of_sq_le_sq ?_ (norm_nonneg _)
  rw [cr_sq]
  have e1 : (pureOf up).imI ^ 2 + (pureOf up).imJ ^ 2 + (pureOf up).imK ^ 2 = ‖pureOf up‖ ^ 2 := by rw [pure_sq]; simp [pureOf]
  have e2 : D.imI ^ 2 + D.imJ ^ 2 + D.imK ^ 2 = ‖D‖ ^ 2 := by
    have : D.re = 0 := by rw [eD]; simp [pureOf]
    rw [norm_sq, this]; ring
  have e3 : dist2 (pt f) (pt t) = ‖D‖ ^ 2 := by
    rw [eD, ← dist_pure, Spec.dist, Real.sq_sqrt (by unfold dist2; positivity)]
  have e4 : dot (pt up) (pt up) = ‖pureOf up‖ ^ 2 := by
    rw [pure_sq]
    change rv up.x * rv up.x + rv up.y * rv up.y + rv up.z * rv up.z = _
    ring
  have e5 : dot (pt up) (diff (pt t) (pt f)) = dt (pureOf up) D := by rw [eD]; simp [dt, pureOf]; rfl
  unfold UpClear at h
  rw [e3, e4, e5] at h
  rw [e1, e2]
  nlinarith

/-- The exact and the computed directions. -/
theorem both (k : Backend) {f t up : V4 F32} {σ : ℝ} (ff : AllFinite f.xyz.toList) (ft : AllFinite t.xyz.toList)
    (fu : AllFinite up.xyz.toList) (h : CameraOk (pt f) (pt t) (pt up) σ) : ∃ F S : V4 ℝ, ∃ f' s' u' : V4 F32,
    pt (ex f) ≠ pt (ex t) ∧ crossP (pt (ex up)) (diff (pt (ex t)) (pt (ex f))) ≠ ⟨0, 0, 0⟩ ∧
    Simd.normalize3 (V4.sub (ex t) (ex f)) = F ∧ Simd.normalize3 (Simd.cross3 (ex up) F) = S ∧
    k.normalize3 (V4.sub t f) = f' ∧ k.normalize3 (k.cross3 up f') = s' ∧ k.cross3 f' s' = u' ∧
    AllFinite f'.xyz.toList ∧ AllFinite s'.xyz.toList ∧ AllFinite u'.xyz.toList ∧
    ‖pureOf f' - imQ F‖ ≤ 43 / 2 ^ 24 / σ ∧ ‖pureOf s' - imQ S‖ ≤ 43 / 2 ^ 24 / σ ∧ ‖pureOf u' - cr (imQ F) (imQ S)‖ ≤ 43 / 2 ^ 24 / σ ∧
    ‖pureOf f'‖ ≤ 101 / 100 ∧ ‖pureOf s'‖ ≤ 101 / 100 ∧ ‖pureOf u'‖ ≤ 101 / 100 ∧ ‖imQ F‖ = 1 ∧ ‖imQ S‖ = 1 := by
  obtain ⟨d1, d2, u1, u2, s1, c⟩ := h
  rw [dist_pure] at d1 d2
  rw [length_pure] at u1 u2
  have s0 : 0 < σ := lt_of_lt_of_le (by positivity) s1
  have n0 : 0 < ‖pureOf t - pureOf f‖ := lt_of_lt_of_le (by positivity) d1
  have hW := clear_cross rfl n0 c
  have up0 : 0 < ‖pureOf up‖ := lt_of_lt_of_le (by positivity) u1
  have W0 := lt_of_lt_of_le (mul_pos s0 up0) hW
  obtain ⟨f', s', u', e1, e2, e3, f1, f2, f3, g1, g2, g3, i1, i2, i3⟩ := frame k ff ft fu rfl rfl rfl rfl d1 d2 u1 u2 s1 hW
  have eD : imQ (V4.sub (ex t) (ex f)) = pureOf t - pureOf f := by ext <;> simp [pureOf, ex, vec]
  have hF : imQ (Simd.normalize3 (V4.sub (ex t) (ex f))) = ‖pureOf t - pureOf f‖⁻¹ • (pureOf t - pureOf f) := by
    rw [imQ_normalize (by rw [eD]; exact n0), eD]
  have eW : ∀ F : V4 ℝ, imQ (Simd.cross3 (ex up) F) = cr (pureOf up) (imQ F) := by
    intro F; ext <;> simp [pureOf, ex, vec] <;> ring
  have hS : imQ (Simd.normalize3 (Simd.cross3 (ex up) (Simd.normalize3 (V4.sub (ex t) (ex f))))) =
      ‖cr (pureOf up) (‖pureOf t - pureOf f‖⁻¹ • (pureOf t - pureOf f))‖⁻¹ •
        cr (pureOf up) (‖pureOf t - pureOf f‖⁻¹ • (pureOf t - pureOf f)) := by
    rw [imQ_normalize (by rw [eW, hF]; exact W0), eW, hF]
  refine ⟨_, _, f', s', u', ?_, ?_, rfl, rfl, e1, e2, e3, f1, f2, f3, ?_, ?_, ?_, i1.trans (by norm_num), i2.trans (by norm_num), i3,
    by rw [hF]; exact unit_norm n0, by rw [hS]; exact unit_norm W0⟩
  · intro e
    rw [pt_ex, pt_ex] at e
    rw [← dist_pure, e] at n0
    simp [Spec.dist, dist2] at n0
  · intro e
    rw [cr_smul, norm_smul] at W0
    have : cr (pureOf up) (pureOf t - pureOf f) = 0 := by
      simp only [crossP, diff, real_pt, V3.mk.injEq, ex] at e
      ext
      · simp
      · simpa [pureOf] using e.1
      · simpa [pureOf] using e.2.1
      · simpa [pureOf] using e.2.2
    rw [this] at W0; simp at W0
  · rw [hF]; refine g1.trans ?_; gcongr; norm_num
  · rw [hS]; refine g2.trans ?_; gcongr; norm_num
  · rw [hS, hF]; exact g3

/-- The components of a vector within a distance. -/
theorem comps {c : V4 F32} {x y z e : ℝ} (fc : AllFinite c.xyz.toList) (h : ‖pureOf c - ⟨0, x, y, z⟩‖ ≤ e) :
    Near c.x x e ∧ Near c.y y e ∧ Near c.z z e := by
  obtain ⟨f1, f2, f3⟩ := fin3 fc
  obtain ⟨i1, i2, i3⟩ := im_le (pureOf c - ⟨0, x, y, z⟩)
  exact ⟨⟨f1, i1.trans h⟩, ⟨f2, i2.trans h⟩, ⟨f3, i3.trans h⟩⟩

/-- The translation: minus the product of a computed direction with the position. -/
theorem shift (k : Backend) {c f : V4 F32} {x : ℍ[ℝ]} {σ : ℝ} (fc : AllFinite c.xyz.toList) (ff : AllFinite f.xyz.toList)
    (s0 : 0 < σ) (s1 : σ ≤ 1) (hc : ‖pureOf c‖ ≤ 101 / 100) (h : ‖pureOf c - x‖ ≤ 43 / 2 ^ 24 / σ) (hf : ‖pureOf f‖ ≤ 2 ^ 100) :
    Near (fneg (k.dot3 c f)) (-dt x (pureOf f)) (47 / 2 ^ 24 / σ * ‖pureOf f‖ + 1 / 2 ^ 147) := by
  have f0 := norm_nonneg (pureOf f)
  have c0 : ‖pureOf c‖ * ‖pureOf f‖ ≤ 101 / 100 * ‖pureOf f‖ := by gcongr
  obtain ⟨d1, d2⟩ := dot_step k fc ff (c0.trans (by linarith))
  refine ⟨by rw [fneg_finite]; exact d1, ?_⟩
  rw [rv_eq, fneg_val, show -(k.dot3 c f).val - -dt x (pureOf f) = -((k.dot3 c f).val - dt x (pureOf f)) by ring, abs_neg]
  have t := abs_add_le ((k.dot3 c f).val - dt (pureOf c) (pureOf f)) (dt (pureOf c) (pureOf f) - dt x (pureOf f))
  rw [sub_add_sub_cancel] at t
  have e1 := dt_le (pureOf c - x) (pureOf f)
  rw [← dt_sub] at e1
  have e2 := mul_le_mul_of_nonneg_right h f0
  have i1 : 1 ≤ 1 / σ := by rw [le_div_iff₀ s0]; linarith
  rw [div_eq_mul_one_div _ σ] at e2 ⊢
  have e3 := mul_le_mul_of_nonneg_right i1 f0
  linarith

theorem sine_le {f t up : V3 ℝ} {σ : ℝ} (h : CameraOk f t up σ) : σ ≤ 1 := by
  obtain ⟨d1, d2, u1, u2, s1, c⟩ := h
  unfold UpClear at c
  have hd : 0 < dist2 f t := by
    have : 0 < Spec.dist f t := lt_of_lt_of_le (by positivity) d1
    exact Real.sqrt_pos.1 this
  have hu : 0 < dot up up := by
    have : 0 < lengthOf up := lt_of_lt_of_le (by positivity) u1
    have := Real.sqrt_pos.1 this
    simp only [dist2, dot] at this ⊢
    linarith
  have : 0 ≤ 1 - σ ^ 2 := by
    by_contra hc
    push Not at hc
    have := mul_pos_of_neg_of_neg (sub_neg.2 (show (1 : ℝ) - σ ^ 2 < 0 from hc)) (show (-(dot up up * dist2 f t)) < 0 by
      have := mul_pos hu hd; linarith)
    nlinarith [sq_nonneg (dot up (diff t f))]
  nlinarith

/-- The first three entries are at most `b`. -/
def Small (c : V4 ℝ) (b : ℝ) : Prop := |c.x| ≤ b ∧ |c.y| ≤ b ∧ |c.z| ≤ b

/-- `lookAt` in binary32 and the exact view. -/
theorem look (k : Backend) (f t up : V4 F32) (s : ℝ) (ff : AllFinite f.xyz.toList) (ft : AllFinite t.xyz.toList)
    (fu : AllFinite up.xyz.toList) (h : CameraOk (pt f) (pt t) (pt up) s) (hf : lengthOf (pt f) ≤ 2 ^ 100) :
    ∃ m : M4 ℝ, IsView m (pt f) (pt t) (pt up) ∧
      NearRigid (F32x4.lookAt k f t up) m (43 / 2 ^ 24 / s) (47 / 2 ^ 24 / s * lengthOf (pt f) + 1 / 2 ^ 147) ∧
      Small m.c0 1 ∧ Small m.c1 1 ∧ Small m.c2 1 ∧ Small m.c3 (lengthOf (pt f)) := by
  have s0 : 0 < s := lt_of_lt_of_le (by positivity) h.sine
  have s1 := sine_le h
  obtain ⟨F, S, f', s', u', hne, hup, eF, eS, e1, e2, e3, f1, f2, f3, g1, g2, g3, i1, i2, i3, nF, nS⟩ := both k ff ft fu h
  have em : F32x4.lookAt k f t up = ⟨⟨s'.x, u'.x, f'.x, ofRat 0⟩, ⟨s'.y, u'.y, f'.y, ofRat 0⟩, ⟨s'.z, u'.z, f'.z, ofRat 0⟩,
      ⟨fneg (k.dot3 s' f), fneg (k.dot3 u' f), fneg (k.dot3 f' f), ofRat 1⟩⟩ := by
    have l0 : (Flt.lit 0 : F32) = ofRat 0 := rfl
    have l1 : (Flt.lit 1 : F32) = ofRat 1 := rfl
    simp only [F32x4.lookAt, e1, e2, e3, l0, l1]
    generalize ofRat 0 = Z
    generalize ofRat 1 = O
    rfl
  have er : Transform.lookAt (ex f) (ex t) (ex up) = ⟨⟨S.x, (cr (imQ F) (imQ S)).imI, F.x, 0⟩, ⟨S.y, (cr (imQ F) (imQ S)).imJ, F.y, 0⟩,
      ⟨S.z, (cr (imQ F) (imQ S)).imK, F.z, 0⟩, ⟨-dt (imQ S) (pureOf f), -dt (cr (imQ F) (imQ S)) (pureOf f), -dt (imQ F) (pureOf f), 1⟩⟩ := by
    simp only [Transform.lookAt, eF, eS]
    simp [vec, dt, pureOf, ex]
    refine ⟨?_, ?_, ?_, ?_⟩ <;> ring
  refine ⟨Transform.lookAt (ex f) (ex t) (ex up), lookAt_spec (ex f) (ex t) (ex up) hne hup, ?_, ?_⟩
  · rw [em, er]
    rw [length_pure] at hf ⊢
    obtain ⟨x1, x2, x3⟩ := comps f1 (x := F.x) (y := F.y) (z := F.z) g1
    obtain ⟨y1, y2, y3⟩ := comps f2 (x := S.x) (y := S.y) (z := S.z) g2
    obtain ⟨z1, z2, z3⟩ := comps f3 (x := (cr (imQ F) (imQ S)).imI) (y := (cr (imQ F) (imQ S)).imJ) (z := (cr (imQ F) (imQ S)).imK) g3
    exact ⟨⟨y1, z1, x1⟩, ⟨y2, z2, x2⟩, ⟨y3, z3, x3⟩, ⟨shift k f2 ff s0 s1 i2 g2 hf, shift k f3 ff s0 s1 i3 g3 hf,
      shift k f1 ff s0 s1 i1 g1 hf⟩, rfl, rfl, rfl, rfl⟩
  · rw [er]
    have nU : ‖cr (imQ F) (imQ S)‖ ≤ 1 := (cr_le _ _).trans (by rw [nF, nS]; norm_num)
    obtain ⟨a1, a2, a3⟩ := im_le (imQ F)
    obtain ⟨b1, b2, b3⟩ := im_le (imQ S)
    obtain ⟨c1, c2, c3⟩ := im_le (cr (imQ F) (imQ S))
    rw [nF] at a1 a2 a3
    rw [nS] at b1 b2 b3
    have key : ∀ x : ℍ[ℝ], ‖x‖ ≤ 1 → |-dt x (pureOf f)| ≤ lengthOf (pt f) := by
      intro x hx
      rw [abs_neg, length_pure]
      refine (dt_le _ _).trans ?_
      have := mul_le_mul_of_nonneg_right hx (norm_nonneg (pureOf f))
      linarith
    exact ⟨⟨b1, c1.trans nU, a1⟩, ⟨b2, c2.trans nU, a2⟩, ⟨b3, c3.trans nU, a3⟩, key _ nS.le, key _ nU, key _ nF.le⟩

/-- One coordinate of a point moved by a matrix that is near an exact one. -/
theorem moved {r : F32} {m0 m1 m2 m3 a b c d x y z e g P : ℝ} (hs : SumOk r [(m0, x), (m1, y), (m2, z), (m3, 1)])
    (h0 : |m0 - a| ≤ e) (h1 : |m1 - b| ≤ e) (h2 : |m2 - c| ≤ e) (h3 : |m3 - d| ≤ g) (ha : |a| ≤ 1) (hb : |b| ≤ 1) (hc : |c| ≤ 1)
    (hd : |d| ≤ P) (hr : (1 + e) * (|x| + |y| + |z|) + (P + g) ≤ 2 ^ 126) :
    Near r (a * x + b * y + c * z + d)
      ((e + 401 / 100 / 2 ^ 24 * (1 + e)) * (|x| + |y| + |z|) + g + 401 / 100 / 2 ^ 24 * (P + g) + 4 / 2 ^ 149) := by
  have one : ∀ {m a x : ℝ}, |m - a| ≤ e → |a| ≤ 1 → |m * x| ≤ (1 + e) * |x| ∧ |m * x - a * x| ≤ e * |x| := by
    intro m a x hm ha
    have x0 := abs_nonneg x
    constructor
    · rw [abs_mul]
      refine mul_le_mul_of_nonneg_right ?_ x0
      have := abs_add_le (m - a) a
      rw [sub_add_cancel] at this
      linarith
    · rw [← sub_mul, abs_mul]; exact mul_le_mul_of_nonneg_right hm x0
  obtain ⟨u0, v0⟩ := one (x := x) h0 ha
  obtain ⟨u1, v1⟩ := one (x := y) h1 hb
  obtain ⟨u2, v2⟩ := one (x := z) h2 hc
  have u3 : |m3| ≤ P + g := by
    have := abs_add_le (m3 - d) d
    rw [sub_add_cancel] at this
    linarith
  have e1 : sumProd [(m0, x), (m1, y), (m2, z), (m3, 1)] = m0 * x + m1 * y + m2 * z + m3 := by simp [sumProd]; ring
  have e2 : absProd [(m0, x), (m1, y), (m2, z), (m3, 1)] = |m0 * x| + |m1 * y| + |m2 * z| + |m3| := by simp [absProd, add_assoc]
  have hA : |m0 * x| + |m1 * y| + |m2 * z| + |m3| ≤ (1 + e) * (|x| + |y| + |z|) + (P + g) := by linarith
  have := hs (by rw [e2]; exact hA.trans hr)
  rw [e1, e2, show (List.length [(m0, x), (m1, y), (m2, z), (m3, 1)]) = 4 from rfl] at this
  have tr : |m0 * x + m1 * y + m2 * z + m3 - (a * x + b * y + c * z + d)| ≤ e * (|x| + |y| + |z|) + g := by
    have e : m0 * x + m1 * y + m2 * z + m3 - (a * x + b * y + c * z + d) =
        (m0 * x - a * x) + (m1 * y - b * y) + (m2 * z - c * z) + (m3 - d) := by ring
    rw [e]
    have := abs_add_le ((m0 * x - a * x) + (m1 * y - b * y) + (m2 * z - c * z)) (m3 - d)
    have := abs_add_three (m0 * x - a * x) (m1 * y - b * y) (m2 * z - c * z)
    linarith
  refine (Approx.trans (r := r) this tr).mono ?_
  have u : ((1 : ℝ) + 1 / 2 ^ 24) ^ 4 - 1 ≤ 401 / 100 / 2 ^ 24 := by norm_num
  have := mul_le_mul u hA (by positivity) (by norm_num)
  push_cast
  linarith

/-- The sizes in `moved` for a camera. -/
theorem moved_size {s P X : ℝ} (s0 : 0 < s) (s1 : s ≤ 1) (P0 : 0 ≤ P) (X0 : 0 ≤ X) :
    (43 / 2 ^ 24 / s + 401 / 100 / 2 ^ 24 * (1 + 43 / 2 ^ 24 / s)) * X + (47 / 2 ^ 24 / s * P + 1 / 2 ^ 147) +
      401 / 100 / 2 ^ 24 * (P + (47 / 2 ^ 24 / s * P + 1 / 2 ^ 147)) + 4 / 2 ^ 149 ≤
      48 / 2 ^ 24 / s * X + 52 / 2 ^ 24 / s * P + 1 / 2 ^ 145 := by
  have i1 : 1 ≤ 1 / s := by rw [le_div_iff₀ s0]; linarith
  rw [div_eq_mul_one_div (43 / 2 ^ 24) s, div_eq_mul_one_div (47 / 2 ^ 24) s, div_eq_mul_one_div (48 / 2 ^ 24) s,
    div_eq_mul_one_div (52 / 2 ^ 24) s]
  generalize 1 / s = q at *
  have h1 := mul_le_mul_of_nonneg_right i1 X0
  have h2 := mul_le_mul_of_nonneg_right i1 P0
  linarith

end CamP
open CamP

/-- C115: the view matrix in binary32. On every backend and for finite vectors that meet the mild conditions `CameraOk`, the
matrix `lookAt` returns is within `43 / 2^24 / s` (rotation) and `47 / 2^24 / s` of the distance of the camera from the origin
(translation) of the exact view of that camera, where `s` is the sine of the angle between `up` and the line of sight; its last
row is exactly `0 0 0 1`. -/
theorem lookAt_f32 (k : Backend) (f t up : V4 F32) (s : ℝ) (ff : AllFinite f.xyz.toList) (ft : AllFinite t.xyz.toList)
    (fu : AllFinite up.xyz.toList) (h : CameraOk (pt f) (pt t) (pt up) s) (hf : lengthOf (pt f) ≤ 2 ^ 100) :
    ∃ m : M4 ℝ, IsView m (pt f) (pt t) (pt up) ∧
      NearRigid (F32x4.lookAt k f t up) m (43 / 2 ^ 24 / s) (47 / 2 ^ 24 / s * lengthOf (pt f) + 1 / 2 ^ 147) := by
  obtain ⟨m, h1, h2, -⟩ := look k f t up s ff ft fu h hf
  exact ⟨m, h1, h2⟩

/-- C115: the view matrix in binary32 applied to a point: every coordinate is within `48 / 2^24 / s` of the sizes of the
coordinates of the point and `52 / 2^24 / s` of the distance of the camera from the origin, of the exact view of the point. -/
theorem lookAt_point_f32 (k : Backend) (tg : FTarget) (f t up p : V4 F32) (s : ℝ) (ff : AllFinite f.xyz.toList)
    (ft : AllFinite t.xyz.toList) (fu : AllFinite up.xyz.toList) (fp : AllFinite p.xyz.toList)
    (h : CameraOk (pt f) (pt t) (pt up) s) (hf : lengthOf (pt f) ≤ 2 ^ 100)
    (hp : |rv p.x| ≤ 2 ^ 100 ∧ |rv p.y| ≤ 2 ^ 100 ∧ |rv p.z| ≤ 2 ^ 100) :
    let r := F32x4.mulVOn k tg (F32x4.lookAt k f t up) ⟨p.x, p.y, p.z, ofRat 1⟩
    let e := 48 / 2 ^ 24 / s * (|rv p.x| + |rv p.y| + |rv p.z|) + 52 / 2 ^ 24 / s * lengthOf (pt f) + 1 / 2 ^ 145
    ∃ m : M4 ℝ, IsView m (pt f) (pt t) (pt up) ∧
      Near r.x (act m (vec3 (pt p)) 0) e ∧ Near r.y (act m (vec3 (pt p)) 1) e ∧ Near r.z (act m (vec3 (pt p)) 2) e := by
  intro r e
  obtain ⟨m, hv, ⟨⟨a1, a2, a3⟩, ⟨b1, b2, b3⟩, ⟨c1, c2, c3⟩, ⟨d1, d2, d3⟩, w1, w2, w3, w4⟩, ⟨k1, k2, k3⟩, ⟨l1, l2, l3⟩, ⟨n1, n2, n3⟩,
    ⟨o1, o2, o3⟩⟩ := look k f t up s ff ft fu h hf
  refine ⟨m, hv, ?_⟩
  have z := zero_lit
  have o := one_lit
  obtain ⟨vx, vy, vz⟩ := fin3 fp
  have fm : FinM (F32x4.lookAt k f t up) := by
    refine ⟨?_, ?_, ?_, ?_⟩
    · exact fin_list a1.1 a2.1 a3.1 (by rw [w1]; exact z.1)
    · exact fin_list b1.1 b2.1 b3.1 (by rw [w2]; exact z.1)
    · exact fin_list c1.1 c2.1 c3.1 (by rw [w3]; exact z.1)
    · exact fin_list d1.1 d2.1 d3.1 (by rw [w4]; exact o.1)
  obtain ⟨k1', k2', k3', -⟩ := entry_ok k tg fm (v := ⟨p.x, p.y, p.z, ofRat 1⟩) (fin_list vx vy vz o.1)
  have o' : rv (ofRat 1) = 1 := o.2
  simp only [row4, o'] at k1' k2' k3'
  have P0 : 0 ≤ lengthOf (pt f) := Real.sqrt_nonneg _
  have X0 : 0 ≤ |rv p.x| + |rv p.y| + |rv p.z| := add_nonneg (add_nonneg (abs_nonneg _) (abs_nonneg _)) (abs_nonneg _)
  have s0 : 0 < s := lt_of_lt_of_le (by positivity) h.sine
  have sz := moved_size s0 (sine_le h) P0 X0
  have hr : (1 + 43 / 2 ^ 24 / s) * (|rv p.x| + |rv p.y| + |rv p.z|) + (lengthOf (pt f) + (47 / 2 ^ 24 / s * lengthOf (pt f) + 1 / 2 ^ 147)) ≤
      2 ^ 126 := by
    have i : 1 / s ≤ 2 ^ 20 := by rw [div_le_iff₀ s0]; linarith [h.sine]
    rw [div_eq_mul_one_div _ s, div_eq_mul_one_div (47 / 2 ^ 24) s]
    have i0 : 0 < 1 / s := by positivity
    have j1 := mul_le_mul i (show |rv p.x| + |rv p.y| + |rv p.z| ≤ 3 * 2 ^ 100 by linarith [hp.1, hp.2.1, hp.2.2]) X0 (by positivity)
    have j2 := mul_le_mul i hf P0 (by positivity)
    linarith [hp.1, hp.2.1, hp.2.2]
  have ax : ∀ i : Fin 3, act m (vec3 (pt p)) i = ![m.c0.x * rv p.x + m.c1.x * rv p.y + m.c2.x * rv p.z + m.c3.x,
      m.c0.y * rv p.x + m.c1.y * rv p.y + m.c2.y * rv p.z + m.c3.y, m.c0.z * rv p.x + m.c1.z * rv p.y + m.c2.z * rv p.z + m.c3.z] i := by
    intro i
    have q1 : (pt p).x = rv p.x := rfl
    have q2 : (pt p).y = rv p.y := rfl
    have q3 : (pt p).z = rv p.z := rfl
    fin_cases i <;> simp [act, block3, vec3, xyz, Matrix.mulVec, dotProduct, Fin.sum_univ_three, q1, q2, q3] <;> ring
  rw [ax, ax, ax]
  refine ⟨?_, ?_, ?_⟩
  · have := moved k1' a1.2 b1.2 c1.2 d1.2 k1 l1 n1 o1 hr
    exact ⟨this.1, this.2.trans sz⟩
  · have := moved k2' a2.2 b2.2 c2.2 d2.2 k2 l2 n2 o2 hr
    exact ⟨this.1, this.2.trans sz⟩
  · have := moved k3' a3.2 b3.2 c3.2 d3.2 k3 l3 n3 o3 hr
    exact ⟨this.1, this.2.trans sz⟩

/-- C115: the orientation of an object that faces a point, in binary32. -/
theorem rotateLook_f32 (k : Backend) (f t up : V4 F32) (s : ℝ) (ff : AllFinite f.xyz.toList) (ft : AllFinite t.xyz.toList)
    (fu : AllFinite up.xyz.toList) (h : CameraOk (pt f) (pt t) (pt up) s) :
    ∃ m : M4 ℝ, IsFacing m (pt f) (pt t) (pt up) ∧ NearRigid (F32x4.rotateLook k f t up) m (43 / 2 ^ 24 / s) 0 := by
  obtain ⟨F, S, f', s', u', hne, hup, eF, eS, e1, e2, e3, f1, f2, f3, g1, g2, g3, -⟩ := both k ff ft fu h
  have em : F32x4.rotateLook k f t up = ⟨⟨s'.x, s'.y, s'.z, ofRat 0⟩, ⟨u'.x, u'.y, u'.z, ofRat 0⟩, ⟨f'.x, f'.y, f'.z, ofRat 0⟩,
      ⟨ofRat 0, ofRat 0, ofRat 0, ofRat 1⟩⟩ := by
    have l0 : (Flt.lit 0 : F32) = ofRat 0 := rfl
    have l1 : (Flt.lit 1 : F32) = ofRat 1 := rfl
    simp only [F32x4.rotateLook, e1, e2, e3, l0, l1]
    generalize ofRat 0 = Z
    generalize ofRat 1 = O
    rfl
  have er : Transform.rotateLook (ex f) (ex t) (ex up) = ⟨⟨S.x, S.y, S.z, 0⟩,
      ⟨(cr (imQ F) (imQ S)).imI, (cr (imQ F) (imQ S)).imJ, (cr (imQ F) (imQ S)).imK, 0⟩, ⟨F.x, F.y, F.z, 0⟩, ⟨0, 0, 0, 1⟩⟩ := by
    simp only [Transform.rotateLook, eF, eS]
    simp [vec]
    refine ⟨?_, ?_, ?_⟩ <;> ring
  obtain ⟨r1, r2, r3⟩ := rotateLook_spec (ex f) (ex t) (ex up) hne hup
  obtain ⟨F2, S2, q1, q2, -, -, -, q3, q4, -, -⟩ := look_frame (ex f) (ex t) (ex up) hne hup
  rw [eF] at q1
  subst q1
  rw [eS] at q2
  subst q2
  refine ⟨Transform.rotateLook (ex f) (ex t) (ex up), ⟨r1, r2, ?_, ?_, ?_⟩, ?_⟩
  · refine r3.trans ?_
    ext i; fin_cases i <;> rfl
  · rw [er]; exact q3
  · rw [er]
    have : 0 < (F.y * S.z - F.z * S.y) * rv up.x + (F.z * S.x - F.x * S.z) * rv up.y + (F.x * S.y - F.y * S.x) * rv up.z := q4
    simp only [cr_imI, cr_imJ, cr_imK, imQ_imI, imQ_imJ, imQ_imK]
    exact this
  · rw [em, er]
    have z : Near (ofRat 0) 0 0 := ⟨zero_lit.1, by rw [rv_eq, zero_lit.2]; simp⟩
    unfold NearRigid
    generalize ofRat 0 = Z at *
    generalize ofRat 1 = O at *
    exact ⟨comps f2 (x := S.x) (y := S.y) (z := S.z) g2, comps f3 (x := (cr (imQ F) (imQ S)).imI) (y := (cr (imQ F) (imQ S)).imJ)
      (z := (cr (imQ F) (imQ S)).imK) g3, comps f1 (x := F.x) (y := F.y) (z := F.z) g1, ⟨z, z, z⟩, rfl, rfl, rfl, rfl⟩

/-- A rotation: its rows are orthonormal and the second is the product of the third and the first. -/
theorem CamP.rows {a b c d e f g h i : ℝ} (hr : IsRotation !![a, b, c; d, e, f; g, h, i]) :
    a * a + b * b + c * c = 1 ∧ g * g + h * h + i * i = 1 ∧ a * g + b * h + c * i = 0 ∧ d = h * c - i * b ∧ e = i * a - g * c ∧
      f = g * b - h * a := by
  obtain ⟨h1, h2⟩ := hr
  have h3 := mul_eq_one_comm.1 h1
  have e00 := congrFun (congrFun h3 0) 0
  have e22 := congrFun (congrFun h3 2) 2
  have e02 := congrFun (congrFun h3 0) 2
  have e01 := congrFun (congrFun h3 0) 1
  have e12 := congrFun (congrFun h3 1) 2
  have e11 := congrFun (congrFun h3 1) 1
  simp [Matrix.mul_apply, Fin.sum_univ_three] at e00 e22 e02 e01 e12 e11
  rw [Matrix.det_fin_three] at h2
  simp at h2
  refine ⟨e00, e22, e02, ?_, ?_, ?_⟩
  · have q : (d - (h * c - i * b)) ^ 2 + (e - (i * a - g * c)) ^ 2 + (f - (g * b - h * a)) ^ 2 = 0 := by grind
    nlinarith [sq_nonneg (d - (h * c - i * b)), sq_nonneg (e - (i * a - g * c)), sq_nonneg (f - (g * b - h * a))]
  · have q : (d - (h * c - i * b)) ^ 2 + (e - (i * a - g * c)) ^ 2 + (f - (g * b - h * a)) ^ 2 = 0 := by grind
    nlinarith [sq_nonneg (d - (h * c - i * b)), sq_nonneg (e - (i * a - g * c)), sq_nonneg (f - (g * b - h * a))]
  · have q : (d - (h * c - i * b)) ^ 2 + (e - (i * a - g * c)) ^ 2 + (f - (g * b - h * a)) ^ 2 = 0 := by grind
    nlinarith [sq_nonneg (d - (h * c - i * b)), sq_nonneg (e - (i * a - g * c)), sq_nonneg (f - (g * b - h * a))]

/-- A unit vector square to `g` and `u`, on a given side, is unique. -/
theorem CamP.side {a b c a' b' c' g h i x y z : ℝ} (e1 : a * a + b * b + c * c = 1) (e2 : a * g + b * h + c * i = 0)
    (e3 : a * x + b * y + c * z = 0) (e4 : 0 < (h * c - i * b) * x + (i * a - g * c) * y + (g * b - h * a) * z)
    (f1 : a' * a' + b' * b' + c' * c' = 1) (f2 : a' * g + b' * h + c' * i = 0)
    (f3 : a' * x + b' * y + c' * z = 0) (f4 : 0 < (h * c' - i * b') * x + (i * a' - g * c') * y + (g * b' - h * a') * z) :
    a = a' ∧ b = b' ∧ c = c' := by
  obtain ⟨u, hu⟩ : ∃ u, u = y * i - z * h := ⟨_, rfl⟩
  obtain ⟨v, hv⟩ : ∃ v, v = z * g - x * i := ⟨_, rfl⟩
  obtain ⟨w, hw⟩ : ∃ w, w = x * h - y * g := ⟨_, rfl⟩
  have key : ∀ {a b c : ℝ}, a * a + b * b + c * c = 1 → a * g + b * h + c * i = 0 → a * x + b * y + c * z = 0 →
      0 < (h * c - i * b) * x + (i * a - g * c) * y + (g * b - h * a) * z →
      0 < u * u + v * v + w * w ∧ √(u * u + v * v + w * w) * a = u ∧ √(u * u + v * v + w * w) * b = v ∧ √(u * u + v * v + w * w) * c = w := by
    intro a b c e1 e2 e3 e4
    have p : 0 < a * u + b * v + c * w := by rw [hu, hv, hw]; linarith
    have q : (a * u + b * v + c * w) ^ 2 = u * u + v * v + w * w := by
      have z1 : b * w - c * v = 0 := by rw [hv, hw]; linear_combination x * e2 - g * e3
      have z2 : c * u - a * w = 0 := by rw [hu, hw]; linear_combination y * e2 - h * e3
      have z3 : a * v - b * u = 0 := by rw [hu, hv]; linear_combination z * e2 - i * e3
      linear_combination (u * u + v * v + w * w) * e1 - (b * w - c * v) * z1 - (c * u - a * w) * z2 - (a * v - b * u) * z3
    rw [← q, Real.sqrt_sq p.le]
    refine ⟨by positivity, ?_, ?_, ?_⟩
    · have z2 : c * u - a * w = 0 := by rw [hu, hw]; linear_combination y * e2 - h * e3
      have z3 : a * v - b * u = 0 := by rw [hu, hv]; linear_combination z * e2 - i * e3
      linear_combination u * e1 - c * z2 + b * z3
    · have z1 : b * w - c * v = 0 := by rw [hv, hw]; linear_combination x * e2 - g * e3
      have z3 : a * v - b * u = 0 := by rw [hu, hv]; linear_combination z * e2 - i * e3
      linear_combination v * e1 + c * z1 - a * z3
    · have z1 : b * w - c * v = 0 := by rw [hv, hw]; linear_combination x * e2 - g * e3
      have z2 : c * u - a * w = 0 := by rw [hu, hw]; linear_combination y * e2 - h * e3
      linear_combination w * e1 - b * z1 + a * z2
  obtain ⟨k0, k1, k2, k3⟩ := key e1 e2 e3 e4
  obtain ⟨-, l1, l2, l3⟩ := key f1 f2 f3 f4
  have r := Real.sqrt_pos.2 k0
  exact ⟨mul_left_cancel₀ r.ne' (k1.trans l1.symm), mul_left_cancel₀ r.ne' (k2.trans l2.symm), mul_left_cancel₀ r.ne' (k3.trans l3.symm)⟩

/-- C115: the exact view of a camera is unique, so that `lookAt_f32` bounds the distance from one definite matrix. -/
theorem view_unique {m m' : M4 ℝ} {f t up : V3 ℝ} (hft : f ≠ t) (h : IsView m f t up) (h' : IsView m' f t up) : m = m' := by
  have d0 : 0 < Spec.dist f t := by
    refine Real.sqrt_pos.2 (lt_of_le_of_ne (by unfold dist2; positivity) ?_)
    intro e
    apply hft
    simp only [dist2] at e
    obtain ⟨a, b, c⟩ := f; obtain ⟨x, y, z⟩ := t
    simp only at e
    have h1 : (a - x) ^ 2 = 0 := by nlinarith [sq_nonneg (a - x), sq_nonneg (b - y), sq_nonneg (c - z)]
    have h2 : (b - y) ^ 2 = 0 := by nlinarith [sq_nonneg (a - x), sq_nonneg (b - y), sq_nonneg (c - z)]
    have h3 : (c - z) ^ 2 = 0 := by nlinarith [sq_nonneg (a - x), sq_nonneg (b - y), sq_nonneg (c - z)]
    rw [sq_eq_zero_iff, sub_eq_zero] at h1 h2 h3
    rw [h1, h2, h3]
  unfold IsView at h h'
  generalize Spec.dist f t = d at *
  have key : ∀ {m : M4 ℝ}, Rigid m ∧ act m (vec3 f) = 0 ∧ act m (vec3 t) = ![0, 0, d] ∧ (block3 m *ᵥ vec3 up) 0 = 0 ∧
      0 < (block3 m *ᵥ vec3 up) 1 →
      (m.c0.z = (t.x - f.x) / d ∧ m.c1.z = (t.y - f.y) / d ∧ m.c2.z = (t.z - f.z) / d) ∧
      (m.c0.y = m.c1.z * m.c2.x - m.c2.z * m.c1.x ∧ m.c1.y = m.c2.z * m.c0.x - m.c0.z * m.c2.x ∧
        m.c2.y = m.c0.z * m.c1.x - m.c1.z * m.c0.x) ∧
      (m.c0.x * m.c0.x + m.c1.x * m.c1.x + m.c2.x * m.c2.x = 1 ∧ m.c0.x * m.c0.z + m.c1.x * m.c1.z + m.c2.x * m.c2.z = 0 ∧
        m.c0.x * up.x + m.c1.x * up.y + m.c2.x * up.z = 0 ∧
        0 < (m.c1.z * m.c2.x - m.c2.z * m.c1.x) * up.x + (m.c2.z * m.c0.x - m.c0.z * m.c2.x) * up.y +
          (m.c0.z * m.c1.x - m.c1.z * m.c0.x) * up.z) ∧
      (m.c3.x = -(m.c0.x * f.x + m.c1.x * f.y + m.c2.x * f.z) ∧ m.c3.y = -(m.c0.y * f.x + m.c1.y * f.y + m.c2.y * f.z) ∧
        m.c3.z = -(m.c0.z * f.x + m.c1.z * f.y + m.c2.z * f.z)) ∧ m.c0.w = 0 ∧ m.c1.w = 0 ∧ m.c2.w = 0 ∧ m.c3.w = 1 := by
    rintro m ⟨⟨⟨w1, w2, w3, w4⟩, hr⟩, hf, ht, hx, hy⟩
    obtain ⟨r1, r2, r3, r4, r5, r6⟩ := CamP.rows hr
    have f0 := congrFun hf 0
    have f1 := congrFun hf 1
    have f2 := congrFun hf 2
    have t0 := congrFun ht 0
    have t1 := congrFun ht 1
    have t2 := congrFun ht 2
    simp [act, block3, vec3, xyz, Matrix.mulVec, dotProduct, Fin.sum_univ_three] at f0 f1 f2 t0 t1 t2 hx hy
    have c1 := hr.1
    have c00 := congrFun (congrFun c1 0) 0
    have c01 := congrFun (congrFun c1 0) 1
    have c02 := congrFun (congrFun c1 0) 2
    have c11 := congrFun (congrFun c1 1) 1
    have c12 := congrFun (congrFun c1 1) 2
    have c22 := congrFun (congrFun c1 2) 2
    simp [block3, Matrix.mul_apply, Fin.sum_univ_three] at c00 c01 c02 c11 c12 c22
    refine ⟨⟨?_, ?_, ?_⟩, ⟨r4, r5, r6⟩, ⟨r1, r3, by linarith, ?_⟩, ⟨by linarith, by linarith, by linarith⟩, w1, w2, w3, w4⟩
    · rw [eq_div_iff d0.ne']
      linear_combination (-m.c0.x) * (t0 - f0) - m.c0.y * (t1 - f1) - m.c0.z * (t2 - f2) + (t.x - f.x) * c00 + (t.y - f.y) * c01 + (t.z - f.z) * c02
    · rw [eq_div_iff d0.ne']
      linear_combination (-m.c1.x) * (t0 - f0) - m.c1.y * (t1 - f1) - m.c1.z * (t2 - f2) + (t.x - f.x) * c01 + (t.y - f.y) * c11 + (t.z - f.z) * c12
    · rw [eq_div_iff d0.ne']
      linear_combination (-m.c2.x) * (t0 - f0) - m.c2.y * (t1 - f1) - m.c2.z * (t2 - f2) + (t.x - f.x) * c02 + (t.y - f.y) * c12 + (t.z - f.z) * c22
    · rw [← r4, ← r5, ← r6]; linarith
  obtain ⟨⟨a1, a2, a3⟩, ⟨b1, b2, b3⟩, ⟨c1, c2, c3, c4⟩, ⟨d1, d2, d3⟩, w1, w2, w3, w4⟩ := key h
  obtain ⟨⟨a1', a2', a3'⟩, ⟨b1', b2', b3'⟩, ⟨c1', c2', c3', c4'⟩, ⟨d1', d2', d3'⟩, w1', w2', w3', w4'⟩ := key h'
  rw [← a1] at a1'
  rw [← a2] at a2'
  rw [← a3] at a3'
  rw [a1', a2', a3'] at c2' c4'
  obtain ⟨s1, s2, s3⟩ := CamP.side c1 c2 c3 c4 c1' c2' c3' c4'
  have g1 : m.c0.y = m'.c0.y := by rw [b1, b1', a2', a3', s2, s3]
  have g2 : m.c1.y = m'.c1.y := by rw [b2, b2', a1', a3', s1, s3]
  have g3 : m.c2.y = m'.c2.y := by rw [b3, b3', a1', a2', s1, s2]
  have h1 : m.c3.x = m'.c3.x := by rw [d1, d1', s1, s2, s3]
  have h2 : m.c3.y = m'.c3.y := by rw [d2, d2', g1, g2, g3]
  have h3 : m.c3.z = m'.c3.z := by rw [d3, d3', a1', a2', a3']
  cases m with | mk p0 p1 p2 p3 => cases m' with | mk q0 q1 q2 q3 =>
  cases p0; cases p1; cases p2; cases p3; cases q0; cases q1; cases q2; cases q3
  simp only at *
  subst_vars
  simp

theorem CamP.near_mono {m : M4 F32} {x : M4 ℝ} {e e' g g' : ℝ} (h : NearRigid m x e g) (he : e ≤ e') (hg : g ≤ g') :
    NearRigid m x e' g' := by
  have k : ∀ {c : V4 F32} {x : V4 ℝ} {e e' : ℝ}, NearCol c x e → e ≤ e' → NearCol c x e' := fun h he =>
    ⟨⟨h.1.1, h.1.2.trans he⟩, ⟨h.2.1.1, h.2.1.2.trans he⟩, ⟨h.2.2.1, h.2.2.2.trans he⟩⟩
  obtain ⟨h0, h1, h2, h3, h4⟩ := h
  exact ⟨k h0 he, k h1 he, k h2 he, k h3 hg, h4⟩

/-- The hypotheses are met: a camera at (1, 1, 1) that looks at (2, 1, 2), upright. -/
example (k : Backend) : ∃ m : M4 ℝ, IsView m ⟨1, 1, 1⟩ ⟨2, 1, 2⟩ ⟨0, 1, 0⟩ ∧
    NearRigid (F32x4.lookAt k (V4.splat (ofRat 1)) ⟨ofRat 2, ofRat 1, ofRat 2, ofRat 1⟩ ⟨ofRat 0, ofRat 1, ofRat 0, ofRat 0⟩) m
      (43 / 2 ^ 24) (94 / 2 ^ 24 + 1 / 2 ^ 147) := by
  have z := zero_lit
  have o := one_lit
  have w : (ofRat 2).isFinite = true ∧ (ofRat 2).val = 2 := ⟨two_exact.1, two_exact.eq⟩
  generalize ofRat 0 = Z at *
  generalize ofRat 1 = O at *
  generalize ofRat 2 = T at *
  have e1 : pt (V4.splat O) = ⟨1, 1, 1⟩ := by rw [← o.2]; rfl
  have e2 : pt (⟨T, O, T, O⟩ : V4 F32) = ⟨2, 1, 2⟩ := by rw [← o.2, ← w.2]; rfl
  have e3 : pt (⟨Z, O, Z, Z⟩ : V4 F32) = ⟨0, 1, 0⟩ := by rw [← o.2, ← z.2]; rfl
  have l1 : lengthOf ⟨0, 1, 0⟩ = 1 := by simp [lengthOf, Spec.dist, dist2]
  have l2 : lengthOf ⟨1, 1, 1⟩ ≤ 2 := by
    rw [lengthOf, Spec.dist, Real.sqrt_le_left (by norm_num)]; norm_num [dist2]
  have l3 : 1 ≤ Spec.dist ⟨1, 1, 1⟩ ⟨2, 1, 2⟩ ∧ Spec.dist ⟨1, 1, 1⟩ ⟨2, 1, 2⟩ ≤ 2 := by
    rw [Spec.dist, Real.sqrt_le_left (by norm_num), Real.le_sqrt' (by norm_num)]; norm_num [dist2]
  obtain ⟨m, h1, h2⟩ := lookAt_f32 k (V4.splat O) ⟨T, O, T, O⟩ ⟨Z, O, Z, Z⟩ 1 (fin_xyz3 o.1 o.1 o.1) (fin_xyz3 w.1 o.1 w.1)
    (fin_xyz3 z.1 o.1 z.1) (by
      rw [e1, e2, e3]
      refine ⟨by linarith [l3.1], by linarith [l3.2], by rw [l1]; norm_num, by rw [l1]; norm_num, by norm_num, ?_⟩
      norm_num [UpClear, dot, diff]) (by rw [e1]; exact l2.trans (by norm_num))
  rw [e1, e2, e3] at h1
  rw [e1] at h2
  refine ⟨m, h1, near_mono h2 (by norm_num) (by norm_num; linarith)⟩

end Verif
