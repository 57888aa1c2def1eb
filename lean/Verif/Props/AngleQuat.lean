import Verif.Props.Rotate
import Verif.Proofs.SatF32
import Verif.Props.SimdSinCos
import Verif.Props.Quat
import Verif.Spec.AngleQuat

/-!
# C131: rotations built from angles in binary32
-/

namespace Verif
open F32 Spec Quaternion RotateP VecAcc SatF32

namespace AngleQuatP

theorem half_exact : Approx (ofRat (1 / 2)) (1 / 2) 0 := by
  have h : (ofRat (1 / 2)).isFinite = true ∧ (ofRat (1 / 2)).units = 2 ^ 148 := by decide +kernel
  refine ⟨h.1, ?_⟩
  rw [val_units, h.2]
  norm_num

/-- Halving is exact, but for tiny numbers. -/
theorem fmul_half {a : F32} (fa : a.isFinite = true) (hb : |a.val| ≤ 16000) : Approx (fmul a (ofRat (1 / 2))) (a.val / 2) (1 / 2 ^ 140) := by
  have hf := half_exact.1
  have hv := half_exact.eq
  generalize ofRat (1 / 2) = h at *
  by_cases ha : |a.val| ≤ 1 / 2 ^ 120
  · have := fmul_approx (M := 1 / 2 ^ 121) fa hf (by rw [hv, abs_mul, abs_of_pos (by norm_num : (0:ℝ) < 1/2)]; norm_num at *; linarith) (by norm_num)
    rw [hv] at this
    exact (this.of_eq (by ring)).mono (by unfold ulp; norm_num)
  · push Not at ha
    have key : ∃ y : F32, y.isFinite = true ∧ y.val = a.val * h.val := by
      rcases le_total 0 a.val with h0 | h0
      · rw [abs_of_nonneg h0] at ha hb
        obtain ⟨y, y1, y2⟩ := scale_representable fa (-120) (by norm_num) (by norm_num at *; linarith) (-1) (by norm_num) (by norm_num at *; linarith)
        exact ⟨y, y1, by rw [y2, hv]; norm_num⟩
      · rw [abs_of_nonpos h0] at ha hb
        obtain ⟨y, y1, y2⟩ := scale_representable (u := fneg a) (by rw [fneg_finite]; exact fa) (-120) (by norm_num)
          (by rw [neg_val]; norm_num at *; linarith) (-1) (by norm_num) (by rw [neg_val]; norm_num at *; linarith)
        exact ⟨fneg y, by rw [fneg_finite]; exact y1, by rw [neg_val, y2, neg_val, hv]; norm_num⟩
    obtain ⟨y, y1, y2⟩ := key
    have := fmul_exact fa hf y1 y2
    rw [hv] at this
    exact (this.of_eq (by ring)).mono (by norm_num)

/-- The sine and the cosine of half an angle. -/
theorem half_sinCos (t : FTarget) {a : F32} (fa : a.isFinite = true) (h : |a.val| ≤ 16000) :
    Approx (F32x4.sinCos1 t (fmul a (ofRat (1 / 2)))).1 (Real.sin (a.val / 2)) 2.1e-7 ∧
    Approx (F32x4.sinCos1 t (fmul a (ofRat (1 / 2)))).2 (Real.cos (a.val / 2)) 2.1e-7 := by
  have m := fmul_half fa h
  generalize fmul a (ofRat (1 / 2)) = b at *
  have bb : |b.val| ≤ 8192 := by
    have := m.abs_le
    rw [abs_div, abs_two] at this
    norm_num at *; linarith
  obtain ⟨s, c⟩ := F32x4.sinCos1_accurate t m.1 bb
  have m2 := m.2
  have d1 : |Real.sin b.val - Real.sin (a.val / 2)| ≤ 1 / 2 ^ 140 := (Real.abs_sin_sub_sin_le _ _).trans m2
  have d2 : |Real.cos b.val - Real.cos (a.val / 2)| ≤ 1 / 2 ^ 140 := (Real.abs_cos_sub_cos_le _ _).trans m2
  exact ⟨(s.trans d1).mono (by norm_num), (c.trans d2).mono (by norm_num)⟩

/-- A product of numbers in the unit interval. -/
theorem prod3 {a b c : F32} {x y z : ℝ} (ha : Approx a x 2.1e-7) (hb : Approx b y 2.1e-7) (hc : Approx c z 2.1e-7)
    (hx : |x| ≤ 1) (hy : |y| ≤ 1) (hz : |z| ≤ 1) : Approx (fmul (fmul a b) c) (x * y * z) 7.6e-7 := by
  have h1 := (ha.mul hb 1 1 hx hy (by norm_num)).mono (e' := 4.9e-7) (by unfold ulp; norm_num)
  have hxy : |x * y| ≤ 1 := by rw [abs_mul]; exact mul_le_one₀ hx (abs_nonneg _) hy
  exact (h1.mul hc 1 1 hxy hz (by norm_num)).mono (by unfold ulp; norm_num)

theorem abs_prod3 {x y z : ℝ} (hx : |x| ≤ 1) (hy : |y| ≤ 1) (hz : |z| ≤ 1) : |x * y * z| ≤ 1 := by
  rw [abs_mul, abs_mul]
  exact mul_le_one₀ (mul_le_one₀ hx (abs_nonneg _) hy) (abs_nonneg _) hz

theorem sum3 {a b : F32} {x y : ℝ} (ha : Approx a x 7.6e-7) (hb : Approx b y 7.6e-7) (hx : |x| ≤ 1) (hy : |y| ≤ 1) :
    Approx (fadd a b) (x + y) 1.7e-6 ∧ Approx (fsub a b) (x - y) 1.7e-6 :=
  ⟨(ha.add hb 2.1 (by have := abs_add_le x y; norm_num at *; linarith) (by norm_num)).mono (by unfold ulp; norm_num),
   (ha.sub hb 2.1 (by have := abs_sub x y; norm_num at *; linarith) (by norm_num)).mono (by unfold ulp; norm_num)⟩

theorem axis_form (t : FTarget) (a : F32) (u : V4 F32) : Quat.ofAxisAngle (F32x4.sinCos1 t) a u =
    (let s := (F32x4.sinCos1 t (fmul a (ofRat (1 / 2)))).1
     ⟨fmul u.x s, fmul u.y s, fmul u.z s, (F32x4.sinCos1 t (fmul a (ofRat (1 / 2)))).2⟩) := by
  simp [Quat.ofAxisAngle, V4.splat, V4.map, V4.select, V4.mul, V4.map2, top]
  exact ⟨rfl, rfl, rfl, rfl⟩

theorem euler_form (t : FTarget) (e : V4 F32) : Quat.fromEulerAngles (F32x4.sinCos1 t) e =
    (let x := F32x4.sinCos1 t (fmul e.x (ofRat (1 / 2)))
     let y := F32x4.sinCos1 t (fmul e.y (ofRat (1 / 2)))
     let z := F32x4.sinCos1 t (fmul e.z (ofRat (1 / 2)))
     ⟨fsub (fmul (fmul x.1 y.2) z.2) (fmul (fmul x.2 y.1) z.1),
      fadd (fmul (fmul x.2 y.1) z.2) (fmul (fmul x.1 y.2) z.1),
      fsub (fmul (fmul x.2 y.2) z.1) (fmul (fmul x.1 y.1) z.2),
      fadd (fmul (fmul x.2 y.2) z.2) (fmul (fmul x.1 y.1) z.1)⟩) := by
  exact rfl

/-- One lane of the axis. -/
theorem lane {x s : F32} {S M : ℝ} (fx : x.isFinite = true) (hx : |x.val| ≤ M) (M1 : 1 ≤ M) (M2 : M ≤ 2 ^ 100) (hs : Approx s S 2.1e-7) (hS : |S| ≤ 1) :
    Approx (fmul x s) (x.val * S) (3e-7 * M) := by
  refine ((Approx.self fx).mul hs M 1 hx hS ?_).mono ?_
  · norm_num at *; linarith
  · unfold ulp; norm_num at *; linarith

end AngleQuatP
open AngleQuatP

/-- C131: the quaternion of an angle of at most 16000 radians and an axis with lanes of at most `M`: every lane is within
`3e-7 * M` of the lane of `cos (θ/2) + sin (θ/2) axis`, on every kind of target. -/
theorem axis_angle_f32 (t : FTarget) (a : F32) (u : V4 F32) (M : ℝ) (fa : a.isFinite = true) (fu : AllFinite u.xyz.toList) (ha : |rv a| ≤ 16000)
    (M1 : 1 ≤ M) (M2 : M ≤ 2 ^ 100) (hu : ∀ x ∈ u.xyz.toList, |rv x| ≤ M) :
    NearQ (Quat.ofAxisAngle (F32x4.sinCos1 t) a u) (turn (exact3 u) (rv a)) (3e-7 * M) := by
  obtain ⟨s, c⟩ := half_sinCos t fa ha
  rw [axis_form]
  have fx := fu u.x (by simp [V4.xyz, V3.toList])
  have fy := fu u.y (by simp [V4.xyz, V3.toList])
  have fz := fu u.z (by simp [V4.xyz, V3.toList])
  have hx := hu u.x (by simp [V4.xyz, V3.toList])
  have hy := hu u.y (by simp [V4.xyz, V3.toList])
  have hz := hu u.z (by simp [V4.xyz, V3.toList])
  have h1 := Real.abs_sin_le_one (a.val / 2)
  exact ⟨⟨lane fx hx M1 M2 s h1, lane fy hy M1 M2 s h1, lane fz hz M1 M2 s h1⟩, c.mono (by norm_num at *; linarith)⟩

/-- C131: the quaternion of Euler angles of at most 16000 radians: every lane is within `1.7e-6` of the product of the quaternions
of the rotations about z, y and x. -/
theorem euler_f32 (t : FTarget) (e : V4 F32) (fe : AllFinite e.xyz.toList) (he : ∀ x ∈ e.xyz.toList, |rv x| ≤ 16000) :
    NearQ (Quat.fromEulerAngles (F32x4.sinCos1 t) e) (turn ![0, 0, 1] (rv e.z) * turn ![0, 1, 0] (rv e.y) * turn ![1, 0, 0] (rv e.x)) 1.7e-6 := by
  obtain ⟨sx, cx⟩ := half_sinCos t (fe e.x (by simp [V4.xyz, V3.toList])) (he e.x (by simp [V4.xyz, V3.toList]))
  obtain ⟨sy, cy⟩ := half_sinCos t (fe e.y (by simp [V4.xyz, V3.toList])) (he e.y (by simp [V4.xyz, V3.toList]))
  obtain ⟨sz, cz⟩ := half_sinCos t (fe e.z (by simp [V4.xyz, V3.toList])) (he e.z (by simp [V4.xyz, V3.toList]))
  rw [euler_form]
  have bsx := Real.abs_sin_le_one (e.x.val / 2)
  have bsy := Real.abs_sin_le_one (e.y.val / 2)
  have bsz := Real.abs_sin_le_one (e.z.val / 2)
  have bcx := Real.abs_cos_le_one (e.x.val / 2)
  have bcy := Real.abs_cos_le_one (e.y.val / 2)
  have bcz := Real.abs_cos_le_one (e.z.val / 2)
  have e1 := (sum3 (prod3 sx cy cz bsx bcy bcz) (prod3 cx sy sz bcx bsy bsz) (abs_prod3 bsx bcy bcz) (abs_prod3 bcx bsy bsz)).2
  have e2 := (sum3 (prod3 cx sy cz bcx bsy bcz) (prod3 sx cy sz bsx bcy bsz) (abs_prod3 bcx bsy bcz) (abs_prod3 bsx bcy bsz)).1
  have e3 := (sum3 (prod3 cx cy sz bcx bcy bsz) (prod3 sx sy cz bsx bsy bcz) (abs_prod3 bcx bcy bsz) (abs_prod3 bsx bsy bcz)).2
  have e4 := (sum3 (prod3 cx cy cz bcx bcy bcz) (prod3 sx sy sz bsx bsy bsz) (abs_prod3 bcx bcy bcz) (abs_prod3 bsx bsy bsz)).1
  refine ⟨⟨e1.of_eq ?_, e2.of_eq ?_, e3.of_eq ?_⟩, e4.of_eq ?_⟩ <;>
    simp only [Quaternion.imI_mul, Quaternion.imJ_mul, Quaternion.imK_mul, Quaternion.re_mul] <;> simp [turn, rv_eq] <;> ring

namespace AngleQuatP

/-- A vector as a quaternion. -/
noncomputable def imV (v : Fin 3 → ℝ) : ℍ[ℝ] := ⟨0, v 0, v 1, v 2⟩

theorem turn_sq {u : Fin 3 → ℝ} (h : u 0 ^ 2 + u 1 ^ 2 + u 2 ^ 2 = 1) (a : ℝ) :
    (u 0 * Real.sin (a / 2)) ^ 2 + (u 1 * Real.sin (a / 2)) ^ 2 + (u 2 * Real.sin (a / 2)) ^ 2 + Real.cos (a / 2) ^ 2 = 1 := by
  linear_combination Real.sin (a / 2) ^ 2 * h + Real.sin_sq_add_cos_sq (a / 2)

theorem turn_norm {u : Fin 3 → ℝ} (h : u 0 ^ 2 + u 1 ^ 2 + u 2 ^ 2 = 1) (a : ℝ) : ‖turn u a‖ = 1 := by
  have := ProductsP.norm_sq (turn u a)
  have h2 : (turn u a).re ^ 2 + (turn u a).imI ^ 2 + (turn u a).imJ ^ 2 + (turn u a).imK ^ 2 = 1 := by
    have := turn_sq h a
    simp only [turn]; linarith
  exact (pow_eq_one_iff_of_nonneg (norm_nonneg _) two_ne_zero).1 (this.trans h2)

/-- Conjugation with the quaternion of an angle and a unit axis is the rotation. -/
theorem turn_conj {u : Fin 3 → ℝ} (h : u 0 ^ 2 + u 1 ^ 2 + u 2 ^ 2 = 1) (a : ℝ) (v : Fin 3 → ℝ) :
    turn u a * imV v * (turn u a)⁻¹ = imV (rodrigues u a v) := by
  have hs := turn_sq h a
  obtain ⟨k1, k2, k3⟩ := conj_formula (u 0 * Real.sin (a / 2)) (u 1 * Real.sin (a / 2)) (u 2 * Real.sin (a / 2)) (Real.cos (a / 2)) (v 0) (v 1) (v 2)
    (by rw [hs]; norm_num)
  have kr := conj_re (turn u a) (imV v) rfl
  rw [hs, sub_self, zero_mul, sub_eq_zero] at k1 k2 k3
  have c1 : Real.cos (a / 2) ^ 2 = 1 - Real.sin (a / 2) ^ 2 := Real.cos_sq' _
  have c2 : Real.cos a = 1 - 2 * Real.sin (a / 2) ^ 2 := by
    rw [show a = 2 * (a / 2) by ring, Real.cos_two_mul, c1]; ring_nf
  have s2 : Real.sin a = 2 * Real.sin (a / 2) * Real.cos (a / 2) := by
    rw [← Real.sin_two_mul]; congr 1; ring
  ext
  · exact kr
  · refine k1.symm.trans ?_
    simp [imV, rodrigues, crossProduct, dotProduct, Fin.sum_univ_three, c2, s2, Matrix.vecHead, Matrix.vecTail]
    linear_combination (-2 * Real.sin (a / 2) ^ 2 * v 0) * h
  · refine k2.symm.trans ?_
    simp [imV, rodrigues, crossProduct, dotProduct, Fin.sum_univ_three, c2, s2, Matrix.vecHead, Matrix.vecTail]
    linear_combination (-2 * Real.sin (a / 2) ^ 2 * v 1) * h
  · refine k3.symm.trans ?_
    simp [imV, rodrigues, crossProduct, dotProduct, Fin.sum_univ_three, c2, s2, Matrix.vecHead, Matrix.vecTail]
    linear_combination (-2 * Real.sin (a / 2) ^ 2 * v 2) * h

/-- Conjugation by two nearby quaternions. -/
theorem conj_close {q p v : ℍ[ℝ]} {δ : ℝ} (hp : ‖p‖ = 1) (h : ‖q - p‖ ≤ δ) (hδ : δ ≤ 1 / 1000) :
    |‖q‖ ^ 2 - 1| ≤ 2.001 * δ ∧ ‖q * v * q⁻¹ - p * v * p⁻¹‖ ≤ 2.003 * δ * ‖v‖ := by
  have d0 : 0 ≤ δ := (norm_nonneg _).trans h
  have n1 : |‖q‖ - 1| ≤ δ := by rw [← hp]; exact (abs_norm_sub_norm_le q p).trans h
  obtain ⟨n2, n3⟩ := abs_le.1 n1
  have q0 : 0 < ‖q‖ := by linarith
  have q1 : q ≠ 0 := norm_pos_iff.1 q0
  have p1 : p ≠ 0 := by rw [← norm_pos_iff, hp]; norm_num
  constructor
  · rw [show ‖q‖ ^ 2 - 1 = (‖q‖ - 1) * (‖q‖ + 1) by ring, abs_mul, abs_of_pos (show 0 < ‖q‖ + 1 by linarith)]
    calc |‖q‖ - 1| * (‖q‖ + 1) ≤ δ * 2.001 := mul_le_mul n1 (by norm_num at *; linarith) (by linarith) d0
      _ = _ := by ring
  · have e : q * v * q⁻¹ - p * v * p⁻¹ = (q - p) * v * q⁻¹ + p * v * q⁻¹ * (p - q) * p⁻¹ := by
      have h1 : q⁻¹ * q = 1 := inv_mul_cancel₀ q1
      have h2 : p * p⁻¹ = 1 := mul_inv_cancel₀ p1
      have : p * v * q⁻¹ * (p - q) * p⁻¹ = p * v * q⁻¹ * (p * p⁻¹) - p * v * (q⁻¹ * q) * p⁻¹ := by noncomm_ring
      rw [this, h1, h2]; noncomm_ring
    have iq : ‖q‖⁻¹ ≤ 1.0015 := by
      rw [inv_le_comm₀ q0 (by norm_num)]; norm_num at *; linarith
    have iq0 : 0 ≤ ‖q‖⁻¹ := inv_nonneg.2 q0.le
    rw [e]
    refine (norm_add_le _ _).trans ?_
    simp only [norm_mul, norm_inv, hp, inv_one, mul_one, one_mul]
    rw [norm_sub_rev p q]
    have v0 := norm_nonneg v
    have a1 : ‖q - p‖ * ‖v‖ * ‖q‖⁻¹ ≤ δ * ‖v‖ * 1.0015 :=
      mul_le_mul (mul_le_mul_of_nonneg_right h v0) iq iq0 (mul_nonneg d0 v0)
    have a2 : ‖v‖ * ‖q‖⁻¹ * ‖q - p‖ = ‖q - p‖ * ‖v‖ * ‖q‖⁻¹ := by ring
    rw [a2]
    linarith

theorem nearQ_norm {q : V4 F32} {x : ℍ[ℝ]} {e : ℝ} (h : NearQ q x e) : ‖quatOf q - x‖ ≤ 2 * e := by
  obtain ⟨⟨⟨_, h1⟩, ⟨_, h2⟩, ⟨_, h3⟩⟩, ⟨_, h4⟩⟩ := h
  have e0 : 0 ≤ e := (abs_nonneg _).trans h1
  refine le_of_sq_le_sq ?_ (by linarith)
  rw [ProductsP.norm_sq]
  have s1 := sq_le_sq' (abs_le.1 h1).1 (abs_le.1 h1).2
  have s2 := sq_le_sq' (abs_le.1 h2).1 (abs_le.1 h2).2
  have s3 := sq_le_sq' (abs_le.1 h3).1 (abs_le.1 h3).2
  have s4 := sq_le_sq' (abs_le.1 h4).1 (abs_le.1 h4).2
  change (rv q.w - x.re) ^ 2 + (rv q.x - x.imI) ^ 2 + (rv q.y - x.imJ) ^ 2 + (rv q.z - x.imK) ^ 2 ≤ _
  linarith

theorem nearQ_fin {q : V4 F32} {x : ℍ[ℝ]} {e : ℝ} (h : NearQ q x e) : AllFinite q.toList := by
  obtain ⟨⟨⟨h1, _⟩, ⟨h2, _⟩, ⟨h3, _⟩⟩, ⟨h4, _⟩⟩ := h
  intro y hy
  simp only [V4.toList, List.mem_cons, List.not_mem_nil, or_false] at hy
  rcases hy with rfl | rfl | rfl | rfl <;> assumption

theorem len_eq (v : V4 F32) : ‖pureOf v‖ = len3 v := by
  rw [len3, ← pure_sq, Real.sqrt_sq (norm_nonneg _)]

/-- Rotating by a computed quaternion close to a unit quaternion. -/
theorem rotate_close (k : Backend) (t : FTarget) {q v : V4 F32} {x : ℍ[ℝ]} {e : ℝ} (h : NearQ q x e) (hx : ‖x‖ = 1) (he : e ≤ 1 / 5000)
    (fv : AllFinite v.xyz.toList) (hv : len3 v ≤ 2 ^ 100) {w : Fin 3 → ℝ} (hw : x * pureOf v * x⁻¹ = imV w) :
    NearV (F32x4.rotate k t q v) w ((1 / 2 ^ 19 + 12.1 * e) * len3 v + 1 / 2 ^ 140) := by
  have hn := nearQ_norm h
  have e0 : 0 ≤ e := by linarith [(norm_nonneg _).trans hn]
  obtain ⟨c1, c2⟩ := conj_close (v := pureOf v) hx hn (by linarith)
  rw [← len_eq] at *
  have V0 := norm_nonneg (pureOf v)
  obtain ⟨r1, r2, r3⟩ := rotate_accuracy k t q v (nearQ_fin h) fv (c1.trans (by norm_num at *; linarith)) hv
  rw [hw] at c2
  obtain ⟨i1, i2, i3⟩ := im_le (quatOf q * pureOf v * (quatOf q)⁻¹ - imV w)
  have m : (1 / 2 ^ 19 + 2 * |‖quatOf q‖ ^ 2 - 1|) * ‖pureOf v‖ + 1 / 2 ^ 140 + 2.003 * (2 * e) * ‖pureOf v‖ ≤
      (1 / 2 ^ 19 + 12.1 * e) * ‖pureOf v‖ + 1 / 2 ^ 140 := by
    have a1 := mul_le_mul_of_nonneg_right c1 V0
    have a2 := mul_nonneg e0 V0
    norm_num at *
    linarith
  have fin : ∀ {r : F32} {A B : ℝ}, Near r A ((1 / 2 ^ 19 + 2 * |‖quatOf q‖ ^ 2 - 1|) * ‖pureOf v‖ + 1 / 2 ^ 140) →
      |A - B| ≤ ‖quatOf q * pureOf v * (quatOf q)⁻¹ - imV w‖ → Near r B ((1 / 2 ^ 19 + 12.1 * e) * ‖pureOf v‖ + 1 / 2 ^ 140) :=
    fun h1 h2 => (Approx.trans h1 (h2.trans c2)).mono m
  exact ⟨fin r1 i1, fin r2 i2, fin r3 i3⟩

theorem pure_imV (v : V4 F32) : pureOf v = imV (exact3 v) := rfl

end AngleQuatP

/-- C131: rotating by the quaternion of an angle and an axis. Let the axis lanes be within `2^-22` of a unit vector `w`, and the
angle at most 16000 radians. Then `quat(angle, axis) * v` is within `1e-5` of the length of `v` of the vector `v` rotated about
`w` by the angle (Rodrigues' formula), on every backend and with every kind of multiply-add. -/
theorem axis_angle_rotation_f32 (k : Backend) (t : FTarget) (a : F32) (u v : V4 F32) (w : Fin 3 → ℝ) (fa : a.isFinite = true) (ha : |rv a| ≤ 16000)
    (hw : w 0 ^ 2 + w 1 ^ 2 + w 2 ^ 2 = 1) (hu : NearV u w (1 / 2 ^ 22)) (fv : AllFinite v.xyz.toList) (hv : len3 v ≤ 2 ^ 100) :
    NearV (F32x4.rotate k t (Quat.ofAxisAngle (F32x4.sinCos1 t) a u) v) (rodrigues w (rv a) (exact3 v)) (1e-5 * len3 v + 1 / 2 ^ 140) := by
  obtain ⟨⟨fx, hx⟩, ⟨fy, hy⟩, ⟨fz, hz⟩⟩ := hu
  have one : ∀ x : ℝ, x ^ 2 ≤ 1 → |x| ≤ 1 := fun x h => (sq_le_one_iff_abs_le_one x).1 h
  have w0 := one (w 0) (by linarith [sq_nonneg (w 1), sq_nonneg (w 2)])
  have w1 := one (w 1) (by linarith [sq_nonneg (w 0), sq_nonneg (w 2)])
  have w2 := one (w 2) (by linarith [sq_nonneg (w 1), sq_nonneg (w 0)])
  have bd : ∀ {x y : ℝ}, |x - y| ≤ 1 / 2 ^ 22 → |y| ≤ 1 → |x| ≤ 1.001 := by
    intro x y h1 h2
    have := abs_add_le (x - y) y
    rw [sub_add_cancel] at this
    norm_num at *; linarith
  have q := axis_angle_f32 t a u 1.001 fa (by
    intro x hx; simp only [V4.xyz, V3.toList, List.mem_cons, List.not_mem_nil, or_false] at hx
    rcases hx with rfl | rfl | rfl <;> assumption) ha (by norm_num) (by norm_num) (by
    intro x hx'; simp only [V4.xyz, V3.toList, List.mem_cons, List.not_mem_nil, or_false] at hx'
    rcases hx' with rfl | rfl | rfl
    · exact bd hx w0
    · exact bd hy w1
    · exact bd hz w2)
  have S1 := Real.abs_sin_le_one (rv a / 2)
  have st : ∀ {x y : ℝ}, |x - y| ≤ 1 / 2 ^ 22 → |x * Real.sin (rv a / 2) - y * Real.sin (rv a / 2)| ≤ 1 / 2 ^ 22 := by
    intro x y h
    rw [← sub_mul, abs_mul]
    calc _ ≤ 1 / 2 ^ 22 * 1 := mul_le_mul h S1 (abs_nonneg _) (by norm_num)
      _ = _ := by ring
  have q' : NearQ (Quat.ofAxisAngle (F32x4.sinCos1 t) a u) (turn w (rv a)) 5.4e-7 := by
    obtain ⟨⟨q1, q2, q3⟩, q4⟩ := q
    have n1 : (3e-7 : ℝ) * 1.001 + 1 / 2 ^ 22 ≤ 5.4e-7 := by norm_num
    exact ⟨⟨(Approx.trans q1 (st hx)).mono n1, (Approx.trans q2 (st hy)).mono n1, (Approx.trans q3 (st hz)).mono n1⟩, Approx.mono q4 (by norm_num)⟩
  have r := rotate_close k t q' (turn_norm hw _) (by norm_num) fv hv (by rw [pure_imV]; exact turn_conj hw _ _)
  have l0 : 0 ≤ len3 v := Real.sqrt_nonneg _
  have n : (1 / 2 ^ 19 + 12.1 * 5.4e-7) * len3 v + 1 / 2 ^ 140 ≤ 1e-5 * len3 v + 1 / 2 ^ 140 := by
    norm_num; linarith
  exact ⟨Approx.mono r.1 n, Approx.mono r.2.1 n, Approx.mono r.2.2 n⟩

/-- C131: rotating by the quaternion of Euler angles of at most 16000 radians: `fromEulerAngles(e) * v` is within `2.3e-5` of the
length of `v` of the vector rotated about the x axis, then about the y axis, then about the z axis. -/
theorem euler_rotation_f32 (k : Backend) (t : FTarget) (e v : V4 F32) (fe : AllFinite e.xyz.toList) (he : ∀ x ∈ e.xyz.toList, |rv x| ≤ 16000)
    (fv : AllFinite v.xyz.toList) (hv : len3 v ≤ 2 ^ 100) :
    NearV (F32x4.rotate k t (Quat.fromEulerAngles (F32x4.sinCos1 t) e) v)
      (rodrigues ![0, 0, 1] (rv e.z) (rodrigues ![0, 1, 0] (rv e.y) (rodrigues ![1, 0, 0] (rv e.x) (exact3 v)))) (2.3e-5 * len3 v + 1 / 2 ^ 140) := by
  have q := euler_f32 t e fe he
  have ux : (![1, 0, 0] : Fin 3 → ℝ) 0 ^ 2 + (![1, 0, 0] : Fin 3 → ℝ) 1 ^ 2 + (![1, 0, 0] : Fin 3 → ℝ) 2 ^ 2 = 1 := by simp
  have uy : (![0, 1, 0] : Fin 3 → ℝ) 0 ^ 2 + (![0, 1, 0] : Fin 3 → ℝ) 1 ^ 2 + (![0, 1, 0] : Fin 3 → ℝ) 2 ^ 2 = 1 := by simp
  have uz : (![0, 0, 1] : Fin 3 → ℝ) 0 ^ 2 + (![0, 0, 1] : Fin 3 → ℝ) 1 ^ 2 + (![0, 0, 1] : Fin 3 → ℝ) 2 ^ 2 = 1 := by simp
  have r := rotate_close k t q (by rw [norm_mul, norm_mul, turn_norm ux, turn_norm uy, turn_norm uz]; norm_num) (by norm_num) fv hv
    (w := rodrigues ![0, 0, 1] (rv e.z) (rodrigues ![0, 1, 0] (rv e.y) (rodrigues ![1, 0, 0] (rv e.x) (exact3 v)))) (by
      rw [pure_imV, ← turn_conj uz, ← turn_conj uy, ← turn_conj ux, mul_inv_rev, mul_inv_rev]
      noncomm_ring)
  have l0 : 0 ≤ len3 v := Real.sqrt_nonneg _
  have n : (1 / 2 ^ 19 + 12.1 * 1.7e-6) * len3 v + 1 / 2 ^ 140 ≤ 2.3e-5 * len3 v + 1 / 2 ^ 140 := by
    norm_num; linarith
  exact ⟨Approx.mono r.1 n, Approx.mono r.2.1 n, Approx.mono r.2.2 n⟩

private theorem lit_near (q : Rat) (h : |(q : ℝ)| ≤ 2) : Near (ofRat q) (q : ℝ) (1 / 2 ^ 22) :=
  (lit_approx q 2 h (by norm_num)).mono (by unfold ulp; norm_num)

private theorem small_val (n : Int) (h : n.natAbs ≤ 2 ^ 24) : (ofInt n).isFinite = true ∧ rv (ofInt n) = n := ofInt_exact n h

/-- Non-vacuity: the point (1, 2, 3) turned by two radians about the axis (0.6, 0.8, 0), whose lanes are rounded, with plain SSE. -/
example : NearV (F32x4.rotate .sse2 (.sse false) (Quat.ofAxisAngle (F32x4.sinCos1 (.sse false)) (ofInt 2) ⟨ofRat (3 / 5), ofRat (4 / 5), ofRat 0, ofRat 0⟩)
      ⟨ofInt 1, ofInt 2, ofInt 3, ofInt 0⟩) (rodrigues ![3 / 5, 4 / 5, 0] 2 ![1, 2, 3]) (4e-5 + 1 / 2 ^ 140) := by
  obtain ⟨f1, v1⟩ := small_val 1 (by norm_num)
  obtain ⟨f2, v2⟩ := small_val 2 (by norm_num)
  obtain ⟨f3, v3⟩ := small_val 3 (by norm_num)
  have n1 := lit_near (3 / 5) (by push_cast; rw [abs_of_pos] <;> norm_num)
  have n2 := lit_near (4 / 5) (by push_cast; rw [abs_of_pos] <;> norm_num)
  have n3 := lit_near 0 (by norm_num)
  generalize ofRat (3 / 5) = a1 at *
  generalize ofRat (4 / 5) = a2 at *
  generalize ofRat 0 = a3 at *
  generalize ofInt 1 = b1 at *
  generalize ofInt 2 = b2 at *
  generalize ofInt 3 = b3 at *
  generalize ofInt 0 = b4 at *
  have l : len3 ⟨b1, b2, b3, b4⟩ ≤ 4 := by
    unfold len3
    rw [v1, v2, v3]
    exact Real.sqrt_le_iff.2 (by norm_num)
  have r := axis_angle_rotation_f32 .sse2 (.sse false) b2 ⟨a1, a2, a3, a3⟩ ⟨b1, b2, b3, b4⟩ ![3 / 5, 4 / 5, 0] f2 (by rw [v2]; norm_num)
    (by norm_num; rfl) (by
      refine ⟨?_, ?_, ?_⟩
      · simpa using n1
      · simpa using n2
      · simpa using n3) (by
      intro x hx; simp only [V4.xyz, V3.toList, List.mem_cons, List.not_mem_nil, or_false] at hx
      rcases hx with rfl | rfl | rfl <;> assumption) (l.trans (by norm_num))
  have e : exact3 ⟨b1, b2, b3, b4⟩ = ![1, 2, 3] := by unfold exact3; rw [v1, v2, v3]; norm_num
  rw [e, v2] at r
  have n : 1e-5 * len3 ⟨b1, b2, b3, b4⟩ + 1 / 2 ^ 140 ≤ 4e-5 + 1 / 2 ^ 140 := by norm_num; linarith
  push_cast at r
  exact ⟨Approx.mono r.1 n, Approx.mono r.2.1 n, Approx.mono r.2.2 n⟩

/-- Non-vacuity: Euler angles of 1, 2 and 3 radians applied to themselves. -/
example : NearV (F32x4.rotate .neon (.sse true) (Quat.fromEulerAngles (F32x4.sinCos1 (.sse true)) ⟨ofInt 1, ofInt 2, ofInt 3, ofInt 0⟩)
      ⟨ofInt 1, ofInt 2, ofInt 3, ofInt 0⟩) (rodrigues ![0, 0, 1] 3 (rodrigues ![0, 1, 0] 2 (rodrigues ![1, 0, 0] 1 ![1, 2, 3]))) (1e-4 + 1 / 2 ^ 140) := by
  obtain ⟨f1, v1⟩ := small_val 1 (by norm_num)
  obtain ⟨f2, v2⟩ := small_val 2 (by norm_num)
  obtain ⟨f3, v3⟩ := small_val 3 (by norm_num)
  generalize ofInt 1 = b1 at *
  generalize ofInt 2 = b2 at *
  generalize ofInt 3 = b3 at *
  generalize ofInt 0 = b4 at *
  have l : len3 ⟨b1, b2, b3, b4⟩ ≤ 4 := by
    unfold len3
    rw [v1, v2, v3]
    exact Real.sqrt_le_iff.2 (by norm_num)
  have fin : AllFinite (V4.xyz ⟨b1, b2, b3, b4⟩).toList := by
    intro x hx; simp only [V4.xyz, V3.toList, List.mem_cons, List.not_mem_nil, or_false] at hx
    rcases hx with rfl | rfl | rfl <;> assumption
  have r := euler_rotation_f32 .neon (.sse true) ⟨b1, b2, b3, b4⟩ ⟨b1, b2, b3, b4⟩ fin (by
      intro x hx; simp only [V4.xyz, V3.toList, List.mem_cons, List.not_mem_nil, or_false] at hx
      rcases hx with rfl | rfl | rfl
      · rw [v1]; norm_num
      · rw [v2]; norm_num
      · rw [v3]; norm_num) fin (l.trans (by norm_num))
  have e : exact3 ⟨b1, b2, b3, b4⟩ = ![1, 2, 3] := by unfold exact3; rw [v1, v2, v3]; norm_num
  rw [e, v1, v2, v3] at r
  have n : 2.3e-5 * len3 ⟨b1, b2, b3, b4⟩ + 1 / 2 ^ 140 ≤ 1e-4 + 1 / 2 ^ 140 := by norm_num; linarith
  push_cast at r
  exact ⟨Approx.mono r.1 n, Approx.mono r.2.1 n, Approx.mono r.2.2 n⟩

end Verif
