import Verif.Props.RigidF32
import Verif.Model.ExtractOn
import Verif.Spec.ExtractF32

/-!
# C133: a transform read back from its matrix in binary32
-/

namespace Verif
open F32 Spec Matrix Quaternion VecAcc ProductsP RotateP PlaceP CamP

namespace ExtractP

/-- The squared length of a column near a unit vector. -/
theorem size_near (k : Backend) {c : V4 F32} {α β γ : ℝ} (h : α ^ 2 + β ^ 2 + γ ^ 2 = 1) (ha : Near c.x α (41 / 2 ^ 24))
    (hb : Near c.y β (41 / 2 ^ 24)) (hc : Near c.z γ (41 / 2 ^ 24)) : Near (k.lengthSq3 c) 1 (146 / 2 ^ 24) := by
  have fc : AllFinite c.xyz.toList := fin_xyz3 ha.1 hb.1 hc.1
  obtain ⟨a1, a2⟩ := abs_le.1 ha.2
  obtain ⟨b1, b2⟩ := abs_le.1 hb.2
  obtain ⟨c1, c2⟩ := abs_le.1 hc.2
  have n := pure_sq c
  have s3 : |α| + |β| + |γ| ≤ 17321 / 10000 := by
    have := sq_nonneg (|α| - |β|); have := sq_nonneg (|β| - |γ|); have := sq_nonneg (|α| - |γ|)
    refine le_of_sq_le_sq ?_ (by norm_num)
    have := sq_abs α; have := sq_abs β; have := sq_abs γ
    nlinarith
  have step : ∀ {x a : ℝ}, |x - a| ≤ 41 / 2 ^ 24 → |x ^ 2 - a ^ 2| ≤ 2 * (41 / 2 ^ 24) * |a| + (41 / 2 ^ 24) ^ 2 := by
    intro x a h
    rw [show x ^ 2 - a ^ 2 = 2 * ((x - a) * a) + (x - a) ^ 2 by ring]
    refine (abs_add_le _ _).trans ?_
    rw [abs_mul 2, abs_mul, abs_pow, abs_two]
    have := mul_le_mul_of_nonneg_right h (abs_nonneg a)
    have := pow_le_pow_left₀ (abs_nonneg _) h 2
    linarith
  have sum : |rv c.x ^ 2 + rv c.y ^ 2 + rv c.z ^ 2 - 1| ≤ 1421 / 10 / 2 ^ 24 := by
    rw [← h, show rv c.x ^ 2 + rv c.y ^ 2 + rv c.z ^ 2 - (α ^ 2 + β ^ 2 + γ ^ 2) = (rv c.x ^ 2 - α ^ 2) + (rv c.y ^ 2 - β ^ 2) + (rv c.z ^ 2 - γ ^ 2) by ring]
    refine (abs_add_three _ _ _).trans ?_
    have := step ha.2; have := step hb.2; have := step hc.2
    norm_num at *
    linarith
  rw [← n] at sum
  have n2 : ‖pureOf c‖ * ‖pureOf c‖ = ‖pureOf c‖ ^ 2 := by ring
  obtain ⟨s1, s2⟩ := abs_le.1 sum
  have d := dot_step k fc fc (by rw [n2]; norm_num at *; linarith)
  have e : dt (pureOf c) (pureOf c) = ‖pureOf c‖ ^ 2 := by
    rw [n]; simp [dt, pureOf, imQ]; ring
  rw [e, n2] at d
  refine ⟨d.1, ?_⟩
  have := abs_add_le (rv (k.lengthSq3 c) - ‖pureOf c‖ ^ 2) (‖pureOf c‖ ^ 2 - 1)
  rw [sub_add_sub_cancel] at this
  refine this.trans ?_
  have d2 : |rv (k.lengthSq3 c) - ‖pureOf c‖ ^ 2| ≤ 301 / 100 / 2 ^ 24 * ‖pureOf c‖ ^ 2 + 3 / 2 ^ 149 := d.2
  norm_num at *
  linarith

/-- Dividing a coordinate by a squared length near one. -/
theorem scaled_near {s c : F32} {α : ℝ} (hs : Near s 1 (146 / 2 ^ 24)) (hc : Near c α (41 / 2 ^ 24)) (h : |α| ≤ 1) :
    Near (fmul c (fdiv (ofRat 1) s)) α (191 / 2 ^ 24) := by
  obtain ⟨s1, s2⟩ := abs_le.1 hs.2
  have s0 : 0 < rv s := by norm_num at *; linarith
  have q : |1 / rv s - 1| ≤ 1461 / 10 / 2 ^ 24 := by
    rw [div_sub_one s0.ne', abs_div, abs_of_pos s0, div_le_iff₀ s0, abs_sub_comm]
    refine hs.2.trans ?_
    norm_num at *
    linarith
  obtain ⟨q1, q2⟩ := abs_le.1 q
  have i1 := one_lit
  generalize ofRat 1 = i at *
  have d : Approx (fdiv i s) 1 (148 / 2 ^ 24) := by
    have := fdiv_approx (M := 1 + 147 / 2 ^ 24) i1.1 hs.1 s0.ne' (by
      rw [i1.2]
      change |1 / rv s| ≤ _
      rw [abs_of_pos (by positivity)]; norm_num at q2 ⊢; linarith) (by norm_num)
    rw [i1.2] at this
    refine (this.trans q).mono ?_
    unfold ulp; norm_num
  have := Approx.mul hc d 1 1 h (by norm_num) (by norm_num)
  rw [mul_one] at this
  exact this.mono (by unfold ulp; norm_num)

/-- The column of a rotation, scaled. -/
theorem column_near (k : Backend) {c : V4 F32} {x : ℍ[ℝ]} (h : x.imI ^ 2 + x.imJ ^ 2 + x.imK ^ 2 = 1) (hc : NearIm c x (41 / 2 ^ 24)) :
    Near (k.lengthSq3 c) 1 (146 / 2 ^ 24) ∧
    NearIm (V4.withW (V4.smul c (fdiv (ofRat 1) (k.lengthSq3 c))) (ofRat 0)) x (191 / 2 ^ 24) := by
  have s := size_near k h hc.1 hc.2.1 hc.2.2
  have le : ∀ {a : ℝ}, a ^ 2 ≤ 1 → |a| ≤ 1 := fun h => by rw [← sq_abs] at h; exact le_of_sq_le_sq (by rw [one_pow]; exact h) (by norm_num)
  refine ⟨s, scaled_near s hc.1 (le (by nlinarith)), scaled_near s hc.2.1 (le (by nlinarith)), scaled_near s hc.2.2 (le (by nlinarith))⟩

/-- Scaling a quaternion does not change its rotation. -/
theorem conj_scaled {q : ℍ[ℝ]} (hq : q ≠ 0) (v : ℍ[ℝ]) : (‖q‖⁻¹ • q) * v * (‖q‖⁻¹ • q)⁻¹ = q * v * q⁻¹ := by
  have n : ‖q‖ ≠ 0 := norm_ne_zero_iff.2 hq
  rw [smul_inv₀, inv_inv]
  simp only [smul_mul_assoc, mul_smul_comm, smul_smul]
  rw [mul_inv_cancel₀ n, one_smul]

end ExtractP
open ExtractP

/-- C133: position, rotation and scale read back from the matrix of an object with no scale: the position is unchanged, every lane
of the rotation is within `590 / 2^24` of the normalised quaternion, up to the sign of the whole quaternion, and the scale is within
`146 / 2^24` of one. -/
theorem extractTransform3_f32 (k : Backend) (tg : FTarget) (p q s : V4 F32) (fp : AllFinite p.xyz.toList) (fq : AllFinite q.toList)
    (fs : AllFinite s.xyz.toList) (h1 : 1 / 2 ^ 50 ≤ ‖quatOf q‖) (h2 : ‖quatOf q‖ ≤ 2 ^ 62) (hs : rv s.x = 1 ∧ rv s.y = 1 ∧ rv s.z = 1) :
    exact3 (Transform.extractTransformOn k (F32x4.calcModel k tg p q s)).1 = exact3 p ∧
    SameTurn (Transform.extractTransformOn k (F32x4.calcModel k tg p q s)).2.1 (‖quatOf q‖⁻¹ • quatOf q) (590 / 2 ^ 24) ∧
    NearV (Transform.extractTransformOn k (F32x4.calcModel k tg p q s)).2.2 (exact3 s) (146 / 2 ^ 24) := by
  obtain ⟨⟨n0, n1, n2⟩, ⟨t0, t1, t2⟩, -, fm⟩ := calcModel_matrix_accuracy k tg p q s fp fq fs h1 h2
    (by rw [hs.1, hs.2.1, hs.2.2]; norm_num)
  generalize F32x4.calcModel k tg p q s = m at *
  rw [hs.1] at n0
  rw [hs.2.1] at n1
  rw [hs.2.2] at n2
  have q0 : 0 < ‖quatOf q‖ := lt_of_lt_of_le (by norm_num) h1
  have qn : quatOf q ≠ 0 := norm_pos_iff.1 q0
  rw [← conj_scaled qn] at n0 n1 n2
  have hu : ‖‖quatOf q‖⁻¹ • quatOf q‖ = 1 := by
    rw [norm_smul, norm_inv, norm_norm, inv_mul_cancel₀ q0.ne']
  generalize ‖quatOf q‖⁻¹ • quatOf q = u at *
  have le1 : 40 / 2 ^ 24 * |(1 : ℝ)| + 1 / 2 ^ 146 ≤ 41 / 2 ^ 24 := by norm_num
  have up1 : ∀ {r : V4 F32} {x : ℍ[ℝ]}, NearIm r x (40 / 2 ^ 24 * |(1 : ℝ)| + 1 / 2 ^ 146) → NearIm r x (41 / 2 ^ 24) := fun h =>
    ⟨Approx.mono h.1 le1, Approx.mono h.2.1 le1, Approx.mono h.2.2 le1⟩
  have un : u ≠ 0 := norm_ne_zero_iff.1 (by rw [hu]; norm_num)
  have len : ∀ v : ℍ[ℝ], v.re = 0 → ‖v‖ = 1 → (u * v * u⁻¹).imI ^ 2 + (u * v * u⁻¹).imJ ^ 2 + (u * v * u⁻¹).imK ^ 2 = 1 := by
    intro v v0 v1
    have r0 := conj_re u v v0
    have nn : ‖u * v * u⁻¹‖ = 1 := by rw [norm_mul, norm_mul, norm_inv, hu, v1]; norm_num
    have := Quaternion.normSq_eq_norm_mul_self (u * v * u⁻¹)
    rw [nn, Quaternion.normSq_def', r0] at this
    linarith
  have ax : ∀ a b c : ℝ, a ^ 2 + b ^ 2 + c ^ 2 = 1 → ‖imQ ⟨a, b, c, 0⟩‖ = 1 := by
    intro a b c h
    have := Quaternion.normSq_eq_norm_mul_self (imQ ⟨a, b, c, 0⟩)
    rw [Quaternion.normSq_def'] at this
    have h0 := norm_nonneg (imQ ⟨a, b, c, 0⟩)
    generalize ‖imQ ⟨a, b, c, 0⟩‖ = n at *
    simp only [imQ] at this
    nlinarith
  obtain ⟨s0, c0⟩ := column_near k (len _ rfl (ax 1 0 0 (by norm_num))) (up1 n0)
  obtain ⟨s1, c1⟩ := column_near k (len _ rfl (ax 0 1 0 (by norm_num))) (up1 n1)
  obtain ⟨s2, c2⟩ := column_near k (len _ rfl (ax 0 0 1 (by norm_num))) (up1 n2)
  refine ⟨by simp only [Transform.extractTransformOn, Transform.getTranslation, exact3, t0, t1, t2], ?_, ?_⟩
  · have le : 3 * (191 / 2 ^ 24) + 14 / 2 ^ 24 ≤ (590 / 2 ^ 24 : ℝ) := by norm_num
    have up : ∀ {r : V4 F32} {x : ℍ[ℝ]}, NearQ r x (3 * (191 / 2 ^ 24) + 14 / 2 ^ 24) → NearQ r x (590 / 2 ^ 24) := fun h =>
      ⟨⟨Approx.mono h.1.1 le, Approx.mono h.1.2.1 le, Approx.mono h.1.2.2 le⟩, Approx.mono h.2 le⟩
    exact (extractQuat_f32 (Transform.extractRotationOn k m) u _ hu (by norm_num) c0 c1 c2).imp up up
  · have e : exact3 s = ![1, 1, 1] := by rw [exact3, hs.1, hs.2.1, hs.2.2]
    rw [e]
    exact ⟨s0, s1, s2⟩

/-- On SSE4.1 the model is the one of C59. -/
theorem extractTransformOn_sse41 {F : Type} [Flt F] (m : M4 F) : Transform.extractTransformOn .sse41 m = Transform.extractTransform m := rfl

/-- A third of a turn is read back. -/
example (k : Backend) (tg : FTarget) :
    let r := Transform.extractTransformOn k (F32x4.calcModel k tg thirdTurn thirdTurn unscaled)
    exact3 r.1 = exact3 thirdTurn ∧ SameTurn r.2.1 (quatOf thirdTurn) (590 / 2 ^ 24) ∧ NearV r.2.2 ![1, 1, 1] (146 / 2 ^ 24) := by
  obtain ⟨f, n⟩ := thirdTurn_ok
  obtain ⟨x, y, z, -⟩ := fin4 f
  have o : (ofRat 1).isFinite = true ∧ rv (ofRat 1) = 1 := one_lit
  have := extractTransform3_f32 k tg thirdTurn thirdTurn unscaled (fin_xyz3 x y z) f (fin_xyz3 o.1 o.1 o.1)
    (by rw [n]; norm_num) (by rw [n]; norm_num) ⟨o.2, o.2, o.2⟩
  rw [n, inv_one, one_smul, show exact3 unscaled = ![1, 1, 1] by simp only [exact3, unscaled, V4.splat, o.2]] at this
  exact this

end Verif
