import Verif.Props.Camera
import Verif.Model.FrontTargets

/-!
# C115: the orientation along a direction in binary32
-/

namespace Verif
open F32 Spec Matrix Quaternion VecAcc ProductsP RotateP PlaceP CamP

namespace FrontP

/-- The origin. -/
def origin : V4 F32 := ⟨ofRat 0, ofRat 0, ofRat 0, ofRat 0⟩

theorem origin_pt : pt origin = ⟨0, 0, 0⟩ := by
  have : rv (ofRat 0) = 0 := zero_lit.2
  change (⟨rv (ofRat 0), rv (ofRat 0), rv (ofRat 0)⟩ : V3 ℝ) = _
  rw [this]

theorem origin_pure : pureOf origin = 0 := by
  have : rv (ofRat 0) = 0 := zero_lit.2
  ext <;> simp [pureOf, origin, this]

theorem origin_fin : AllFinite origin.xyz.toList := fin_xyz3 zero_lit.1 zero_lit.1 zero_lit.1

/-- The three directions `rotate(front, up)` returns. -/
theorem frame (k : Backend) {f up : V4 F32} {σ e : ℝ} (ff : AllFinite f.xyz.toList) (fu : AllFinite up.xyz.toList)
    {F W S : ℍ[ℝ]} (eF : F = ‖pureOf f‖⁻¹ • pureOf f) (eW : W = cr (pureOf up) F) (eS : S = ‖W‖⁻¹ • W)
    (he : e ≤ 1 / 8) (h1 : |‖pureOf f‖ - 1| ≤ e) (h3 : 1 / 2 ^ 26 ≤ ‖pureOf up‖) (h4 : ‖pureOf up‖ ≤ 2 ^ 60)
    (hσ : 1 / 2 ^ 20 ≤ σ) (hW : σ * ‖pureOf up‖ ≤ ‖W‖) :
    AllFinite (k.normalize3 (k.cross3 up f)).xyz.toList ∧ AllFinite (k.cross3 f (k.normalize3 (k.cross3 up f))).xyz.toList ∧
    ‖pureOf f - F‖ ≤ e ∧ ‖pureOf (k.normalize3 (k.cross3 up f)) - S‖ ≤ 14 / 2 ^ 24 / σ ∧
    ‖pureOf (k.cross3 f (k.normalize3 (k.cross3 up f))) - cr F S‖ ≤ 18 / 2 ^ 24 / σ + 101 / 100 * e := by
  have h1' := h1
  rw [abs_le] at h1'
  have e0 : 0 ≤ e := (abs_nonneg _).trans h1
  have n0 : 0 < ‖pureOf f‖ := by linarith
  have u0 : 0 < ‖pureOf up‖ := lt_of_lt_of_le (by positivity) h3
  have s0 : 0 < σ := lt_of_lt_of_le (by positivity) hσ
  have W0 : 0 < ‖W‖ := lt_of_lt_of_le (by positivity) hW
  have nF : ‖F‖ = 1 := by rw [eF]; exact unit_norm n0
  have nS : ‖S‖ = 1 := by rw [eS]; exact unit_norm W0
  have c6 : ‖W‖ ≤ ‖pureOf up‖ := by
    have := cr_le (pureOf up) F
    rwa [← eW, nF, mul_one] at this
  have σ1 : σ ≤ 1 := by
    have := hW.trans c6
    by_contra hc
    push Not at hc
    nlinarith
  have i1 : 1 ≤ 1 / σ := by rw [le_div_iff₀ s0]; linarith
  -- the direction
  have b5 : ‖pureOf f - F‖ ≤ e := by
    have : pureOf f - F = (‖pureOf f‖ - 1) • F := by
      rw [sub_smul, one_smul, eF, smul_smul, mul_inv_cancel₀ n0.ne', one_smul]
    rw [this, norm_smul, nF, mul_one, Real.norm_eq_abs]
    exact h1
  -- the side
  have eV : cr (pureOf up) (pureOf f) = ‖pureOf f‖ • W := by
    rw [eW, eF, cr_smul, smul_smul, mul_inv_cancel₀ n0.ne', one_smul]
  have nV : ‖cr (pureOf up) (pureOf f)‖ = ‖pureOf f‖ * ‖W‖ := by rw [eV, norm_smul, norm_norm]
  have V0 : 0 < ‖cr (pureOf up) (pureOf f)‖ := by rw [nV]; positivity
  have eS' : S = ‖cr (pureOf up) (pureOf f)‖⁻¹ • cr (pureOf up) (pureOf f) := by
    rw [nV, eV, smul_smul, eS]
    congr 1
    field_simp
  have uf : ‖pureOf up‖ * ‖pureOf f‖ ≤ 9 / 8 * ‖pureOf up‖ := by nlinarith
  have uf' : 7 / 8 * ‖pureOf up‖ ≤ ‖pureOf up‖ * ‖pureOf f‖ := by nlinarith
  obtain ⟨c1, c2⟩ := cross_step k fu ff (uf.trans (by linarith))
  have c3 : ‖pureOf (k.cross3 up f) - cr (pureOf up) (pureOf f)‖ ≤ 353 / 100 / 2 ^ 24 * (‖pureOf up‖ * ‖pureOf f‖) := by
    have e4 : (1 : ℝ) / 2 ^ 147 ≤ 1 / 2 ^ 100 * (‖pureOf up‖ * ‖pureOf f‖) := by linarith
    refine c2.trans ?_
    linarith
  have vW : σ * (‖pureOf up‖ * ‖pureOf f‖) ≤ ‖cr (pureOf up) (pureOf f)‖ := by
    rw [nV]
    have := mul_le_mul_of_nonneg_right hW n0.le
    linarith
  have vL : 1 / 2 ^ 20 * (‖pureOf up‖ * ‖pureOf f‖) ≤ ‖cr (pureOf up) (pureOf f)‖ := le_trans (by gcongr) vW
  have vU := cr_le (pureOf up) (pureOf f)
  have c4 : |‖pureOf (k.cross3 up f)‖ - ‖cr (pureOf up) (pureOf f)‖| ≤ 353 / 100 / 2 ^ 24 * (‖pureOf up‖ * ‖pureOf f‖) :=
    (abs_norm_sub_norm_le _ _).trans c3
  rw [abs_le] at c4
  have c7 : 1 / 2 ^ 50 ≤ ‖pureOf (k.cross3 up f)‖ := by linarith
  obtain ⟨d1, d2⟩ := unit_step k c1 c7 (by linarith)
  have d3 := unit_close (lt_of_lt_of_le (by positivity) c7) V0
  rw [← eS'] at d3
  have d4 : 2 * ‖pureOf (k.cross3 up f) - cr (pureOf up) (pureOf f)‖ / ‖cr (pureOf up) (pureOf f)‖ ≤ 706 / 100 / 2 ^ 24 * (1 / σ) := by
    rw [mul_one_div, div_le_div_iff₀ V0 s0]
    have := mul_le_mul_of_nonneg_left c3 s0.le
    have := mul_le_mul_of_nonneg_left vW (by positivity : (0 : ℝ) ≤ 353 / 100 / 2 ^ 24)
    linarith
  have nG := unit_norm (lt_of_lt_of_le (by positivity) c7)
  generalize hs' : k.normalize3 (k.cross3 up f) = s' at *
  have d5 : ‖pureOf s' - S‖ ≤ 1316 / 100 / 2 ^ 24 * (1 / σ) := by
    have := norm_add_le (pureOf s' - ‖pureOf (k.cross3 up f)‖⁻¹ • pureOf (k.cross3 up f))
      (‖pureOf (k.cross3 up f)‖⁻¹ • pureOf (k.cross3 up f) - S)
    rw [sub_add_sub_cancel] at this
    refine this.trans ?_
    linarith
  have d6 : ‖pureOf s'‖ ≤ 1 + 61 / 10 / 2 ^ 24 := by
    have := norm_add_le (pureOf s' - ‖pureOf (k.cross3 up f)‖⁻¹ • pureOf (k.cross3 up f))
      (‖pureOf (k.cross3 up f)‖⁻¹ • pureOf (k.cross3 up f))
    rw [sub_add_cancel, nG] at this
    linarith
  -- the upward direction
  have g0 : ‖pureOf f‖ * ‖pureOf s'‖ ≤ 1126 / 1000 :=
    (mul_le_mul (show ‖pureOf f‖ ≤ 9 / 8 by linarith) d6 (norm_nonneg _) (by positivity)).trans (by norm_num)
  obtain ⟨g1, g2⟩ := cross_step k ff d1 (g0.trans (by norm_num))
  have g3 : ‖pureOf (k.cross3 f s') - cr F S‖ ≤ 18 / 2 ^ 24 * (1 / σ) + 101 / 100 * e := by
    have e2 := cr_le (pureOf f - F) (pureOf s')
    have e3 := cr_le F (pureOf s' - S)
    rw [nF, one_mul] at e3
    have e4 : ‖pureOf f - F‖ * ‖pureOf s'‖ ≤ e * (1 + 61 / 10 / 2 ^ 24) := mul_le_mul b5 d6 (norm_nonneg _) e0
    have := norm_add_le (pureOf (k.cross3 f s') - cr (pureOf f) (pureOf s')) (cr (pureOf f) (pureOf s') - cr F S)
    rw [sub_add_sub_cancel] at this
    rw [cr_sub] at this
    have e5 := norm_add_le (cr (pureOf f - F) (pureOf s')) (cr F (pureOf s' - S))
    refine this.trans ?_
    linarith
  refine ⟨d1, g1, b5, ?_, ?_⟩
  · rw [div_eq_mul_one_div _ σ]; linarith
  · rw [div_eq_mul_one_div _ σ]; exact g3

end FrontP
open FrontP

/-- C115: the orientation of an object that faces along `front`, in binary32. `front` should have length one and is off by
`e`; the result is within `18 / 2^24 / s + 1.01 e` of the rotation that takes the z axis to the direction of `front`, the x
axis square to `up` and the y axis to its side, where `s` is the sine of the angle between `up` and `front`. -/
theorem rotateFront_f32 (k : Backend) (front up : V4 F32) (e s : ℝ) (ff : AllFinite front.xyz.toList) (fu : AllFinite up.xyz.toList)
    (he : e ≤ 1 / 8) (hn : |lengthOf (pt front) - 1| ≤ e) (h : CameraOk ⟨0, 0, 0⟩ (pt front) (pt up) s) :
    ∃ m : M4 ℝ, IsFacing m ⟨0, 0, 0⟩ (pt front) (pt up) ∧
      NearRigid (F32x4.rotateFront k front up) m (18 / 2 ^ 24 / s + 101 / 100 * e) 0 := by
  have s0 : 0 < s := lt_of_lt_of_le (by positivity) h.sine
  have e0 : 0 ≤ e := (abs_nonneg _).trans hn
  rw [← origin_pt] at h
  obtain ⟨F, S, -, -, -, hne, hup, eF, eS, -⟩ := both k origin_fin ff fu h
  have er : Transform.rotateLook (ex origin) (ex front) (ex up) = ⟨⟨S.x, S.y, S.z, 0⟩,
      ⟨(cr (imQ F) (imQ S)).imI, (cr (imQ F) (imQ S)).imJ, (cr (imQ F) (imQ S)).imK, 0⟩, ⟨F.x, F.y, F.z, 0⟩, ⟨0, 0, 0, 1⟩⟩ := by
    simp only [Transform.rotateLook, eF, eS]
    simp [vec]
    refine ⟨?_, ?_, ?_⟩ <;> ring
  obtain ⟨r1, r2, r3⟩ := rotateLook_spec (ex origin) (ex front) (ex up) hne hup
  obtain ⟨F2, S2, q1, q2, -, -, -, q3, q4, -, -⟩ := look_frame (ex origin) (ex front) (ex up) hne hup
  rw [eF] at q1
  subst q1
  rw [eS] at q2
  subst q2
  refine ⟨Transform.rotateLook (ex origin) (ex front) (ex up), ⟨r1, r2, ?_, ?_, ?_⟩, ?_⟩
  · rw [← origin_pt]
    refine r3.trans ?_
    ext i; fin_cases i <;> rfl
  · rw [er]; exact q3
  · rw [er]
    have : 0 < (F.y * S.z - F.z * S.y) * rv up.x + (F.z * S.x - F.x * S.z) * rv up.y + (F.x * S.y - F.y * S.x) * rv up.z := q4
    simp only [cr_imI, cr_imJ, cr_imK, imQ_imI, imQ_imJ, imQ_imK]
    exact this
  · rw [length_pure] at hn
    have n0 : 0 < ‖pureOf front‖ := by rw [abs_le] at hn; linarith
    have eD : imQ (V4.sub (ex front) (ex origin)) = pureOf front := by
      have : rv (ofRat 0) = 0 := zero_lit.2
      ext <;> simp [pureOf, ex, vec, origin, this]
    have hF : imQ F = ‖pureOf front‖⁻¹ • pureOf front := by
      rw [← eF, imQ_normalize (by rw [eD]; exact n0), eD]
    have eW : imQ (Simd.cross3 (ex up) F) = cr (pureOf up) (imQ F) := by
      ext <;> simp [pureOf, ex, vec] <;> ring
    have hW : s * ‖pureOf up‖ ≤ ‖cr (pureOf up) (imQ F)‖ := by
      have := clear_cross (D := pureOf front) (by rw [origin_pure, sub_zero]) n0 h.clear
      rwa [← hF] at this
    have u1 := h.long
    have u2 := h.short
    rw [length_pure] at u1 u2
    have W0 : 0 < ‖cr (pureOf up) (imQ F)‖ := lt_of_lt_of_le (mul_pos s0 (lt_of_lt_of_le (by positivity) u1)) hW
    have hS : imQ S = ‖cr (pureOf up) (imQ F)‖⁻¹ • cr (pureOf up) (imQ F) := by
      rw [← eS, imQ_normalize (by rw [eW]; exact W0), eW]
    obtain ⟨f2, f3, g1, g2, g3⟩ := frame k ff fu hF rfl hS he hn u1 u2 h.sine hW
    have em : F32x4.rotateFront k front up = ⟨⟨(k.normalize3 (k.cross3 up front)).x, (k.normalize3 (k.cross3 up front)).y,
        (k.normalize3 (k.cross3 up front)).z, ofRat 0⟩, ⟨(k.cross3 front (k.normalize3 (k.cross3 up front))).x,
        (k.cross3 front (k.normalize3 (k.cross3 up front))).y, (k.cross3 front (k.normalize3 (k.cross3 up front))).z, ofRat 0⟩,
        ⟨front.x, front.y, front.z, ofRat 0⟩, ⟨ofRat 0, ofRat 0, ofRat 0, ofRat 1⟩⟩ := rfl
    rw [em, er]
    have w : 14 / 2 ^ 24 / s ≤ 18 / 2 ^ 24 / s + 101 / 100 * e := by
      have : 14 / 2 ^ 24 / s ≤ 18 / 2 ^ 24 / s := by gcongr; norm_num
      linarith
    have w' : e ≤ 18 / 2 ^ 24 / s + 101 / 100 * e := by
      have : 0 ≤ 18 / 2 ^ 24 / s := by positivity
      linarith
    have z : Near (ofRat 0) 0 0 := ⟨zero_lit.1, by rw [rv_eq, zero_lit.2]; simp⟩
    unfold NearRigid
    generalize ofRat 0 = Z at *
    generalize ofRat 1 = O at *
    exact ⟨comps f2 (x := S.x) (y := S.y) (z := S.z) (g2.trans w), comps f3 (x := (cr (imQ F) (imQ S)).imI) (y := (cr (imQ F) (imQ S)).imJ)
      (z := (cr (imQ F) (imQ S)).imK) g3, comps ff (x := F.x) (y := F.y) (z := F.z) (g1.trans w'), ⟨z, z, z⟩, rfl, rfl, rfl, rfl⟩

/-- Facing along the rounded direction (0.6, 0, 0.8), whose length is not quite one, with `up` along y. -/
example (k : Backend) : ∃ m : M4 ℝ,
    IsFacing m ⟨0, 0, 0⟩ ⟨10066330 / 2 ^ 24, 0, 13421773 / 2 ^ 24⟩ ⟨0, 1, 0⟩ ∧
    NearRigid (F32x4.rotateFront k ⟨ofRat (6 / 10), ofRat 0, ofRat (8 / 10), ofRat 0⟩ ⟨ofRat 0, ofRat 1, ofRat 0, ofRat 0⟩) m
      (18 / 2 ^ 24 / 1 + 101 / 100 * (1 / 2 ^ 24)) 0 := by
  have z := zero_lit
  have o := one_lit
  have hs : ((ofRat (6 / 10)).isFinite = true ∧ (ofRat (6 / 10)).toRat = 10066330 / 2 ^ 24) ∧
      ((ofRat (8 / 10)).isFinite = true ∧ (ofRat (8 / 10)).toRat = 13421773 / 2 ^ 24) := by decide +kernel
  have a : (ofRat (6 / 10)).isFinite = true ∧ rv (ofRat (6 / 10)) = 10066330 / 2 ^ 24 := ⟨hs.1.1, by unfold rv; rw [hs.1.2]; push_cast; rfl⟩
  have b : (ofRat (8 / 10)).isFinite = true ∧ rv (ofRat (8 / 10)) = 13421773 / 2 ^ 24 := ⟨hs.2.1, by unfold rv; rw [hs.2.2]; push_cast; rfl⟩
  clear hs
  generalize ofRat 0 = Z at *
  generalize ofRat 1 = O at *
  generalize ofRat (6 / 10) = A at *
  generalize ofRat (8 / 10) = B at *
  have e2 : pt (⟨A, Z, B, Z⟩ : V4 F32) = ⟨10066330 / 2 ^ 24, 0, 13421773 / 2 ^ 24⟩ := by rw [← a.2, ← b.2, ← z.2]; rfl
  have e3 : pt (⟨Z, O, Z, Z⟩ : V4 F32) = ⟨0, 1, 0⟩ := by rw [← o.2, ← z.2]; rfl
  have l1 : lengthOf ⟨0, 1, 0⟩ = 1 := by simp [lengthOf, Spec.dist, dist2]
  have l3 : 1 - 1 / 2 ^ 24 ≤ Spec.dist ⟨0, 0, 0⟩ ⟨10066330 / 2 ^ 24, 0, 13421773 / 2 ^ 24⟩ ∧
      Spec.dist ⟨0, 0, 0⟩ ⟨10066330 / 2 ^ 24, 0, 13421773 / 2 ^ 24⟩ ≤ 1 + 1 / 2 ^ 24 := by
    rw [Spec.dist, Real.sqrt_le_left (by norm_num), Real.le_sqrt' (by norm_num)]; norm_num [dist2]
  have := rotateFront_f32 k ⟨A, Z, B, Z⟩ ⟨Z, O, Z, Z⟩ (1 / 2 ^ 24) 1 (fin_xyz3 a.1 z.1 b.1) (fin_xyz3 z.1 o.1 z.1) (by norm_num)
    (by rw [e2, abs_le]; exact ⟨by unfold lengthOf; linarith [l3.1], by unfold lengthOf; linarith [l3.2]⟩) (by
      rw [e2, e3]
      refine ⟨by linarith [l3.1], by linarith [l3.2], by rw [l1]; norm_num, by rw [l1]; norm_num, by norm_num, ?_⟩
      norm_num [UpClear, dot, diff])
  rw [e2, e3] at this
  exact this

end Verif
