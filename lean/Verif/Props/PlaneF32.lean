import Verif.Props.Camera
import Verif.Props.Reliable
import Verif.Props.FloatOps
import Verif.Proofs.F32Rel
import Verif.Model.PlaneOn
import Verif.Spec.PlaneF32

/-!
# C140: the plane through a triangle in binary32
-/

namespace Verif
open F32 Spec Quaternion VecAcc ProductsP RotateP PlaceP CamP

namespace PlaneP

theorem sharp {a b c : V4 F32} {σ : ℝ} (h : dot (diff (pt b) (pt a)) (diff (pt c) (pt a)) ^ 2 ≤
      (1 - σ ^ 2) * (dist2 (pt a) (pt b) * dist2 (pt a) (pt c))) :
    σ * (‖pureOf b - pureOf a‖ * ‖pureOf c - pureOf a‖) ≤ ‖cr (pureOf b - pureOf a) (pureOf c - pureOf a)‖ := by
  refine le_of_sq_le_sq ?_ (norm_nonneg _)
  rw [cr_sq]
  have e : ∀ x y : V4 F32, (pureOf x - pureOf y).imI ^ 2 + (pureOf x - pureOf y).imJ ^ 2 + (pureOf x - pureOf y).imK ^ 2 =
      ‖pureOf x - pureOf y‖ ^ 2 := fun x y => by
    have : (pureOf x - pureOf y).re = 0 := by simp [pureOf]
    rw [norm_sq, this]; ring
  have e3 : ∀ x y : V4 F32, dist2 (pt x) (pt y) = ‖pureOf y - pureOf x‖ ^ 2 := fun x y => by
    rw [← dist_pure, Spec.dist, Real.sq_sqrt (by unfold dist2; positivity)]
  have e5 : dot (diff (pt b) (pt a)) (diff (pt c) (pt a)) = dt (pureOf b - pureOf a) (pureOf c - pureOf a) := by
    simp [dt, pureOf]; rfl
  rw [e3, e3, e5] at h
  rw [e, e]
  nlinarith

/-- The computed normal. -/
theorem normal (k : Backend) {a b c : V4 F32} {σ : ℝ} (fa : AllFinite a.xyz.toList) (fb : AllFinite b.xyz.toList)
    (fc : AllFinite c.xyz.toList) {A B N : ℍ[ℝ]} (eA : A = pureOf b - pureOf a) (eB : B = pureOf c - pureOf a) (eN : N = cr A B)
    (hσ : 1 / 2 ^ 20 ≤ σ) (h1 : ‖A‖ ≤ 2 ^ 30) (h2 : ‖B‖ ≤ 2 ^ 30) (h3 : 1 / 2 ^ 49 ≤ σ * (‖A‖ * ‖B‖))
    (hN : σ * (‖A‖ * ‖B‖) ≤ ‖N‖) :
    ∃ n n' : V4 F32, k.cross3 (V4.sub b a) (V4.sub c a) = n ∧ k.normalize3 n = n' ∧ ((Flt.lit 0 : F32) <. k.length3 n) = true ∧
      AllFinite n'.xyz.toList ∧ ‖pureOf n' - ‖N‖⁻¹ • N‖ ≤ 18 / 2 ^ 24 / σ ∧ |‖pureOf n'‖ - 1| ≤ 62 / 10 / 2 ^ 24 ∧ 0 < ‖N‖ ∧ σ ≤ 1 := by
  have s0 : 0 < σ := lt_of_lt_of_le (by positivity) hσ
  have A0 := norm_nonneg A
  have B0 := norm_nonneg B
  have N0 : 0 < ‖N‖ := lt_of_lt_of_le (by positivity) (h3.trans hN)
  have P0 : 0 < ‖A‖ * ‖B‖ := by
    by_contra hc
    push Not at hc
    have := mul_nonpos_of_nonneg_of_nonpos s0.le hc
    have q : (0 : ℝ) < 1 / 2 ^ 49 := by positivity
    linarith
  have P1 : ‖A‖ * ‖B‖ ≤ 2 ^ 60 := (mul_le_mul h1 h2 B0 (by positivity)).trans (by norm_num)
  have NP : ‖N‖ ≤ ‖A‖ * ‖B‖ := by rw [eN]; exact cr_le _ _
  have σ1 : σ ≤ 1 := by
    by_contra hc
    push Not at hc
    nlinarith
  have P2 : 1 / 2 ^ 49 ≤ ‖A‖ * ‖B‖ := by nlinarith
  obtain ⟨a1, a2⟩ := diff_step fb fa (by rw [← eA]; exact h1.trans (by norm_num))
  obtain ⟨b1, b2⟩ := diff_step fc fa (by rw [← eB]; exact h2.trans (by norm_num))
  rw [← eA] at a2
  rw [← eB] at b2
  generalize V4.sub b a = A' at *
  generalize V4.sub c a = B' at *
  have a3 : ‖pureOf A'‖ ≤ (1 + 1 / 2 ^ 24) * ‖A‖ := by
    have := norm_add_le (pureOf A' - A) A
    rw [sub_add_cancel] at this
    linarith
  have b3 : ‖pureOf B'‖ ≤ (1 + 1 / 2 ^ 24) * ‖B‖ := by
    have := norm_add_le (pureOf B' - B) B
    rw [sub_add_cancel] at this
    linarith
  have ab : ‖pureOf A'‖ * ‖pureOf B'‖ ≤ (1 + 3 / 2 ^ 24) * (‖A‖ * ‖B‖) := by
    have := mul_le_mul a3 b3 (norm_nonneg _) (by positivity)
    have q : ((1 : ℝ) + 1 / 2 ^ 24) * (1 + 1 / 2 ^ 24) ≤ 1 + 3 / 2 ^ 24 := by norm_num
    have := mul_le_mul_of_nonneg_right q P0.le
    linarith
  obtain ⟨c1, c2⟩ := cross_step k a1 b1 (ab.trans (by linarith))
  have c3 : ‖cr (pureOf A') (pureOf B') - N‖ ≤ 201 / 100 / 2 ^ 24 * (‖A‖ * ‖B‖) := by
    rw [eN, cr_sub]
    have q1 := (cr_le (pureOf A' - A) (pureOf B')).trans (mul_le_mul a2 b3 (norm_nonneg _) (by positivity))
    have q2 := (cr_le A (pureOf B' - B)).trans (mul_le_mul_of_nonneg_left b2 A0)
    have := norm_add_le (cr (pureOf A' - A) (pureOf B')) (cr A (pureOf B' - B))
    refine this.trans ?_
    nlinarith
  have c4 : ‖pureOf (k.cross3 A' B') - N‖ ≤ 554 / 100 / 2 ^ 24 * (‖A‖ * ‖B‖) := by
    have := norm_add_le (pureOf (k.cross3 A' B') - cr (pureOf A') (pureOf B')) (cr (pureOf A') (pureOf B') - N)
    rw [sub_add_sub_cancel] at this
    refine this.trans ?_
    have q : (1 : ℝ) / 2 ^ 147 ≤ 1 / 2 ^ 90 * (‖A‖ * ‖B‖) := by linarith
    linarith
  generalize k.cross3 A' B' = n at *
  have c5 : |‖pureOf n‖ - ‖N‖| ≤ 554 / 100 / 2 ^ 24 * (‖A‖ * ‖B‖) := (abs_norm_sub_norm_le _ _).trans c4
  rw [abs_le] at c5
  have c6 : 1 / 2 ^ 20 * (‖A‖ * ‖B‖) ≤ ‖N‖ := le_trans (by gcongr) hN
  have c7 : 1 / 2 ^ 50 ≤ ‖pureOf n‖ := by linarith
  have c8 : ‖pureOf n‖ ≤ 2 ^ 61 := by linarith
  obtain ⟨d1, d2⟩ := unit_step k c1 c7 (by linarith)
  have n0 : 0 < ‖pureOf n‖ := lt_of_lt_of_le (by positivity) c7
  have d3 := unit_close n0 N0
  have i1 : 1 ≤ 1 / σ := by rw [le_div_iff₀ s0]; linarith
  have d4 : 2 * ‖pureOf n - N‖ / ‖N‖ ≤ 1108 / 100 / 2 ^ 24 * (1 / σ) := by
    rw [mul_one_div, div_le_div_iff₀ N0 s0]
    have := mul_le_mul_of_nonneg_left c4 s0.le
    have := mul_le_mul_of_nonneg_left hN (by positivity : (0 : ℝ) ≤ 554 / 100 / 2 ^ 24)
    linarith
  refine ⟨n, k.normalize3 n, rfl, rfl, ?_, d1, ?_, ?_, N0, σ1⟩
  · have l := (length_accuracy.2.2.2.1 k n c1).2 (by
      rw [normSq_xyz]
      calc (1 : ℝ) / 2 ^ 100 = (1 / 2 ^ 50) ^ 2 := by norm_num
        _ ≤ _ := by gcongr) (by
      rw [normSq_xyz]
      calc ‖pureOf n‖ ^ 2 ≤ (2 ^ 61) ^ 2 := by gcongr
        _ ≤ _ := by norm_num)
    rw [normSq_xyz, Real.sqrt_sq n0.le] at l
    obtain ⟨l1, l2⟩ := l
    obtain ⟨z1, z2⟩ := zero_lit
    change ltb (ofRat 0) (k.length3 n) = true
    rw [Reliable.flt_iff z1 l1, z2]
    rw [abs_le] at l2
    change 0 < rv (k.length3 n)
    linarith [l2.1]
  · have := norm_add_le (pureOf (k.normalize3 n) - ‖pureOf n‖⁻¹ • pureOf n) (‖pureOf n‖⁻¹ • pureOf n - ‖N‖⁻¹ • N)
    rw [sub_add_sub_cancel] at this
    refine this.trans ?_
    rw [div_eq_mul_one_div _ σ]
    linarith
  · have := abs_norm_sub_norm_le (pureOf (k.normalize3 n)) (‖pureOf n‖⁻¹ • pureOf n)
    rw [unit_norm n0] at this
    linarith

/-! ## Degenerate triangles -/

/-- A zero, of either sign. -/
def IsZ (x : F32) : Prop := x.isFinite = true ∧ x.val = 0

theorem lit_z : IsZ (ofRat 0) := zero_lit

theorem mul_z {x y : F32} (hx : IsZ x) (hy : y.isFinite = true) : IsZ (fmul x y) ∧ IsZ (fmul y x) := by
  have h := fmul_exact hx.1 hy lit_z.1 (by rw [lit_z.2, hx.2, zero_mul])
  have h' : IsZ (fmul x y) := ⟨h.1, by rw [h.eq, hx.2, zero_mul]⟩
  exact ⟨h', by rw [fmul_comm]; exact h'⟩

theorem add_z {x y : F32} (hx : IsZ x) (hy : IsZ y) : IsZ (fadd x y) := by
  have h := fadd_exact hx.1 hy.1 lit_z.1 (by rw [lit_z.2, hx.2, hy.2, add_zero])
  exact ⟨h.1, by rw [h.eq, hx.2, hy.2, add_zero]⟩

theorem sub_z {x y : F32} (hx : x.isFinite = true) (hy : y.isFinite = true) (h : x.val = y.val) : IsZ (fsub x y) := by
  have h := fsub_exact hx hy lit_z.1 (by rw [lit_z.2, h, sub_self])
  exact ⟨h.1, by rw [h.eq]; linarith⟩

theorem sqrt_z {x : F32} (h : IsZ x) : ltb (ofRat 0) (fsqrt x) = false := by
  have hm : x.mag = 0 := (toRat_zero_iff x).1 (by have := h.2; unfold val at this; exact_mod_cast this)
  have : x = ⟨0⟩ ∨ x = ⟨0x80000000⟩ := by
    obtain ⟨b⟩ := x
    have hb : b.toNat % 2 ^ 31 = 0 := hm
    have : b.toNat = 0 ∨ b.toNat = 2 ^ 31 := by omega
    rcases this with e | e
    · left; congr; apply BitVec.eq_of_toNat_eq; rw [e]; rfl
    · right; congr; apply BitVec.eq_of_toNat_eq; rw [e]; rfl
  rcases this with rfl | rfl <;> decide +kernel

theorem dot_z (k : Backend) {n p : V4 F32} (hx : IsZ n.x) (hy : IsZ n.y) (hz : IsZ n.z) (px : p.x.isFinite = true)
    (py : p.y.isFinite = true) (pz : p.z.isFinite = true) : IsZ (k.dot3 n p) := by
  have a := (mul_z hx px).1
  have b := (mul_z hy py).1
  have c := (mul_z hz pz).1
  cases k
  · exact add_z (add_z a b) c
  · exact add_z (add_z a b) (add_z c lit_z)
  · exact add_z (add_z a b) (add_z c lit_z)
  · exact add_z (add_z a b) c

/-- The difference of two products of zeros. -/
theorem prod_z {u v w z : F32} (hu : u.isFinite = true) (hv : v.isFinite = true) (hw : w.isFinite = true) (hz : z.isFinite = true)
    (h1 : IsZ u ∨ IsZ v) (h2 : IsZ w ∨ IsZ z) : IsZ (fsub (fmul u v) (fmul w z)) := by
  have a : IsZ (fmul u v) := by
    rcases h1 with h | h
    · exact (mul_z h hv).1
    · exact (mul_z h hu).2
  have b : IsZ (fmul w z) := by
    rcases h2 with h | h
    · exact (mul_z h hz).1
    · exact (mul_z h hw).2
  exact sub_z a.1 b.1 (by rw [a.2, b.2])

/-- The difference of a product with itself. -/
theorem self_z {u v : F32} (hu : u.isFinite = true) (hv : v.isFinite = true) (h : |u.val * v.val| < 2 ^ 127) :
    IsZ (fsub (fmul u v) (fmul v u)) := by
  have f := (fmul_rel hu hv h).1
  rw [fmul_comm v u]
  exact sub_z f f rfl

/-- The cross product of a zero vector, or of a vector with itself. -/
theorem cross_z (k : Backend) {a b : V4 F32} (fa : AllFinite a.xyz.toList) (fb : AllFinite b.xyz.toList)
    (h : (IsZ a.x ∧ IsZ a.y ∧ IsZ a.z) ∨ (IsZ b.x ∧ IsZ b.y ∧ IsZ b.z) ∨ (a = b ∧ ‖pureOf a‖ ≤ 2 ^ 61)) :
    IsZ (k.cross3 a b).x ∧ IsZ (k.cross3 a b).y ∧ IsZ (k.cross3 a b).z := by
  obtain ⟨a1, a2, a3⟩ := fin3 fa
  obtain ⟨b1, b2, b3⟩ := fin3 fb
  have key : IsZ (fsub (fmul a.y b.z) (fmul a.z b.y)) ∧ IsZ (fsub (fmul a.z b.x) (fmul a.x b.z)) ∧ IsZ (fsub (fmul a.x b.y) (fmul a.y b.x)) := by
    rcases h with ⟨x, y, z⟩ | ⟨x, y, z⟩ | ⟨rfl, h⟩
    · exact ⟨prod_z a2 b3 a3 b2 (.inl y) (.inl z), prod_z a3 b1 a1 b3 (.inl z) (.inl x), prod_z a1 b2 a2 b1 (.inl x) (.inl y)⟩
    · exact ⟨prod_z a2 b3 a3 b2 (.inr z) (.inr y), prod_z a3 b1 a1 b3 (.inr x) (.inr z), prod_z a1 b2 a2 b1 (.inr y) (.inr x)⟩
    · obtain ⟨i1, i2, i3⟩ := im_le (pureOf a)
      have s : ∀ {x y : ℝ}, |x| ≤ ‖pureOf a‖ → |y| ≤ ‖pureOf a‖ → |x * y| < 2 ^ 127 := fun {x y} hx hy => by
        rw [abs_mul]
        exact (mul_le_mul (hx.trans h) (hy.trans h) (abs_nonneg _) (by positivity)).trans_lt (by norm_num)
      exact ⟨self_z a2 a3 (s i2 i3), self_z a3 a1 (s i3 i1), self_z a1 a2 (s i1 i2)⟩
  obtain ⟨k1, k2, k3⟩ := key
  have simd : IsZ (Simd.cross3 a b).x ∧ IsZ (Simd.cross3 a b).y ∧ IsZ (Simd.cross3 a b).z := by
    refine ⟨?_, ?_, ?_⟩
    · change IsZ (fsub (fmul b.z a.y) (fmul a.z b.y)); rw [fmul_comm b.z]; exact k1
    · change IsZ (fsub (fmul b.x a.z) (fmul a.x b.z)); rw [fmul_comm b.x]; exact k2
    · change IsZ (fsub (fmul b.y a.x) (fmul a.y b.x)); rw [fmul_comm b.y]; exact k3
  cases k
  · exact simd
  · exact simd
  · exact simd
  · exact ⟨k1, k2, k3⟩

theorem length_root (k : Backend) (n : V4 F32) : k.length3 n = fsqrt (k.dot3 n n) := by cases k <;> rfl

end PlaneP
open PlaneP

/-- On SSE4.1 this is the constructor of `Verif.Model.Geom`. -/
theorem ofTriangleOn_sse41 (t : Triangle F32) : Plane.ofTriangleOn .sse41 t = Plane.ofTriangle t := rfl

/-- C140: the plane through a triangle in binary32, on every backend. Let `s` be the sine of the angle at the first corner. The
stored normal is within `18 / 2^24 / s` of the exact unit normal, in every coordinate, and its length is within `6.2 / 2^24` of
one. The stored distance is within `22 / 2^24 / s` of the distance of the corner from the origin, of the scalar product of the
exact normal with the corner (and so with every point of the triangle). -/
theorem plane_triangle_f32 (k : Backend) (t : Triangle F32) (s : ℝ) (f0 : AllFinite t.p0.xyz.toList)
    (f1 : AllFinite t.p1.xyz.toList) (f2 : AllFinite t.p2.xyz.toList) (h : TriangleOk (pt t.p0) (pt t.p1) (pt t.p2) s)
    (hp : lengthOf (pt t.p0) ≤ 2 ^ 100) :
    let r := (Plane.ofTriangleOn k t).normDist
    ∃ n : V3 ℝ, IsTriNormal n (pt t.p0) (pt t.p1) (pt t.p2) ∧
      Near r.x n.x (18 / 2 ^ 24 / s) ∧ Near r.y n.y (18 / 2 ^ 24 / s) ∧ Near r.z n.z (18 / 2 ^ 24 / s) ∧
      |lengthOf (pt r) - 1| ≤ 62 / 10 / 2 ^ 24 ∧
      Near r.w (dot n (pt t.p0)) (22 / 2 ^ 24 / s * lengthOf (pt t.p0) + 1 / 2 ^ 147) := by
  intro r
  obtain ⟨hσ, ha, h1, h2, h3⟩ := h
  have s0 : 0 < s := lt_of_lt_of_le (by positivity) hσ
  have hN := sharp ha
  rw [dist_pure] at h1 h2 h3
  rw [dist_pure] at h3
  rw [length_pure] at hp
  rw [length_pure, length_pure]
  obtain ⟨n, n', e1, e2, e3, g1, g2, g3, N0, s1⟩ := normal k f0 f1 f2 rfl rfl rfl hσ h1 h2 h3 hN
  have er : r = n'.withW (k.dot3 n' t.p0) := by
    change (Plane.ofTriangleOn k t).normDist = _
    simp only [Plane.ofTriangleOn, e1, e3, if_true, e2]
  have i1 : 1 ≤ 1 / s := by rw [le_div_iff₀ s0]; linarith
  generalize eN : cr (pureOf t.p1 - pureOf t.p0) (pureOf t.p2 - pureOf t.p0) = N at *
  have re0 : (‖N‖⁻¹ • N).re = 0 := by rw [← eN]; simp
  have u1 := unit_norm N0
  have u2 : ‖‖N‖⁻¹ • N‖ ^ 2 = 1 := by rw [u1]; norm_num
  rw [norm_sq, re0] at u2
  have l : N.imI * N.imI + N.imJ * N.imJ + N.imK * N.imK = ‖N‖ ^ 2 := by
    have : N.re = 0 := by rw [← eN]; simp
    rw [norm_sq, this]; ring
  obtain ⟨x1, x2, x3⟩ := comps g1 (x := (‖N‖⁻¹ • N).imI) (y := (‖N‖⁻¹ • N).imJ) (z := (‖N‖⁻¹ • N).imK) (e := 18 / 2 ^ 24 / s) (by
    have : (⟨0, (‖N‖⁻¹ • N).imI, (‖N‖⁻¹ • N).imJ, (‖N‖⁻¹ • N).imK⟩ : ℍ[ℝ]) = ‖N‖⁻¹ • N := by
      ext <;> first | rfl | exact re0.symm
    rw [this]; exact g2)
  have gn : ‖pureOf n'‖ ≤ 101 / 100 := by
    have := (abs_le.1 g3).2
    linarith
  have p0 := norm_nonneg (pureOf t.p0)
  have c0 : ‖pureOf n'‖ * ‖pureOf t.p0‖ ≤ 101 / 100 * ‖pureOf t.p0‖ := by gcongr
  obtain ⟨d1, d2⟩ := dot_step k g1 f0 (c0.trans (by linarith))
  have d3 : |dt (pureOf n') (pureOf t.p0) - dt (‖N‖⁻¹ • N) (pureOf t.p0)| ≤ 18 / 2 ^ 24 / s * ‖pureOf t.p0‖ := by
    rw [dt_sub]
    exact (dt_le _ _).trans (by gcongr)
  refine ⟨⟨(‖N‖⁻¹ • N).imI, (‖N‖⁻¹ • N).imJ, (‖N‖⁻¹ • N).imK⟩, ⟨?_, ?_, ?_, ?_⟩, ?_, ?_, ?_, ?_, ?_⟩
  · simp only [dot]; linarith
  · rw [← eN]; simp [dot, diff, pureOf]; change _ * (rv _ - rv _) + _ * (rv _ - rv _) + _ * (rv _ - rv _) = _; ring
  · rw [← eN]; simp [dot, diff, pureOf]; change _ * (rv _ - rv _) + _ * (rv _ - rv _) + _ * (rv _ - rv _) = _; ring
  · have q : 0 < ‖N‖⁻¹ * (N.imI * N.imI + N.imJ * N.imJ + N.imK * N.imK) := by rw [l]; positivity
    have k1 : N.imI = (rv t.p1.y - rv t.p0.y) * (rv t.p2.z - rv t.p0.z) - (rv t.p1.z - rv t.p0.z) * (rv t.p2.y - rv t.p0.y) := by
      rw [← eN]; simp [pureOf]
    have k2 : N.imJ = (rv t.p1.z - rv t.p0.z) * (rv t.p2.x - rv t.p0.x) - (rv t.p1.x - rv t.p0.x) * (rv t.p2.z - rv t.p0.z) := by
      rw [← eN]; simp [pureOf]
    have k3 : N.imK = (rv t.p1.x - rv t.p0.x) * (rv t.p2.y - rv t.p0.y) - (rv t.p1.y - rv t.p0.y) * (rv t.p2.x - rv t.p0.x) := by
      rw [← eN]; simp [pureOf]
    refine lt_of_lt_of_eq q ?_
    change _ = ‖N‖⁻¹ * N.imI * ((rv t.p1.y - rv t.p0.y) * (rv t.p2.z - rv t.p0.z) - (rv t.p1.z - rv t.p0.z) * (rv t.p2.y - rv t.p0.y)) +
      ‖N‖⁻¹ * N.imJ * ((rv t.p1.z - rv t.p0.z) * (rv t.p2.x - rv t.p0.x) - (rv t.p1.x - rv t.p0.x) * (rv t.p2.z - rv t.p0.z)) +
      ‖N‖⁻¹ * N.imK * ((rv t.p1.x - rv t.p0.x) * (rv t.p2.y - rv t.p0.y) - (rv t.p1.y - rv t.p0.y) * (rv t.p2.x - rv t.p0.x))
    rw [← k1, ← k2, ← k3]
    ring
  · rw [er]; exact x1
  · rw [er]; exact x2
  · rw [er]; exact x3
  · rw [er]; exact g3
  · rw [er]
    refine ⟨d1, ?_⟩
    change |(k.dot3 n' t.p0).val - dt (‖N‖⁻¹ • N) (pureOf t.p0)| ≤ _
    have := abs_add_le ((k.dot3 n' t.p0).val - dt (pureOf n') (pureOf t.p0)) (dt (pureOf n') (pureOf t.p0) - dt (‖N‖⁻¹ • N) (pureOf t.p0))
    rw [sub_add_sub_cancel] at this
    refine this.trans ?_
    rw [div_eq_mul_one_div _ s] at d3 ⊢
    have q := mul_le_mul_of_nonneg_right i1 p0
    nlinarith

/-- C140: if two corners of a triangle coincide, the plane is stored with the normal zero and the distance zero, on every backend:
no coordinate is NaN or infinite. -/
theorem plane_triangle_degenerate (k : Backend) (t : Triangle F32)
    (f0 : AllFinite t.p0.xyz.toList) (f1 : AllFinite t.p1.xyz.toList) (f2 : AllFinite t.p2.xyz.toList)
    (h1 : Spec.dist (pt t.p0) (pt t.p1) ≤ 2 ^ 60) (h2 : Spec.dist (pt t.p0) (pt t.p2) ≤ 2 ^ 60)
    (h : t.p1 = t.p0 ∨ t.p2 = t.p0 ∨ t.p1 = t.p2) :
    ∀ x ∈ (Plane.ofTriangleOn k t).normDist.toList, Near x 0 0 := by
  rw [dist_pure] at h1 h2
  obtain ⟨a1, a2⟩ := diff_step f1 f0 (h1.trans (by norm_num))
  obtain ⟨b1, b2⟩ := diff_step f2 f0 (h2.trans (by norm_num))
  have hn : IsZ (k.cross3 (V4.sub t.p1 t.p0) (V4.sub t.p2 t.p0)).x ∧ IsZ (k.cross3 (V4.sub t.p1 t.p0) (V4.sub t.p2 t.p0)).y ∧
      IsZ (k.cross3 (V4.sub t.p1 t.p0) (V4.sub t.p2 t.p0)).z := by
    obtain ⟨u1, u2, u3⟩ := fin3 f0
    have zero : ∀ {v : V4 F32}, v = t.p0 → IsZ (V4.sub v t.p0).x ∧ IsZ (V4.sub v t.p0).y ∧ IsZ (V4.sub v t.p0).z := by
      rintro _ rfl
      exact ⟨sub_z u1 u1 rfl, sub_z u2 u2 rfl, sub_z u3 u3 rfl⟩
    refine cross_z k a1 b1 ?_
    rcases h with h | h | h
    · exact .inl (zero h)
    · exact .inr (.inl (zero h))
    · refine .inr (.inr ⟨by rw [h], ?_⟩)
      have := norm_add_le (pureOf (V4.sub t.p1 t.p0) - (pureOf t.p1 - pureOf t.p0)) (pureOf t.p1 - pureOf t.p0)
      rw [sub_add_cancel] at this
      linarith
  generalize hm : k.cross3 (V4.sub t.p1 t.p0) (V4.sub t.p2 t.p0) = n at hn
  obtain ⟨nx, ny, nz⟩ := hn
  obtain ⟨px, py, pz⟩ := fin3 f0
  have e : Plane.ofTriangleOn k t = ⟨n.withW (k.dot3 n t.p0)⟩ := by
    have : ((Flt.lit 0 : F32) <. k.length3 n) = false := by
      rw [length_root]; exact sqrt_z (dot_z k nx ny nz nx.1 ny.1 nz.1)
    simp only [Plane.ofTriangleOn, hm, this]; rfl
  have d := dot_z k nx ny nz px py pz
  have z : ∀ {x : F32}, IsZ x → Near x 0 0 := fun {x} h => ⟨h.1, by change |x.val - 0| ≤ 0; rw [h.2]; simp⟩
  rw [e]
  intro x hx
  simp only [V4.withW, V4.toList, List.mem_cons, List.not_mem_nil, or_false] at hx
  rcases hx with rfl | rfl | rfl | rfl
  exacts [z nx, z ny, z nz, z d]

/-- C140: the exact unit normal is unique, so that `plane_triangle_f32` bounds the distance from one definite vector. -/
theorem triNormal_unique {n n' a b c : V3 ℝ} (h : IsTriNormal n a b c) (h' : IsTriNormal n' a b c) : n = n' := by
  obtain ⟨u, p, q, s⟩ := h
  obtain ⟨u', p', q', s'⟩ := h'
  obtain ⟨x, y, z⟩ := n
  obtain ⟨x', y', z'⟩ := n'
  simp only [dot, diff] at *
  generalize b.x - a.x = d1 at *
  generalize b.y - a.y = d2 at *
  generalize b.z - a.z = d3 at *
  generalize c.x - a.x = e1 at *
  generalize c.y - a.y = e2 at *
  generalize c.z - a.z = e3 at *
  -- both are positive multiples of the cross product
  generalize hw1 : d2 * e3 - d3 * e2 = w1 at *
  generalize hw2 : d3 * e1 - d1 * e3 = w2 at *
  generalize hw3 : d1 * e2 - d2 * e1 = w3 at *
  have key : ∀ x y z : ℝ, x * x + y * y + z * z = 1 → x * d1 + y * d2 + z * d3 = 0 → x * e1 + y * e2 + z * e3 = 0 →
      w1 = (x * w1 + y * w2 + z * w3) * x ∧ w2 = (x * w1 + y * w2 + z * w3) * y ∧ w3 = (x * w1 + y * w2 + z * w3) * z := by
    intro x y z u p q
    have c1 : y * w3 = z * w2 := by rw [← hw3, ← hw2]; linear_combination d1 * q - e1 * p
    have c2 : z * w1 = x * w3 := by rw [← hw3, ← hw1]; linear_combination d2 * q - e2 * p
    have c3 : x * w2 = y * w1 := by rw [← hw1, ← hw2]; linear_combination d3 * q - e3 * p
    refine ⟨?_, ?_, ?_⟩
    · linear_combination (-w1) * u - y * c3 + z * c2
    · linear_combination (-w2) * u + x * c3 - z * c1
    · linear_combination (-w3) * u - x * c2 + y * c1
  obtain ⟨k1, k2, k3⟩ := key x y z u p q
  obtain ⟨l1, l2, l3⟩ := key x' y' z' u' p' q'
  generalize hT : x * w1 + y * w2 + z * w3 = T at *
  generalize hT' : x' * w1 + y' * w2 + z' * w3 = T' at *
  have e : T = T' := by
    have : T ^ 2 = T' ^ 2 := by
      have a1 : w1 * w1 + w2 * w2 + w3 * w3 = T ^ 2 := by
        linear_combination w1 * k1 + w2 * k2 + w3 * k3 + T * hT
      have a2 : w1 * w1 + w2 * w2 + w3 * w3 = T' ^ 2 := by
        linear_combination w1 * l1 + w2 * l2 + w3 * l3 + T' * hT'
      rw [← a1, a2]
    exact (pow_left_inj₀ s.le s'.le (by norm_num)).1 this
  subst e
  have s1 := s.ne'
  rw [V3.mk.injEq]
  exact ⟨mul_left_cancel₀ s1 (k1.symm.trans l1), mul_left_cancel₀ s1 (k2.symm.trans l2), mul_left_cancel₀ s1 (k3.symm.trans l3)⟩

/-- The hypotheses are met: the triangle (1, 1, 1), (2, 1, 1), (1, 2, 1). Its normal is (0, 0, 1), so that the stored plane is
within rounding of (0, 0, 1, 1). -/
example (k : Backend) :
    let r := (Plane.ofTriangleOn k ⟨V4.splat (ofRat 1), ⟨ofRat 2, ofRat 1, ofRat 1, ofRat 1⟩, ⟨ofRat 1, ofRat 2, ofRat 1, ofRat 1⟩⟩).normDist
    Near r.x 0 (18 / 2 ^ 24) ∧ Near r.y 0 (18 / 2 ^ 24) ∧ Near r.z 1 (18 / 2 ^ 24) ∧ Near r.w 1 (45 / 2 ^ 24) := by
  have o := one_lit
  have w : (ofRat 2).isFinite = true ∧ (ofRat 2).val = 2 := ⟨two_exact.1, two_exact.eq⟩
  generalize ofRat 1 = O at *
  generalize ofRat 2 = T at *
  have e1 : pt (V4.splat O) = ⟨1, 1, 1⟩ := by rw [← o.2]; rfl
  have e2 : pt (⟨T, O, O, O⟩ : V4 F32) = ⟨2, 1, 1⟩ := by rw [← o.2, ← w.2]; rfl
  have e3 : pt (⟨O, T, O, O⟩ : V4 F32) = ⟨1, 2, 1⟩ := by rw [← o.2, ← w.2]; rfl
  have l1 : Spec.dist ⟨1, 1, 1⟩ ⟨2, 1, 1⟩ = 1 := by norm_num [Spec.dist, dist2]
  have l2 : Spec.dist ⟨1, 1, 1⟩ ⟨1, 2, 1⟩ = 1 := by norm_num [Spec.dist, dist2]
  have l3 : lengthOf ⟨1, 1, 1⟩ ≤ 2 := by
    rw [lengthOf, Spec.dist, Real.sqrt_le_left (by norm_num)]; norm_num [dist2]
  have h := plane_triangle_f32 k ⟨V4.splat O, ⟨T, O, O, O⟩, ⟨O, T, O, O⟩⟩ 1 (fin_xyz3 o.1 o.1 o.1) (fin_xyz3 w.1 o.1 o.1)
    (fin_xyz3 o.1 w.1 o.1) (by
      rw [e1, e2, e3]
      refine ⟨by norm_num, by norm_num [dot, diff], by rw [l1]; norm_num, by rw [l2]; norm_num, by rw [l1, l2]; norm_num⟩)
    (by rw [e1]; exact l3.trans (by norm_num))
  simp only at h
  rw [e1, e2, e3] at h
  obtain ⟨n, hn, a, b, c, -, d⟩ := h
  have u : n = ⟨0, 0, 1⟩ := triNormal_unique hn ⟨by norm_num [dot], by norm_num [dot, diff], by norm_num [dot, diff], by norm_num⟩
  subst u
  intro r
  refine ⟨⟨a.1, a.2.trans (by norm_num)⟩, ⟨b.1, b.2.trans (by norm_num)⟩, ⟨c.1, c.2.trans (by norm_num)⟩, ⟨d.1, ?_⟩⟩
  have e : dot ⟨0, 0, 1⟩ ⟨1, 1, 1⟩ = 1 := by norm_num [dot]
  have := d.2
  rw [e] at this
  refine this.trans ?_
  norm_num
  linarith

/-- The hypotheses are met: the triangle (1, 1, 1), (2, 1, 1), (2, 1, 1). -/
example (k : Backend) : ∀ x ∈ (Plane.ofTriangleOn k ⟨V4.splat (ofRat 1), ⟨ofRat 2, ofRat 1, ofRat 1, ofRat 1⟩,
    ⟨ofRat 2, ofRat 1, ofRat 1, ofRat 1⟩⟩).normDist.toList, Near x 0 0 := by
  have o := one_lit
  have w : (ofRat 2).isFinite = true ∧ (ofRat 2).val = 2 := ⟨two_exact.1, two_exact.eq⟩
  generalize ofRat 1 = O at *
  generalize ofRat 2 = T at *
  have e1 : pt (V4.splat O) = ⟨1, 1, 1⟩ := by rw [← o.2]; rfl
  have e2 : pt (⟨T, O, O, O⟩ : V4 F32) = ⟨2, 1, 1⟩ := by rw [← o.2, ← w.2]; rfl
  have l1 : Spec.dist ⟨1, 1, 1⟩ ⟨2, 1, 1⟩ = 1 := by norm_num [Spec.dist, dist2]
  exact plane_triangle_degenerate k _ (fin_xyz3 o.1 o.1 o.1) (fin_xyz3 w.1 o.1 o.1) (fin_xyz3 w.1 o.1 o.1)
    (by rw [e1, e2, l1]; norm_num) (by rw [e1, e2, l1]; norm_num) (.inr (.inr rfl))

end Verif
