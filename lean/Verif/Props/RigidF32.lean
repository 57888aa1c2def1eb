import Verif.Props.Camera
import Verif.Props.ExtractQuatF32
import Verif.Model.RigidTargets
import Verif.Spec.RigidF32

/-!
# C141: the rigid inverse in binary32
-/

namespace Verif
open F32 Spec Matrix Quaternion VecAcc ProductsP RotateP PlaceP CamP

namespace RigidP

/-- The entries of a rotation are at most one. -/
theorem entry_le {Q : Matrix (Fin 3) (Fin 3) ℝ} (h : IsRotation Q) (i j : Fin 3) : |Q i j| ≤ 1 := by
  have := congrFun (congrFun h.1 j) j
  simp only [Matrix.mul_apply, Matrix.transpose_apply, Fin.sum_univ_three, Matrix.one_apply_eq] at this
  rw [abs_le]
  fin_cases i <;> simp only [Fin.zero_eta, Fin.mk_one, Fin.reduceFinMk] <;> constructor <;>
    nlinarith [sq_nonneg (Q 0 j), sq_nonneg (Q 1 j), sq_nonneg (Q 2 j)]

/-- Undoing a motion exactly. -/
theorem undo {Q : Matrix (Fin 3) (Fin 3) ℝ} (h : IsRotation Q) {x t p : Fin 3 → ℝ} (e : Q *ᵥ x + t = p) (i : Fin 3) :
    x i = Q 0 i * p 0 + Q 1 i * p 1 + Q 2 i * p 2 + -(Q 0 i * t 0 + Q 1 i * t 1 + Q 2 i * t 2) := by
  have h1 : Qᵀ *ᵥ (p - t) = x := by
    rw [← e, add_sub_cancel_right, Matrix.mulVec_mulVec, h.1, Matrix.one_mulVec]
  have := congrFun h1 i
  rw [← this]
  simp [Matrix.mulVec, dotProduct, Fin.sum_univ_three]
  ring

/-- A sum of three products with one factor wrong by `e`. -/
theorem sum3 {r : F32} {m0 m1 m2 a b c x y z e : ℝ} (hs : SumOk r [(m0, x), (m1, y), (m2, z)]) (e0 : 0 ≤ e) (e1 : e ≤ 1 / 2 ^ 10)
    (h0 : |m0 - a| ≤ e) (h1 : |m1 - b| ≤ e) (h2 : |m2 - c| ≤ e) (ha : |a| ≤ 1) (hb : |b| ≤ 1) (hc : |c| ≤ 1)
    (hr : |x| + |y| + |z| ≤ 2 ^ 100) :
    Near r (a * x + b * y + c * z) ((e + 302 / 100 / 2 ^ 24) * (|x| + |y| + |z|) + 3 / 2 ^ 149) := by
  have one : ∀ {m a x : ℝ}, |m - a| ≤ e → |a| ≤ 1 → |m * x| ≤ (1 + e) * |x| ∧ |m * x - a * x| ≤ e * |x| := by
    intro m a x hm ha
    have x0 := abs_nonneg x
    constructor
    · rw [abs_mul]
      refine mul_le_mul_of_nonneg_right ?_ x0
      have := abs_add_le (m - a) a
      rw [sub_add_cancel] at this
      linarith
    · rw [← sub_mul, abs_mul]; exact mul_le_mul_of_nonneg_right hm x0
  obtain ⟨u0, v0⟩ := one (x := x) h0 ha
  obtain ⟨u1, v1⟩ := one (x := y) h1 hb
  obtain ⟨u2, v2⟩ := one (x := z) h2 hc
  have q1 : sumProd [(m0, x), (m1, y), (m2, z)] = m0 * x + m1 * y + m2 * z := by simp [sumProd]; ring
  have q2 : absProd [(m0, x), (m1, y), (m2, z)] = |m0 * x| + |m1 * y| + |m2 * z| := by simp [absProd, add_assoc]
  have S0 : 0 ≤ |x| + |y| + |z| := by positivity
  have hA : |m0 * x| + |m1 * y| + |m2 * z| ≤ (1 + 1 / 2 ^ 10) * (|x| + |y| + |z|) := by
    have := mul_le_mul_of_nonneg_right e1 S0
    linarith
  have := hs (by rw [q2]; linarith)
  rw [q1, q2, show (List.length [(m0, x), (m1, y), (m2, z)]) = 3 from rfl] at this
  have tr : |m0 * x + m1 * y + m2 * z - (a * x + b * y + c * z)| ≤ e * (|x| + |y| + |z|) := by
    have e : m0 * x + m1 * y + m2 * z - (a * x + b * y + c * z) = (m0 * x - a * x) + (m1 * y - b * y) + (m2 * z - c * z) := by ring
    rw [e]
    have := abs_add_three (m0 * x - a * x) (m1 * y - b * y) (m2 * z - c * z)
    linarith
  refine (Approx.trans (r := r) this tr).mono ?_
  have u : ((1 : ℝ) + 1 / 2 ^ 24) ^ 3 - 1 ≤ 301 / 100 / 2 ^ 24 := by norm_num
  have := mul_le_mul u hA (by positivity) (by norm_num)
  push_cast
  linarith

/-- A sum of three products of a number at most one with a coordinate. -/
theorem dot_size {a b c x y z : ℝ} (ha : |a| ≤ 1) (hb : |b| ≤ 1) (hc : |c| ≤ 1) : |a * x + b * y + c * z| ≤ |x| + |y| + |z| := by
  have := abs_add_three (a * x) (b * y) (c * z)
  rw [abs_mul, abs_mul, abs_mul] at this
  have := mul_le_mul_of_nonneg_right ha (abs_nonneg x)
  have := mul_le_mul_of_nonneg_right hb (abs_nonneg y)
  have := mul_le_mul_of_nonneg_right hc (abs_nonneg z)
  linarith

/-- One coordinate of the inverse motion. -/
theorem coord {r d : F32} {m0 m1 m2 a b c x y z t0 t1 t2 e : ℝ} (hd : SumOk d [(m0, t0), (m1, t1), (m2, t2)])
    (hs : SumOk r [(m0, x), (m1, y), (m2, z), (-rv d, 1)]) (e0 : 0 ≤ e) (e1 : e ≤ 1 / 2 ^ 10)
    (h0 : |m0 - a| ≤ e) (h1 : |m1 - b| ≤ e) (h2 : |m2 - c| ≤ e) (ha : |a| ≤ 1) (hb : |b| ≤ 1) (hc : |c| ≤ 1)
    (hx : |x| + |y| + |z| ≤ 2 ^ 100) (ht : |t0| + |t1| + |t2| ≤ 2 ^ 100) :
    Near r (a * x + b * y + c * z + -(a * t0 + b * t1 + c * t2))
      ((e + 402 / 100 / 2 ^ 24) * (|x| + |y| + |z|) + (e + 705 / 100 / 2 ^ 24) * (|t0| + |t1| + |t2|) + 1 / 2 ^ 145) := by
  obtain ⟨-, d2⟩ := sum3 hd e0 e1 h0 h1 h2 ha hb hc ht
  have dz := dot_size (x := t0) (y := t1) (z := t2) ha hb hc
  have S0 : 0 ≤ |x| + |y| + |z| := by positivity
  have T0 : 0 ≤ |t0| + |t1| + |t2| := by positivity
  generalize |t0| + |t1| + |t2| = T at *
  have g : |-rv d - -(a * t0 + b * t1 + c * t2)| ≤ (e + 302 / 100 / 2 ^ 24) * T + 3 / 2 ^ 149 := by
    rw [neg_sub_neg, abs_sub_comm]; exact d2
  have q1 := mul_le_mul_of_nonneg_right e1 S0
  have q2 := mul_le_mul_of_nonneg_right e1 T0
  have := moved (P := T) hs h0 h1 h2 g ha hb hc (by rw [abs_neg]; exact dz) (by linarith)
  refine ⟨this.1, this.2.trans ?_⟩
  linarith

/-- The entries of the rigid inverse. -/
theorem parts (k : Backend) (tg : FTarget) (m : M4 F32) :
    ∃ d : V4 F32, d = F32x4.multiply3x3VOn k tg m.transpose m.c3 ∧
    F32x4.inverseTransRot k tg m = ⟨⟨m.c0.x, m.c1.x, m.c2.x, m.c3.x⟩, ⟨m.c0.y, m.c1.y, m.c2.y, m.c3.y⟩, ⟨m.c0.z, m.c1.z, m.c2.z, m.c3.z⟩,
      ⟨fneg d.x, fneg d.y, fneg d.z, m.c3.w⟩⟩ := by
  refine ⟨_, rfl, ?_⟩
  cases k <;> rfl

theorem mul3_ok (k : Backend) (tg : FTarget) {m : M4 F32} {v : V4 F32} (hm : FinM m) (hv : AllFinite v.xyz.toList) :
    MulVOk3 ⟨m.c0.xyz, m.c1.xyz, m.c2.xyz⟩ v.xyz (F32x4.multiply3x3VOn k tg m v).xyz := by
  obtain ⟨m0, m1, m2, m3⟩ := hm
  have h3 : ∀ {c : V4 F32}, AllFinite c.toList → AllFinite c.xyz.toList := fun h => by
    obtain ⟨a, b, c, -⟩ := fin4 h; exact fin_xyz3 a b c
  cases k
  · exact mulV_accuracy.2.2.2.2.2 tg m v ⟨m0, m1, m2, m3⟩ hv
  · exact mulV_accuracy.2.2.2.2.2 tg m v ⟨m0, m1, m2, m3⟩ hv
  · exact mulV_accuracy.2.2.2.2.2 tg m v ⟨m0, m1, m2, m3⟩ hv
  · exact mulV_accuracy.2.1 ⟨m.c0.xyz, m.c1.xyz, m.c2.xyz⟩ v.xyz ⟨h3 m0, h3 m1, h3 m2⟩ hv

end RigidP
open RigidP

/-- C141: the rigid inverse of a matrix times a point. If the matrix is within `e` of a rotation followed by a move, every
coordinate is within `(e + 4.02 / 2^24)` of the size of the point and `(e + 7.05 / 2^24)` of the size of the move, of the
point which the exact motion takes there. -/
theorem inverseTransRot_f32 (k : Backend) (tg : FTarget) (m : M4 F32) (Q : Matrix (Fin 3) (Fin 3) ℝ) (p : V4 F32) (e : ℝ)
    (h : NearMotion m Q e) (he : e ≤ 1 / 2 ^ 10) (fp : AllFinite p.xyz.toList) (hp : size3 p ≤ 2 ^ 100) (ht : size3 m.c3 ≤ 2 ^ 100)
    (x : Fin 3 → ℝ) (hx : Q *ᵥ x + exact3 m.c3 = exact3 p) :
    NearV (F32x4.mulVOn k tg (F32x4.inverseTransRot k tg m) (pointOf p)) x
      ((e + 402 / 100 / 2 ^ 24) * size3 p + (e + 705 / 100 / 2 ^ 24) * size3 m.c3 + 1 / 2 ^ 145) := by
  obtain ⟨⟨m0, m1, m2, m3⟩, hQ, ⟨a0, a1, a2⟩, ⟨b0, b1, b2⟩, ⟨c0, c1, c2⟩⟩ := h
  have e0 : 0 ≤ e := (abs_nonneg _).trans a0.2
  obtain ⟨f00, f01, f02, f03⟩ := fin4 m0
  obtain ⟨f10, f11, f12, f13⟩ := fin4 m1
  obtain ⟨f20, f21, f22, f23⟩ := fin4 m2
  obtain ⟨f30, f31, f32, f33⟩ := fin4 m3
  obtain ⟨px, py, pz⟩ := fin3 fp
  obtain ⟨d, hd, hi⟩ := parts k tg m
  have d3 := mul3_ok k tg (m := m.transpose) (v := m.c3) ⟨fin_list f00 f10 f20 f30, fin_list f01 f11 f21 f31, fin_list f02 f12 f22 f32,
    fin_list f03 f13 f23 f33⟩ (fin_xyz3 f30 f31 f32)
  rw [← hd] at d3
  obtain ⟨d0, d1, d2⟩ := d3
  have g0 := sum3 d0 e0 he a0.2 a1.2 a2.2 (entry_le hQ _ _) (entry_le hQ _ _) (entry_le hQ _ _) ht
  have g1 := sum3 d1 e0 he b0.2 b1.2 b2.2 (entry_le hQ _ _) (entry_le hQ _ _) (entry_le hQ _ _) ht
  have g2 := sum3 d2 e0 he c0.2 c1.2 c2.2 (entry_le hQ _ _) (entry_le hQ _ _) (entry_le hQ _ _) ht
  have fi : FinM (F32x4.inverseTransRot k tg m) := by
    rw [hi]
    exact ⟨fin_list f00 f10 f20 f30, fin_list f01 f11 f21 f31, fin_list f02 f12 f22 f32,
      fin_list (by rw [fneg_finite]; exact g0.1) (by rw [fneg_finite]; exact g1.1) (by rw [fneg_finite]; exact g2.1) f33⟩
  obtain ⟨k0, k1, k2, -⟩ := entry_ok k tg fi (v := pointOf p) (fin_list px py pz one_lit.1)
  generalize F32x4.mulVOn k tg (F32x4.inverseTransRot k tg m) (pointOf p) = r at *
  rw [hi] at k0 k1 k2
  have o' : rv (ofRat 1) = 1 := one_lit.2
  simp only [row4, pointOf, o'] at k0 k1 k2
  rw [show rv (fneg d.x) = -rv d.x from fneg_val _] at k0
  rw [show rv (fneg d.y) = -rv d.y from fneg_val _] at k1
  rw [show rv (fneg d.z) = -rv d.z from fneg_val _] at k2
  have u := undo hQ hx
  refine ⟨?_, ?_, ?_⟩
  · rw [u 0]
    exact coord d0 k0 e0 he a0.2 a1.2 a2.2 (entry_le hQ _ _) (entry_le hQ _ _) (entry_le hQ _ _) hp ht
  · rw [u 1]
    exact coord d1 k1 e0 he b0.2 b1.2 b2.2 (entry_le hQ _ _) (entry_le hQ _ _) (entry_le hQ _ _) hp ht
  · rw [u 2]
    exact coord d2 k2 e0 he c0.2 c1.2 c2.2 (entry_le hQ _ _) (entry_le hQ _ _) (entry_le hQ _ _) hp ht

/-- The motion itself. -/
theorem RigidP.forward (k : Backend) (tg : FTarget) (m : M4 F32) (Q : Matrix (Fin 3) (Fin 3) ℝ) (p : V4 F32) (e : ℝ)
    (h : NearMotion m Q e) (he : e ≤ 1 / 2 ^ 10) (fp : AllFinite p.xyz.toList) (hp : size3 p ≤ 2 ^ 98) (ht : size3 m.c3 ≤ 2 ^ 98) :
    NearV (F32x4.mulVOn k tg m (pointOf p)) (Q *ᵥ exact3 p + exact3 m.c3)
      ((e + 402 / 100 / 2 ^ 24) * size3 p + 401 / 100 / 2 ^ 24 * size3 m.c3 + 1 / 2 ^ 147) := by
  obtain ⟨fm, hQ, ⟨a0, a1, a2⟩, ⟨b0, b1, b2⟩, ⟨c0, c1, c2⟩⟩ := h
  have e0 : 0 ≤ e := (abs_nonneg _).trans a0.2
  have S0 : 0 ≤ size3 p := by unfold size3; positivity
  have T0 : 0 ≤ size3 m.c3 := by unfold size3; positivity
  obtain ⟨px, py, pz⟩ := fin3 fp
  obtain ⟨k0, k1, k2, -⟩ := entry_ok k tg fm (v := pointOf p) (fin_list px py pz one_lit.1)
  have o' : rv (ofRat 1) = 1 := one_lit.2
  simp only [row4, pointOf, o'] at k0 k1 k2
  have q1 := mul_le_mul_of_nonneg_right he S0
  have sz : (1 + e) * (|rv p.x| + |rv p.y| + |rv p.z|) + (size3 m.c3 + 0) ≤ 2 ^ 126 := by
    change (1 + e) * size3 p + _ ≤ _
    linarith
  have t0 : |rv m.c3.x| ≤ size3 m.c3 := by unfold size3; linarith [abs_nonneg (rv m.c3.y), abs_nonneg (rv m.c3.z)]
  have t1 : |rv m.c3.y| ≤ size3 m.c3 := by unfold size3; linarith [abs_nonneg (rv m.c3.x), abs_nonneg (rv m.c3.z)]
  have t2 : |rv m.c3.z| ≤ size3 m.c3 := by unfold size3; linarith [abs_nonneg (rv m.c3.x), abs_nonneg (rv m.c3.y)]
  have z : ∀ x : ℝ, |x - x| ≤ 0 := fun x => by simp
  have x0 := moved k0 a0.2 b0.2 c0.2 (z _) (entry_le hQ _ _) (entry_le hQ _ _) (entry_le hQ _ _) t0 sz
  have x1 := moved k1 a1.2 b1.2 c1.2 (z _) (entry_le hQ _ _) (entry_le hQ _ _) (entry_le hQ _ _) t1 sz
  have x2 := moved k2 a2.2 b2.2 c2.2 (z _) (entry_le hQ _ _) (entry_le hQ _ _) (entry_le hQ _ _) t2 sz
  have le : (e + 401 / 100 / 2 ^ 24 * (1 + e)) * size3 p + 0 + 401 / 100 / 2 ^ 24 * (size3 m.c3 + 0) + 4 / 2 ^ 149 ≤
      (e + 402 / 100 / 2 ^ 24) * size3 p + 401 / 100 / 2 ^ 24 * size3 m.c3 + 1 / 2 ^ 147 := by linarith
  have v : ∀ i, (Q *ᵥ exact3 p + exact3 m.c3) i = Q i 0 * rv p.x + Q i 1 * rv p.y + Q i 2 * rv p.z + exact3 m.c3 i := fun i => by
    simp [Matrix.mulVec, dotProduct, Fin.sum_univ_three, exact3]
  refine ⟨?_, ?_, ?_⟩
  · rw [v]; exact ⟨x0.1, x0.2.trans le⟩
  · rw [v]; exact ⟨x1.1, x1.2.trans le⟩
  · rw [v]; exact ⟨x2.1, x2.2.trans le⟩

/-- C141: there and back: the rigid inverse of a matrix takes the point it was moved to back to the point, up to `8 e + 32 / 2^24`
of the sizes of the point and of the move. -/
theorem inverseTransRot_back_f32 (k : Backend) (tg : FTarget) (m : M4 F32) (Q : Matrix (Fin 3) (Fin 3) ℝ) (p : V4 F32) (e : ℝ)
    (h : NearMotion m Q e) (he : e ≤ 1 / 2 ^ 10) (fp : AllFinite p.xyz.toList) (hp : size3 p ≤ 2 ^ 97) (ht : size3 m.c3 ≤ 2 ^ 97) :
    NearV (F32x4.mulVOn k tg (F32x4.inverseTransRot k tg m) (pointOf (F32x4.mulVOn k tg m (pointOf p)))) (exact3 p)
      ((8 * e + 32 / 2 ^ 24) * (size3 p + size3 m.c3) + 1 / 2 ^ 140) := by
  have f := forward k tg m Q p e h he fp (hp.trans (by norm_num)) (ht.trans (by norm_num))
  have hQ := h.rotation
  have e0 : 0 ≤ e := (abs_nonneg _).trans h.col0.1.2
  have S0 : 0 ≤ size3 p := by unfold size3; positivity
  have T0 : 0 ≤ size3 m.c3 := by unfold size3; positivity
  generalize F32x4.mulVOn k tg m (pointOf p) = r at *
  obtain ⟨f0, f1, f2⟩ := f
  have v : ∀ i, (Q *ᵥ exact3 p + exact3 m.c3) i = Q i 0 * rv p.x + Q i 1 * rv p.y + Q i 2 * rv p.z + exact3 m.c3 i := fun i => by
    simp [Matrix.mulVec, dotProduct, Fin.sum_univ_three, exact3]
  have E1 : (e + 402 / 100 / 2 ^ 24) * size3 p + 401 / 100 / 2 ^ 24 * size3 m.c3 + 1 / 2 ^ 147 ≤ (e + 402 / 100 / 2 ^ 24) * (size3 p + size3 m.c3) + 1 / 2 ^ 147 := by
    have := mul_nonneg e0 T0
    linarith
  generalize hE : (e + 402 / 100 / 2 ^ 24) * size3 p + 401 / 100 / 2 ^ 24 * size3 m.c3 + 1 / 2 ^ 147 = E at *
  have q1 := mul_le_mul_of_nonneg_right he S0
  have q2 := mul_le_mul_of_nonneg_right he T0
  -- the size of the moved point
  have c : ∀ i, |exact3 m.c3 i| ≤ size3 m.c3 := fun i => by
    have := abs_nonneg (rv m.c3.x); have := abs_nonneg (rv m.c3.y); have := abs_nonneg (rv m.c3.z)
    fin_cases i <;> simp [exact3, size3] <;> linarith
  have b : ∀ i, |(Q *ᵥ exact3 p + exact3 m.c3) i| ≤ size3 p + size3 m.c3 := fun i => by
    rw [v]
    refine (abs_add_le _ _).trans (add_le_add ?_ (c i))
    exact dot_size (entry_le hQ _ _) (entry_le hQ _ _) (entry_le hQ _ _)
  have tri : ∀ {x y : ℝ}, |x - y| ≤ E → |y| ≤ size3 p + size3 m.c3 → |x| ≤ size3 p + size3 m.c3 + E := fun {x y} h1 h2 => by
    have := abs_add_le (x - y) y
    rw [sub_add_cancel] at this
    linarith
  have sr : size3 r ≤ 301 / 100 * (size3 p + size3 m.c3) + 1 / 2 ^ 145 := by
    have := tri f0.2 (b 0)
    have := tri f1.2 (b 1)
    have := tri f2.2 (b 2)
    unfold size3 at *
    linarith
  -- the exact point that moves to it
  have back := inverseTransRot_f32 k tg m Q r e h he (fin_xyz3 f0.1 f1.1 f2.1) (by linarith) (ht.trans (by norm_num))
    (Qᵀ *ᵥ (exact3 r - exact3 m.c3)) (by
      rw [Matrix.mulVec_mulVec, mul_eq_one_comm.1 hQ.1, Matrix.one_mulVec, sub_add_cancel])
  have diff : ∀ i, |(Qᵀ *ᵥ (exact3 r - exact3 m.c3)) i - exact3 p i| ≤ 3 * E := fun i => by
    have e1 : Qᵀ *ᵥ (exact3 r - exact3 m.c3) - exact3 p = Qᵀ *ᵥ (exact3 r - (Q *ᵥ exact3 p + exact3 m.c3)) := by
      rw [← sub_sub, sub_right_comm, Matrix.mulVec_sub Qᵀ _ (Q *ᵥ exact3 p), Matrix.mulVec_mulVec, hQ.1, Matrix.one_mulVec]
    rw [← Pi.sub_apply, e1]
    simp only [Matrix.mulVec, dotProduct, Fin.sum_univ_three, Matrix.transpose_apply]
    refine (dot_size (entry_le hQ _ _) (entry_le hQ _ _) (entry_le hQ _ _)).trans ?_
    have g0 := f0.2
    have g1 := f1.2
    have g2 := f2.2
    simp only [exact3, Pi.sub_apply, Pi.add_apply, Matrix.mulVec, dotProduct, Fin.sum_univ_three] at g0 g1 g2 ⊢
    simp at g0 g1 g2 ⊢
    linarith
  have le : (e + 402 / 100 / 2 ^ 24) * size3 r + (e + 705 / 100 / 2 ^ 24) * size3 m.c3 + 1 / 2 ^ 145 + 3 * E ≤
      (8 * e + 32 / 2 ^ 24) * (size3 p + size3 m.c3) + 1 / 2 ^ 140 := by
    have := mul_le_mul_of_nonneg_left sr (show 0 ≤ e + 402 / 100 / 2 ^ 24 by positivity)
    have := mul_nonneg e0 T0
    have := mul_nonneg e0 S0
    nlinarith
  obtain ⟨r0, r1, r2⟩ := back
  exact ⟨(Approx.trans r0 (diff 0)).mono le, (Approx.trans r1 (diff 1)).mono le, (Approx.trans r2 (diff 2)).mono le⟩

/-- C141: the transform of an object with no scale is a motion up to `41 / 2^24`: what the two theorems ask for. -/
theorem calcModel_motion (k : Backend) (tg : FTarget) (p q s : V4 F32) (fp : AllFinite p.xyz.toList) (fq : AllFinite q.toList)
    (fs : AllFinite s.xyz.toList) (h1 : 1 / 2 ^ 50 ≤ ‖quatOf q‖) (h2 : ‖quatOf q‖ ≤ 2 ^ 62)
    (hs : rv s.x = 1 ∧ rv s.y = 1 ∧ rv s.z = 1) :
    ∃ Q : Matrix (Fin 3) (Fin 3) ℝ, NearMotion (F32x4.calcModel k tg p q s) Q (41 / 2 ^ 24) ∧
      exact3 (F32x4.calcModel k tg p q s).c3 = exact3 p ∧
      ∀ x : Fin 3 → ℝ, quatOf q * imQ ⟨x 0, x 1, x 2, 0⟩ * (quatOf q)⁻¹ = imQ ⟨(Q *ᵥ x) 0, (Q *ᵥ x) 1, (Q *ᵥ x) 2, 0⟩ := by
  obtain ⟨⟨n0, n1, n2⟩, ⟨t0, t1, t2⟩, -, fm⟩ := calcModel_matrix_accuracy k tg p q s fp fq fs h1 h2
    (by rw [hs.1, hs.2.1, hs.2.2]; norm_num)
  generalize F32x4.calcModel k tg p q s = m at *
  rw [hs.1] at n0
  rw [hs.2.1] at n1
  rw [hs.2.2] at n2
  have q0 : 0 < ‖quatOf q‖ := lt_of_lt_of_le (by norm_num) h1
  have sq : rv q.x ^ 2 + rv q.y ^ 2 + rv q.z ^ 2 + rv q.w ^ 2 = ‖quatOf q‖ ^ 2 := (quat_sq q).symm
  have cu := conj_unit q0 sq
  have hu : UnitQuat ⟨rv q.x / ‖quatOf q‖, rv q.y / ‖quatOf q‖, rv q.z / ‖quatOf q‖, rv q.w / ‖quatOf q‖⟩ := (cu 0 0 0).1
  have hQ := quat_matrix_rotation _ hu
  have le : 40 / 2 ^ 24 * |(1 : ℝ)| + 1 / 2 ^ 146 ≤ 41 / 2 ^ 24 := by norm_num
  have turn : ∀ a b c : ℝ, quatOf q * imQ ⟨a, b, c, 0⟩ * (quatOf q)⁻¹ =
      imQ ⟨(block3 (Transform.rotate (⟨rv q.x / ‖quatOf q‖, rv q.y / ‖quatOf q‖, rv q.z / ‖quatOf q‖, rv q.w / ‖quatOf q‖⟩ : V4 ℝ)) *ᵥ ![a, b, c]) 0,
        (block3 (Transform.rotate (⟨rv q.x / ‖quatOf q‖, rv q.y / ‖quatOf q‖, rv q.z / ‖quatOf q‖, rv q.w / ‖quatOf q‖⟩ : V4 ℝ)) *ᵥ ![a, b, c]) 1,
        (block3 (Transform.rotate (⟨rv q.x / ‖quatOf q‖, rv q.y / ‖quatOf q‖, rv q.z / ‖quatOf q‖, rv q.w / ‖quatOf q‖⟩ : V4 ℝ)) *ᵥ ![a, b, c]) 2, 0⟩ := by
    intro a b c
    obtain ⟨-, e1, e2, e3⟩ := cu a b c
    ext
    · exact conj_re _ _ rfl
    · refine e1.trans ?_
      simp [imQ, block3, vec, Matrix.mulVec, dotProduct, Fin.sum_univ_three]
    · refine e2.trans ?_
      simp [imQ, block3, vec, Matrix.mulVec, dotProduct, Fin.sum_univ_three]
    · refine e3.trans ?_
      simp [imQ, block3, vec, Matrix.mulVec, dotProduct, Fin.sum_univ_three]
  generalize block3 (Transform.rotate (⟨rv q.x / ‖quatOf q‖, rv q.y / ‖quatOf q‖, rv q.z / ‖quatOf q‖, rv q.w / ‖quatOf q‖⟩ : V4 ℝ)) = Q at *
  rw [turn] at n0 n1 n2
  refine ⟨Q, ⟨fm, hQ, ?_, ?_, ?_⟩, ?_, ?_⟩
  · obtain ⟨a, b, c⟩ := n0
    simp [imQ, Matrix.mulVec, dotProduct, Fin.sum_univ_three] at a b c
    exact ⟨Approx.mono a (by norm_num), Approx.mono b (by norm_num), Approx.mono c (by norm_num)⟩
  · obtain ⟨a, b, c⟩ := n1
    simp [imQ, Matrix.mulVec, dotProduct, Fin.sum_univ_three] at a b c
    exact ⟨Approx.mono a (by norm_num), Approx.mono b (by norm_num), Approx.mono c (by norm_num)⟩
  · obtain ⟨a, b, c⟩ := n2
    simp [imQ, Matrix.mulVec, dotProduct, Fin.sum_univ_three] at a b c
    exact ⟨Approx.mono a (by norm_num), Approx.mono b (by norm_num), Approx.mono c (by norm_num)⟩
  · simp only [exact3, t0, t1, t2]
  · intro x
    have e : ![x 0, x 1, x 2] = x := by ext i; fin_cases i <;> rfl
    rw [turn, e]

/-- No scale. -/
def unscaled : V4 F32 := V4.splat (ofRat 1)

/-- A third of a turn with a move, taken of a point and undone: within `2^-12` of where the point was. -/
example (k : Backend) (tg : FTarget) :
    let m := F32x4.calcModel k tg thirdTurn thirdTurn unscaled
    NearV (F32x4.mulVOn k tg (F32x4.inverseTransRot k tg m) (pointOf (F32x4.mulVOn k tg m (pointOf doubled)))) (exact3 doubled) (1 / 2 ^ 12) := by
  intro m
  obtain ⟨f, n⟩ := thirdTurn_ok
  obtain ⟨x, y, z, -⟩ := fin4 f
  have o : (ofRat 1).isFinite = true ∧ rv (ofRat 1) = 1 := one_lit
  have d2 : (ofRat 2).isFinite = true ∧ rv (ofRat 2) = 2 := ⟨two_exact.1, two_exact.eq⟩
  obtain ⟨Q, h, e, -⟩ := calcModel_motion k tg thirdTurn thirdTurn unscaled (fin_xyz3 x y z) f (fin_xyz3 o.1 o.1 o.1)
    (by rw [n]; norm_num) (by rw [n]; norm_num) ⟨o.2, o.2, o.2⟩
  have sd : size3 doubled = 6 := by
    simp only [size3, doubled, V4.splat, d2.2]; norm_num
  have st : size3 m.c3 ≤ 3 := by
    have h2 := quat_sq thirdTurn
    rw [n] at h2
    have one : ∀ i, exact3 m.c3 i = exact3 thirdTurn i := congrFun e
    have c0 : rv m.c3.x = rv thirdTurn.x := one 0
    have c1 : rv m.c3.y = rv thirdTurn.y := one 1
    have c2 : rv m.c3.z = rv thirdTurn.z := one 2
    have w0 := sq_nonneg (rv thirdTurn.w)
    have le : ∀ {a : ℝ}, a ^ 2 ≤ 1 → |a| ≤ 1 := fun h => by rw [← sq_abs] at h; exact le_of_sq_le_sq (by rw [one_pow]; exact h) (by norm_num)
    rw [size3, c0, c1, c2]
    generalize rv thirdTurn.x = a at *
    generalize rv thirdTurn.y = b at *
    generalize rv thirdTurn.z = c at *
    have := le (a := a) (by nlinarith [sq_nonneg b, sq_nonneg c])
    have := le (a := b) (by nlinarith [sq_nonneg a, sq_nonneg c])
    have := le (a := c) (by nlinarith [sq_nonneg b, sq_nonneg a])
    linarith
  have := inverseTransRot_back_f32 k tg m Q doubled _ h (by norm_num) (fin_xyz3 d2.1 d2.1 d2.1) (by rw [sd]; norm_num) (st.trans (by norm_num))
  rw [sd] at this
  have le : (8 * (41 / 2 ^ 24) + 32 / 2 ^ 24) * (6 + size3 m.c3) + 1 / 2 ^ 140 ≤ 1 / 2 ^ 12 := by norm_num; linarith
  exact ⟨Approx.mono this.1 le, Approx.mono this.2.1 le, Approx.mono this.2.2 le⟩

end Verif
