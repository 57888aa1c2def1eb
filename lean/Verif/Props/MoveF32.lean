import Verif.Props.RigidF32
import Verif.Model.MoveTargets
import Verif.Spec.Move

/-!
# C144: moving and scaling a matrix in binary32
-/

namespace Verif
open F32 Spec Matrix VecAcc ProductsP RotateP PlaceP RigidP

namespace MoveP

attribute [local irreducible] F32.fadd F32.fsub F32.fmul F32.ffma

/-- Another float with the same value is as near. -/
theorem near_same {r r' : F32} {ρ : ℝ} (h : IsNearest r ρ) (f : r'.isFinite = true) (e : r'.val = r.val) : IsNearest r' ρ := by
  refine ⟨f, fun y hy => ?_⟩
  have := h.2 y hy
  change |r'.val - ρ| ≤ _
  rw [e]
  exact this

/-- A float is nearest to its own value. -/
theorem near_self {r : F32} (f : r.isFinite = true) : IsNearest r r.val :=
  ⟨f, fun y _ => by change |r.val - r.val| ≤ _; rw [sub_self, abs_zero]; exact abs_nonneg _⟩

theorem cast_max {a b : F32} (h : |a.val * b.val| ≤ (maxFloat : ℝ)) : |a.toRat * b.toRat| ≤ maxRat := by
  have e : maxRat = maxFloat := by unfold maxRat maxFloat; norm_num
  rw [e]
  unfold val at h
  exact_mod_cast h

theorem mul_near {a b : F32} (fa : a.isFinite = true) (fb : b.isFinite = true) (h : |a.val * b.val| ≤ (maxFloat : ℝ)) :
    IsNearest (fmul a b) (a.val * b.val) := by
  have := fmul_nearest fa fb (cast_max h)
  have e : a.val * b.val = ((a.toRat * b.toRat : Rat) : ℝ) := by unfold val; push_cast; rfl
  rwa [e]

/-- Adding zero on the right. -/
theorem add_zero_right {a b : F32} {ρ : ℝ} (h : IsNearest a ρ) (fb : b.isFinite = true) (e : b.val = 0) : IsNearest (fadd a b) ρ := by
  have := fadd_exact h.1 fb h.1 (by rw [e, add_zero])
  exact near_same h this.1 (by rw [this.eq, e, add_zero])

/-- Adding zero on the left. -/
theorem add_zero_left {a b : F32} {ρ : ℝ} (h : IsNearest b ρ) (fa : a.isFinite = true) (e : a.val = 0) : IsNearest (fadd a b) ρ := by
  have := fadd_exact fa h.1 h.1 (by rw [e, zero_add])
  exact near_same h this.1 (by rw [this.eq, e, zero_add])

/-- A multiply-add with a zero product. -/
theorem fma_zero_prod (t : FTarget) {a b c : F32} {ρ : ℝ} (h : IsNearest c ρ) (fa : a.isFinite = true) (fb : b.isFinite = true)
    (e : a.val * b.val = 0) : IsNearest (F32x4.fma1 t a b c) ρ := by
  have := PlaceP.fma_exact t fa fb h.1 (by rw [e]; exact rep0) (by rw [e, zero_add]; exact rep_val h.1)
  exact near_same h this.1 (by rw [this.eq, e, zero_add])

/-- A multiply-add to zero. -/
theorem fma_zero_add (t : FTarget) {a b c : F32} (fa : a.isFinite = true) (fb : b.isFinite = true) (fc : c.isFinite = true)
    (e : c.val = 0) (h : |a.val * b.val| ≤ (maxFloat : ℝ)) : IsNearest (F32x4.fma1 t a b c) (a.val * b.val) := by
  have m := mul_near fa fb h
  have u1 := add_zero_left m fc e
  have u2 := add_zero_right m fc e
  have ec : c.toRat = 0 := by unfold val at e; exact_mod_cast e
  have fused : IsNearest (ffma a b c) (a.val * b.val) := by
    have := ffma_nearest fa fb fc (by rw [ec, add_zero]; exact cast_max h)
    rw [ec, add_zero] at this
    have e : a.val * b.val = ((a.toRat * b.toRat : Rat) : ℝ) := by unfold val; push_cast; rfl
    rwa [e]
  unfold F32x4.fma1
  split <;> first | exact fused | exact u1 | exact u2 | (split <;> first | exact fused | exact u1 | exact u2)

theorem zero_mul_fin {a b : F32} (fa : a.isFinite = true) (fb : b.isFinite = true) (e : a.val * b.val = 0) :
    (fmul a b).isFinite = true ∧ (fmul a b).val = 0 := by
  have := fmul_exact fa fb zero_lit.1 (by rw [e]; exact zero_lit.2)
  exact ⟨this.1, by rw [this.eq, e]⟩

theorem zero_fma_fin (t : FTarget) {a b c : F32} (fa : a.isFinite = true) (fb : b.isFinite = true) (fc : c.isFinite = true)
    (e : a.val * b.val = 0) (ec : c.val = 0) : (F32x4.fma1 t a b c).isFinite = true ∧ (F32x4.fma1 t a b c).val = 0 := by
  have := PlaceP.fma_exact t fa fb fc (by rw [e]; exact rep0) (by rw [e, ec, add_zero]; exact rep0)
  exact ⟨this.1, by rw [this.eq, e, ec, add_zero]⟩

theorem zero_add_fin {a b : F32} (ha : a.isFinite = true ∧ a.val = 0) (hb : b.isFinite = true ∧ b.val = 0) :
    (fadd a b).isFinite = true ∧ (fadd a b).val = 0 := by
  have := fadd_exact ha.1 hb.1 ha.1 (by rw [hb.2, add_zero])
  exact ⟨this.1, by rw [this.eq, ha.2, hb.2, add_zero]⟩

/-- A multiplication by a float literal zero. -/
theorem z {b : F32} : (ofRat 0).val * b.val = 0 := by rw [zero_lit.2, zero_mul]

theorem entry0 (k : Backend) (t : FTarget) {a x y w v : F32} (fa : a.isFinite = true) (fx : x.isFinite = true) (fy : y.isFinite = true)
    (fw : w.isFinite = true) (fv : v.isFinite = true) (h : |a.val * x.val| ≤ (maxFloat : ℝ)) :
    IsNearest (entry k t a x (ofRat 0) y (ofRat 0) w (ofRat 0) v) (a.val * x.val) := by
  have m := mul_near fa fx h
  have zf := zero_lit.1
  have simd := fma_zero_prod t (fma_zero_prod t (fma_zero_prod t m zf fy z) zf fw z) zf fv z
  have p1 := zero_mul_fin zf fy z; have p2 := zero_mul_fin zf fw z; have p3 := zero_mul_fin zf fv z
  have scal := add_zero_right (add_zero_right (add_zero_right m p1.1 p1.2) p2.1 p2.2) p3.1 p3.2
  cases k <;> first | exact simd | exact scal

theorem entry1 (k : Backend) (t : FTarget) {a x y w v : F32} (fa : a.isFinite = true) (fx : x.isFinite = true) (fy : y.isFinite = true)
    (fw : w.isFinite = true) (fv : v.isFinite = true) (h : |a.val * y.val| ≤ (maxFloat : ℝ)) :
    IsNearest (entry k t (ofRat 0) x a y (ofRat 0) w (ofRat 0) v) (a.val * y.val) := by
  have m := mul_near fa fy h
  have zf := zero_lit.1
  have p0 := zero_mul_fin zf fx z; have p2 := zero_mul_fin zf fw z; have p3 := zero_mul_fin zf fv z
  have simd := fma_zero_prod t (fma_zero_prod t (fma_zero_add t fa fy p0.1 p0.2 h) zf fw z) zf fv z
  have scal := add_zero_right (add_zero_right (add_zero_left m p0.1 p0.2) p2.1 p2.2) p3.1 p3.2
  cases k <;> first | exact simd | exact scal

theorem entry2 (k : Backend) (t : FTarget) {a x y w v : F32} (fa : a.isFinite = true) (fx : x.isFinite = true) (fy : y.isFinite = true)
    (fw : w.isFinite = true) (fv : v.isFinite = true) (h : |a.val * w.val| ≤ (maxFloat : ℝ)) :
    IsNearest (entry k t (ofRat 0) x (ofRat 0) y a w (ofRat 0) v) (a.val * w.val) := by
  have m := mul_near fa fw h
  have zf := zero_lit.1
  have p0 := zero_mul_fin zf fx z; have p1 := zero_mul_fin zf fy z; have p3 := zero_mul_fin zf fv z
  have q1 := zero_fma_fin t zf fy p0.1 z p0.2
  have s1 := zero_add_fin p0 p1
  have simd := fma_zero_prod t (fma_zero_add t fa fw q1.1 q1.2 h) zf fv z
  have scal := add_zero_right (add_zero_left m s1.1 s1.2) p3.1 p3.2
  cases k <;> first | exact simd | exact scal

theorem entry3 (k : Backend) (t : FTarget) {a x y w v : F32} (fa : a.isFinite = true) (fx : x.isFinite = true) (fy : y.isFinite = true)
    (fw : w.isFinite = true) (fv : v.isFinite = true) (h : |a.val * v.val| ≤ (maxFloat : ℝ)) :
    IsNearest (entry k t (ofRat 0) x (ofRat 0) y (ofRat 0) w a v) (a.val * v.val) := by
  have m := mul_near fa fv h
  have zf := zero_lit.1
  have p0 := zero_mul_fin zf fx z; have p1 := zero_mul_fin zf fy z; have p2 := zero_mul_fin zf fw z
  have q1 := zero_fma_fin t zf fy p0.1 z p0.2
  have q2 := zero_fma_fin t zf fw q1.1 z q1.2
  have s2 := zero_add_fin (zero_add_fin p0 p1) p2
  have simd := fma_zero_add t fa fv q2.1 q2.2 h
  have scal := add_zero_left m s2.1 s2.2
  cases k <;> first | exact simd | exact scal

theorem stretch_eq (s : V4 F32) : Transform.scale s =
    ⟨⟨s.x, ofRat 0, ofRat 0, ofRat 0⟩, ⟨ofRat 0, s.y, ofRat 0, ofRat 0⟩, ⟨ofRat 0, ofRat 0, s.z, ofRat 0⟩,
     ⟨ofRat 0, ofRat 0, ofRat 0, ofRat 1⟩⟩ := rfl

/-- The product of a scale with a column. -/
theorem stretch_col (k : Backend) (t : FTarget) (s v : V4 F32) :
    F32x4.mulVOn k t (Transform.scale s) v =
      ⟨entry k t s.x v.x (ofRat 0) v.y (ofRat 0) v.z (ofRat 0) v.w, entry k t (ofRat 0) v.x s.y v.y (ofRat 0) v.z (ofRat 0) v.w,
       entry k t (ofRat 0) v.x (ofRat 0) v.y s.z v.z (ofRat 0) v.w, entry k t (ofRat 0) v.x (ofRat 0) v.y (ofRat 0) v.z (ofRat 1) v.w⟩ :=
  (congrArg (fun m => F32x4.mulVOn k t m v) (stretch_eq s)).trans (mulVOn_eq k t _ v)

/-- One coordinate of the translation. -/
theorem coord_near {d c : F32} {m0 m1 m2 x y z : ℝ} (fc : c.isFinite = true) (hs : SumOk d [(m0, x), (m1, y), (m2, z)])
    (h : |m0 * x| + |m1 * y| + |m2 * z| + |rv c| ≤ 2 ^ 125) :
    Near (fadd c d) (m0 * x + m1 * y + m2 * z + rv c) (401 / 100 / 2 ^ 24 * (|m0 * x| + |m1 * y| + |m2 * z| + |rv c|) + 1 / 2 ^ 147) := by
  have q1 : sumProd [(m0, x), (m1, y), (m2, z)] = m0 * x + m1 * y + m2 * z := by simp [sumProd]; ring
  have q2 : absProd [(m0, x), (m1, y), (m2, z)] = |m0 * x| + |m1 * y| + |m2 * z| := by simp [absProd, add_assoc]
  have c0 := abs_nonneg (rv c)
  have tr := abs_add_three (m0 * x) (m1 * y) (m2 * z)
  have A0 : 0 ≤ |m0 * x| + |m1 * y| + |m2 * z| := by positivity
  have := hs (by rw [q2]; linarith)
  rw [q1, q2, show (List.length [(m0, x), (m1, y), (m2, z)]) = 3 from rfl] at this
  obtain ⟨fd, ed⟩ := this
  have u : ((1 : ℝ) + 1 / 2 ^ 24) ^ 3 - 1 ≤ 3001 / 1000 / 2 ^ 24 := by norm_num
  have ed' : |rv d - (m0 * x + m1 * y + m2 * z)| ≤ 3001 / 1000 / 2 ^ 24 * (|m0 * x| + |m1 * y| + |m2 * z|) + 3 / 2 ^ 149 := by
    have := mul_le_mul_of_nonneg_right u A0
    push_cast at ed
    linarith
  generalize |m0 * x| + |m1 * y| + |m2 * z| = A at *
  generalize m0 * x + m1 * y + m2 * z = S at *
  have sz : |c.val + d.val| ≤ (1 + 1 / 2 ^ 20) * (A + |rv c|) + 1 / 2 ^ 140 := by
    have e : c.val + d.val = rv c + (S + (rv d - S)) := by change rv c + rv d = _; ring
    rw [e]
    have := abs_add_three (rv c) S (rv d - S)
    rw [add_assoc] at this
    linarith
  have := fadd_err' fc fd (lt_of_le_of_lt sz (by linarith))
  refine ⟨this.1, ?_⟩
  have e : rv (fadd c d) - (S + rv c) = ((fadd c d).val - (c.val + d.val)) + (rv d - S) := by
    change rv (fadd c d) - (S + rv c) = (rv (fadd c d) - (rv c + rv d)) + (rv d - S); ring
  rw [e]
  refine (abs_add_le _ _).trans ?_
  have h2 := this.2
  have : uro * |c.val + d.val| ≤ 1 / 2 ^ 24 * ((1 + 1 / 2 ^ 20) * (A + |rv c|) + 1 / 2 ^ 140) := by
    have ue : uro ≤ 1 / 2 ^ 24 := by unfold uro; norm_num
    exact mul_le_mul ue sz (abs_nonneg _) (by norm_num)
  linarith

end MoveP
open MoveP

/-- C144: `translate(m, t)` in binary32 on every target keeps the first three columns and the lowest entry as they are; its
translation is that of the exact product of `m` with the translation by `t`, with an error of at most `4.01 * 2^-24` of the
sum of the sizes of the terms. -/
theorem translate_after_f32 (k : Backend) (tg : FTarget) (m : M4 F32) (t : V4 F32) (fm : FinM m) (ft : AllFinite t.xyz.toList) :
    let r := F32x4.translateR k tg m t
    (r.c0 = m.c0 ∧ r.c1 = m.c1 ∧ r.c2 = m.c2 ∧ r.c3.w = m.c3.w) ∧
    ∀ i : Fin 4, i ≠ 3 → ∑ j, |matOf m i j * shift t j 3| ≤ 2 ^ 125 →
      Near (cell r i 3) ((matOf m * shift t) i 3) (401 / 100 / 2 ^ 24 * ∑ j, |matOf m i j * shift t j 3| + 1 / 2 ^ 147) := by
  intro r
  refine ⟨⟨rfl, rfl, rfl, rfl⟩, ?_⟩
  obtain ⟨h1, h2, h3⟩ := mul3_ok k tg (v := t) fm ft
  obtain ⟨cx, cy, cz, -⟩ := fin4 fm.2.2.2
  intro i hi
  have key : ∀ {a b c d e : ℝ}, a = b → c = d → (c ≤ 2 ^ 125) → (d ≤ 2 ^ 125 → Near (cell r i 3) b (401 / 100 / 2 ^ 24 * d + 1 / 2 ^ 147)) →
      Near (cell r i 3) a (401 / 100 / 2 ^ 24 * c + 1 / 2 ^ 147) := by
    rintro a b c d e rfl rfl h g; exact g h
  intro hb
  fin_cases i
  · refine key (e := 0) ?_ ?_ hb (coord_near cx h1)
    · simp [Matrix.mul_apply, Fin.sum_univ_four, matOf, mat4, shift, V4.xyz]
    · simp [Fin.sum_univ_four, matOf, mat4, shift, V4.xyz]
  · refine key (e := 0) ?_ ?_ hb (coord_near cy h2)
    · simp [Matrix.mul_apply, Fin.sum_univ_four, matOf, mat4, shift, V4.xyz]
    · simp [Fin.sum_univ_four, matOf, mat4, shift, V4.xyz]
  · refine key (e := 0) ?_ ?_ hb (coord_near cz h3)
    · simp [Matrix.mul_apply, Fin.sum_univ_four, matOf, mat4, shift, V4.xyz]
    · simp [Fin.sum_univ_four, matOf, mat4, shift, V4.xyz]
  · exact absurd rfl hi

/-- C144: `translate(t, m)` of an affine matrix: every entry is a float nearest to that of the exact product of the
translation by `t` with `m`, and all but the translation are kept as they are. -/
theorem translate_before_f32 (t : V4 F32) (m : M4 F32) (fm : FinM m) (ft : AllFinite t.xyz.toList)
    (low : rv m.c0.w = 0 ∧ rv m.c1.w = 0 ∧ rv m.c2.w = 0 ∧ rv m.c3.w = 1) (hr : ∀ i j, |(shift t * matOf m) i j| ≤ (maxFloat : ℝ)) :
    let r := Transform.translateL t m
    (r.c0 = m.c0 ∧ r.c1 = m.c1 ∧ r.c2 = m.c2 ∧ r.c3.w = m.c3.w) ∧
    ∀ i j, IsNearest (cell r i j) ((shift t * matOf m) i j) := by
  intro r
  refine ⟨⟨rfl, rfl, rfl, rfl⟩, ?_⟩
  obtain ⟨f0, f1, f2, f3⟩ := fm
  obtain ⟨l0, l1, l2, l3⟩ := low
  obtain ⟨ax, ay, az, aw⟩ := fin4 f0
  obtain ⟨bx, by', bz, bw⟩ := fin4 f1
  obtain ⟨cx, cy, cz, cw⟩ := fin4 f2
  obtain ⟨dx, dy, dz, dw⟩ := fin4 f3
  obtain ⟨tx, ty, tz⟩ := fin3 ft
  have key : ∀ {u : F32} {x : ℝ}, u.isFinite = true → x = rv u → IsNearest u x := by
    rintro u x f rfl; exact near_self f
  have add : ∀ {u v : F32} {x : ℝ}, u.isFinite = true → v.isFinite = true → x = rv u + rv v → |x| ≤ (maxFloat : ℝ) →
      IsNearest (fadd u v) x := by
    rintro u v x fu fv rfl h
    have e : maxRat = maxFloat := by unfold maxRat maxFloat; norm_num
    have := fadd_nearest fu fv (by rw [e]; unfold rv at h; exact_mod_cast h)
    unfold rv
    rwa [← Rat.cast_add]
  intro i j
  have hij := hr i j
  fin_cases i <;> fin_cases j
  · exact key (u := m.c0.x) ax (by simp [Matrix.mul_apply, Fin.sum_univ_four, matOf, mat4, shift, l0])
  · exact key (u := m.c1.x) bx (by simp [Matrix.mul_apply, Fin.sum_univ_four, matOf, mat4, shift, l1])
  · exact key (u := m.c2.x) cx (by simp [Matrix.mul_apply, Fin.sum_univ_four, matOf, mat4, shift, l2])
  · exact add dx tx (by simp [Matrix.mul_apply, Fin.sum_univ_four, matOf, mat4, shift, l3, V4.xyz]) hij
  · exact key (u := m.c0.y) ay (by simp [Matrix.mul_apply, Fin.sum_univ_four, matOf, mat4, shift, l0])
  · exact key (u := m.c1.y) by' (by simp [Matrix.mul_apply, Fin.sum_univ_four, matOf, mat4, shift, l1])
  · exact key (u := m.c2.y) cy (by simp [Matrix.mul_apply, Fin.sum_univ_four, matOf, mat4, shift, l2])
  · exact add dy ty (by simp [Matrix.mul_apply, Fin.sum_univ_four, matOf, mat4, shift, l3, V4.xyz]) hij
  · exact key (u := m.c0.z) az (by simp [Matrix.mul_apply, Fin.sum_univ_four, matOf, mat4, shift, l0])
  · exact key (u := m.c1.z) bz (by simp [Matrix.mul_apply, Fin.sum_univ_four, matOf, mat4, shift, l1])
  · exact key (u := m.c2.z) cz (by simp [Matrix.mul_apply, Fin.sum_univ_four, matOf, mat4, shift, l2])
  · exact add dz tz (by simp [Matrix.mul_apply, Fin.sum_univ_four, matOf, mat4, shift, l3, V4.xyz]) hij
  · exact key (u := m.c0.w) aw (by simp [Matrix.mul_apply, Fin.sum_univ_four, matOf, mat4, shift])
  · exact key (u := m.c1.w) bw (by simp [Matrix.mul_apply, Fin.sum_univ_four, matOf, mat4, shift])
  · exact key (u := m.c2.w) cw (by simp [Matrix.mul_apply, Fin.sum_univ_four, matOf, mat4, shift])
  · exact key (u := m.c3.w) dw (by simp [Matrix.mul_apply, Fin.sum_univ_four, matOf, mat4, shift])

/-- C144: `scale(m, s)` of any finite matrix: every entry is a float nearest to that of the exact product of `m` with the
scale by `s`, and the last column is kept as it is. -/
theorem scale_after_f32 (m : M4 F32) (s : V4 F32) (fm : FinM m) (fs : AllFinite s.xyz.toList)
    (hr : ∀ i j, |(matOf m * stretch s) i j| ≤ (maxFloat : ℝ)) :
    let r := Transform.scaleR m s
    r.c3 = m.c3 ∧ ∀ i j, IsNearest (cell r i j) ((matOf m * stretch s) i j) := by
  intro r
  refine ⟨rfl, ?_⟩
  obtain ⟨f0, f1, f2, f3⟩ := fm
  obtain ⟨ax, ay, az, aw⟩ := fin4 f0
  obtain ⟨bx, by', bz, bw⟩ := fin4 f1
  obtain ⟨cx, cy, cz, cw⟩ := fin4 f2
  obtain ⟨dx, dy, dz, dw⟩ := fin4 f3
  obtain ⟨sx, sy, sz⟩ := fin3 fs
  have key : ∀ {u : F32} {x : ℝ}, u.isFinite = true → x = rv u → IsNearest u x := by
    rintro u x f rfl; exact near_self f
  have mul : ∀ {u v : F32} {x : ℝ}, u.isFinite = true → v.isFinite = true → x = rv u * rv v → |x| ≤ (maxFloat : ℝ) →
      IsNearest (fmul u v) x := by
    rintro u v x fu fv rfl h
    exact mul_near fu fv h
  intro i j
  have hij := hr i j
  simp only [stretch, Matrix.mul_diagonal] at hij ⊢
  fin_cases i <;> fin_cases j
  · exact mul ax sx rfl hij
  · exact mul bx sy rfl hij
  · exact mul cx sz rfl hij
  · exact key (u := m.c3.x) dx (mul_one _)
  · exact mul ay sx rfl hij
  · exact mul by' sy rfl hij
  · exact mul cy sz rfl hij
  · exact key (u := m.c3.y) dy (mul_one _)
  · exact mul az sx rfl hij
  · exact mul bz sy rfl hij
  · exact mul cz sz rfl hij
  · exact key (u := m.c3.z) dz (mul_one _)
  · exact mul aw sx rfl hij
  · exact mul bw sy rfl hij
  · exact mul cw sz rfl hij
  · exact key (u := m.c3.w) dw (mul_one _)

/-- C144: `scale(s, m)` of any finite matrix on every target: every entry is a float nearest to that of the exact product of
the scale by `s` with `m`, although the code adds three products with zero to each; the lowest row keeps its values. -/
theorem scale_before_f32 (k : Backend) (tg : FTarget) (s : V4 F32) (m : M4 F32) (fm : FinM m) (fs : AllFinite s.xyz.toList)
    (hr : ∀ i j, |(stretch s * matOf m) i j| ≤ (maxFloat : ℝ)) :
    let r := F32x4.scaleL k tg s m
    (∀ j, rv (cell r 3 j) = rv (cell m 3 j)) ∧ ∀ i j, IsNearest (cell r i j) ((stretch s * matOf m) i j) := by
  intro r
  obtain ⟨f0, f1, f2, f3⟩ := fm
  obtain ⟨sx, sy, sz⟩ := fin3 fs
  simp only [V4.xyz] at sx sy sz
  have col : ∀ {v : V4 F32}, AllFinite v.toList → |rv s.x * rv v.x| ≤ (maxFloat : ℝ) → |rv s.y * rv v.y| ≤ (maxFloat : ℝ) →
      |rv s.z * rv v.z| ≤ (maxFloat : ℝ) → let c := F32x4.mulVOn k tg (Transform.scale s) v
      IsNearest c.x (rv s.x * rv v.x) ∧ IsNearest c.y (rv s.y * rv v.y) ∧ IsNearest c.z (rv s.z * rv v.z) ∧ IsNearest c.w (1 * rv v.w) := by
    intro v fv hx hy hz
    obtain ⟨vx, vy, vz, vw⟩ := fin4 fv
    simp only [stretch_col]
    refine ⟨entry0 k tg sx vx vy vz vw hx, entry1 k tg sy vx vy vz vw hy, entry2 k tg sz vx vy vz vw hz, ?_⟩
    have := entry3 k tg one_lit.1 vx vy vz vw (by
      rw [one_lit.2, one_mul]
      have e : maxRat = maxFloat := by unfold maxRat maxFloat; norm_num
      have := val_le_max vw
      rw [e] at this
      unfold val
      exact_mod_cast this)
    rw [one_lit.2] at this
    exact this
  simp only [stretch, Matrix.diagonal_mul] at hr ⊢
  have g0 := col f0 (hr 0 0) (hr 1 0) (hr 2 0)
  have g1 := col f1 (hr 0 1) (hr 1 1) (hr 2 1)
  have g2 := col f2 (hr 0 2) (hr 1 2) (hr 2 2)
  have g3 := col f3 (hr 0 3) (hr 1 3) (hr 2 3)
  have keep : ∀ {u v : F32}, v.isFinite = true → IsNearest u (1 * rv v) → rv u = rv v := by
    intro u v fv h
    rw [one_mul] at h
    exact nearest_exact h fv rfl
  refine ⟨fun j => ?_, fun i j => ?_⟩
  · fin_cases j
    · exact keep (fin4 f0).2.2.2 g0.2.2.2
    · exact keep (fin4 f1).2.2.2 g1.2.2.2
    · exact keep (fin4 f2).2.2.2 g2.2.2.2
    · exact keep (fin4 f3).2.2.2 g3.2.2.2
  · fin_cases i <;> fin_cases j
    · exact g0.1
    · exact g1.1
    · exact g2.1
    · exact g3.1
    · exact g0.2.1
    · exact g1.2.1
    · exact g2.2.1
    · exact g3.2.1
    · exact g0.2.2.1
    · exact g1.2.2.1
    · exact g2.2.2.1
    · exact g3.2.2.1
    · exact g0.2.2.2
    · exact g1.2.2.2
    · exact g2.2.2.2
    · exact g3.2.2.2

private def sampleM : M4 F32 :=
  ⟨⟨ofRat 3, ofRat (1 / 2), ofRat 0, ofRat 0⟩, ⟨ofRat (-5), ofRat 1, ofRat 0, ofRat 0⟩, ⟨ofRat 0, ofRat 0, ofRat 1, ofRat 0⟩,
   ⟨ofRat 3, ofRat (-5), ofRat (1 / 2), ofRat 1⟩⟩
private def sampleV : V4 F32 := ⟨ofRat 3, ofRat (-5), ofRat (1 / 2), ofRat 0⟩

private theorem sample_vals : rv (ofRat 0) = 0 ∧ rv (ofRat 1) = 1 ∧ rv (ofRat 3) = 3 ∧ rv (ofRat (-5)) = -5 ∧ rv (ofRat (1 / 2)) = 1 / 2 := by
  have h : (ofRat 0).toRat = 0 ∧ (ofRat 1).toRat = 1 ∧ (ofRat 3).toRat = 3 ∧ (ofRat (-5)).toRat = -5 ∧ (ofRat (1 / 2)).toRat = 1 / 2 := by
    decide +kernel
  obtain ⟨h0, h1, h2, h3, h4⟩ := h
  unfold rv
  rw [h0, h1, h2, h3, h4]
  norm_num

private theorem sample_mat : matOf sampleM = !![3, -5, 0, 3; 1 / 2, 1, 0, -5; 0, 0, 1, 1 / 2; 0, 0, 0, 1] := by
  obtain ⟨h0, h1, h2, h3, h4⟩ := sample_vals
  simp only [matOf, sampleM, h0, h1, h2, h3, h4]
  rfl

private theorem sample_shift : shift sampleV = !![1, 0, 0, 3; 0, 1, 0, -5; 0, 0, 1, 1 / 2; 0, 0, 0, 1] := by
  obtain ⟨h0, h1, h2, h3, h4⟩ := sample_vals
  simp only [shift, sampleV, h2, h3, h4]

private theorem sample_stretch : stretch sampleV = Matrix.diagonal ![3, -5, 1 / 2, 1] := by
  obtain ⟨h0, h1, h2, h3, h4⟩ := sample_vals
  simp only [stretch, sampleV, h2, h3, h4]

private theorem sample_fin : FinM sampleM ∧ AllFinite sampleV.xyz.toList := by
  have h : ((sampleM.c0.toList ++ sampleM.c1.toList ++ sampleM.c2.toList ++ sampleM.c3.toList ++ sampleV.xyz.toList).all (·.isFinite)) = true := by
    decide +kernel
  simp only [List.all_append, Bool.and_eq_true, List.all_eq_true] at h
  exact ⟨⟨h.1.1.1.1, h.1.1.1.2, h.1.1.2, h.1.2⟩, h.2⟩

/-- A sheared matrix with a translation, moved and scaled by (3, -5, 1/2), meets all the hypotheses of the four theorems. -/
example (k : Backend) (tg : FTarget) :
    Near (F32x4.translateR k tg sampleM sampleV).c3.x 37 (1 / 10 ^ 5) ∧
    rv (Transform.translateL sampleV sampleM).c3.y = -10 ∧ rv (Transform.scaleR sampleM sampleV).c1.x = 25 ∧
    rv (F32x4.scaleL k tg sampleV sampleM).c1.x = -15 := by
  obtain ⟨fm, fv⟩ := sample_fin
  have big : (100 : ℝ) ≤ (maxFloat : ℝ) := by unfold maxFloat; norm_num
  have small : ∀ {x : ℝ}, |x| ≤ 100 → |x| ≤ (maxFloat : ℝ) := fun h => h.trans big
  have ex : ∀ {r : F32} {x : ℝ} (q : Rat), IsNearest r x → (ofRat q).isFinite = true ∧ (ofRat q).toRat = q → x = (q : ℝ) → rv r = q := by
    rintro r x q h ⟨f, e⟩ rfl
    exact nearest_exact h f (by unfold val; rw [e])
  refine ⟨?_, ?_, ?_, ?_⟩
  · have := (translate_after_f32 k tg sampleM sampleV fm fv).2 0 (by decide) (by
      rw [sample_mat, sample_shift]; simp [Fin.sum_univ_four]; norm_num)
    rw [sample_mat, sample_shift] at this
    refine ⟨this.1, ?_⟩
    have h2 := this.2
    simp [Matrix.mul_apply, Fin.sum_univ_four] at h2
    norm_num at h2
    refine h2.trans ?_
    norm_num
  · obtain ⟨h0, h1, -⟩ := sample_vals
    have := (translate_before_f32 sampleV sampleM fm fv ⟨h0, h0, h0, h1⟩ (by
      intro i j
      apply small
      rw [sample_mat, sample_shift]
      fin_cases i <;> fin_cases j <;> simp [Matrix.mul_apply, Fin.sum_univ_four] <;> norm_num)).2 1 3
    have := ex (-10) this (by decide +kernel) (by
      rw [sample_mat, sample_shift]; simp [Matrix.mul_apply, Fin.sum_univ_four]; norm_num)
    exact this.trans (by norm_num)
  · have := (scale_after_f32 sampleM sampleV fm fv (by
      intro i j
      apply small
      rw [sample_mat, sample_stretch]
      fin_cases i <;> fin_cases j <;> simp [Matrix.mul_diagonal] <;> norm_num)).2 0 1
    have := ex 25 this (by decide +kernel) (by
      rw [sample_mat, sample_stretch]; simp [Matrix.mul_diagonal]; norm_num)
    exact this.trans (by norm_num)
  · have := (scale_before_f32 k tg sampleV sampleM fm fv (by
      intro i j
      apply small
      rw [sample_mat, sample_stretch]
      fin_cases i <;> fin_cases j <;> simp [Matrix.diagonal_mul] <;> norm_num)).2 0 1
    have := ex (-15) this (by decide +kernel) (by
      rw [sample_mat, sample_stretch]; simp [Matrix.diagonal_mul]; norm_num)
    exact this.trans (by norm_num)

end Verif
