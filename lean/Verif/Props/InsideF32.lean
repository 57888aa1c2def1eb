import Verif.Props.BarycentricF32

/-!
# C129: which points `isInside` of a triangle accepts in binary32
-/

namespace Verif
open F32 Spec SatF32 ClosestF32 BaryF32

namespace InsideF32

/-- A vector with components known at scale `S`. -/
structure Sc3 (S : ℝ) (v : V4 F32) (a : V3 ℝ) (X c : ℝ) : Prop where
  x : Sc S v.x a.x X c
  y : Sc S v.y a.y X c
  z : Sc S v.z a.z X c

theorem diff3 {M : ℝ} (o : ScOk M) {p s : V4 F32} (hp : AllFinite [p.x, p.y, p.z]) (hs : AllFinite [s.x, s.y, s.z])
    (h : InBoxAround M (pos s) (pos p)) : Sc3 M (V4.sub p s) (diff (pos p) (pos s)) 1 1.01 :=
  ⟨Sc.diff' (hp _ (by simp)) (hs _ (by simp)) h.1 o, Sc.diff' (hp _ (by simp)) (hs _ (by simp)) h.2.1 o,
    Sc.diff' (hp _ (by simp)) (hs _ (by simp)) h.2.2 o⟩

theorem two {S : ℝ} (o : ScOk S) {r s : F32} {x y X c Z C : ℝ} (ha : Sc S r x X c) (hb : Sc S s y X c) (hX : 0 ≤ X) (hZ : X + X ≤ Z) (hZ' : Z ≤ 2 ^ 20)
    (hcd : c + c ≤ 2 ^ 20) (hC : c + c + Z + (c + c + 1) / 1000 ≤ C) : Sc S (fsub r s) (x - y) Z C := by
  refine ha.sub hb o ((abs_sub _ _).trans ?_) (by linarith) hZ' hcd hC
  have := mul_le_mul_of_nonneg_right hZ o.pos.le
  linarith [ha.big, hb.big]

theorem cross_sc {M : ℝ} (o : ScOk M) (o2 : ScOk (M * M)) {v w : V4 F32} {a b : V3 ℝ} (ha : Sc3 M v a 1 1.01) (hb : Sc3 M w b 1 1.01) :
    Sc3 (M * M) (Simd.cross3 v w) (crossP a b) 2 8.1 := by
  have m : ∀ {r s : F32} {x y : ℝ}, Sc M r x 1 1.01 → Sc M s y 1 1.01 → Sc (M * M) (fmul r s) (x * y) 1 3.03 := fun h1 h2 =>
    (h1.mul h2 o o o2 (E := 2.021) (C := 3.03) (by norm_num) (by norm_num) (by norm_num) (by norm_num) (by norm_num) (by norm_num)).mono o2
      (by norm_num) le_rfl
  have t : ∀ {r s : F32} {x y z : ℝ}, Sc (M * M) r x 1 3.03 → Sc (M * M) s y 1 3.03 → x - y = z → Sc (M * M) (fsub r s) z 2 8.1 := fun h1 h2 e =>
    (two o2 h1 h2 (by norm_num) (by norm_num) (by norm_num) (by norm_num) (by norm_num)).of_eq e
  exact ⟨t (m hb.z ha.y) (m ha.z hb.y) (by simp only [crossP]; ring), t (m hb.x ha.z) (m ha.x hb.z) (by simp only [crossP]; ring),
    t (m hb.y ha.x) (m ha.y hb.x) (by simp only [crossP]; ring)⟩

theorem dot_sc4 {S : ℝ} (o : ScOk S) (o2 : ScOk (S * S)) {v w : V4 F32} {a b : V3 ℝ} (ha : Sc3 S v a 2 8.1) (hb : Sc3 S w b 2 8.1) :
    Sc (S * S) (Simd.dot3 v w) (dot a b) 12 134 := by
  have m : ∀ {r s : F32} {x y : ℝ}, Sc S r x 2 8.1 → Sc S s y 2 8.1 → Sc (S * S) (fmul r s) (x * y) 4 36.5 := fun h1 h2 =>
    (h1.mul h2 o o o2 (E := 32.41) (C := 36.5) (by norm_num) (by norm_num) (by norm_num) (by norm_num) (by norm_num) (by norm_num)).mono o2
      (by norm_num) le_rfl
  have p := o2.pos
  have x := m ha.x hb.x
  have y := m ha.y hb.y
  have z := m ha.z hb.z
  have zero : Sc (S * S) (ofRat 0) 0 0 0 := ⟨lit0.1, by rw [lit0.2]; simp, by simp⟩
  have xy := x.add y o2 (Z := 8) (C := 81.1) (by
    have := abs_add_le (a.x * b.x) (a.y * b.y); linarith [x.big, y.big]) (by norm_num) (by norm_num) (by norm_num) (by norm_num)
  have z0 := z.add zero o2 (Z := 4) (C := 40.6) (by rw [add_zero]; exact z.big) (by norm_num) (by norm_num) (by norm_num) (by norm_num)
  rw [add_zero] at z0
  have all := xy.add z0 o2 (Z := 12) (C := 134) (by
    have := abs_add_le (a.x * b.x + a.y * b.y) (a.z * b.z); linarith [xy.big, z.big]) (by norm_num) (by norm_num) (by norm_num) (by norm_num)
  rw [dot3_eq]
  exact all

/-- The products of the areas in terms of the weights and the distance from the plane. -/
theorem products {p q r s : V3 ℝ} {a b c : ℝ} (hw : Weights p q r s a b c) :
    let u := crossP (diff q s) (diff r s)
    let v := crossP (diff r s) (diff p s)
    let w := crossP (diff p s) (diff q s)
    let h := dist2 s (combo p q r a b c)
    dot u v = a * b * areaSq p q r + h * dot (diff r q) (diff p r) ∧ dot u w = a * c * areaSq p q r + h * dot (diff r q) (diff q p) := by
  intro u v w h
  obtain ⟨hs, -, h1, h2⟩ := hw
  have ha : a = 1 - b - c := by linarith
  subst ha
  generalize hd : diff s (combo p q r (1 - b - c) b c) = d at h1 h2
  have eh : h = dot d d := by rw [← hd]; simp only [h, dist2, dot, diff]; ring
  rw [eh]
  clear_value h
  have sx : s.x = (1 - b - c) * p.x + b * q.x + c * r.x + d.x := by rw [← hd]; simp only [diff, combo]; ring
  have sy : s.y = (1 - b - c) * p.y + b * q.y + c * r.y + d.y := by rw [← hd]; simp only [diff, combo]; ring
  have sz : s.z = (1 - b - c) * p.z + b * q.z + c * r.z + d.z := by rw [← hd]; simp only [diff, combo]; ring
  clear hd eh
  obtain ⟨px, py, pz⟩ := p
  obtain ⟨qx, qy, qz⟩ := q
  obtain ⟨rx, ry, rz⟩ := r
  obtain ⟨dx, dy, dz⟩ := d
  obtain ⟨x, y, z⟩ := s
  simp only at sx sy sz
  subst sx sy sz
  obtain ⟨ex, rfl⟩ : ∃ t, qx = px + t := ⟨qx - px, by ring⟩
  obtain ⟨ey, rfl⟩ : ∃ t, qy = py + t := ⟨qy - py, by ring⟩
  obtain ⟨ez, rfl⟩ : ∃ t, qz = pz + t := ⟨qz - pz, by ring⟩
  obtain ⟨fx, rfl⟩ : ∃ t, rx = px + t := ⟨rx - px, by ring⟩
  obtain ⟨fy, rfl⟩ : ∃ t, ry = py + t := ⟨ry - py, by ring⟩
  obtain ⟨fz, rfl⟩ : ∃ t, rz = pz + t := ⟨rz - pz, by ring⟩
  simp only [dot, diff] at h1 h2
  constructor
  · simp only [u, v, areaSq, crossP, dot, diff]
    linear_combination (-(1 - b - c) * ((fx) * (-fx) + (fy) * (-fy) + (fz) * (-fz)) - b * ((fx) * (fx - ex) + (fy) * (fy - ey) + (fz) * (fz - ez)) + ((-fx) * (dx) + (-fy) * (dy) + (-fz) * (dz))) * h1 + ((1 - b - c) * ((ex) * (-fx) + (ey) * (-fy) + (ez) * (-fz)) + b * ((ex) * (fx - ex) + (ey) * (fy - ey) + (ez) * (fz - ez)) - ((-fx) * (dx) + (-fy) * (dy) + (-fz) * (dz))) * h2
  · simp only [u, w, areaSq, crossP, dot, diff]
    linear_combination (-(1 - b - c) * ((fx) * (ex) + (fy) * (ey) + (fz) * (ez)) - c * ((fx) * (fx - ex) + (fy) * (fy - ey) + (fz) * (fz - ez)) + ((ex) * (dx) + (ey) * (dy) + (ez) * (dz))) * h1 + ((1 - b - c) * ((ex) * (ex) + (ey) * (ey) + (ez) * (ez)) + c * ((ex) * (fx - ex) + (ey) * (fy - ey) + (ez) * (fz - ez)) - ((ex) * (dx) + (ey) * (dy) + (ez) * (dz))) * h2

end InsideF32
open InsideF32

/-- C129: `isInside` of a triangle in binary32. Let `a`, `b`, `c` be the weights of the point of the plane nearest to the point `s`,
and let `M` bound the coordinate distances from `s` to the vertices. Up to `M^4 / 2^16` and twelve times the squared distance from the
plane times `M^2`, compared with the weights' products times the squared area, the test decides whether `b` and `c` have the sign
of `a`, which for weights summing to one says that they are all positive. -/
theorem tri_inside_f32 (t : Triangle F32) (s : V4 F32) (h0 : AllFinite [t.p0.x, t.p0.y, t.p0.z]) (h1 : AllFinite [t.p1.x, t.p1.y, t.p1.z])
    (h2 : AllFinite [t.p2.x, t.p2.y, t.p2.z]) (hs : AllFinite [s.x, s.y, s.z]) (M : ℝ) (M1 : 1 / 2 ^ 25 ≤ M) (M2 : M ≤ 2 ^ 25)
    (b0 : InBoxAround M (pos s) (pos t.p0)) (b1 : InBoxAround M (pos s) (pos t.p1)) (b2 : InBoxAround M (pos s) (pos t.p2))
    (a b c : ℝ) (hw : Weights (pos t.p0) (pos t.p1) (pos t.p2) (pos s) a b c) :
    let A := areaSq (pos t.p0) (pos t.p1) (pos t.p2)
    let e := M ^ 4 / 2 ^ 16 + 12 * M ^ 2 * dist2 (pos s) (combo (pos t.p0) (pos t.p1) (pos t.p2) a b c)
    (e ≤ a * b * A → e ≤ a * c * A → t.isInside s = true) ∧ (a * b * A < -e ∨ a * c * A < -e → t.isInside s = false) := by
  intro A e
  have M0 : 0 < M := lt_of_lt_of_le (by positivity) M1
  have rng : ∀ n : ℕ, n ≤ 4 → ScOk (M ^ n) := by
    intro n hn
    have l : (1 / 2 ^ 25 : ℝ) ^ n ≤ M ^ n := by gcongr
    have u : M ^ n ≤ (2 ^ 25) ^ n := by gcongr
    constructor
    · refine le_trans ?_ l
      interval_cases n <;> norm_num
    · refine u.trans ?_
      interval_cases n <;> norm_num
  have o1 : ScOk M := by simpa using rng 1 (by norm_num)
  have o2 : ScOk (M * M) := by simpa [pow_two] using rng 2 (by norm_num)
  have q4 : M * M * (M * M) = M ^ 4 := by ring
  have o4 : ScOk (M * M * (M * M)) := q4 ▸ rng 4 le_rfl
  have d0 := diff3 o1 h0 hs b0
  have d1 := diff3 o1 h1 hs b1
  have d2 := diff3 o1 h2 hs b2
  have uv := dot_sc4 o2 o4 (cross_sc o1 o2 d1 d2) (cross_sc o1 o2 d2 d0)
  have uw := dot_sc4 o2 o4 (cross_sc o1 o2 d1 d2) (cross_sc o1 o2 d0 d1)
  obtain ⟨p1, p2⟩ := products hw
  rw [p1] at uv
  rw [p2] at uw
  have g0 : 0 ≤ dist2 (pos s) (combo (pos t.p0) (pos t.p1) (pos t.p2) a b c) := by simp only [dist2]; positivity
  have sm : ∀ {x y x' y' : ℝ}, |x| ≤ M → |y| ≤ M → |x'| ≤ M → |y'| ≤ M → |(x - y) * (x' - y')| ≤ 4 * M ^ 2 := by
    intro x y x' y' h1 h2 h3 h4
    rw [abs_mul]
    calc |x - y| * |x' - y'| ≤ (M + M) * (M + M) := by
          gcongr
          · exact (abs_sub _ _).trans (add_le_add h1 h2)
          · exact (abs_sub _ _).trans (add_le_add h3 h4)
      _ = _ := by ring
  have sd : ∀ {p q r u : V3 ℝ}, InBoxAround M (pos s) p → InBoxAround M (pos s) q → InBoxAround M (pos s) r → InBoxAround M (pos s) u →
      |dot (diff p q) (diff r u)| ≤ 12 * M ^ 2 := by
    intro p q r u hp hq hr hu
    have x := sm hp.1 hq.1 hr.1 hu.1
    have y := sm hp.2.1 hq.2.1 hr.2.1 hu.2.1
    have z := sm hp.2.2 hq.2.2 hr.2.2 hu.2.2
    rw [sub_sub_sub_cancel_right, sub_sub_sub_cancel_right] at x y z
    simp only [dot, diff]
    exact (abs3 _ _ _).trans (by linarith)
  have k1 := sd b2 b1 b0 b2
  have k2 := sd b2 b1 b1 b0
  have er : 134 * (uro * (M * M * (M * M))) ≤ M ^ 4 / 2 ^ 16 := by
    rw [q4, show uro = 1 / 2 ^ 24 by unfold uro; norm_num]
    have : 0 ≤ M ^ 4 := by positivity
    linarith
  have fin : ∀ {r : F32} {x k : ℝ}, Sc (M * M * (M * M)) r
      (x + dist2 (pos s) (combo (pos t.p0) (pos t.p1) (pos t.p2) a b c) * k) 12 134 → |k| ≤ 12 * M ^ 2 → |r.val - x| ≤ e := by
    intro r x k h hk
    have := abs_add_le (r.val - (x + dist2 (pos s) (combo (pos t.p0) (pos t.p1) (pos t.p2) a b c) * k))
      (dist2 (pos s) (combo (pos t.p0) (pos t.p1) (pos t.p2) a b c) * k)
    rw [show ∀ u v w : ℝ, u - (v + w) + w = u - v by intros; ring, abs_mul, abs_of_nonneg g0] at this
    have m := mul_le_mul_of_nonneg_left hk g0
    have := h.err
    simp only [e]
    linarith
  have r1 := fin uv k1
  have r2 := fin uw k2
  have f1 := uv.fin
  have f2 := uw.fin
  have ei : t.isInside s = (if F32.ltb (Simd.dot3 (Simd.cross3 (V4.sub t.p1 s) (V4.sub t.p2 s)) (Simd.cross3 (V4.sub t.p2 s) (V4.sub t.p0 s))) (ofRat 0) ||
      F32.ltb (Simd.dot3 (Simd.cross3 (V4.sub t.p1 s) (V4.sub t.p2 s)) (Simd.cross3 (V4.sub t.p0 s) (V4.sub t.p1 s))) (ofRat 0) then false else true) := rfl
  rw [ei]
  generalize Simd.dot3 (Simd.cross3 (V4.sub t.p1 s) (V4.sub t.p2 s)) (Simd.cross3 (V4.sub t.p2 s) (V4.sub t.p0 s)) = x at r1 f1 ⊢
  generalize Simd.dot3 (Simd.cross3 (V4.sub t.p1 s) (V4.sub t.p2 s)) (Simd.cross3 (V4.sub t.p0 s) (V4.sub t.p1 s)) = y at r2 f2 ⊢
  have l1 := Reliable.flt_iff f1 lit0.1
  have l2 := Reliable.flt_iff f2 lit0.1
  rw [lit0.2] at l1 l2
  change |x.val - a * b * A| ≤ e at r1
  change |y.val - a * c * A| ≤ e at r2
  clear_value e A
  rw [abs_le] at r1 r2
  constructor
  · intro c1 c2
    rw [if_neg]
    rw [Bool.or_eq_true, l1, l2]
    rintro (h | h) <;> linarith
  · intro h
    rw [if_pos]
    rw [Bool.or_eq_true, l1, l2]
    rcases h with h | h
    · left; linarith
    · right; linarith

/-- C129: the same in terms of the weights alone. A point whose weights are all at least `ω` is accepted, and one with a weight of at
most `-ω` is rejected unless its first weight is closer to zero than `ω`, where `ω^2` times the squared area exceeds the error. -/
theorem tri_inside_f32_weights (t : Triangle F32) (s : V4 F32) (h0 : AllFinite [t.p0.x, t.p0.y, t.p0.z])
    (h1 : AllFinite [t.p1.x, t.p1.y, t.p1.z]) (h2 : AllFinite [t.p2.x, t.p2.y, t.p2.z]) (hs : AllFinite [s.x, s.y, s.z])
    (M : ℝ) (M1 : 1 / 2 ^ 25 ≤ M) (M2 : M ≤ 2 ^ 25) (b0 : InBoxAround M (pos s) (pos t.p0)) (b1 : InBoxAround M (pos s) (pos t.p1))
    (b2 : InBoxAround M (pos s) (pos t.p2)) (a b c : ℝ) (hw : Weights (pos t.p0) (pos t.p1) (pos t.p2) (pos s) a b c)
    (ω : ℝ) (w0 : 0 < ω) (w1 : ω ≤ 1 / 2)
    (hω : M ^ 4 / 2 ^ 16 + 12 * M ^ 2 * dist2 (pos s) (combo (pos t.p0) (pos t.p1) (pos t.p2) a b c) <
      ω ^ 2 * areaSq (pos t.p0) (pos t.p1) (pos t.p2)) :
    (ω ≤ a → ω ≤ b → ω ≤ c → t.isInside s = true) ∧
    (ω ≤ |a| → a ≤ -ω ∨ b ≤ -ω ∨ c ≤ -ω → t.isInside s = false) := by
  obtain ⟨k1, k2⟩ := tri_inside_f32 t s h0 h1 h2 hs M M1 M2 b0 b1 b2 a b c hw
  have hsum := hw.1
  have A0 : 0 ≤ areaSq (pos t.p0) (pos t.p1) (pos t.p2) := by
    simp only [areaSq, dot]
    exact add_nonneg (add_nonneg (mul_self_nonneg _) (mul_self_nonneg _)) (mul_self_nonneg _)
  generalize areaSq (pos t.p0) (pos t.p1) (pos t.p2) = A at *
  have up : ∀ {x y : ℝ}, ω ≤ x → ω ≤ y → ω ^ 2 * A ≤ x * y * A := by
    intro x y hx hy
    refine mul_le_mul_of_nonneg_right ?_ A0
    rw [pow_two]
    exact mul_le_mul hx hy w0.le (w0.le.trans hx)
  have dn : ∀ {x y : ℝ}, ω ≤ x → y ≤ -ω → x * y * A ≤ -(ω ^ 2 * A) := by
    intro x y hx hy
    have := up hx (show ω ≤ -y by linarith)
    linarith [show x * -y * A = -(x * y * A) by ring]
  refine ⟨fun ha hb hc => k1 (hω.le.trans (up ha hb)) (hω.le.trans (up ha hc)), fun ha h => k2 ?_⟩
  by_cases hn : a ≤ -ω
  · by_cases hb : ω ≤ b
    · have := dn hb hn
      left; rw [mul_comm a b]; linarith
    · have := dn (show ω ≤ c by linarith) hn
      right; rw [mul_comm a c]; linarith
  · have ha' : ω ≤ a := by
      rcases abs_cases a with ⟨e, _⟩ | ⟨e, _⟩ <;> rw [e] at ha
      · exact ha
      · exact absurd (by linarith) hn
    rcases h with h | h | h
    · exact absurd h hn
    · have := dn ha' h; left; linarith
    · have := dn ha' h; right; linarith

/-- Non-vacuity of `tri_inside_f32`: the triangle (0,0,0), (4,0,0), (0,4,0). The point (1,1,0) is accepted and (3,3,0), beyond the
third side, is rejected, with `M = 4`. -/
example : (⟨whole 0 0 0, whole 4 0 0, whole 0 4 0⟩ : Triangle F32).isInside (whole 1 1 0) = true ∧
    (⟨whole 0 0 0, whole 4 0 0, whole 0 4 0⟩ : Triangle F32).isInside (whole 3 3 0) = false := by
  obtain ⟨f0, e0⟩ := whole_pos 0 0 0 (by norm_num) (by norm_num) (by norm_num)
  obtain ⟨f1, e1⟩ := whole_pos 4 0 0 (by norm_num) (by norm_num) (by norm_num)
  obtain ⟨f2, e2⟩ := whole_pos 0 4 0 (by norm_num) (by norm_num) (by norm_num)
  obtain ⟨f3, e3⟩ := whole_pos 1 1 0 (by norm_num) (by norm_num) (by norm_num)
  obtain ⟨f4, e4⟩ := whole_pos 3 3 0 (by norm_num) (by norm_num) (by norm_num)
  push_cast at e0 e1 e2 e3 e4
  have t1 := tri_inside_f32 ⟨whole 0 0 0, whole 4 0 0, whole 0 4 0⟩ (whole 1 1 0) f0 f1 f2 f3 4 (by norm_num) (by norm_num)
    (by simp only [InBoxAround, e0, e3]; norm_num) (by simp only [InBoxAround, e1, e3]; norm_num) (by simp only [InBoxAround, e2, e3]; norm_num)
    (1 / 2) (1 / 4) (1 / 4) (by
      refine ⟨by norm_num, ⟨1 / 2, 1 / 4, 1 / 4, by norm_num, rfl⟩, ?_, ?_⟩ <;>
      · simp only [e0, e1, e2, e3, diff, dot, combo]; norm_num)
  have t2 := tri_inside_f32 ⟨whole 0 0 0, whole 4 0 0, whole 0 4 0⟩ (whole 3 3 0) f0 f1 f2 f4 4 (by norm_num) (by norm_num)
    (by simp only [InBoxAround, e0, e4]; norm_num) (by simp only [InBoxAround, e1, e4]; norm_num) (by simp only [InBoxAround, e2, e4]; norm_num)
    (-1 / 2) (3 / 4) (3 / 4) (by
      refine ⟨by norm_num, ⟨-1 / 2, 3 / 4, 3 / 4, by norm_num, rfl⟩, ?_, ?_⟩ <;>
      · simp only [e0, e1, e2, e4, diff, dot, combo]; norm_num)
  simp only [e0, e1, e2, e3, e4, areaSq, crossP, diff, dot, dist2, combo] at t1 t2
  exact ⟨t1.1 (by norm_num) (by norm_num), t2.2 (Or.inl (by norm_num))⟩

/-- Non-vacuity of `tri_inside_f32_weights`: the same triangle, the point (1,1,0) and `ω = 1/8`. -/
example : (⟨whole 0 0 0, whole 4 0 0, whole 0 4 0⟩ : Triangle F32).isInside (whole 1 1 0) = true := by
  obtain ⟨f0, e0⟩ := whole_pos 0 0 0 (by norm_num) (by norm_num) (by norm_num)
  obtain ⟨f1, e1⟩ := whole_pos 4 0 0 (by norm_num) (by norm_num) (by norm_num)
  obtain ⟨f2, e2⟩ := whole_pos 0 4 0 (by norm_num) (by norm_num) (by norm_num)
  obtain ⟨f3, e3⟩ := whole_pos 1 1 0 (by norm_num) (by norm_num) (by norm_num)
  push_cast at e0 e1 e2 e3
  exact (tri_inside_f32_weights ⟨whole 0 0 0, whole 4 0 0, whole 0 4 0⟩ (whole 1 1 0) f0 f1 f2 f3 4 (by norm_num) (by norm_num)
    (by simp only [InBoxAround, e0, e3]; norm_num) (by simp only [InBoxAround, e1, e3]; norm_num) (by simp only [InBoxAround, e2, e3]; norm_num)
    (1 / 2) (1 / 4) (1 / 4) (by
      refine ⟨by norm_num, ⟨1 / 2, 1 / 4, 1 / 4, by norm_num, rfl⟩, ?_, ?_⟩ <;>
      · simp only [e0, e1, e2, e3, diff, dot, combo]; norm_num) (1 / 8) (by norm_num) (by norm_num) (by
      simp only [e0, e1, e2, e3, areaSq, crossP, diff, dot, dist2, combo]; norm_num)).1 (by norm_num) (by norm_num) (by norm_num)

end Verif
