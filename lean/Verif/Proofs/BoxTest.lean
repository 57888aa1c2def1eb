import Verif.Spec.BoxTest
import Verif.Proofs.F32Real
import Verif.Props.Reliable
import Verif.Props.RayBox

/-!
# Monotonicity of rounded arithmetic, lane by lane
-/

namespace Verif.BoxTest
open Spec F32 Reliable

theorem val_le_key (a b : F32) : a.val ≤ b.val ↔ a.key ≤ b.key := by
  unfold F32.val; rw [Rat.cast_le, toRat_le_iff]

theorem rv_le_key (a b : F32) : rv a ≤ rv b ↔ a.key ≤ b.key := val_le_key a b

theorem val_nonneg_units (a : F32) : 0 ≤ a.val ↔ 0 ≤ a.units := by
  rw [val_units, le_div_iff₀ (by positivity), zero_mul]; exact_mod_cast Iff.rfl

/-- Products are monotone in the sense of exact products. -/
theorem mul_le {n a b : F32} (hn : n.isFinite = true) (ha : a.isFinite = true) (hb : b.isFinite = true)
    (h : n.units * a.units ≤ n.units * b.units) : (fmul n a).key ≤ (fmul n b).key := by
  rw [(fmul_finite hn ha).2, (fmul_finite hn hb).2]
  apply roundUnits_mono (by positivity) (by positivity)
  exact Int.mul_le_mul_of_nonneg_right h (by positivity)

theorem mul_le' {a b a' b' : F32} (ha : a.isFinite = true) (hb : b.isFinite = true) (ha' : a'.isFinite = true)
    (hb' : b'.isFinite = true) (h : a.units * b.units ≤ a'.units * b'.units) : (fmul a b).key ≤ (fmul a' b').key := by
  rw [(fmul_finite ha hb).2, (fmul_finite ha' hb').2]
  apply roundUnits_mono (by positivity) (by positivity)
  exact Int.mul_le_mul_of_nonneg_right h (by positivity)

theorem add_le {a b a' b' : F32} (ha : a.isFinite = true) (hb : b.isFinite = true) (ha' : a'.isFinite = true)
    (hb' : b'.isFinite = true) (h1 : a.key ≤ a'.key) (h2 : b.key ≤ b'.key) : (fadd a b).key ≤ (fadd a' b').key := by
  rw [(fadd_finite ha hb).2, (fadd_finite ha' hb').2]
  apply roundUnits_mono (by decide) (by decide)
  have := (units_le_iff a a').2 h1
  have := (units_le_iff b b').2 h2
  omega

theorem sub_le {a b a' b' : F32} (ha : a.isFinite = true) (hb : b.isFinite = true) (ha' : a'.isFinite = true)
    (hb' : b'.isFinite = true) (h : a.units - b.units ≤ a'.units - b'.units) : (fsub a b).key ≤ (fsub a' b').key := by
  rw [(fsub_finite ha hb).2, (fsub_finite ha' hb').2]
  apply roundUnits_mono (by decide) (by decide)
  omega

theorem ulp_small {M : ℝ} (h : 1 ≤ M) : ulp M ≤ M / 2 := by
  have : ulp M ≤ M / 2 ^ 24 + 1 / 2 ^ 150 := by
    unfold ulp
    first | exact le_rfl | (exact max_le (by linarith [show (0:ℝ) ≤ 1 / 2 ^ 150 by positivity]) (by linarith [show (0:ℝ) ≤ M / 2 ^ 24 by positivity]))
  have h2 : (1 : ℝ) / 2 ^ 150 ≤ 1 / 2 := by norm_num
  have h3 : M / 2 ^ 24 ≤ M / 4 := by
    apply div_le_div_of_nonneg_left (by linarith) (by norm_num) (by norm_num)
  linarith

theorem mul_bd {a b : F32} {A B : ℝ} (ha : a.isFinite = true) (hb : b.isFinite = true) (h1 : |a.val| ≤ A) (h2 : |b.val| ≤ B)
    (h3 : 1 ≤ A * B) (h4 : A * B < 2 ^ 127) : (fmul a b).isFinite = true ∧ |(fmul a b).val| ≤ 2 * (A * B) := by
  have hA : 0 ≤ A := (abs_nonneg _).trans h1
  have h : |a.val * b.val| ≤ A * B := by rw [abs_mul]; exact mul_le_mul h1 h2 (abs_nonneg _) hA
  have r := fmul_approx ha hb h h4
  refine ⟨r.1, r.abs_le.trans ?_⟩
  have := ulp_small h3
  linarith

theorem add_bd {a b : F32} {M : ℝ} (ha : a.isFinite = true) (hb : b.isFinite = true) (h1 : |a.val| ≤ M) (h2 : |b.val| ≤ M)
    (h3 : 1 ≤ M) (h4 : 2 * M < 2 ^ 127) : (fadd a b).isFinite = true ∧ |(fadd a b).val| ≤ 3 * M := by
  have h : |a.val + b.val| ≤ 2 * M := by have := abs_add_le a.val b.val; linarith
  have r := fadd_approx ha hb h h4
  refine ⟨r.1, r.abs_le.trans ?_⟩
  have := ulp_small (M := 2 * M) (by linarith)
  linarith

theorem sub_bd {a b : F32} {M : ℝ} (ha : a.isFinite = true) (hb : b.isFinite = true) (h1 : |a.val| ≤ M) (h2 : |b.val| ≤ M)
    (h3 : 1 ≤ M) (h4 : 2 * M < 2 ^ 127) : (fsub a b).isFinite = true ∧ |(fsub a b).val| ≤ 3 * M := by
  have h : |a.val - b.val| ≤ 2 * M := by have := abs_sub a.val b.val; linarith
  have r := fsub_approx ha hb h h4
  refine ⟨r.1, r.abs_le.trans ?_⟩
  have := ulp_small (M := 2 * M) (by linarith)
  linarith

/-- One axis of a box in range. -/
structure Lane (m : ℝ) (lo hi : F32) : Prop where
  flo : lo.isFinite = true
  fhi : hi.isFinite = true
  blo : |lo.val| ≤ m
  bhi : |hi.val| ≤ m
  ord : lo.key ≤ hi.key

theorem lanes {m : ℝ} {b : Aabb F32} (h : InRange m b) :
    Lane m b.min.x b.max.x ∧ Lane m b.min.y b.max.y ∧ Lane m b.min.z b.max.z := by
  obtain ⟨⟨f, a1, a2, a3⟩, ⟨g, c1, c2, c3⟩, o1, o2, o3⟩ := h
  simp only [AllFinite, List.mem_cons, List.not_mem_nil, or_false, forall_eq_or_imp, forall_eq] at f g
  exact ⟨⟨f.1, g.1, a1, c1, (rv_le_key _ _).1 o1⟩, ⟨f.2.1, g.2.1, a2, c2, (rv_le_key _ _).1 o2⟩,
    ⟨f.2.2, g.2.2, a3, c3, (rv_le_key _ _).1 o3⟩⟩

/-- One axis inside another. -/
def Inside (lo hi lo' hi' : F32) : Prop := lo'.key ≤ lo.key ∧ hi.key ≤ hi'.key

theorem insides {m : ℝ} {a c : Aabb F32} (ha : InRange m a) (h : boxOf a ⊆ boxOf c) :
    Inside a.min.x a.max.x c.min.x c.max.x ∧ Inside a.min.y a.max.y c.min.y c.max.y ∧
      Inside a.min.z a.max.z c.min.z c.max.z := by
  obtain ⟨-, -, o1, o2, o3⟩ := ha
  have l : pt a.min ∈ boxOf c := h ⟨⟨le_rfl, o1⟩, ⟨le_rfl, o2⟩, le_rfl, o3⟩
  have u : pt a.max ∈ boxOf c := h ⟨⟨o1, le_rfl⟩, ⟨o2, le_rfl⟩, o3, le_rfl⟩
  obtain ⟨⟨l1, -⟩, ⟨l2, -⟩, l3, -⟩ := l
  obtain ⟨⟨-, u1⟩, ⟨-, u2⟩, -, u3⟩ := u
  exact ⟨⟨(rv_le_key _ _).1 l1, (rv_le_key _ _).1 u1⟩, ⟨(rv_le_key _ _).1 l2, (rv_le_key _ _).1 u2⟩,
    ⟨(rv_le_key _ _).1 l3, (rv_le_key _ _).1 u3⟩⟩

/-! ## Planes -/

/-- Along one axis, one of the two ends of the larger interval gives at least the product of either end of the smaller. -/
theorem lane_term {m : ℝ} {n lo hi lo' hi' X : F32} (hn : n.isFinite = true) (h : Lane m lo hi) (h' : Lane m lo' hi')
    (hin : Inside lo hi lo' hi') (hX : X = lo ∨ X = hi) :
    ∃ X', (X' = lo' ∨ X' = hi') ∧ (fmul n X).key ≤ (fmul n X').key := by
  have o := (units_le_iff _ _).2 h.ord
  have i1 := (units_le_iff _ _).2 hin.1
  have i2 := (units_le_iff _ _).2 hin.2
  have hX1 : lo'.units ≤ X.units := by rcases hX with rfl | rfl <;> omega
  have hX2 : X.units ≤ hi'.units := by rcases hX with rfl | rfl <;> omega
  have hXf : X.isFinite = true := by rcases hX with rfl | rfl; exacts [h.flo, h.fhi]
  rcases le_total 0 n.units with hp | hp
  · exact ⟨hi', Or.inr rfl, mul_le hn hXf h'.fhi (Int.mul_le_mul_of_nonneg_left hX2 hp)⟩
  · exact ⟨lo', Or.inl rfl, mul_le hn hXf h'.flo (Int.mul_le_mul_of_nonpos_left hp hX1)⟩

/-- All terms and partial sums of the plane distance are finite. -/
theorem distance_bd {pl : Plane F32} (hp : PlaneWithin (2 ^ 60) pl) {X Y Z W : F32} (fX : X.isFinite = true) (fY : Y.isFinite = true)
    (fZ : Z.isFinite = true) (bX : |X.val| ≤ 2 ^ 60) (bY : |Y.val| ≤ 2 ^ 60) (bZ : |Z.val| ≤ 2 ^ 60) :
    ((fmul pl.normDist.x X).isFinite = true ∧ (fmul pl.normDist.y Y).isFinite = true ∧ (fmul pl.normDist.z Z).isFinite = true) ∧
    (fadd (fmul pl.normDist.x X) (fmul pl.normDist.y Y)).isFinite = true ∧ (fadd (fmul pl.normDist.z Z) (ofRat 0)).isFinite = true ∧
    (fadd (fadd (fmul pl.normDist.x X) (fmul pl.normDist.y Y)) (fadd (fmul pl.normDist.z Z) (ofRat 0))).isFinite = true ∧
    (pl.distance ⟨X, Y, Z, W⟩).isFinite = true ∧ pl.distance ⟨X, Y, Z, W⟩ =
      fadd (fadd (fadd (fmul pl.normDist.x X) (fmul pl.normDist.y Y)) (fadd (fmul pl.normDist.z Z) (ofRat 0))) pl.normDist.w := by
  obtain ⟨⟨f, b1, b2, b3⟩, f4, b4⟩ := hp
  simp only [AllFinite, List.mem_cons, List.not_mem_nil, or_false, forall_eq_or_imp, forall_eq] at f
  obtain ⟨f1, f2, f3⟩ := f
  have p1 := mul_bd f1 fX b1 bX (by norm_num) (by norm_num)
  have p2 := mul_bd f2 fY b2 bY (by norm_num) (by norm_num)
  have p3 := mul_bd f3 fZ b3 bZ (by norm_num) (by norm_num)
  have z : |(ofRat 0).val| ≤ 2 * (2 ^ 60 * 2 ^ 60) := by rw [zero_lit.2]; norm_num
  have s1 := add_bd p1.1 p2.1 p1.2 p2.2 (by norm_num) (by norm_num)
  have s2 := add_bd p3.1 zero_lit.1 p3.2 z (by norm_num) (by norm_num)
  have s3 := add_bd s1.1 s2.1 s1.2 s2.2 (by norm_num) (by norm_num)
  have w : |pl.normDist.w.val| ≤ 3 * (3 * (2 * (2 ^ 60 * 2 ^ 60))) := le_trans b4 (by norm_num)
  have s4 := add_bd s3.1 f4 s3.2 w (by norm_num) (by norm_num)
  exact ⟨⟨p1.1, p2.1, p3.1⟩, s1.1, s2.1, s3.1, s4.1, rfl⟩

theorem rejects_iff (pl : Plane F32) (b : Aabb F32) :
    Aabb.planeRejects pl b.corners = true ↔ ∀ v ∈ b.corners, ltb (pl.distance v) (ofRat 0) = true := by
  have := rejects_corners pl b id
  simpa using this

/-- A plane that rejects a box rejects every box inside it. -/
theorem rejects_mono {pl : Plane F32} (hp : PlaneWithin (2 ^ 60) pl) {a c : Aabb F32} (ha : InRange (2 ^ 60) a)
    (hc : InRange (2 ^ 60) c) (h : boxOf a ⊆ boxOf c) (hr : Aabb.planeRejects pl c.corners = true) :
    Aabb.planeRejects pl a.corners = true := by
  rw [rejects_iff, corner_iff] at hr ⊢
  obtain ⟨x, y, z⟩ := lanes ha
  obtain ⟨x', y', z'⟩ := lanes hc
  obtain ⟨ix, iy, iz⟩ := insides ha h
  obtain ⟨⟨f, -⟩, -⟩ := id hp
  simp only [AllFinite, List.mem_cons, List.not_mem_nil, or_false, forall_eq_or_imp, forall_eq] at f
  intro X Y Z hX hY hZ
  obtain ⟨X', hX', kX⟩ := lane_term f.1 x x' ix hX
  obtain ⟨Y', hY', kY⟩ := lane_term f.2.1 y y' iy hY
  obtain ⟨Z', hZ', kZ⟩ := lane_term f.2.2 z z' iz hZ
  have hl := hr X' Y' Z' hX' hY' hZ'
  have pick : ∀ {lo hi W : F32}, Lane (2 ^ 60) lo hi → (W = lo ∨ W = hi) → W.isFinite = true ∧ |W.val| ≤ 2 ^ 60 := by
    rintro lo hi W l (rfl | rfl)
    · exact ⟨l.flo, l.blo⟩
    · exact ⟨l.fhi, l.bhi⟩
  obtain ⟨⟨m1, m2, m3⟩, s1, s2, s3, s4, e⟩ := distance_bd hp (W := ofRat 1) (pick x hX).1 (pick y hY).1 (pick z hZ).1 (pick x hX).2 (pick y hY).2 (pick z hZ).2
  obtain ⟨⟨m1', m2', m3'⟩, s1', s2', s3', s4', e'⟩ := distance_bd hp (W := ofRat 1) (pick x' hX').1 (pick y' hY').1 (pick z' hZ').1 (pick x' hX').2 (pick y' hY').2 (pick z' hZ').2
  have fw := hp.2.1
  rw [e'] at hl
  rw [e]
  rw [ltb_iff] at hl ⊢
  rw [e] at s4
  refine ⟨finite_not_nan s4, hl.2.1, lt_of_le_of_lt ?_ hl.2.2⟩
  exact add_le s3 fw s3' fw (add_le s1 s2 s1' s2' (add_le m1 m2 m1' m2' kX kY) (add_le m3 zero_lit.1 m3' zero_lit.1 kZ le_rfl)) le_rfl

theorem anyRejects_iff (vs : List (V4 F32)) (planes : List (Plane F32)) :
    Aabb.anyRejects vs planes = true ↔ ∃ pl ∈ planes, Aabb.planeRejects pl vs = true := by
  induction planes with
  | nil => simp [Aabb.anyRejects]
  | cons pl rest ih =>
    unfold Aabb.anyRejects
    by_cases h : Aabb.planeRejects pl vs = true
    · simp [h]
    · simp [h, ih]

/-! ## Spheres -/

theorem mmMin_key {a b : F32} (ha : a.isNaN = false) (hb : b.isNaN = false) :
    (Flt.mmMin a b).isNaN = false ∧ (Flt.mmMin a b).key = min a.key b.key := by
  unfold Flt.mmMin
  by_cases h : (a <. b) = true
  · have h' := (ltb_iff.1 h).2.2
    rw [if_pos h]
    exact ⟨ha, by omega⟩
  · rw [if_neg h]
    replace h : ¬ _ := fun k => h (ltb_iff.2 k)
    simp only [ha, hb, true_and, not_lt] at h
    exact ⟨hb, by omega⟩

theorem mmMax_key {a b : F32} (ha : a.isNaN = false) (hb : b.isNaN = false) :
    (Flt.mmMax a b).isNaN = false ∧ (Flt.mmMax a b).key = max a.key b.key := by
  unfold Flt.mmMax
  by_cases h : (b <. a) = true
  · have h' := (ltb_iff.1 h).2.2
    rw [if_pos h]
    exact ⟨ha, by omega⟩
  · rw [if_neg h]
    replace h : ¬ _ := fun k => h (ltb_iff.2 k)
    simp only [ha, hb, true_and, not_lt] at h
    exact ⟨hb, by omega⟩

theorem sub_zero_of {x y : F32} (hx : x.isFinite = true) (hy : y.isFinite = true) (h : x.units = y.units) : (fsub x y).units = 0 := by
  have k : (fsub x y).key = 0 := by
    rw [(fsub_finite hx hy).2, h, sub_self, roundUnits_zero 1 (by decide)]
  have := (units_eq_iff (fsub x y) (zero false)).2 (by rw [k, zero_key])
  rw [this]; decide

/-- Along one axis, the squared distance to the larger interval is at most that to the smaller. -/
theorem lane_sq {p lo hi lo' hi' : F32} (hp : p.isFinite = true) (bp : |p.val| ≤ 2 ^ 60) (h : Lane (2 ^ 60) lo hi)
    (h' : Lane (2 ^ 60) lo' hi') (hin : Inside lo hi lo' hi') :
    let d := fsub p (Flt.mmMax (Flt.mmMin p hi) lo)
    let d' := fsub p (Flt.mmMax (Flt.mmMin p hi') lo')
    ((fmul d d).isFinite = true ∧ |(fmul d d).val| ≤ 18 * 2 ^ 120) ∧ ((fmul d' d').isFinite = true ∧ |(fmul d' d').val| ≤ 18 * 2 ^ 120) ∧
      (fmul d' d').key ≤ (fmul d d).key := by
  have clampf : ∀ {lo hi : F32}, Lane (2 ^ 60) lo hi → (Flt.mmMax (Flt.mmMin p hi) lo).isFinite = true ∧
      |(Flt.mmMax (Flt.mmMin p hi) lo).val| ≤ 2 ^ 60 := by
    intro lo hi l
    have h1 : (Flt.mmMin p hi).isFinite = true ∧ |(Flt.mmMin p hi).val| ≤ 2 ^ 60 := by
      unfold Flt.mmMin; split_ifs
      · exact ⟨hp, bp⟩
      · exact ⟨l.fhi, l.bhi⟩
    unfold Flt.mmMax; split_ifs
    · exact h1
    · exact ⟨l.flo, l.blo⟩
  have clampk : ∀ {lo hi : F32}, Lane (2 ^ 60) lo hi → (Flt.mmMax (Flt.mmMin p hi) lo).key = max (min p.key hi.key) lo.key := by
    intro lo hi l
    obtain ⟨a1, a2⟩ := mmMin_key (finite_not_nan hp) (finite_not_nan l.fhi)
    rw [(mmMax_key a1 (finite_not_nan l.flo)).2, a2]
  have dist : ∀ {c : F32}, c.isFinite = true ∧ |c.val| ≤ 2 ^ 60 → (fsub p c).isFinite = true ∧
      ((fmul (fsub p c) (fsub p c)).isFinite = true ∧ |(fmul (fsub p c) (fsub p c)).val| ≤ 18 * 2 ^ 120) := by
    intro c hc
    have s := sub_bd hp hc.1 bp hc.2 (by norm_num) (by norm_num)
    have q := mul_bd s.1 s.1 s.2 s.2 (by norm_num) (by norm_num)
    exact ⟨s.1, q.1, q.2.trans (by norm_num)⟩
  dsimp only
  have c := clampf h
  have c' := clampf h'
  have k := clampk h
  have k' := clampk h'
  obtain ⟨fd, qd⟩ := dist c
  obtain ⟨fd', qd'⟩ := dist c'
  refine ⟨qd, qd', ?_⟩
  generalize Flt.mmMax (Flt.mmMin p hi) lo = u at *
  generalize Flt.mmMax (Flt.mmMin p hi') lo' = v at *
  have o := h.ord
  have o' := h'.ord
  obtain ⟨i1, i2⟩ := hin
  apply mul_le' fd' fd' fd fd
  have zz : ∀ {x : F32}, 0 ≤ x.key → 0 ≤ x.units := by
    intro x hx
    have := (units_le_iff (zero false) x).2 (by rw [zero_key]; exact hx)
    have hz : (zero false).units = 0 := by decide
    omega
  have zz' : ∀ {x : F32}, x.key ≤ 0 → x.units ≤ 0 := by
    intro x hx
    have := (units_le_iff x (zero false)).2 (by rw [zero_key]; exact hx)
    have hz : (zero false).units = 0 := by decide
    omega
  rcases le_total v.key p.key with hv | hv
  · -- p is above the larger interval, or in it
    have vu : v.units ≤ p.units := (units_le_iff _ _).2 hv
    have uv : u.key ≤ v.key ∨ v.key = p.key := by omega
    rcases uv with uv | uv
    · have uu : u.units ≤ v.units := (units_le_iff _ _).2 uv
      have s1 : (fsub p v).key ≤ (fsub p u).key := sub_le hp c'.1 hp c.1 (by omega)
      have s0 : 0 ≤ (fsub p v).key := by
        have := sub_le hp hp hp c'.1 (a' := p) (b' := v) (by omega)
        rw [(fsub_finite hp hp).2, sub_self, roundUnits_zero 1 (by decide)] at this
        exact this
      have t1 := (units_le_iff _ _).2 s1
      have t0 := zz s0
      exact Int.mul_le_mul t1 t1 t0 (t0.trans t1)
    · have : (fsub p v).units = 0 := sub_zero_of hp c'.1 (by rw [units_eq_iff]; exact uv.symm)
      rw [this]; simpa using mul_self_nonneg (fsub p u).units
  · have vu : p.units ≤ v.units := (units_le_iff _ _).2 hv
    have uv : v.key ≤ u.key ∨ v.key = p.key := by omega
    rcases uv with uv | uv
    · have uu : v.units ≤ u.units := (units_le_iff _ _).2 uv
      have s1 : (fsub p u).key ≤ (fsub p v).key := sub_le hp c.1 hp c'.1 (by omega)
      have s0 : (fsub p v).key ≤ 0 := by
        have := sub_le hp c'.1 hp hp (a' := p) (b' := p) (by omega)
        rw [(fsub_finite hp hp).2, sub_self, roundUnits_zero 1 (by decide)] at this
        exact this
      have t1 := (units_le_iff _ _).2 s1
      have t0 := zz' s0
      nlinarith
    · have : (fsub p v).units = 0 := sub_zero_of hp c'.1 (by rw [units_eq_iff]; exact uv.symm)
      rw [this]; simpa using mul_self_nonneg (fsub p u).units

/-! ## Rays -/

/-- Comparable, and in order. -/
def Le (a b : F32) : Prop := a.isNaN = false ∧ b.isNaN = false ∧ a.key ≤ b.key

theorem Le.refl {a : F32} (h : a.isNaN = false) : Le a a := ⟨h, h, le_rfl⟩

theorem Le.mmMin {a b a' b' : F32} (h : Le a a') (g : Le b b') : Le (Flt.mmMin a b) (Flt.mmMin a' b') := by
  obtain ⟨a1, a2, a3⟩ := h
  obtain ⟨b1, b2, b3⟩ := g
  obtain ⟨k1, k2⟩ := mmMin_key a1 b1
  obtain ⟨k3, k4⟩ := mmMin_key a2 b2
  exact ⟨k1, k3, by omega⟩

theorem Le.mmMax {a b a' b' : F32} (h : Le a a') (g : Le b b') : Le (Flt.mmMax a b) (Flt.mmMax a' b') := by
  obtain ⟨a1, a2, a3⟩ := h
  obtain ⟨b1, b2, b3⟩ := g
  obtain ⟨k1, k2⟩ := mmMax_key a1 b1
  obtain ⟨k3, k4⟩ := mmMax_key a2 b2
  exact ⟨k1, k3, by omega⟩

theorem Le.ite {a b a' b' : F32} {c : Bool} (h : Le a a') (g : Le b b') : Le (if c then a else b) (if c then a' else b') := by
  cases c <;> simpa

/-- Along one axis the larger box is entered no later and left no earlier. -/
theorem lane_slab {o d lo hi lo' hi' : F32} (ho : o.isFinite = true) (bo : |o.val| ≤ 2 ^ 60) (hd : d.isFinite = true)
    (h : Lane (2 ^ 60) lo hi) (h' : Lane (2 ^ 60) lo' hi') (hin : Inside lo hi lo' hi') :
    Le (Flt.mmMin (fmul (fsub lo' o) d) (fmul (fsub hi' o) d)) (Flt.mmMin (fmul (fsub lo o) d) (fmul (fsub hi o) d)) ∧
    Le (Flt.mmMax (fmul (fsub lo o) d) (fmul (fsub hi o) d)) (Flt.mmMax (fmul (fsub lo' o) d) (fmul (fsub hi' o) d)) := by
  have fin : ∀ {x : F32}, x.isFinite = true → |x.val| ≤ 2 ^ 60 → (fsub x o).isFinite = true := fun hx bx =>
    (sub_bd hx ho bx bo (by norm_num) (by norm_num)).1
  have f1 := fin h.flo h.blo
  have f2 := fin h.fhi h.bhi
  have f3 := fin h'.flo h'.blo
  have f4 := fin h'.fhi h'.bhi
  have s : ∀ {x y : F32}, x.isFinite = true → y.isFinite = true → x.key ≤ y.key → (fsub x o).units ≤ (fsub y o).units := by
    intro x y hx hy hxy
    rw [units_le_iff]
    exact sub_le hx ho hy ho (by have := (units_le_iff _ _).2 hxy; omega)
  have u1 := s h'.flo h.flo hin.1
  have u2 := s h.flo h.fhi h.ord
  have u3 := s h.fhi h'.fhi hin.2
  have n1 := (fmul_finite f1 hd).1
  have n2 := (fmul_finite f2 hd).1
  have n3 := (fmul_finite f3 hd).1
  have n4 := (fmul_finite f4 hd).1
  obtain ⟨a1, a2⟩ := mmMin_key n3 n4
  obtain ⟨a3, a4⟩ := mmMin_key n1 n2
  obtain ⟨a5, a6⟩ := mmMax_key n3 n4
  obtain ⟨a7, a8⟩ := mmMax_key n1 n2
  rcases le_total 0 d.units with hp | hp
  · have k : ∀ {x y : F32}, x.isFinite = true → y.isFinite = true → x.units ≤ y.units → (fmul x d).key ≤ (fmul y d).key :=
      fun hx hy hxy => mul_le' hx hd hy hd (Int.mul_le_mul_of_nonneg_right hxy hp)
    have := k f3 f1 u1
    have := k f1 f2 u2
    have := k f2 f4 u3
    exact ⟨⟨a1, a3, by omega⟩, ⟨a7, a5, by omega⟩⟩
  · have k : ∀ {x y : F32}, x.isFinite = true → y.isFinite = true → x.units ≤ y.units → (fmul y d).key ≤ (fmul x d).key :=
      fun hx hy hxy => mul_le' hy hd hx hd (Int.mul_le_mul_of_nonpos_right hxy hp)
    have := k f3 f1 u1
    have := k f1 f2 u2
    have := k f2 f4 u3
    exact ⟨⟨a1, a3, by omega⟩, ⟨a7, a5, by omega⟩⟩

theorem Le.lt_trans {a b c d : F32} (h : Le a b) (g : Le c d) (e : ltb b c = true) : ltb a d = true := by
  rw [ltb_iff] at e ⊢
  obtain ⟨h1, h2, h3⟩ := h
  obtain ⟨g1, g2, g3⟩ := g
  exact ⟨h1, g2, by omega⟩

theorem Le.le_trans {a b c d : F32} (h : Le a b) (g : Le c d) (e : leb b c = true) : leb a d = true := by
  rw [leb_iff] at e ⊢
  obtain ⟨h1, h2, h3⟩ := h
  obtain ⟨g1, g2, g3⟩ := g
  exact ⟨h1, g2, by omega⟩

end Verif.BoxTest
