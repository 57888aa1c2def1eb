import Verif.Model.SatTargets
import Verif.Props.TriangleBoxF32

/-! # C119: the triangle-box test in binary32 on every backend -/

namespace Verif
open F32 Spec

namespace SatF32

theorem key_mag {a b : F32} (h : a.key = b.key) : a.mag = b.mag := by
  unfold key at h
  split at h <;> split at h <;> omega

theorem key_nan {a b : F32} (h : a.key = b.key) : a.isNaN = b.isNaN := by unfold isNaN; rw [key_mag h]

theorem ltb_key {a a' b b' : F32} (h : a.key = a'.key) (h' : b.key = b'.key) : ltb a b = ltb a' b' := by
  unfold ltb; rw [key_nan h, key_nan h', h, h']

theorem leb_key {a a' b b' : F32} (h : a.key = a'.key) (h' : b.key = b'.key) : leb a b = leb a' b' := by
  unfold leb; rw [key_nan h, key_nan h', h, h']

theorem key_units {a b : F32} (h : a.key = b.key) : a.units = b.units := by
  have := key_toRat h
  unfold toRat at this
  rw [div_left_inj' (by norm_num)] at this
  exact_mod_cast this

theorem val_key {a b : F32} (h : a.val = b.val) : a.key = b.key := by
  have h' : a.toRat = b.toRat := by unfold val at h; exact_mod_cast h
  exact (toRat_eq_iff a b).1 h'

theorem fadd_key {a a' b b' : F32} (ha : a.isFinite = true) (hb : b.isFinite = true) (h : a.key = a'.key) (h' : b.key = b'.key) :
    (fadd a b).key = (fadd a' b').key := by
  have ha' : a'.isFinite = true := by rw [← key_isFinite h]; exact ha
  have hb' : b'.isFinite = true := by rw [← key_isFinite h']; exact hb
  rw [(fadd_finite ha hb).2, (fadd_finite ha' hb').2, key_units h, key_units h']

theorem fabs_key {a b : F32} (h : a.key = b.key) : (fabs a).key = (fabs b).key := by
  unfold key
  rw [(fabs_parts a).1, (fabs_parts a).2, (fabs_parts b).1, (fabs_parts b).2, key_mag h]

theorem ltb_lt {a b : F32} (ha : a.isNaN = false) (hb : b.isNaN = false) : ltb a b = decide (a.key < b.key) := by
  unfold ltb; rw [ha, hb]; simp

/-- The smaller lane, up to the sign of a zero. -/
theorem min_key (k : Backend) {a b : F32} (ha : a.isFinite = true) (hb : b.isFinite = true) :
    (k.minF a b).isFinite = true ∧ (k.minF a b).key = min a.key b.key := by
  have na := finite_not_nan ha
  have nb := finite_not_nan hb
  have e : (k.minF a b).key = min a.key b.key := by
    cases k <;> simp only [Backend.minF, Flt.mmMin, Flt.stdMin, na, nb, Bool.or_self, Bool.false_eq_true, if_false]
    · change (if ltb a b = true then a else b).key = _
      rw [ltb_lt na nb]; split <;> rename_i h <;> simp only [decide_eq_true_eq] at h <;> omega
    · change (if ltb a b = true then a else b).key = _
      rw [ltb_lt na nb]; split <;> rename_i h <;> simp only [decide_eq_true_eq] at h <;> omega
    · rw [ltb_lt na nb, ltb_lt nb na]
      simp only [decide_eq_true_eq]
      split_ifs <;> omega
    · change (if ltb b a = true then b else a).key = _
      rw [ltb_lt nb na]; split <;> rename_i h <;> simp only [decide_eq_true_eq] at h <;> omega
  refine ⟨?_, e⟩
  rcases min_choice a.key b.key with h | h
  · rw [key_isFinite (e.trans h)]; exact ha
  · rw [key_isFinite (e.trans h)]; exact hb

/-- The larger lane, up to the sign of a zero. -/
theorem max_key (k : Backend) {a b : F32} (ha : a.isFinite = true) (hb : b.isFinite = true) :
    (k.maxF a b).isFinite = true ∧ (k.maxF a b).key = max a.key b.key := by
  have na := finite_not_nan ha
  have nb := finite_not_nan hb
  have e : (k.maxF a b).key = max a.key b.key := by
    cases k <;> simp only [Backend.maxF, Flt.mmMax, Flt.stdMax, na, nb, Bool.or_self, Bool.false_eq_true, if_false]
    · change (if ltb b a = true then a else b).key = _
      rw [ltb_lt nb na]; split <;> rename_i h <;> simp only [decide_eq_true_eq] at h <;> omega
    · change (if ltb b a = true then a else b).key = _
      rw [ltb_lt nb na]; split <;> rename_i h <;> simp only [decide_eq_true_eq] at h <;> omega
    · rw [ltb_lt na nb, ltb_lt nb na]
      simp only [decide_eq_true_eq]
      split_ifs <;> omega
    · change (if ltb a b = true then b else a).key = _
      rw [ltb_lt na nb]; split <;> rename_i h <;> simp only [decide_eq_true_eq] at h <;> omega
  refine ⟨?_, e⟩
  rcases max_choice a.key b.key with h | h
  · rw [key_isFinite (e.trans h)]; exact ha
  · rw [key_isFinite (e.trans h)]; exact hb

theorem min3_key (k : Backend) {v : V4 F32} (hx : v.x.isFinite = true) (hy : v.y.isFinite = true) (hz : v.z.isFinite = true) :
    (k.min3F v).isFinite = true ∧ (k.min3F v).key = min (min v.x.key v.y.key) v.z.key := by
  obtain ⟨f1, e1⟩ := min_key k hx hy
  obtain ⟨f2, e2⟩ := min_key k hz hz
  obtain ⟨f3, e3⟩ := min_key k f1 f2
  refine ⟨f3, ?_⟩
  change (k.minF (k.minF v.x v.y) (k.minF v.z v.z)).key = _
  rw [e3, e1, e2, min_self]

theorem max3_key (k : Backend) {v : V4 F32} (hx : v.x.isFinite = true) (hy : v.y.isFinite = true) (hz : v.z.isFinite = true) :
    (k.max3F v).isFinite = true ∧ (k.max3F v).key = max (max v.x.key v.y.key) v.z.key := by
  obtain ⟨f1, e1⟩ := max_key k hx hy
  obtain ⟨f2, e2⟩ := max_key k hz hz
  obtain ⟨f3, e3⟩ := max_key k f1 f2
  refine ⟨f3, ?_⟩
  change (k.maxF (k.maxF v.x v.y) (k.maxF v.z v.z)).key = _
  rw [e3, e1, e2, max_self]

theorem mul_bd {a b : F32} {A B : ℝ} (ha : a.isFinite = true ∧ |a.val| ≤ A) (hb : b.isFinite = true ∧ |b.val| ≤ B)
    (h : A * B ≤ 2 ^ 125) : (fmul a b).isFinite = true ∧ |(fmul a b).val| ≤ 2 * (A * B) + 1 := by
  have hA := (abs_nonneg _).trans ha.2
  have m : |a.val * b.val| ≤ A * B := by rw [abs_mul]; exact mul_le_mul ha.2 hb.2 (abs_nonneg _) hA
  obtain ⟨f, e⟩ := fmul_rel ha.1 hb.1 (lt_of_le_of_lt (m.trans h) (by norm_num))
  refine ⟨f, ?_⟩
  have := abs_add_le ((fmul a b).val - a.val * b.val) (a.val * b.val)
  rw [sub_add_cancel] at this
  have u : uro * |a.val * b.val| ≤ A * B := by
    have := mul_le_mul (by unfold uro; norm_num : uro ≤ 1) m (abs_nonneg _) (by norm_num)
    linarith
  have : (1 : ℝ) / 2 ^ 150 ≤ 1 := by norm_num
  linarith

theorem add_bd {a b : F32} {A B : ℝ} (ha : a.isFinite = true ∧ |a.val| ≤ A) (hb : b.isFinite = true ∧ |b.val| ≤ B)
    (h : A + B ≤ 2 ^ 126) : (fadd a b).isFinite = true ∧ |(fadd a b).val| ≤ 2 * (A + B) := by
  have m : |a.val + b.val| ≤ A + B := (abs_add_le _ _).trans (add_le_add ha.2 hb.2)
  obtain ⟨f, e⟩ := fadd_err' ha.1 hb.1 (lt_of_le_of_lt (m.trans h) (by norm_num))
  refine ⟨f, ?_⟩
  have := abs_add_le ((fadd a b).val - (a.val + b.val)) (a.val + b.val)
  rw [sub_add_cancel] at this
  have u : uro * |a.val + b.val| ≤ A + B := by
    have := mul_le_mul (by unfold uro; norm_num : uro ≤ 1) m (abs_nonneg _) (by norm_num)
    linarith
  linarith

theorem sub_bd {a b : F32} {A B : ℝ} (ha : a.isFinite = true ∧ |a.val| ≤ A) (hb : b.isFinite = true ∧ |b.val| ≤ B)
    (h : A + B ≤ 2 ^ 126) : (fsub a b).isFinite = true ∧ |(fsub a b).val| ≤ 2 * (A + B) := by
  have m : |a.val - b.val| ≤ A + B := (abs_sub _ _).trans (add_le_add ha.2 hb.2)
  obtain ⟨f, e⟩ := fsub_err' ha.1 hb.1 (lt_of_le_of_lt (m.trans h) (by norm_num))
  refine ⟨f, ?_⟩
  have := abs_add_le ((fsub a b).val - (a.val - b.val)) (a.val - b.val)
  rw [sub_add_cancel] at this
  have u : uro * |a.val - b.val| ≤ A + B := by
    have := mul_le_mul (by unfold uro; norm_num : uro ≤ 1) m (abs_nonneg _) (by norm_num)
    linarith
  linarith

/-- The dot products of the backends differ at most in the sign of a zero. -/
theorem dot_key (k : Backend) {c a : V4 F32} (hc : Small (2 ^ 60) c) (ha : Small (2 ^ 20) a) :
    (k.dot3 c a).isFinite = true ∧ (k.dot3 c a).key = (Simd.dot3 c a).key := by
  obtain ⟨p1, q1⟩ := mul_bd hc.1 ha.1 (by norm_num)
  obtain ⟨p2, q2⟩ := mul_bd hc.2.1 ha.2.1 (by norm_num)
  obtain ⟨p3, q3⟩ := mul_bd hc.2.2 ha.2.2 (by norm_num)
  obtain ⟨p4, q4⟩ := add_bd ⟨p1, q1⟩ ⟨p2, q2⟩ (by norm_num)
  obtain ⟨p5, -⟩ := add_bd ⟨p4, q4⟩ ⟨p3, q3⟩ (by norm_num)
  have z : (fadd (fmul c.z a.z) (ofRat 0)).key = (fmul c.z a.z).key := by
    have := fadd_exact p3 lit0.1 p3 (by rw [lit0.2, add_zero])
    apply val_key
    rw [this.eq, lit0.2, add_zero]
  have s : (fadd (fadd (fmul c.x a.x) (fmul c.y a.y)) (fmul c.z a.z)).key = (Simd.dot3 c a).key := by
    rw [dot3_eq]; exact fadd_key p4 p3 rfl z.symm
  have f : (Simd.dot3 c a).isFinite = true := by rw [← key_isFinite s]; exact p5
  cases k
  · exact ⟨p5, s⟩
  · exact ⟨f, rfl⟩
  · exact ⟨f, rfl⟩
  · exact ⟨p5, s⟩

theorem cross_on (k : Backend) (a b : V4 F32) : (k.cross3 a b).x = (Simd.cross3 a b).x ∧ (k.cross3 a b).y = (Simd.cross3 a b).y ∧
    (k.cross3 a b).z = (Simd.cross3 a b).z := by
  cases k
  · exact ⟨rfl, rfl, rfl⟩
  · exact ⟨rfl, rfl, rfl⟩
  · exact ⟨rfl, rfl, rfl⟩
  · refine ⟨?_, ?_, ?_⟩
    · change fsub (fmul a.y b.z) (fmul a.z b.y) = fsub (fmul b.z a.y) (fmul a.z b.y); rw [fmul_comm a.y]
    · change fsub (fmul a.z b.x) (fmul a.x b.z) = fsub (fmul b.x a.z) (fmul a.x b.z); rw [fmul_comm a.z]
    · change fsub (fmul a.x b.y) (fmul a.y b.x) = fsub (fmul b.y a.x) (fmul a.y b.x); rw [fmul_comm a.x]

theorem cross_small {a b : V4 F32} (ha : Small (2 ^ 20) a) (hb : Small (2 ^ 20) b) : Small (2 ^ 60) (Simd.cross3 a b) := by
  have comp : ∀ p q r s : F32, (p.isFinite = true ∧ |p.val| ≤ 2 ^ 20) → (q.isFinite = true ∧ |q.val| ≤ 2 ^ 20) →
      (r.isFinite = true ∧ |r.val| ≤ 2 ^ 20) → (s.isFinite = true ∧ |s.val| ≤ 2 ^ 20) →
      (fsub (fmul p q) (fmul r s)).isFinite = true ∧ |(fsub (fmul p q) (fmul r s)).val| ≤ 2 ^ 60 := by
    intro p q r s hp hq hr hs
    obtain ⟨f, e⟩ := sub_bd (mul_bd hp hq (by norm_num)) (mul_bd hr hs (by norm_num)) (by norm_num)
    exact ⟨f, e.trans (by norm_num)⟩
  exact ⟨comp _ _ _ _ hb.2.2 ha.2.1 ha.2.2 hb.2.1, comp _ _ _ _ hb.1 ha.2.2 ha.1 hb.2.2, comp _ _ _ _ hb.2.1 ha.1 ha.2.1 hb.1⟩

theorem simd_min3 (v : V4 F32) : Simd.min3 v = Backend.min3F .sse41 v := rfl
theorem simd_max3 (v : V4 F32) : Simd.max3 v = Backend.max3F .sse41 v := rfl

theorem wide {v : V4 F32} (h : Small (2 ^ 20) v) : Small (2 ^ 60) v :=
  ⟨⟨h.1.1, h.1.2.trans (by norm_num)⟩, ⟨h.2.1.1, h.2.1.2.trans (by norm_num)⟩, h.2.2.1, h.2.2.2.trans (by norm_num)⟩

theorem axis_on (k : Backend) {c0 c1 c2 a : V4 F32} (h0 : Small (2 ^ 20) c0) (h1 : Small (2 ^ 20) c1) (h2 : Small (2 ^ 20) c2)
    (ha : Small (2 ^ 20) a) (r : F32) : Sat.axisSepOn k c0 c1 c2 a r = Sat.axisSep c0 c1 c2 a r := by
  have run : ∀ j : Backend, ∃ x : F32, Sat.axisSepOn j c0 c1 c2 a r = ltb r x ∧
      x.key = max (-(max (max (Simd.dot3 c0 a).key (Simd.dot3 c1 a).key) (Simd.dot3 c2 a).key))
        (min (min (Simd.dot3 c0 a).key (Simd.dot3 c1 a).key) (Simd.dot3 c2 a).key) := by
    intro j
    obtain ⟨f0, e0⟩ := dot_key j (wide h0) ha
    obtain ⟨f1, e1⟩ := dot_key j (wide h1) ha
    obtain ⟨f2, e2⟩ := dot_key j (wide h2) ha
    obtain ⟨fm, em⟩ := min3_key j (v := V4.ofV3 ⟨j.dot3 c0 a, j.dot3 c1 a, j.dot3 c2 a⟩) f0 f1 f2
    obtain ⟨fM, eM⟩ := max3_key j (v := V4.ofV3 ⟨j.dot3 c0 a, j.dot3 c1 a, j.dot3 c2 a⟩) f0 f1 f2
    have fM' : (fneg (j.max3F (V4.ofV3 ⟨j.dot3 c0 a, j.dot3 c1 a, j.dot3 c2 a⟩))).isFinite = true := by rw [fneg_finite]; exact fM
    obtain ⟨-, e⟩ := max_key .scalar fM' fm
    refine ⟨_, rfl, e.trans ?_⟩
    rw [fneg_key, eM, em]
    change max (-(max (max (j.dot3 c0 a).key (j.dot3 c1 a).key) (j.dot3 c2 a).key)) (min (min (j.dot3 c0 a).key (j.dot3 c1 a).key) (j.dot3 c2 a).key) = _
    rw [e0, e1, e2]
  obtain ⟨x, hx, ex⟩ := run k
  obtain ⟨y, hy, ey⟩ := run .sse41
  rw [hx, show Sat.axisSep c0 c1 c2 a r = Sat.axisSepOn .sse41 c0 c1 c2 a r from rfl, hy]
  exact ltb_key rfl (ex.trans ey.symm)

theorem rows_any {F : Type} [Flt F] (a b c d : V4 F) :
    ((Simd.transpose3x3 ⟨a, b, c, d⟩).c0.xyz = ⟨a.x, b.x, c.x⟩ ∧ (Simd.transpose3x3 ⟨a, b, c, d⟩).c1.xyz = ⟨a.y, b.y, c.y⟩ ∧
      (Simd.transpose3x3 ⟨a, b, c, d⟩).c2.xyz = ⟨a.z, b.z, c.z⟩) ∧
    ((Simd.transpose3x3Neon ⟨a, b, c, d⟩).c0.xyz = ⟨a.x, b.x, c.x⟩ ∧ (Simd.transpose3x3Neon ⟨a, b, c, d⟩).c1.xyz = ⟨a.y, b.y, c.y⟩ ∧
      (Simd.transpose3x3Neon ⟨a, b, c, d⟩).c2.xyz = ⟨a.z, b.z, c.z⟩) ∧
    ((Simd.transpose3x3Plain ⟨a, b, c, d⟩).c0.xyz = ⟨a.x, b.x, c.x⟩ ∧ (Simd.transpose3x3Plain ⟨a, b, c, d⟩).c1.xyz = ⟨a.y, b.y, c.y⟩ ∧
      (Simd.transpose3x3Plain ⟨a, b, c, d⟩).c2.xyz = ⟨a.z, b.z, c.z⟩) :=
  ⟨⟨rfl, rfl, rfl⟩, ⟨rfl, rfl, rfl⟩, rfl, rfl, rfl⟩

theorem rows_on (k : Backend) (a b c d : V4 F32) :
    ((k.transpose3x3F ⟨a, b, c, d⟩).c0.xyz = ⟨a.x, b.x, c.x⟩) ∧ ((k.transpose3x3F ⟨a, b, c, d⟩).c1.xyz = ⟨a.y, b.y, c.y⟩) ∧
    ((k.transpose3x3F ⟨a, b, c, d⟩).c2.xyz = ⟨a.z, b.z, c.z⟩) := by
  obtain ⟨h1, h2, h3⟩ := rows_any a b c d
  cases k
  exacts [h1, h1, h2, h3]

theorem lane_on (k : Backend) {v w : V4 F32} (h : v.xyz = w.xyz) (hx : w.x.isFinite = true) (hy : w.y.isFinite = true)
    (hz : w.z.isFinite = true) (e : F32) : (k.max3F v <. -. e) = (Simd.max3 w <. -. e) ∧ gt (k.min3F v) e = gt (Simd.min3 w) e := by
  obtain ⟨v1, v2, v3, v4⟩ := v
  obtain ⟨w1, w2, w3, w4⟩ := w
  simp only [V4.xyz, V3.mk.injEq] at h
  obtain ⟨rfl, rfl, rfl⟩ := h
  have m1 := (max3_key k (v := ⟨v1, v2, v3, v4⟩) hx hy hz).2
  have m2 := (max3_key .sse41 (v := ⟨v1, v2, v3, w4⟩) hx hy hz).2
  have n1 := (min3_key k (v := ⟨v1, v2, v3, v4⟩) hx hy hz).2
  have n2 := (min3_key .sse41 (v := ⟨v1, v2, v3, w4⟩) hx hy hz).2
  rw [simd_max3, simd_min3]
  exact ⟨ltb_key (m1.trans m2.symm) rfl, ltb_key rfl (n1.trans n2.symm)⟩

theorem three {x y z : F32} (hx : x.isFinite = true ∧ |x.val| ≤ 2 ^ 20) (hy : y.isFinite = true ∧ |y.val| ≤ 2 ^ 20)
    (hz : z.isFinite = true ∧ |z.val| ≤ 2 ^ 20) : Small (2 ^ 20) (V4.ofV3 ⟨x, y, z⟩) := ⟨hx, hy, hz⟩

theorem neg_lane {x : F32} (h : x.isFinite = true ∧ |x.val| ≤ 2 ^ 20) : (fneg x).isFinite = true ∧ |(fneg x).val| ≤ 2 ^ 20 := by
  rw [fneg_finite, neg_val, abs_neg]; exact h

theorem lit_lane : (ofRat 0).isFinite = true ∧ |(ofRat 0).val| ≤ 2 ^ 20 := ⟨lit0.1, by rw [lit0.2]; norm_num⟩

end SatF32
open SatF32

/-- C119: for coordinates of at most 2^18 the test gives the same answer on every backend, although the backends differ in the
order of the additions, in the smaller of two zeros and in the unused lanes. -/
theorem sat_targets_agree (k : Backend) (L : ℝ) (position extent : V4 F32) (t : Triangle F32) (h : SatOk L position extent t) :
    Sat.testOn k position extent t = Sat.test position extent t := by
  obtain ⟨hpos, hext, hp0, hp1, hp2, -⟩ := satOk_lanes h
  obtain ⟨-, -, hL, hL2, -, -⟩ := h
  have cut : ∀ v : V4 F32, SatF32.Small (2.001 * L) v → SatF32.Small (2 ^ 20) v := by
    intro v hv
    have : 2.001 * L ≤ 2 ^ 20 := by norm_num at hL2 ⊢; linarith
    exact ⟨⟨hv.1.1, hv.1.2.trans this⟩, ⟨hv.2.1.1, hv.2.1.2.trans this⟩, hv.2.2.1, hv.2.2.2.trans this⟩
  have s0 := cut _ (small_sub hL2 hp0 hpos)
  have s1 := cut _ (small_sub hL2 hp1 hpos)
  have s2 := cut _ (small_sub hL2 hp2 hpos)
  have a0 : SatF32.Small (2 ^ 20) _ := (edge_ok hL2 hp0 hp1 hpos).1
  have a1 : SatF32.Small (2 ^ 20) _ := (edge_ok hL2 hp1 hp2 hpos).1
  have a2 : SatF32.Small (2 ^ 20) _ := (edge_ok hL2 hp2 hp0 hpos).1
  unfold Sat.testOn Sat.test
  dsimp only
  generalize V4.sub t.p0 position = c0 at *
  generalize V4.sub t.p1 position = c1 at *
  generalize V4.sub t.p2 position = c2 at *
  generalize V4.sub c1 c0 = f0 at *
  generalize V4.sub c2 c1 = f1 at *
  generalize V4.sub c0 c2 = f2 at *
  have ax := fun a ha r => axis_on k (a := a) s0 s1 s2 ha r
  have X : ∀ f : V4 F32, SatF32.Small (2 ^ 20) f → ∀ r, Sat.axisSepOn k c0 c1 c2 (V4.ofV3 ⟨Flt.lit 0, -. f.z, f.y⟩) r =
      Sat.axisSep c0 c1 c2 (V4.ofV3 ⟨Flt.lit 0, -. f.z, f.y⟩) r := fun f hf r => ax _ (three lit_lane (neg_lane hf.2.2) hf.2.1) r
  have Y : ∀ f : V4 F32, SatF32.Small (2 ^ 20) f → ∀ r, Sat.axisSepOn k c0 c1 c2 (V4.ofV3 ⟨f.z, Flt.lit 0, -. f.x⟩) r =
      Sat.axisSep c0 c1 c2 (V4.ofV3 ⟨f.z, Flt.lit 0, -. f.x⟩) r := fun f hf r => ax _ (three hf.2.2 lit_lane (neg_lane hf.1)) r
  have Z : ∀ f : V4 F32, SatF32.Small (2 ^ 20) f → ∀ r, Sat.axisSepOn k c0 c1 c2 (V4.ofV3 ⟨-. f.y, f.x, Flt.lit 0⟩) r =
      Sat.axisSep c0 c1 c2 (V4.ofV3 ⟨-. f.y, f.x, Flt.lit 0⟩) r := fun f hf r => ax _ (three (neg_lane hf.2.1) hf.1 lit_lane) r
  obtain ⟨r0, r1, r2⟩ := rows_on k c0 c1 c2 (V4.splat (Flt.lit 0))
  obtain ⟨m0, m1, m2⟩ := transpose_rows c0 c1 c2 (V4.splat (Flt.lit 0))
  obtain ⟨⟨q0, q1, q2⟩, -⟩ := rows_any c0 c1 c2 (V4.splat (Flt.lit 0 : F32))
  have l0 := lane_on k (w := (Simd.transpose3x3 ⟨c0, c1, c2, V4.splat (Flt.lit 0)⟩).c0) (r0.trans q0.symm) (by rw [m0]; exact s0.1.1) (by rw [m0]; exact s1.1.1) (by rw [m0]; exact s2.1.1) extent.x
  have l1 := lane_on k (w := (Simd.transpose3x3 ⟨c0, c1, c2, V4.splat (Flt.lit 0)⟩).c1) (r1.trans q1.symm) (by rw [m1]; exact s0.2.1.1) (by rw [m1]; exact s1.2.1.1) (by rw [m1]; exact s2.2.1.1) extent.y
  have l2 := lane_on k (w := (Simd.transpose3x3 ⟨c0, c1, c2, V4.splat (Flt.lit 0)⟩).c2) (r2.trans q2.symm) (by rw [m2]; exact s0.2.2.1) (by rw [m2]; exact s1.2.2.1) (by rw [m2]; exact s2.2.2.1) extent.z
  obtain ⟨n1, n2, n3⟩ := cross_on k f0 f1
  have hn : SatF32.Small (2 ^ 60) (k.cross3 f0 f1) := by
    have := cross_small a0 a1
    unfold SatF32.Small
    rw [n1, n2, n3]
    exact this
  have D : (k.dot3 (k.cross3 f0 f1) c0).key = (Simd.dot3 (Simd.cross3 f0 f1) c0).key := by
    rw [(dot_key k hn s0).2, dot3_eq, dot3_eq, n1, n2, n3]
  have E : ∀ r : F32, (Flt.abs (k.dot3 (k.cross3 f0 f1) c0) <=. r) = (Flt.abs (Simd.dot3 (Simd.cross3 f0 f1) c0) <=. r) :=
    fun r => leb_key (fabs_key D) rfl
  simp only [X f0 a0, X f1 a1, X f2 a2, Y f0 a0, Y f1 a1, Y f2 a2, Z f0 a0, Z f1 a1, Z f2 a2, l0.1, l0.2, l1.1, l1.2, l2.1, l2.2,
    n1, n2, n3, E]

/-- C119: on every backend, a triangle that reaches into the box by more than the margin is found. -/
theorem sat_finds_targets (k : Backend) (L : ℝ) (position extent : V4 F32) (t : Triangle F32) (h : SatOk L position extent t)
    (hm : (boxAround (pos position) (pos extent) (-satMargin L t) ∩ Tri (pos t.p0) (pos t.p1) (pos t.p2)).Nonempty) :
    Sat.testOn k position extent t = true := by
  rw [sat_targets_agree k L _ _ _ h]; exact sat_finds L _ _ _ h hm

/-- C119: on every backend, the test answers true only for a triangle that comes within the margin of the box. -/
theorem sat_near_targets (k : Backend) (L : ℝ) (position extent : V4 F32) (t : Triangle F32) (h : SatOk L position extent t)
    (ht : Sat.testOn k position extent t = true) :
    (boxAround (pos position) (pos extent) (satMargin L t) ∩ Tri (pos t.p0) (pos t.p1) (pos t.p2)).Nonempty := by
  rw [sat_targets_agree k L _ _ _ h] at ht; exact sat_near L _ _ _ h ht

/-- C119: on every backend the hypothesis on the thickness is needed: a thin triangle through the center of the box is missed. -/
theorem sat_misses_sliver_targets (k : Backend) : Sat.testOn k (at3 0 0 0) (at3 8 8 8) sliver = false ∧
    pos (at3 0 0 0) ∈ boxAround (pos (at3 0 0 0)) (pos (at3 8 8 8)) (-7) ∧
    pos (at3 0 0 0) ∈ Tri (pos sliver.p0) (pos sliver.p1) (pos sliver.p2) :=
  ⟨by cases k <;> decide +kernel, sat_misses_sliver.2⟩

/-- Non-vacuity, with the hypotheses shown for this triangle in `Verif.Props.TriangleBoxF32`: on every backend the test tells
the cube of half size one from the cube of half size two. -/
example (k : Backend) : Sat.testOn k (at3 0 0 0) (at3 1 1 1) sampleTri = false ∧ Sat.testOn k (at3 0 0 0) (at3 2 2 2) sampleTri = true := by
  cases k <;> exact ⟨by decide +kernel, by decide +kernel⟩

end Verif
