import Verif.Proofs.SatThick

/-! # C119: the triangle-box test in binary32 -/

namespace Verif
open F32 Spec

namespace SatF32

theorem mem_around {c e p : V3 ℝ} {d : ℝ} : p ∈ boxAround c e d ↔
    |p.x - c.x| ≤ e.x + d ∧ |p.y - c.y| ≤ e.y + d ∧ |p.z - c.z| ≤ e.z + d := by
  simp only [boxAround, Box, Set.mem_ofPred_eq, abs_le]
  constructor
  · rintro ⟨⟨a, b⟩, ⟨a', b'⟩, a'', b''⟩
    refine ⟨⟨?_, ?_⟩, ⟨?_, ?_⟩, ?_, ?_⟩ <;> linarith
  · rintro ⟨⟨a, b⟩, ⟨a', b'⟩, a'', b''⟩
    refine ⟨⟨?_, ?_⟩, ⟨?_, ?_⟩, ?_, ?_⟩ <;> linarith

/-- A weighted average of three nearly equal numbers. -/
theorem avg_near {a b c u v w u' v' w' o η : ℝ} (ha : 0 ≤ a) (hb : 0 ≤ b) (hc : 0 ≤ c) (h : a + b + c = 1)
    (hu : |u - (u' - o)| ≤ η) (hv : |v - (v' - o)| ≤ η) (hw : |w - (w' - o)| ≤ η) :
    |(a * u + b * v + c * w) - ((a * u' + b * v' + c * w') - o)| ≤ η := by
  have e : (a * u + b * v + c * w) - ((a * u' + b * v' + c * w') - o) = a * (u - (u' - o)) + b * (v - (v' - o)) + c * (w - (w' - o)) := by
    have : o = (a + b + c) * o := by rw [h, one_mul]
    linarith
  rw [e]
  refine ((abs_add_le _ _).trans (add_le_add_left (abs_add_le _ _) _)).trans ?_
  rw [abs_mul, abs_mul, abs_mul, abs_of_nonneg ha, abs_of_nonneg hb, abs_of_nonneg hc]
  have h1 := mul_le_mul_of_nonneg_left hu ha
  have h2 := mul_le_mul_of_nonneg_left hv hb
  have h3 := mul_le_mul_of_nonneg_left hw hc
  have : η = a * η + b * η + c * η := by rw [← add_mul, ← add_mul, h, one_mul]
  linarith

theorem near_pos {L : ℝ} {a p : V4 F32} (hL2 : L ≤ 2 ^ 18) (ha : Sized L a.x ∧ Sized L a.y ∧ Sized L a.z)
    (hp : Sized L p.x ∧ Sized L p.y ∧ Sized L p.z) :
    |(pos (V4.sub a p)).x - ((pos a).x - (pos p).x)| ≤ 2 / 2 ^ 24 * L ∧
    |(pos (V4.sub a p)).y - ((pos a).y - (pos p).y)| ≤ 2 / 2 ^ 24 * L ∧
    |(pos (V4.sub a p)).z - ((pos a).z - (pos p).z)| ≤ 2 / 2 ^ 24 * L :=
  ⟨(lane_sub hL2 ha.1 hp.1).2.1, (lane_sub hL2 ha.2.1 hp.2.1).2.1, (lane_sub hL2 ha.2.2 hp.2.2).2.1⟩

theorem margin_eq {L : ℝ} {t : Triangle F32} (h : 4 ≤ edgeSum (pos t.p0) (pos t.p1) (pos t.p2) ^ 2 / areaSum (pos t.p0) (pos t.p1) (pos t.p2))
    (hL : 0 ≤ L) : inner L t + 2 / 2 ^ 24 * L ≤ satMargin L t := by
  have e : satMargin L t = 16 / 2 ^ 24 * L * (edgeSum (pos t.p0) (pos t.p1) (pos t.p2) ^ 2 / areaSum (pos t.p0) (pos t.p1) (pos t.p2)) := by
    unfold satMargin; ring
  rw [e]
  unfold inner
  have := mul_le_mul_of_nonneg_left h (by positivity : 0 ≤ 6 / 2 ^ 24 * L)
  linarith

end SatF32
open SatF32

/-- C119: a triangle that reaches into the box by more than the margin is found. -/
theorem sat_finds (L : ℝ) (position extent : V4 F32) (t : Triangle F32) (h : SatOk L position extent t)
    (hm : (boxAround (pos position) (pos extent) (-satMargin L t) ∩ Tri (pos t.p0) (pos t.p1) (pos t.p2)).Nonempty) :
    Sat.test position extent t = true := by
  obtain ⟨hq, hF, -⟩ := sat_decides h
  obtain ⟨hpos, hext, hp0, hp1, hp2, he⟩ := satOk_lanes h
  obtain ⟨-, -, hL, hL2, -, -⟩ := h
  have hL0 : 0 ≤ L := le_trans (by norm_num) hL
  have mg := margin_eq hq hL0
  by_contra hc
  rw [Bool.not_eq_true] at hc
  obtain ⟨a, -, hb⟩ := hF hc
  obtain ⟨p, hp, w0, w1, w2, n0, n1, n2, hs, rfl⟩ := hm
  rw [mem_around] at hp
  obtain ⟨x0, y0, z0⟩ := near_pos hL2 hp0 hpos
  obtain ⟨x1, y1, z1⟩ := near_pos hL2 hp1 hpos
  obtain ⟨x2, y2, z2⟩ := near_pos hL2 hp2 hpos
  have mx := avg_near n0 n1 n2 hs x0 x1 x2
  have my := avg_near n0 n1 n2 hs y0 y1 y2
  have mz := avg_near n0 n1 n2 hs z0 z1 z2
  obtain ⟨px, py, pz⟩ := hp
  simp only [combo] at px py pz
  generalize hC0 : pos (V4.sub t.p0 position) = C0 at *
  generalize hC1 : pos (V4.sub t.p1 position) = C1 at *
  generalize hC2 : pos (V4.sub t.p2 position) = C2 at *
  have tri : ∀ a b r η : ℝ, |a - b| ≤ η → |b| ≤ r → |a| ≤ r + η := by
    intro a b r η h1 h2
    have := abs_add_le (a - b) b
    rw [sub_add_cancel] at this
    linarith
  have qx := tri _ _ _ _ mx px
  have qy := tri _ _ _ _ my py
  have qz := tri _ _ _ _ mz pz
  have ne : 0 ≤ (shift (pos extent) (-inner L t)).x ∧ 0 ≤ (shift (pos extent) (-inner L t)).y ∧ 0 ≤ (shift (pos extent) (-inner L t)).z := by
    have a1 := (abs_nonneg _).trans qx
    have a2 := (abs_nonneg _).trans qy
    have a3 := (abs_nonneg _).trans qz
    simp only [shift]
    refine ⟨?_, ?_, ?_⟩ <;> linarith
  rw [← separates_iff _ _ _ _ _ _ ne] at hb
  apply separates_disjoint hb
  refine ⟨combo C0 C1 C2 w0 w1 w2, ?_, w0, w1, w2, n0, n1, n2, hs, rfl⟩
  have := (mem_around (c := ⟨0, 0, 0⟩) (e := pos extent) (d := -inner L t) (p := combo C0 C1 C2 w0 w1 w2)).2 (by
    simp only [combo, sub_zero]
    refine ⟨qx.trans ?_, qy.trans ?_, qz.trans ?_⟩ <;> linarith)
  simpa [boxAround, diff, shift] using this

/-- C119: the test answers true only for a triangle that comes within the margin of the box. -/
theorem sat_near (L : ℝ) (position extent : V4 F32) (t : Triangle F32) (h : SatOk L position extent t)
    (ht : Sat.test position extent t = true) :
    (boxAround (pos position) (pos extent) (satMargin L t) ∩ Tri (pos t.p0) (pos t.p1) (pos t.p2)).Nonempty := by
  obtain ⟨hq, -, hT⟩ := sat_decides h
  obtain ⟨hpos, hext, hp0, hp1, hp2, he⟩ := satOk_lanes h
  obtain ⟨-, -, hL, hL2, -, -⟩ := h
  have hL0 : 0 ≤ L := le_trans (by norm_num) hL
  have mg := margin_eq hq hL0
  have hn := hT ht
  obtain ⟨x0, y0, z0⟩ := near_pos hL2 hp0 hpos
  obtain ⟨x1, y1, z1⟩ := near_pos hL2 hp1 hpos
  obtain ⟨x2, y2, z2⟩ := near_pos hL2 hp2 hpos
  generalize hC0 : pos (V4.sub t.p0 position) = C0 at *
  generalize hC1 : pos (V4.sub t.p1 position) = C1 at *
  generalize hC2 : pos (V4.sub t.p2 position) = C2 at *
  have i0 : 0 ≤ inner L t := by
    have := mul_le_mul_of_nonneg_left hq (by positivity : 0 ≤ 10 / 2 ^ 24 * L)
    unfold inner; exact le_trans (by positivity) this
  have key : (Box (diff ⟨0, 0, 0⟩ (shift (pos extent) (inner L t))) ⟨0 + (shift (pos extent) (inner L t)).x, 0 + (shift (pos extent) (inner L t)).y,
      0 + (shift (pos extent) (inner L t)).z⟩ ∩ Tri C0 C1 C2).Nonempty := by
    by_contra hc
    obtain ⟨a, ha⟩ := disjoint_axis (c := ⟨0, 0, 0⟩) (e := shift (pos extent) (inner L t))
      ⟨add_nonneg he.1 i0, add_nonneg he.2.1 i0, add_nonneg he.2.2 i0⟩ hc
    obtain ⟨n, hn', hb⟩ := some_candidate ha
    exact hn n hn' hb
  obtain ⟨p, hp, w0, w1, w2, n0, n1, n2, hs, rfl⟩ := key
  have hp' : combo C0 C1 C2 w0 w1 w2 ∈ boxAround ⟨0, 0, 0⟩ (pos extent) (inner L t) := by
    simpa [boxAround, diff, shift] using hp
  rw [mem_around] at hp'
  obtain ⟨px, py, pz⟩ := hp'
  simp only [combo, sub_zero] at px py pz
  have mx := avg_near n0 n1 n2 hs x0 x1 x2
  have my := avg_near n0 n1 n2 hs y0 y1 y2
  have mz := avg_near n0 n1 n2 hs z0 z1 z2
  have tri : ∀ a b r η : ℝ, |a - b| ≤ η → |a| ≤ r → |b| ≤ r + η := by
    intro a b r η h1 h2
    have := abs_add_le (b - a) a
    rw [sub_add_cancel, abs_sub_comm] at this
    linarith
  have qx := tri _ _ _ _ mx px
  have qy := tri _ _ _ _ my py
  have qz := tri _ _ _ _ mz pz
  refine ⟨combo (pos t.p0) (pos t.p1) (pos t.p2) w0 w1 w2, ?_, w0, w1, w2, n0, n1, n2, hs, rfl⟩
  rw [mem_around]
  simp only [combo]
  refine ⟨qx.trans ?_, qy.trans ?_, qz.trans ?_⟩ <;> linarith

namespace SatF32
/-- A point with three rational coordinates. -/
def at3 (x y z : Rat) : V4 F32 := ⟨ofRat x, ofRat y, ofRat z, ofRat 0⟩
/-- A triangle whose plane passes the cube of half size one about the origin. -/
def sampleTri : Triangle F32 := ⟨at3 4 0 0, at3 0 4 0, at3 0 0 4⟩
/-- A thin triangle with the origin on its first edge. -/
def sliver : Triangle F32 := ⟨at3 (17 / 2) (91 / 4) (-73 / 4), at3 (-17 / 2) (-91 / 4) (73 / 4),
  at3 (7657007 / 1048576) (10246877 / 524288) (-16440045 / 1048576)⟩

theorem rv_at {q : Rat} (n : ℤ) (k : ℕ) (hf : (ofRat q).isFinite = true) (hu : (ofRat q).units = n * 2 ^ (149 - k)) (hk : k ≤ 149) :
    rv (ofRat q) = n / 2 ^ k := by
  change (ofRat q).val = _
  rw [(lit_exact hf hu).2]
  push_cast
  rw [div_eq_div_iff (by positivity) (by positivity), mul_assoc, ← pow_add]
  congr 2; omega

theorem rv_zero : rv (ofRat 0) = 0 := by rw [rv_at 0 0 (by decide +kernel) (by decide +kernel) (by norm_num)]; norm_num
theorem rv_one : rv (ofRat 1) = 1 := by rw [rv_at 1 0 (by decide +kernel) (by decide +kernel) (by norm_num)]; norm_num
theorem rv_four : rv (ofRat 4) = 4 := by rw [rv_at 4 0 (by decide +kernel) (by decide +kernel) (by norm_num)]; norm_num
theorem rv_eight : rv (ofRat 8) = 8 := by rw [rv_at 8 0 (by decide +kernel) (by decide +kernel) (by norm_num)]; norm_num

theorem sampleTri_pos : pos sampleTri.p0 = ⟨4, 0, 0⟩ ∧ pos sampleTri.p1 = ⟨0, 4, 0⟩ ∧ pos sampleTri.p2 = ⟨0, 0, 4⟩ := by
  have h0 := rv_zero
  have h4 := rv_four
  generalize hz : ofRat 0 = z at *
  generalize hf : ofRat 4 = f at *
  simp only [pos, sampleTri, at3, hz, hf, h0, h4, and_self]
end SatF32

/-- C119: the hypothesis on the thickness is needed. For a triangle that is nearly a segment the computed normal is
rounding noise, and the test misses a triangle through the center of a box of half size eight. -/
theorem sat_misses_sliver : Sat.test (at3 0 0 0) (at3 8 8 8) sliver = false ∧
    pos (at3 0 0 0) ∈ boxAround (pos (at3 0 0 0)) (pos (at3 8 8 8)) (-7) ∧
    pos (at3 0 0 0) ∈ Tri (pos sliver.p0) (pos sliver.p1) (pos sliver.p2) := by
  refine ⟨by decide +kernel, ?_, ?_⟩
  · rw [mem_around]
    have h8 : pos (at3 8 8 8) = ⟨8, 8, 8⟩ := by
      have h := rv_eight
      generalize hf : ofRat 8 = f at *
      simp only [pos, at3, hf, h]
    rw [h8]
    norm_num
  · have a1 := rv_at (q := 17 / 2) 17 1 (by decide +kernel) (by decide +kernel) (by norm_num)
    have a2 := rv_at (q := 91 / 4) 91 2 (by decide +kernel) (by decide +kernel) (by norm_num)
    have a3 := rv_at (q := -73 / 4) (-73) 2 (by decide +kernel) (by decide +kernel) (by norm_num)
    have b1 := rv_at (q := -17 / 2) (-17) 1 (by decide +kernel) (by decide +kernel) (by norm_num)
    have b2 := rv_at (q := -91 / 4) (-91) 2 (by decide +kernel) (by decide +kernel) (by norm_num)
    have b3 := rv_at (q := 73 / 4) 73 2 (by decide +kernel) (by decide +kernel) (by norm_num)
    have p0 : pos sliver.p0 = ⟨17 / 2, 91 / 4, -73 / 4⟩ := by
      change (⟨rv (ofRat (17 / 2)), rv (ofRat (91 / 4)), rv (ofRat (-73 / 4))⟩ : V3 ℝ) = _
      rw [a1, a2, a3]; norm_num
    have p1 : pos sliver.p1 = ⟨-17 / 2, -91 / 4, 73 / 4⟩ := by
      change (⟨rv (ofRat (-17 / 2)), rv (ofRat (-91 / 4)), rv (ofRat (73 / 4))⟩ : V3 ℝ) = _
      rw [b1, b2, b3]; norm_num
    have o : pos (at3 0 0 0) = ⟨0, 0, 0⟩ := by
      change (⟨rv (ofRat 0), rv (ofRat 0), rv (ofRat 0)⟩ : V3 ℝ) = _
      rw [rv_zero]
    rw [p0, p1, o]
    refine ⟨1 / 2, 1 / 2, 0, by norm_num, by norm_num, le_rfl, by norm_num, ?_⟩
    simp only [combo]
    norm_num

/-- Non-vacuity: the sample triangle satisfies the hypotheses, with a margin below three hundred-thousandths. The test
tells the cube of half size one from the cube of half size two. -/
example : SatOk 4 (at3 0 0 0) (at3 1 1 1) sampleTri ∧ satMargin 4 sampleTri < 3 / 10 ^ 5 ∧
    Sat.test (at3 0 0 0) (at3 1 1 1) sampleTri = false ∧ Sat.test (at3 0 0 0) (at3 2 2 2) sampleTri = true := by
  obtain ⟨p0, p1, p2⟩ := sampleTri_pos
  have hA : areaSum (pos sampleTri.p0) (pos sampleTri.p1) (pos sampleTri.p2) = 48 := by
    rw [p0, p1, p2]; simp only [areaSum, sumAbs, crossP, diff]; norm_num
  have hE : edgeSum (pos sampleTri.p0) (pos sampleTri.p1) (pos sampleTri.p2) = 16 := by
    rw [p0, p1, p2]; simp only [edgeSum, sumAbs, diff]; norm_num
  have s0 : Sized 4 (ofRat 0) := ⟨by decide +kernel, by rw [rv_zero]; norm_num, Or.inl rv_zero⟩
  have s1 : Sized 4 (ofRat 1) := ⟨by decide +kernel, by rw [rv_one]; norm_num, Or.inr (by rw [rv_one]; norm_num)⟩
  have s4 : Sized 4 (ofRat 4) := ⟨by decide +kernel, by rw [rv_four]; norm_num, Or.inr (by rw [rv_four]; norm_num)⟩
  refine ⟨⟨?_, ?_, by norm_num, by norm_num, by rw [hA]; norm_num, by rw [hA, hE]; norm_num⟩, ?_, by decide +kernel, by decide +kernel⟩
  · generalize hz : ofRat 0 = z at *
    generalize hf : ofRat 4 = f at *
    generalize ho : ofRat 1 = o at *
    simp only [sampleTri, at3, hz, hf, ho, V4.xyz, V3.toList, List.cons_append, List.nil_append, List.mem_cons, List.not_mem_nil,
      or_false, forall_eq_or_imp, forall_eq, s0, s1, s4, and_self]
  · have h1 := rv_one
    generalize ho : ofRat 1 = o at *
    simp only [at3, ho, V4.xyz, V3.toList, List.mem_cons, List.not_mem_nil, or_false, forall_eq_or_imp, forall_eq, h1]
    norm_num
  · unfold satMargin
    rw [hA, hE]; norm_num

end Verif
