import Verif.Model.MinMaxTargets
import Verif.Proofs.F32Err
import Mathlib.Tactic.FinCases

/-! # C145: minimum, maximum and clamp of SIMD floats on every backend -/

namespace Verif
open F32

namespace MinMaxTargets

theorem ltb_lt {a b : F32} (ha : a.isNaN = false) (hb : b.isNaN = false) : ltb a b = true ↔ a.key < b.key := by
  unfold ltb; rw [ha, hb]; simp

theorem leb_le {a b : F32} (ha : a.isNaN = false) (hb : b.isNaN = false) : leb a b = true ↔ a.key ≤ b.key := by
  unfold leb; rw [ha, hb]; simp

theorem min_cases (k : Backend) {a b : F32} (ha : a.isNaN = false) (hb : b.isNaN = false) :
    (k.minF a b = a ∧ a.key ≤ b.key) ∨ (k.minF a b = b ∧ b.key ≤ a.key) := by
  have e1 := ltb_lt ha hb
  have e2 := ltb_lt hb ha
  cases k
  · change ((if ltb a b = true then a else b) = a ∧ _) ∨ ((if ltb a b = true then a else b) = b ∧ _)
    split_ifs with h
    · exact Or.inl ⟨rfl, (e1.1 h).le⟩
    · exact Or.inr ⟨rfl, not_lt.1 (fun h' => h (e1.2 h'))⟩
  · change ((if ltb a b = true then a else b) = a ∧ _) ∨ ((if ltb a b = true then a else b) = b ∧ _)
    split_ifs with h
    · exact Or.inl ⟨rfl, (e1.1 h).le⟩
    · exact Or.inr ⟨rfl, not_lt.1 (fun h' => h (e1.2 h'))⟩
  · simp only [Backend.minF, ha, hb, Bool.or_self, Bool.false_eq_true, if_false]
    split_ifs with h h' h''
    · exact Or.inl ⟨rfl, (e1.1 h).le⟩
    · exact Or.inr ⟨rfl, (e2.1 h').le⟩
    · exact Or.inl ⟨rfl, not_lt.1 (fun x => h' (e2.2 x))⟩
    · exact Or.inr ⟨rfl, not_lt.1 (fun x => h (e1.2 x))⟩
  · change ((if ltb b a = true then b else a) = a ∧ _) ∨ ((if ltb b a = true then b else a) = b ∧ _)
    split_ifs with h
    · exact Or.inr ⟨rfl, (e2.1 h).le⟩
    · exact Or.inl ⟨rfl, not_lt.1 (fun h' => h (e2.2 h'))⟩

theorem max_cases (k : Backend) {a b : F32} (ha : a.isNaN = false) (hb : b.isNaN = false) :
    (k.maxF a b = a ∧ b.key ≤ a.key) ∨ (k.maxF a b = b ∧ a.key ≤ b.key) := by
  have e1 := ltb_lt ha hb
  have e2 := ltb_lt hb ha
  cases k
  · change ((if ltb b a = true then a else b) = a ∧ _) ∨ ((if ltb b a = true then a else b) = b ∧ _)
    split_ifs with h
    · exact Or.inl ⟨rfl, (e2.1 h).le⟩
    · exact Or.inr ⟨rfl, not_lt.1 (fun h' => h (e2.2 h'))⟩
  · change ((if ltb b a = true then a else b) = a ∧ _) ∨ ((if ltb b a = true then a else b) = b ∧ _)
    split_ifs with h
    · exact Or.inl ⟨rfl, (e2.1 h).le⟩
    · exact Or.inr ⟨rfl, not_lt.1 (fun h' => h (e2.2 h'))⟩
  · simp only [Backend.maxF, ha, hb, Bool.or_self, Bool.false_eq_true, if_false]
    split_ifs with h h' h''
    · exact Or.inl ⟨rfl, (e2.1 h).le⟩
    · exact Or.inr ⟨rfl, (e1.1 h').le⟩
    · exact Or.inr ⟨rfl, not_lt.1 (fun x => h (e2.2 x))⟩
    · exact Or.inl ⟨rfl, not_lt.1 (fun x => h' (e1.2 x))⟩
  · change ((if ltb a b = true then b else a) = a ∧ _) ∨ ((if ltb a b = true then b else a) = b ∧ _)
    split_ifs with h
    · exact Or.inr ⟨rfl, (e1.1 h).le⟩
    · exact Or.inl ⟨rfl, not_lt.1 (fun h' => h (e1.2 h'))⟩

/-- The result is one of the two and not above either. -/
theorem min_low (k : Backend) {a b : F32} (ha : a.isNaN = false) (hb : b.isNaN = false) :
    (k.minF a b = a ∨ k.minF a b = b) ∧ (k.minF a b).isNaN = false ∧ (k.minF a b).key ≤ a.key ∧ (k.minF a b).key ≤ b.key := by
  rcases min_cases k ha hb with ⟨h, h'⟩ | ⟨h, h'⟩ <;> rw [h]
  · exact ⟨Or.inl rfl, ha, le_rfl, h'⟩
  · exact ⟨Or.inr rfl, hb, h', le_rfl⟩

theorem max_high (k : Backend) {a b : F32} (ha : a.isNaN = false) (hb : b.isNaN = false) :
    (k.maxF a b = a ∨ k.maxF a b = b) ∧ (k.maxF a b).isNaN = false ∧ a.key ≤ (k.maxF a b).key ∧ b.key ≤ (k.maxF a b).key := by
  rcases max_cases k ha hb with ⟨h, h'⟩ | ⟨h, h'⟩ <;> rw [h]
  · exact ⟨Or.inl rfl, ha, le_rfl, h'⟩
  · exact ⟨Or.inr rfl, hb, h', le_rfl⟩

end MinMaxTargets
open MinMaxTargets

/-- C145: on every backend, the minimum of two lanes that are not NaN is one of them, bit for bit, and compares at most equal
to both; the maximum likewise. -/
theorem minmax_targets (k : Backend) (a b : F32) (ha : a.isNaN = false) (hb : b.isNaN = false) :
    ((k.minF a b = a ∨ k.minF a b = b) ∧ leb (k.minF a b) a = true ∧ leb (k.minF a b) b = true) ∧
    ((k.maxF a b = a ∨ k.maxF a b = b) ∧ leb a (k.maxF a b) = true ∧ leb b (k.maxF a b) = true) := by
  obtain ⟨o, n, l1, l2⟩ := min_low k ha hb
  obtain ⟨o', n', l1', l2'⟩ := max_high k ha hb
  exact ⟨⟨o, (leb_le n ha).2 l1, (leb_le n hb).2 l2⟩, o', (leb_le ha n').2 l1', (leb_le hb n').2 l2'⟩

/-- C145: the smallest and largest of the first three lanes, whatever the fourth lane holds. -/
theorem minmax3_targets (k : Backend) (v : V4 F32) (hx : v.x.isNaN = false) (hy : v.y.isNaN = false) (hz : v.z.isNaN = false) :
    (k.min3F v ∈ [v.x, v.y, v.z] ∧ ∀ c ∈ [v.x, v.y, v.z], leb (k.min3F v) c = true) ∧
    (k.max3F v ∈ [v.x, v.y, v.z] ∧ ∀ c ∈ [v.x, v.y, v.z], leb c (k.max3F v) = true) := by
  obtain ⟨o1, n1, a1, b1⟩ := min_low k hx hy
  obtain ⟨o2, n2, a2, b2⟩ := min_low k hz hz
  obtain ⟨o3, n3, a3, b3⟩ := min_low k n1 n2
  obtain ⟨p1, m1, c1, d1⟩ := max_high k hx hy
  obtain ⟨p2, m2, c2, d2⟩ := max_high k hz hz
  obtain ⟨p3, m3, c3, d3⟩ := max_high k m1 m2
  change (k.minF (k.minF v.x v.y) (k.minF v.z v.z) ∈ _ ∧ ∀ c ∈ _, leb (k.minF (k.minF v.x v.y) (k.minF v.z v.z)) c = true) ∧
    (k.maxF (k.maxF v.x v.y) (k.maxF v.z v.z) ∈ _ ∧ ∀ c ∈ _, leb c (k.maxF (k.maxF v.x v.y) (k.maxF v.z v.z)) = true)
  simp only [List.mem_cons, List.not_mem_nil, or_false, forall_eq_or_imp, forall_eq, leb_le n3 hx, leb_le n3 hy, leb_le n3 hz,
    leb_le hx m3, leb_le hy m3, leb_le hz m3]
  refine ⟨⟨?_, a3.trans a1, a3.trans b1, b3.trans a2⟩, ?_, c1.trans c3, d1.trans c3, c2.trans d3⟩
  · rcases o3 with h | h <;> rw [h]
    · rcases o1 with h | h <;> simp [h]
    · rcases o2 with h | h <;> simp [h]
  · rcases p3 with h | h <;> rw [h]
    · rcases p1 with h | h <;> simp [h]
    · rcases p2 with h | h <;> simp [h]

/-- C145: the smallest and largest of the four lanes. -/
theorem minmax4_targets (k : Backend) (v : V4 F32) (hx : v.x.isNaN = false) (hy : v.y.isNaN = false) (hz : v.z.isNaN = false)
    (hw : v.w.isNaN = false) :
    (k.min4F v ∈ [v.x, v.y, v.z, v.w] ∧ ∀ c ∈ [v.x, v.y, v.z, v.w], leb (k.min4F v) c = true) ∧
    (k.max4F v ∈ [v.x, v.y, v.z, v.w] ∧ ∀ c ∈ [v.x, v.y, v.z, v.w], leb c (k.max4F v) = true) := by
  obtain ⟨o1, n1, a1, b1⟩ := min_low k hx hy
  obtain ⟨o2, n2, a2, b2⟩ := min_low k hz hw
  obtain ⟨o3, n3, a3, b3⟩ := min_low k n1 n2
  obtain ⟨p1, m1, c1, d1⟩ := max_high k hx hy
  obtain ⟨p2, m2, c2, d2⟩ := max_high k hz hw
  obtain ⟨p3, m3, c3, d3⟩ := max_high k m1 m2
  change (k.minF (k.minF v.x v.y) (k.minF v.z v.w) ∈ _ ∧ ∀ c ∈ _, leb (k.minF (k.minF v.x v.y) (k.minF v.z v.w)) c = true) ∧
    (k.maxF (k.maxF v.x v.y) (k.maxF v.z v.w) ∈ _ ∧ ∀ c ∈ _, leb c (k.maxF (k.maxF v.x v.y) (k.maxF v.z v.w)) = true)
  simp only [List.mem_cons, List.not_mem_nil, or_false, forall_eq_or_imp, forall_eq, leb_le n3 hx, leb_le n3 hy, leb_le n3 hz,
    leb_le n3 hw, leb_le hx m3, leb_le hy m3, leb_le hz m3, leb_le hw m3]
  refine ⟨⟨?_, a3.trans a1, a3.trans b1, b3.trans a2, b3.trans b2⟩, ?_, c1.trans c3, d1.trans c3, c2.trans d3, d2.trans d3⟩
  · rcases o3 with h | h <;> rw [h]
    · rcases o1 with h | h <;> simp [h]
    · rcases o2 with h | h <;> simp [h]
  · rcases p3 with h | h <;> rw [h]
    · rcases p1 with h | h <;> simp [h]
    · rcases p2 with h | h <;> simp [h]

namespace MinMaxTargets
theorem clamp_lane (k : Backend) {v lo hi : F32} (hv : v.isNaN = false) (hl : lo.isNaN = false) (hh : hi.isNaN = false)
    (h : leb lo hi = true) :
    leb lo (k.maxF (k.minF v hi) lo) = true ∧ leb (k.maxF (k.minF v hi) lo) hi = true ∧
      (leb lo v = true → leb v hi = true → eqb (k.maxF (k.minF v hi) lo) v = true) ∧
      (k.maxF (k.minF v hi) lo = v ∨ k.maxF (k.minF v hi) lo = lo ∨ k.maxF (k.minF v hi) lo = hi) := by
  have c := min_cases k hv hh
  obtain ⟨o, n, a, b⟩ := min_low k hv hh
  have c' := max_cases k n hl
  obtain ⟨o', n', a', b'⟩ := max_high k n hl
  rw [leb_le hl hh] at h
  rw [leb_le hl n', leb_le n' hh, leb_le hl hv, leb_le hv hh]
  have e : eqb (k.maxF (k.minF v hi) lo) v = true ↔ (k.maxF (k.minF v hi) lo).key = v.key := by
    unfold eqb; rw [n', hv]; simp
  rw [e]
  refine ⟨b', ?_, ?_, ?_⟩
  · rcases c' with ⟨x, -⟩ | ⟨x, -⟩ <;> rw [x] <;> assumption
  · intro h1 h2
    have : (k.minF v hi).key = v.key := by
      rcases c with ⟨x, -⟩ | ⟨x, y⟩ <;> rw [x]
      exact le_antisymm y h2
    rcases c' with ⟨x, -⟩ | ⟨x, y⟩ <;> rw [x]
    · exact this
    · exact le_antisymm h1 (this ▸ y)
  · rcases o' with x | x <;> rw [x]
    · rcases o with x | x <;> rw [x] <;> simp
    · simp
end MinMaxTargets

/-- C145: on every backend `clamp` with `lo <= hi` answers, lane by lane, a value of the interval that is the lane itself or one
of the bounds, and compares equal to the lane if the lane lies in the interval. -/
theorem clamp_targets (k : Backend) (v lo hi : V4 F32) (hv : ∀ c ∈ v.toList, c.isNaN = false) (hl : ∀ c ∈ lo.toList, c.isNaN = false)
    (hh : ∀ c ∈ hi.toList, c.isNaN = false) (i : Fin 4) (h : leb (lo.get i) (hi.get i) = true) :
    leb (lo.get i) ((k.clampF v lo hi).get i) = true ∧ leb ((k.clampF v lo hi).get i) (hi.get i) = true ∧
      (leb (lo.get i) (v.get i) = true → leb (v.get i) (hi.get i) = true → eqb ((k.clampF v lo hi).get i) (v.get i) = true) ∧
      ((k.clampF v lo hi).get i = v.get i ∨ (k.clampF v lo hi).get i = lo.get i ∨ (k.clampF v lo hi).get i = hi.get i) := by
  simp only [V4.toList, List.mem_cons, List.not_mem_nil, or_false, forall_eq_or_imp, forall_eq] at hv hl hh
  fin_cases i
  · exact clamp_lane k hv.1 hl.1 hh.1 h
  · exact clamp_lane k hv.2.1 hl.2.1 hh.2.1 h
  · exact clamp_lane k hv.2.2.1 hl.2.2.1 hh.2.2.1 h
  · exact clamp_lane k hv.2.2.2 hl.2.2.2 hh.2.2.2 h

/-- C145: with a NaN the backends part. SSE answers the second operand, plain C++ the first, NEON a NaN. -/
theorem minmax_nan (a b : F32) (h : a.isNaN = true ∨ b.isNaN = true) :
    (Backend.minF .sse2 a b = b ∧ Backend.minF .sse41 a b = b ∧ Backend.minF .scalar a b = a ∧ (Backend.minF .neon a b).isNaN = true) ∧
    (Backend.maxF .sse2 a b = b ∧ Backend.maxF .sse41 a b = b ∧ Backend.maxF .scalar a b = a ∧ (Backend.maxF .neon a b).isNaN = true) := by
  have e1 : ltb a b = false := by unfold ltb; rcases h with h | h <;> rw [h] <;> simp
  have e2 : ltb b a = false := by unfold ltb; rcases h with h | h <;> rw [h] <;> simp
  have o : (a.isNaN || b.isNaN) = true := by rcases h with h | h <;> rw [h] <;> simp
  have nn : F32.nan.isNaN = true := by decide +kernel
  refine ⟨⟨?_, ?_, ?_, ?_⟩, ?_, ?_, ?_, ?_⟩
  · change (if ltb a b = true then a else b) = b; rw [e1]; rfl
  · change (if ltb a b = true then a else b) = b; rw [e1]; rfl
  · change (if ltb b a = true then b else a) = a; rw [e2]; rfl
  · simp only [Backend.minF, o, if_true]; exact nn
  · change (if ltb b a = true then a else b) = b; rw [e2]; rfl
  · change (if ltb b a = true then a else b) = b; rw [e2]; rfl
  · change (if ltb a b = true then b else a) = a; rw [e1]; rfl
  · simp only [Backend.maxF, o, if_true]; exact nn

/-- C145: so a NaN lane survives `clamp` into the unit interval on NEON and in plain C++, and becomes the upper bound on SSE. -/
theorem clamp_nan (k : Backend) (v lo hi : F32) (hv : v.isNaN = true) (hl : lo.isNaN = false) (hh : hi.isNaN = false)
    (h : leb lo hi = true) :
    ((k = .sse2 ∨ k = .sse41) → eqb (k.maxF (k.minF v hi) lo) hi = true) ∧
    ((k = .neon ∨ k = .scalar) → (k.maxF (k.minF v hi) lo).isNaN = true) := by
  obtain ⟨⟨s1, s2, s3, s4⟩, -⟩ := minmax_nan v hi (Or.inl hv)
  have up : ∀ j : Backend, eqb (j.maxF hi lo) hi = true := by
    intro j
    rw [leb_le hl hh] at h
    rcases max_cases j hh hl with ⟨x, -⟩ | ⟨x, y⟩
    · rw [x]; unfold eqb; rw [hh]; simp
    · rw [x]; unfold eqb; rw [hh, hl]; simp; omega
  constructor
  · rintro (rfl | rfl)
    · rw [s1]; exact up _
    · rw [s2]; exact up _
  · rintro (rfl | rfl)
    · exact (minmax_nan _ lo (Or.inl s4)).2.2.2.2
    · rw [s3, (minmax_nan v lo (Or.inl hv)).2.2.2.1]; exact hv

/-- C145: of two zeros of different sign NEON takes the negative one as the smaller; SSE takes the second operand and plain C++
the first. -/
theorem minmax_zero (s : Bool) :
    (Backend.minF .neon (F32.zero s) (F32.zero !s) = F32.zero true ∧ Backend.maxF .neon (F32.zero s) (F32.zero !s) = F32.zero false) ∧
    (∀ k, k = .sse2 ∨ k = .sse41 → Backend.minF k (F32.zero s) (F32.zero !s) = F32.zero !s ∧
      Backend.maxF k (F32.zero s) (F32.zero !s) = F32.zero !s) ∧
    Backend.minF .scalar (F32.zero s) (F32.zero !s) = F32.zero s ∧ Backend.maxF .scalar (F32.zero s) (F32.zero !s) = F32.zero s := by
  cases s
  · refine ⟨by decide +kernel, ?_, by decide +kernel, by decide +kernel⟩
    rintro k (rfl | rfl) <;> decide +kernel
  · refine ⟨by decide +kernel, ?_, by decide +kernel, by decide +kernel⟩
    rintro k (rfl | rfl) <;> decide +kernel

/-- Non-vacuity: numbers that are not NaN, among them an infinity, and a NaN. -/
example (k : Backend) : k.min4F ⟨ofRat 3, ofRat (-2), ofRat 5, ofRat (-7)⟩ = ofRat (-7) ∧
    k.min3F ⟨ofRat 3, ofRat (-2), ofRat 5, ofRat (-7)⟩ = ofRat (-2) ∧ k.max3F ⟨ofRat 3, ofRat (-2), ⟨0x7F800000⟩, ofRat 9⟩ = ⟨0x7F800000⟩ ∧
    k.clampF (V4.splat (ofRat 3)) (V4.splat (ofRat 0)) (V4.splat (ofRat 1)) = V4.splat (ofRat 1) ∧ F32.nan.isNaN = true ∧
    leb (ofRat 0) (ofRat 1) = true := by
  cases k <;> decide +kernel

end Verif
