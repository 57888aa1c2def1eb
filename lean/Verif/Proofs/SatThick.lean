import Verif.Proofs.SatNormal

/-!
# The triangle-box test in binary32: the rounded triangle and the decision
-/

namespace Verif
open F32 Spec
namespace SatF32

/-! ## The rounded triangle -/

theorem lane_sub {L : ℝ} {a p : F32} (hL2 : L ≤ 2 ^ 18) (ha : Sized L a) (hp : Sized L p) :
    ((fsub a p).isFinite = true ∧ |(fsub a p).val| ≤ 2.001 * L) ∧ |(fsub a p).val - (a.val - p.val)| ≤ 2 / 2 ^ 24 * L ∧ OnGrid (fsub a p) := by
  have h1 : |a.val| ≤ L := ha.2.1
  have h2 : |p.val| ≤ L := hp.2.1
  have h3 : |a.val - p.val| ≤ 2 * L := (abs_sub _ _).trans (by linarith)
  have h4 : |a.val - p.val| < 2 ^ 127 := lt_of_le_of_lt h3 (by norm_num at *; linarith)
  obtain ⟨f, e⟩ := fsub_err' ha.1 hp.1 h4
  have e' : |(fsub a p).val - (a.val - p.val)| ≤ 2 / 2 ^ 24 * L := by unfold uro at e; linarith
  refine ⟨⟨f, ?_⟩, e', grid_sub ha.1 hp.1 (grid_sized ha) (grid_sized hp) h4⟩
  have := abs_add_le ((fsub a p).val - (a.val - p.val)) (a.val - p.val)
  rw [sub_add_cancel] at this
  have hL : 0 ≤ L := (abs_nonneg _).trans h1
  linarith

theorem lane_edge {L : ℝ} {a b p : F32} (hL2 : L ≤ 2 ^ 18) (ha : Sized L a) (hb : Sized L b) (hp : Sized L p) :
    ((fsub (fsub b p) (fsub a p)).isFinite = true ∧ |(fsub (fsub b p) (fsub a p)).val| ≤ polT) ∧
    |(fsub (fsub b p) (fsub a p)).val - ((fsub b p).val - (fsub a p).val)| ≤ uro * |(fsub b p).val - (fsub a p).val| ∧
    OnGrid (fsub (fsub b p) (fsub a p)) ∧
    |((fsub b p).val - (fsub a p).val) - (b.val - a.val)| ≤ 4 / 2 ^ 24 * L := by
  obtain ⟨⟨fa, -⟩, ea, ga⟩ := lane_sub hL2 ha hp
  obtain ⟨⟨fb, -⟩, eb, gb⟩ := lane_sub hL2 hb hp
  have h1 : |a.val| ≤ L := ha.2.1
  have h2 : |b.val| ≤ L := hb.2.1
  generalize fsub a p = x at *
  generalize fsub b p = y at *
  have hd : |(y.val - x.val) - (b.val - a.val)| ≤ 4 / 2 ^ 24 * L := by
    rw [show (y.val - x.val) - (b.val - a.val) = (y.val - (b.val - p.val)) - (x.val - (a.val - p.val)) by ring]
    exact (abs_sub _ _).trans (by linarith)
  have h3 : |b.val - a.val| ≤ 2 * L := (abs_sub _ _).trans (by linarith)
  have hL : 0 ≤ L := (abs_nonneg _).trans h1
  have h5 : |y.val - x.val| ≤ 2.001 * L := by
    have := abs_add_le ((y.val - x.val) - (b.val - a.val)) (b.val - a.val)
    rw [sub_add_cancel] at this
    linarith
  have h6 : |y.val - x.val| < 2 ^ 127 := lt_of_le_of_lt h5 (by norm_num at *; linarith)
  obtain ⟨f, e⟩ := fsub_err' fb fa h6
  refine ⟨⟨f, ?_⟩, e, grid_sub fb fa gb ga h6, hd⟩
  have h7 := close_abs e
  refine h7.trans ?_
  unfold uro polT
  norm_num at *
  linarith

/-! ## The thickness of the rounded triangle -/

theorem sumAbs_near {a b : V3 ℝ} {η : ℝ} (h : |a.x - b.x| ≤ η ∧ |a.y - b.y| ≤ η ∧ |a.z - b.z| ≤ η) : sumAbs a ≤ sumAbs b + 3 * η := by
  have t : ∀ p q : ℝ, |p| ≤ |q| + |p - q| := by
    intro p q
    have := abs_add_le (p - q) q
    rw [sub_add_cancel] at this
    linarith
  have h1 := t a.x b.x
  have h2 := t a.y b.y
  have h3 := t a.z b.z
  obtain ⟨g1, g2, g3⟩ := h
  unfold sumAbs; linarith

theorem cross_near (E0 E1 F0 F1 : V3 ℝ) :
    sumAbs (crossP E0 E1) ≤ sumAbs (crossP F0 F1) + sumAbs E0 * sumAbs (diff F1 E1) + sumAbs (diff F0 E0) * sumAbs E1 +
      sumAbs (diff F0 E0) * sumAbs (diff F1 E1) := by
  have h1 := (cross_le_prod E0 (diff F1 E1)).trans (prodSum_le _ _)
  have h2 := (cross_le_prod (diff F0 E0) E1).trans (prodSum_le _ _)
  have h3 := (cross_le_prod (diff F0 E0) (diff F1 E1)).trans (prodSum_le _ _)
  have t : ∀ p q r s : ℝ, |p - q - r - s| ≤ |p| + |q| + |r| + |s| := by
    intro p q r s
    have := abs_sub (p - q - r) s
    have := abs_sub (p - q) r
    have := abs_sub p q
    linarith
  have tx := t (crossP F0 F1).x (crossP E0 (diff F1 E1)).x (crossP (diff F0 E0) E1).x (crossP (diff F0 E0) (diff F1 E1)).x
  have ty := t (crossP F0 F1).y (crossP E0 (diff F1 E1)).y (crossP (diff F0 E0) E1).y (crossP (diff F0 E0) (diff F1 E1)).y
  have tz := t (crossP F0 F1).z (crossP E0 (diff F1 E1)).z (crossP (diff F0 E0) E1).z (crossP (diff F0 E0) (diff F1 E1)).z
  rw [show (crossP F0 F1).x - (crossP E0 (diff F1 E1)).x - (crossP (diff F0 E0) E1).x - (crossP (diff F0 E0) (diff F1 E1)).x =
    (crossP E0 E1).x by simp only [crossP, diff]; ring] at tx
  rw [show (crossP F0 F1).y - (crossP E0 (diff F1 E1)).y - (crossP (diff F0 E0) E1).y - (crossP (diff F0 E0) (diff F1 E1)).y =
    (crossP E0 E1).y by simp only [crossP, diff]; ring] at ty
  rw [show (crossP F0 F1).z - (crossP E0 (diff F1 E1)).z - (crossP (diff F0 E0) E1).z - (crossP (diff F0 E0) (diff F1 E1)).z =
    (crossP E0 E1).z by simp only [crossP, diff]; ring] at tz
  unfold sumAbs at *
  linarith

theorem thick {E0 E1 F0 F1 : V3 ℝ} {L D N : ℝ} (hL : 1 / 2 ^ 10 ≤ L) (hD : D = sumAbs E0 + sumAbs E1) (hN : N = sumAbs (crossP E0 E1))
    (hN0 : 0 < N) (hNL : L * D / 2 ^ 18 ≤ N)
    (h0 : |F0.x - E0.x| ≤ 4 / 2 ^ 24 * L ∧ |F0.y - E0.y| ≤ 4 / 2 ^ 24 * L ∧ |F0.z - E0.z| ≤ 4 / 2 ^ 24 * L)
    (h1 : |F1.x - E1.x| ≤ 4 / 2 ^ 24 * L ∧ |F1.y - E1.y| ≤ 4 / 2 ^ 24 * L ∧ |F1.z - E1.z| ≤ 4 / 2 ^ 24 * L) :
    4 ≤ D ^ 2 / N ∧ 1 / 2 ^ 60 ≤ prodSum F0 F1 ∧
    22 / 2 ^ 24 * L * prodSum F0 F1 ≤ (10 / 2 ^ 24 * L * (D ^ 2 / N)) * sumAbs (crossP F0 F1) := by
  have n0 := sumAbs_nonneg E0
  have n1 := sumAbs_nonneg E1
  have hL0 : 0 < L := lt_of_lt_of_le (by norm_num) hL
  have up : N ≤ sumAbs E0 * sumAbs E1 := hN ▸ (cross_le_prod _ _).trans (prodSum_le _ _)
  have sq : 4 * (sumAbs E0 * sumAbs E1) ≤ D ^ 2 := by
    rw [hD]; linarith [sq_nonneg (sumAbs E0 - sumAbs E1)]
  have hD0 : 0 < D := by
    have : 0 ≤ D := by rw [hD]; linarith
    rcases this.eq_or_lt with h | h
    · rw [← h] at sq; linarith
    · exact h
  have hq : 4 ≤ D ^ 2 / N := by rw [le_div_iff₀ hN0]; linarith
  have hDL : L / 2 ^ 16 ≤ D := by
    have h : L * D / 2 ^ 18 * 4 ≤ D * D := by linarith
    have h' : (L / 2 ^ 16) * D ≤ D * D := by linarith
    exact le_of_mul_le_mul_right h' hD0
  obtain ⟨ε, hε⟩ : ∃ ε, ε = 12 / 2 ^ 24 * L := ⟨_, rfl⟩
  have eD : ε ≤ 0.047 * D := by rw [hε]; norm_num at hDL ⊢; linarith
  have e0 : 0 ≤ ε := by rw [hε]; positivity
  have d0 : sumAbs (diff F0 E0) ≤ ε := by
    obtain ⟨g1, g2, g3⟩ := h0
    rw [hε]; simp only [sumAbs, diff]; linarith
  have d1 : sumAbs (diff F1 E1) ≤ ε := by
    obtain ⟨g1, g2, g3⟩ := h1
    rw [hε]; simp only [sumAbs, diff]; linarith
  have s0 : sumAbs F0 ≤ sumAbs E0 + ε := by rw [hε]; linarith [sumAbs_near h0]
  have s1 : sumAbs F1 ≤ sumAbs E1 + ε := by rw [hε]; linarith [sumAbs_near h1]
  have M0 := sumAbs_nonneg (diff F0 E0)
  have M1 := sumAbs_nonneg (diff F1 E1)
  have low : 0.8 * N ≤ sumAbs (crossP F0 F1) := by
    have c := cross_near E0 E1 F0 F1
    have m1 := mul_le_mul_of_nonneg_left d1 n0
    have m2 := mul_le_mul_of_nonneg_right d0 n1
    have m3 := mul_le_mul d0 d1 M1 e0
    have m4 := mul_le_mul_of_nonneg_left eD e0
    have m5 : ε * D ≤ 12 / 64 * N := by
      have : ε * D = 12 / 64 * (L * D / 2 ^ 18) := by rw [hε]; ring
      linarith
    have m6 : sumAbs E0 * ε + ε * sumAbs E1 = ε * D := by rw [hD]; ring
    rw [← hN] at c
    linarith
  have hP : prodSum F0 F1 ≤ 0.3 * D ^ 2 := by
    refine (prodSum_le F0 F1).trans ?_
    have := mul_le_mul s0 s1 (sumAbs_nonneg _) (by linarith)
    refine this.trans ?_
    have e1 : (sumAbs E0 + ε) * (sumAbs E1 + ε) ≤ (D + 2 * ε) ^ 2 / 4 := by
      rw [hD]; linarith [sq_nonneg (sumAbs E0 - sumAbs E1)]
    have e2 : (D + 2 * ε) ^ 2 ≤ (1.094 * D) ^ 2 := pow_le_pow_left₀ (by linarith) (by linarith) 2
    have := sq_nonneg D
    linarith
  refine ⟨hq, ?_, ?_⟩
  · have h : L * (L / 2 ^ 16) ≤ L * D := mul_le_mul_of_nonneg_left hDL hL0.le
    have h' : (1 / 2 ^ 10 : ℝ) * (1 / 2 ^ 10) ≤ L * L := mul_le_mul hL hL (by norm_num) hL0.le
    have := cross_le_prod F0 F1
    norm_num at h h' hNL low ⊢
    linarith
  · have hk : (D ^ 2 / N) * N = D ^ 2 := div_mul_cancel₀ _ hN0.ne'
    have a1 := mul_le_mul_of_nonneg_left hP (by positivity : 0 ≤ 22 / 2 ^ 24 * L)
    have a2 := mul_le_mul_of_nonneg_left low (by positivity : 0 ≤ 10 / 2 ^ 24 * L * (D ^ 2 / N))
    have a3 : 10 / 2 ^ 24 * L * (D ^ 2 / N) * (0.8 * N) = 8 / 2 ^ 24 * L * D ^ 2 := by
      rw [show 10 / 2 ^ 24 * L * (D ^ 2 / N) * (0.8 * N) = 8 / 2 ^ 24 * L * ((D ^ 2 / N) * N) by ring, hk]
    have a4 : 0 ≤ L * D ^ 2 := by positivity
    linarith

/-! ## The decision -/

theorem small_sub {L : ℝ} {a p : V4 F32} (hL2 : L ≤ 2 ^ 18) (ha : Sized L a.x ∧ Sized L a.y ∧ Sized L a.z)
    (hp : Sized L p.x ∧ Sized L p.y ∧ Sized L p.z) : Small (2.001 * L) (V4.sub a p) :=
  ⟨(lane_sub hL2 ha.1 hp.1).1, (lane_sub hL2 ha.2.1 hp.2.1).1, (lane_sub hL2 ha.2.2 hp.2.2).1⟩

theorem edge_ok {L : ℝ} {a b p : V4 F32} (hL2 : L ≤ 2 ^ 18) (ha : Sized L a.x ∧ Sized L a.y ∧ Sized L a.z)
    (hb : Sized L b.x ∧ Sized L b.y ∧ Sized L b.z) (hp : Sized L p.x ∧ Sized L p.y ∧ Sized L p.z) :
    Small polT (V4.sub (V4.sub b p) (V4.sub a p)) ∧
    Close (V4.sub (V4.sub b p) (V4.sub a p)) (diff (pos (V4.sub b p)) (pos (V4.sub a p))) ∧
    (OnGrid (V4.sub (V4.sub b p) (V4.sub a p)).x ∧ OnGrid (V4.sub (V4.sub b p) (V4.sub a p)).y ∧
      OnGrid (V4.sub (V4.sub b p) (V4.sub a p)).z) ∧
    |(diff (pos (V4.sub b p)) (pos (V4.sub a p))).x - (diff (pos b) (pos a)).x| ≤ 4 / 2 ^ 24 * L ∧
    |(diff (pos (V4.sub b p)) (pos (V4.sub a p))).y - (diff (pos b) (pos a)).y| ≤ 4 / 2 ^ 24 * L ∧
    |(diff (pos (V4.sub b p)) (pos (V4.sub a p))).z - (diff (pos b) (pos a)).z| ≤ 4 / 2 ^ 24 * L := by
  obtain ⟨a1, a2, a3, a4⟩ := lane_edge hL2 ha.1 hb.1 hp.1
  obtain ⟨b1, b2, b3, b4⟩ := lane_edge hL2 ha.2.1 hb.2.1 hp.2.1
  obtain ⟨c1, c2, c3, c4⟩ := lane_edge hL2 ha.2.2 hb.2.2 hp.2.2
  exact ⟨⟨a1, b1, c1⟩, ⟨a2, b2, c2⟩, ⟨a3, b3, c3⟩, a4, b4, c4⟩

/-- The hypotheses, lane by lane. -/
theorem satOk_lanes {L : ℝ} {position extent : V4 F32} {t : Triangle F32} (h : SatOk L position extent t) :
    (Sized L position.x ∧ Sized L position.y ∧ Sized L position.z) ∧ (Sized L extent.x ∧ Sized L extent.y ∧ Sized L extent.z) ∧
    (Sized L t.p0.x ∧ Sized L t.p0.y ∧ Sized L t.p0.z) ∧ (Sized L t.p1.x ∧ Sized L t.p1.y ∧ Sized L t.p1.z) ∧
    (Sized L t.p2.x ∧ Sized L t.p2.y ∧ Sized L t.p2.z) ∧ (0 ≤ (pos extent).x ∧ 0 ≤ (pos extent).y ∧ 0 ≤ (pos extent).z) := by
  obtain ⟨h1, h2, -⟩ := h
  simp only [V4.xyz, V3.toList, List.cons_append, List.nil_append, List.mem_cons, List.not_mem_nil, or_false, forall_eq_or_imp,
    forall_eq] at h1 h2
  obtain ⟨a1, a2, a3, a4, a5, a6, a7, a8, a9, a10, a11, a12, a13, a14, a15⟩ := h1
  exact ⟨⟨a1, a2, a3⟩, ⟨a4, a5, a6⟩, ⟨a7, a8, a9⟩, ⟨a10, a11, a12⟩, ⟨a13, a14, a15⟩, h2⟩

/-- The margin on the rounded triangle. -/
noncomputable def inner (L : ℝ) (t : Triangle F32) : ℝ :=
  10 / 2 ^ 24 * L * (edgeSum (pos t.p0) (pos t.p1) (pos t.p2) ^ 2 / areaSum (pos t.p0) (pos t.p1) (pos t.p2))

/-- The thirteen decisions together. -/
theorem combine {b1 b2 b3 b4 b5 b6 b7 b8 b9 bb n : Bool} {u v w e : V3 ℝ} {d : ℝ} (hd : 0 ≤ d)
    (x0 : Decides b1 u v w e d (crossP ⟨1, 0, 0⟩ (diff v u))) (x1 : Decides b2 u v w e d (crossP ⟨1, 0, 0⟩ (diff w v)))
    (x2 : Decides b3 u v w e d (crossP ⟨1, 0, 0⟩ (diff u w))) (y0 : Decides b4 u v w e d (crossP ⟨0, 1, 0⟩ (diff v u)))
    (y1 : Decides b5 u v w e d (crossP ⟨0, 1, 0⟩ (diff w v))) (y2 : Decides b6 u v w e d (crossP ⟨0, 1, 0⟩ (diff u w)))
    (z0 : Decides b7 u v w e d (crossP ⟨0, 0, 1⟩ (diff v u))) (z1 : Decides b8 u v w e d (crossP ⟨0, 0, 1⟩ (diff w v)))
    (z2 : Decides b9 u v w e d (crossP ⟨0, 0, 1⟩ (diff u w)))
    (bx : bb = true ↔ Beyond ⟨0, 0, 0⟩ e u v w ⟨1, 0, 0⟩ ∨ Beyond ⟨0, 0, 0⟩ e u v w ⟨0, 1, 0⟩ ∨ Beyond ⟨0, 0, 0⟩ e u v w ⟨0, 0, 1⟩)
    (nm : Decides (!n) u v w e d (crossP (diff v u) (diff w v))) :
    ((if b1 = true then false else if b2 = true then false else if b3 = true then false else if b4 = true then false
      else if b5 = true then false else if b6 = true then false else if b7 = true then false else if b8 = true then false
      else if b9 = true then false else if bb = true then false else n) = false →
      ∃ a ∈ candidates u v w, Beyond ⟨0, 0, 0⟩ (shift e (-d)) u v w a) ∧
    ((if b1 = true then false else if b2 = true then false else if b3 = true then false else if b4 = true then false
      else if b5 = true then false else if b6 = true then false else if b7 = true then false else if b8 = true then false
      else if b9 = true then false else if bb = true then false else n) = true →
      ∀ a ∈ candidates u v w, ¬ Beyond ⟨0, 0, 0⟩ (shift e d) u v w a) := by
  have sh : shift e 0 = e := by simp [shift]
  have up : ∀ {a}, Beyond ⟨0, 0, 0⟩ e u v w a → Beyond ⟨0, 0, 0⟩ (shift e (-d)) u v w a := by
    intro a ha; rw [← sh] at ha; exact beyond_anti (by linarith) ha
  have dn : ∀ {a}, Beyond ⟨0, 0, 0⟩ (shift e d) u v w a → Beyond ⟨0, 0, 0⟩ e u v w a := by
    intro a ha; rw [← sh]; exact beyond_anti hd ha
  constructor
  · intro h
    simp only [candidates, boxAxes, edges, List.flatMap_cons, List.flatMap_nil, List.map_cons, List.map_nil,
      List.cons_append, List.nil_append, List.append_nil, List.mem_cons, List.not_mem_nil, or_false, exists_eq_or_imp,
      exists_eq_left]
    simp only [chain, Bool.and_eq_false_iff, Bool.not_eq_false'] at h
    rcases h with h | h | h | h | h | h | h | h | h | h | h
    · simp only [x0.1 h, true_or, or_true]
    · simp only [x1.1 h, true_or, or_true]
    · simp only [x2.1 h, true_or, or_true]
    · simp only [y0.1 h, true_or, or_true]
    · simp only [y1.1 h, true_or, or_true]
    · simp only [y2.1 h, true_or, or_true]
    · simp only [z0.1 h, true_or, or_true]
    · simp only [z1.1 h, true_or, or_true]
    · simp only [z2.1 h, true_or, or_true]
    · rcases bx.1 h with h | h | h
      · simp only [up h, true_or, or_true]
      · simp only [up h, true_or, or_true]
      · simp only [up h, true_or, or_true]
    · simp only [nm.1 (by rw [h]; rfl), true_or, or_true]
  · intro h a ha
    simp only [chain, Bool.and_eq_true, Bool.not_eq_true'] at h
    obtain ⟨h1, h2, h3, h4, h5, h6, h7, h8, h9, hb, hn⟩ := h
    have hb' : ¬ (Beyond ⟨0, 0, 0⟩ e u v w ⟨1, 0, 0⟩ ∨ Beyond ⟨0, 0, 0⟩ e u v w ⟨0, 1, 0⟩ ∨ Beyond ⟨0, 0, 0⟩ e u v w ⟨0, 0, 1⟩) := by
      rw [← bx, hb]; decide
    simp only [candidates, boxAxes, edges, List.flatMap_cons, List.flatMap_nil, List.map_cons, List.map_nil,
      List.cons_append, List.nil_append, List.append_nil, List.mem_cons, List.not_mem_nil, or_false] at ha
    rcases ha with rfl | rfl | rfl | rfl | rfl | rfl | rfl | rfl | rfl | rfl | rfl | rfl | rfl
    · exact fun h => hb' (Or.inl (dn h))
    · exact fun h => hb' (Or.inr (Or.inl (dn h)))
    · exact fun h => hb' (Or.inr (Or.inr (dn h)))
    · exact nm.2 (by rw [hn]; rfl)
    · exact x0.2 h1
    · exact x1.2 h2
    · exact x2.2 h3
    · exact y0.2 h4
    · exact y1.2 h5
    · exact y2.2 h6
    · exact z0.2 h7
    · exact z1.2 h8
    · exact z2.2 h9

theorem sat_decides {L : ℝ} {position extent : V4 F32} {t : Triangle F32} (h : SatOk L position extent t) :
    (4 ≤ edgeSum (pos t.p0) (pos t.p1) (pos t.p2) ^ 2 / areaSum (pos t.p0) (pos t.p1) (pos t.p2)) ∧
    (Sat.test position extent t = false → ∃ a ∈ candidates (pos (V4.sub t.p0 position)) (pos (V4.sub t.p1 position)) (pos (V4.sub t.p2 position)),
      Beyond ⟨0, 0, 0⟩ (shift (pos extent) (-inner L t)) (pos (V4.sub t.p0 position)) (pos (V4.sub t.p1 position)) (pos (V4.sub t.p2 position)) a) ∧
    (Sat.test position extent t = true → ∀ a ∈ candidates (pos (V4.sub t.p0 position)) (pos (V4.sub t.p1 position)) (pos (V4.sub t.p2 position)),
      ¬ Beyond ⟨0, 0, 0⟩ (shift (pos extent) (inner L t)) (pos (V4.sub t.p0 position)) (pos (V4.sub t.p1 position)) (pos (V4.sub t.p2 position)) a) := by
  obtain ⟨hpos, hext, hp0, hp1, hp2, -⟩ := satOk_lanes h
  obtain ⟨-, -, hL, hL2, hA, hT⟩ := h
  have s0 := small_sub hL2 hp0 hpos
  have s1 := small_sub hL2 hp1 hpos
  have s2 := small_sub hL2 hp2 hpos
  have hL0 : 0 ≤ L := le_trans (by norm_num) hL
  have se : Small L extent := ⟨⟨hext.1.1, hext.1.2.1⟩, ⟨hext.2.1.1, hext.2.1.2.1⟩, hext.2.2.1, hext.2.2.2.1⟩
  have se' : Small (2.001 * L) extent := ⟨⟨hext.1.1, hext.1.2.1.trans (by linarith)⟩, ⟨hext.2.1.1, hext.2.1.2.1.trans (by linarith)⟩,
    hext.2.2.1, hext.2.2.2.1.trans (by linarith)⟩
  obtain ⟨a0, k0, g0, d0⟩ := edge_ok hL2 hp0 hp1 hpos
  obtain ⟨a1, k1, g1, d1⟩ := edge_ok hL2 hp1 hp2 hpos
  obtain ⟨a2, k2, g2, d2⟩ := edge_ok hL2 hp2 hp0 hpos
  obtain ⟨hq, hP, hd⟩ := thick hL rfl rfl hA hT d0 d1
  have hin : 13 / 2 ^ 24 * L ≤ inner L t := by
    have := mul_le_mul_of_nonneg_left hq (by positivity : 0 ≤ 10 / 2 ^ 24 * L)
    unfold inner
    change 4 ≤ edgeSum (pos t.p0) (pos t.p1) (pos t.p2) ^ 2 / areaSum (pos t.p0) (pos t.p1) (pos t.p2) at hq
    change 10 / 2 ^ 24 * L * 4 ≤ 10 / 2 ^ 24 * L * (edgeSum (pos t.p0) (pos t.p1) (pos t.p2) ^ 2 / areaSum (pos t.p0) (pos t.p1) (pos t.p2)) at this
    linarith
  refine ⟨hq, ?_⟩
  have hin0 : 0 ≤ inner L t := le_trans (by positivity) hin
  obtain ⟨x0, y0, z0⟩ := edge_three hL hL2 s0 s1 s2 se a0 k0 g0
  obtain ⟨x1, y1, z1⟩ := edge_three hL hL2 s0 s1 s2 se a1 k1 g1
  obtain ⟨x2, y2, z2⟩ := edge_three hL hL2 s0 s1 s2 se a2 k2 g2
  have x0 := x0.mono hin; have y0 := y0.mono hin; have z0 := z0.mono hin
  have x1 := x1.mono hin; have y1 := y1.mono hin; have z1 := z1.mono hin
  have x2 := x2.mono hin; have y2 := y2.mono hin; have z2 := z2.mono hin
  have bx := box_three s0 s1 s2 se' (Flt.lit 0)
  have nm := normal_decides (d := inner L t) hL hL2 s0 se a0 a1 k0 k1 hP hd _ rfl
  exact combine hin0 x0 x1 x2 y0 y1 y2 z0 z1 z2 bx nm

end SatF32
end Verif
