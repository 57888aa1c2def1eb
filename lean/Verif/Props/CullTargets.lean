import Verif.Model.CullTargets
import Verif.Props.Cull
import Verif.Props.Place
import Verif.Props.GeomOps

/-!
# C103 and C112 on every backend and target
-/

namespace Verif
open F32 Spec Reliable

namespace CullTargets

/-- The computed squared length of a difference of two points. -/
theorem dist2_on (k : Backend) {a b : V4 F32} (ha : AllFinite [a.x, a.y, a.z]) (hb : AllFinite [b.x, b.y, b.z])
    (h : dist2 (pos a) (pos b) ≤ 2 ^ 126) :
    Err (k.dot3 (V4.sub a b) (V4.sub a b)) (dist2 (pos a) (pos b)) (dist2 (pos a) (pos b)) 5 3 := by
  simp only [AllFinite, List.mem_cons, List.not_mem_nil, or_false, forall_eq_or_imp, forall_eq] at ha hb
  obtain ⟨a1, a2, a3⟩ := ha
  obtain ⟨b1, b2, b3⟩ := hb
  have s1 := sq_nonneg (a.x.val - b.x.val)
  have s2 := sq_nonneg (a.y.val - b.y.val)
  have s3 := sq_nonneg (a.z.val - b.z.val)
  have hd : dist2 (pos a) (pos b) = (a.x.val - b.x.val) ^ 2 + (a.y.val - b.y.val) ^ 2 + (a.z.val - b.z.val) ^ 2 := rfl
  rw [hd] at h ⊢
  have x1 := err_sq (Err.diff a1 b1 (sq_bound (y := 2 ^ 126) (by linarith) le_rfl)) (by linarith)
  have x2 := err_sq (Err.diff a2 b2 (sq_bound (y := 2 ^ 126) (by linarith) le_rfl)) (by linarith)
  have x3 := err_sq (Err.diff a3 b3 (sq_bound (y := 2 ^ 126) (by linarith) le_rfl)) (by linarith)
  have sse : Err (Simd.dot3 (V4.sub a b) (V4.sub a b))
      ((a.x.val - b.x.val) ^ 2 + (a.y.val - b.y.val) ^ 2 + (a.z.val - b.z.val) ^ 2)
      ((a.x.val - b.x.val) ^ 2 + (a.y.val - b.y.val) ^ 2 + (a.z.val - b.z.val) ^ 2) 5 3 := by
    have r := (x1.add x2 (by linarith) (by norm_num) (by norm_num)).add
      (x3.add err_zero' (by linarith) (by norm_num) (by norm_num)) (by linarith) (by norm_num) (by norm_num)
    rw [add_zero] at r
    exact r
  have seq : Err (V3.dot (V4.sub a b).xyz (V4.sub a b).xyz)
      ((a.x.val - b.x.val) ^ 2 + (a.y.val - b.y.val) ^ 2 + (a.z.val - b.z.val) ^ 2)
      ((a.x.val - b.x.val) ^ 2 + (a.y.val - b.y.val) ^ 2 + (a.z.val - b.z.val) ^ 2) 5 3 :=
    (x1.add x2 (by linarith) (by norm_num) (by norm_num)).add (x3.mono (k' := 4) (by norm_num) le_rfl le_rfl)
      (by linarith) (by norm_num) (by norm_num)
  cases k
  exacts [seq, sse, sse, seq]

end CullTargets
open CullTargets

/-- C103, on every backend: the answer of `isInside(sphere, point)` for finite values whose squares stay below 2^126: true only if the squared
distance is below the squared radius plus the slack, and true whenever it is below by more than the slack. -/
theorem sphere_isInside_targets_f32 (k : Backend) (s : Sphere F32) (p : V4 F32) (hs : AllFinite s.posRad.toList) (hp : AllFinite [p.x, p.y, p.z])
    (hd : dist2 (pos s.posRad) (pos p) ≤ 2 ^ 126) (hr : rv s.radius ^ 2 ≤ 2 ^ 126) :
    (s.isInsideOn k p = true → dist2 (pos s.posRad) (pos p) <
      rv s.radius ^ 2 + slack (dist2 (pos s.posRad) (pos p) + rv s.radius ^ 2)) ∧
    (dist2 (pos s.posRad) (pos p) + slack (dist2 (pos s.posRad) (pos p) + rv s.radius ^ 2) < rv s.radius ^ 2 →
      s.isInsideOn k p = true) :=
  lt_reliable (dist2_on k (fin_first3 hs) hp hd) (err_rr (VecAcc.fin4 hs).2.2.2 hr) (by norm_num) (by norm_num) (by norm_num)
    (by norm_num)

/-- C103, on every backend: two spheres. -/
theorem sphere_isIntersected_targets_f32 (k : Backend) (a b : Sphere F32) (ha : AllFinite a.posRad.toList) (hb : AllFinite b.posRad.toList)
    (hd : dist2 (pos a.posRad) (pos b.posRad) ≤ 2 ^ 126) (hr : (rv a.radius + rv b.radius) ^ 2 ≤ 2 ^ 126) :
    (a.isIntersectedOn k b = true → dist2 (pos a.posRad) (pos b.posRad) ≤
      (rv a.radius + rv b.radius) ^ 2 + slack (dist2 (pos a.posRad) (pos b.posRad) + (rv a.radius + rv b.radius) ^ 2)) ∧
    (dist2 (pos a.posRad) (pos b.posRad) + slack (dist2 (pos a.posRad) (pos b.posRad) + (rv a.radius + rv b.radius) ^ 2) ≤
      (rv a.radius + rv b.radius) ^ 2 → a.isIntersectedOn k b = true) :=
  le_reliable (dist2_on k (fin_first3 ha) (fin_first3 hb) hd)
    (err_sq (err_plus (VecAcc.fin4 ha).2.2.2 (VecAcc.fin4 hb).2.2.2 (sq_bound hr le_rfl)) hr) (by norm_num) (by norm_num)
    (by norm_num) (by norm_num)

/-- C103, on every backend: sphere against box: the same with the squared distance from the centre to the nearest point of the box. -/
theorem sphere_isIntersectedB_targets_f32 (k : Backend) (s : Sphere F32) (b : Aabb F32) (hs : AllFinite s.posRad.toList) (hb : FiniteBox b)
    (hr : rv s.radius ^ 2 ≤ 2 ^ 126) :
    ∃ c, Nearest (boxPts b) (pos s.posRad) c ∧ (dist2 (pos s.posRad) c ≤ 2 ^ 126 →
      (s.isIntersectedBOn k b = true → dist2 (pos s.posRad) c <
        rv s.radius ^ 2 + slack (dist2 (pos s.posRad) c + rv s.radius ^ 2)) ∧
      (dist2 (pos s.posRad) c + slack (dist2 (pos s.posRad) c + rv s.radius ^ 2) < rv s.radius ^ 2 →
        s.isIntersectedBOn k b = true)) := by
  obtain ⟨hf, v1, v2, v3⟩ := hb
  simp only [AllFinite, List.mem_cons, List.not_mem_nil, or_false, forall_eq_or_imp, forall_eq] at hf
  obtain ⟨f1, f2, f3, f4, f5, f6⟩ := hf
  have ok : ∀ {x : F32}, x.isFinite = true → Valued.ok x := fun h => (finite_notNaN h).1
  obtain ⟨g1, g2, g3, g4⟩ := VecAcc.fin4 hs
  have ho : OkBox b := ⟨⟨ok f1, ok f2, ok f3⟩, ok f4, ok f5, ok f6⟩
  obtain ⟨hn, -⟩ := closestPoint_box b s.posRad ho ⟨v1, v2, v3⟩ ⟨ok g1, ok g2, ok g3⟩
  refine ⟨pos (b.closestPoint s.posRad), hn, fun hd => ?_⟩
  have hc := closest_finite g1 g2 g3 f1 f2 f3 f4 f5 f6
  exact lt_reliable (dist2_on k (fin_first3 hs) hc hd) (err_rr g4 hr) (by norm_num) (by norm_num) (by norm_num) (by norm_num)

namespace CullTargets

theorem distance_on (k : Backend) {pl : Plane F32} {p : V4 F32} (hn : AllFinite pl.normDist.toList) (hp : AllFinite [p.x, p.y, p.z])
    (h : planeSize pl (pos p) ≤ 2 ^ 126) : Err (pl.distanceOn k p) (planeAt pl (pos p)) (planeSize pl (pos p)) 4 3 := by
  obtain ⟨n1, n2, n3, n4⟩ := VecAcc.fin4 hn
  simp only [AllFinite, List.mem_cons, List.not_mem_nil, or_false, forall_eq_or_imp, forall_eq] at hp
  obtain ⟨p1, p2, p3⟩ := hp
  have hd : planeSize pl (pos p) = |pl.normDist.x.val| * |p.x.val| + |pl.normDist.y.val| * |p.y.val| +
    |pl.normDist.z.val| * |p.z.val| + |pl.normDist.w.val| := rfl
  rw [hd] at h ⊢
  have q1 := mul_nonneg (abs_nonneg pl.normDist.x.val) (abs_nonneg p.x.val)
  have q2 := mul_nonneg (abs_nonneg pl.normDist.y.val) (abs_nonneg p.y.val)
  have q3 := mul_nonneg (abs_nonneg pl.normDist.z.val) (abs_nonneg p.z.val)
  have q4 := abs_nonneg pl.normDist.w.val
  have w4 := (Err.self n4).mono (Nat.zero_le 3) le_rfl le_rfl
  have m1 := (Err.prod n1 p1 (by linarith)).add (Err.prod n2 p2 (by linarith)) (by linarith) (by norm_num) (by norm_num)
  have m3 := Err.prod n3 p3 (by linarith)
  have sse : Err (fadd (Simd.dot3 pl.normDist p) pl.normDist.w) (pl.normDist.x.val * p.x.val + pl.normDist.y.val * p.y.val +
      pl.normDist.z.val * p.z.val + pl.normDist.w.val) (|pl.normDist.x.val| * |p.x.val| + |pl.normDist.y.val| * |p.y.val| +
      |pl.normDist.z.val| * |p.z.val| + |pl.normDist.w.val|) 4 3 := by
    have r := (m1.add (m3.add VecAcc.err_zero (by linarith) (by norm_num) (by norm_num)) (by linarith) (by norm_num)
      (by norm_num)).add w4 (by linarith) (by norm_num) (by norm_num)
    rw [add_zero, add_zero] at r
    exact r
  have seq : Err (fadd (V3.dot pl.normDist.xyz p.xyz) pl.normDist.w) (pl.normDist.x.val * p.x.val + pl.normDist.y.val * p.y.val +
      pl.normDist.z.val * p.z.val + pl.normDist.w.val) (|pl.normDist.x.val| * |p.x.val| + |pl.normDist.y.val| * |p.y.val| +
      |pl.normDist.z.val| * |p.z.val| + |pl.normDist.w.val|) 4 3 :=
    (m1.add (m3.mono (k' := 2) (by norm_num) le_rfl le_rfl) (by linarith) (by norm_num) (by norm_num)).add w4 (by linarith)
      (by norm_num) (by norm_num)
  cases k
  exacts [seq, sse, sse, seq]

end CullTargets

/-- C103, on every backend: `distance3(plane, point)` is within the slack of the exact value. -/
theorem plane_distance_targets_f32 (k : Backend) (pl : Plane F32) (p : V4 F32) (hn : AllFinite pl.normDist.toList) (hp : AllFinite [p.x, p.y, p.z])
    (h : planeSize pl (pos p) ≤ 2 ^ 126) : Near (pl.distanceOn k p) (planeAt pl (pos p)) (slack (planeSize pl (pos p))) := by
  have e := distance_on k hn hp h
  refine ⟨e.1, (err_le e (by norm_num) (by norm_num)).trans ?_⟩
  unfold slack
  have : (1 : ℝ) / 2 ^ 148 ≤ 1 / 2 ^ 147 := by norm_num
  linarith

namespace CullTargets

theorem planeRejects_on (k : Backend) (pl : Plane F32) (v0 v1 v2 v3 v4 v5 v6 v7 : V4 F32) :
    Aabb.planeRejectsOn k pl [v0, v1, v2, v3, v4, v5, v6, v7] = true ↔
      ∀ v ∈ [v0, v1, v2, v3, v4, v5, v6, v7], ltb (pl.distanceOn k v) (ofRat 0) = true := by
  simp only [List.forall_mem_cons, List.not_mem_nil, false_imp_iff, implies_true, and_true]
  unfold Aabb.planeRejectsOn
  simp only [V4.splat, V4.cmp, V4.band, V4.map2, Verif.mask_and, (mask_tests_isa k.isa _ _ _ _).1, Bool.and_eq_true]
  constructor
  · rintro ⟨⟨⟨⟨a, b⟩, c, d⟩, e, f⟩, g, h⟩; exact ⟨a, c, e, g, b, d, f, h⟩
  · rintro ⟨a, c, e, g, b, d, f, h⟩; exact ⟨⟨⟨⟨a, b⟩, c, d⟩, e, f⟩, g, h⟩

theorem rejects_on (k : Backend) (pl : Plane F32) (b : Aabb F32) (f : V4 F32 → V4 F32) :
    Aabb.planeRejectsOn k pl (b.corners.map f) = true ↔ ∀ v ∈ b.corners, ltb (pl.distanceOn k (f v)) (ofRat 0) = true := by
  simp only [Aabb.corners, List.map_cons, List.map_nil, planeRejects_on, List.forall_mem_cons]
  simp

theorem anyRejects_on (k : Backend) (vs : List (V4 F32)) (planes : List (Plane F32)) :
    Aabb.anyRejectsOn k vs planes = true ↔ ∃ pl ∈ planes, Aabb.planeRejectsOn k pl vs = true := by
  induction planes with
  | nil => simp [Aabb.anyRejectsOn]
  | cons pl rest ih =>
    rw [Aabb.anyRejectsOn]
    by_cases h : Aabb.planeRejectsOn k pl vs = true <;> simp [h, ih]

end CullTargets

/-- C103, on every backend: frustum culling of a box in binary32, for any number of planes. When a box is culled, some plane has the whole box
below the slack: no point of the box is inside by more than that. When some plane has the whole box below minus the slack,
the box is culled. -/
theorem isBehindFrustum_targets_f32 (k : Backend) (planes : List (Plane F32)) (b : Aabb F32) (hb : FiniteBox b)
    (hn : ∀ pl ∈ planes, AllFinite pl.normDist.toList) (hs : ∀ pl ∈ planes, planeSize pl (farthest b) ≤ 2 ^ 126) :
    (Aabb.isBehindFrustumOn k planes b = true →
      ∃ pl ∈ planes, ∀ p ∈ boxPts b, planeAt pl p < slack (planeSize pl (farthest b))) ∧
    ((∃ pl ∈ planes, ∀ p ∈ boxPts b, planeAt pl p < - slack (planeSize pl (farthest b))) →
      Aabb.isBehindFrustumOn k planes b = true) := by
  have main : ∀ pl ∈ planes, ∀ v ∈ b.corners, (pl.distanceOn k v).isFinite = true ∧
      |(pl.distanceOn k v).val - planeAt pl (pos v)| ≤ slack (planeSize pl (farthest b)) := by
    intro pl hpl v hv
    obtain ⟨g1, g2, -⟩ := corner_props hb hv
    obtain ⟨m1, m2, m3⟩ := mem_far g2
    have hsz := planeSize_mono (pl := pl) m1 m2 m3
    have e := plane_distance_targets_f32 k pl v (hn pl hpl) (fin_first3 g1) (hsz.trans (hs pl hpl))
    refine ⟨e.1, e.2.trans ?_⟩
    unfold slack; gcongr
  unfold Aabb.isBehindFrustumOn
  rw [anyRejects_on]
  have rj : ∀ pl, Aabb.planeRejectsOn k pl b.corners = true ↔ ∀ v ∈ b.corners, ltb (pl.distanceOn k v) (ofRat 0) = true := by
    intro pl; have := rejects_on k pl b id; rwa [List.map_id] at this
  constructor
  · rintro ⟨pl, hpl, h⟩
    rw [rj] at h
    refine ⟨pl, hpl, fun p hp => ?_⟩
    refine affine_lt (rv pl.normDist.x) (rv pl.normDist.y) (rv pl.normDist.z) (rv pl.normDist.w) _ (fun v hv => ?_) hp
    obtain ⟨e1, e2⟩ := main pl hpl v hv
    have := h v hv
    rw [flt_iff e1 zero_lit.1, zero_lit.2] at this
    have e3 := (abs_le.1 e2).1
    show planeAt pl (pos v) < _
    linarith
  · rintro ⟨pl, hpl, h⟩
    refine ⟨pl, hpl, (rj pl).2 fun v hv => ?_⟩
    obtain ⟨e1, e2⟩ := main pl hpl v hv
    rw [flt_iff e1 zero_lit.1, zero_lit.2]
    have e3 := (abs_le.1 e2).2
    linarith [h (pos v) (corner_props hb hv).2.1]

/-- C103, on every backend and target: the same with a model matrix; the exact question is about the box placed by the exact matrix. -/
theorem isBehindFrustumM_targets_f32 (k : Backend) (tg : FTarget) (planes : List (Plane F32)) (b : Aabb F32) (m : M4 F32) (hb : FiniteBox b) (hm : FinM m)
    (hn : ∀ pl ∈ planes, AllFinite pl.normDist.toList)
    (hc : (sendsSize m (farthest b)).x ≤ 2 ^ 125 ∧ (sendsSize m (farthest b)).y ≤ 2 ^ 125 ∧
      (sendsSize m (farthest b)).z ≤ 2 ^ 125)
    (hs : ∀ pl ∈ planes, planeSize pl (sendsSize m (farthest b)) ≤ 2 ^ 125) :
    (Aabb.isBehindFrustumMOn k tg planes b m = true → ∃ pl ∈ planes, ∀ p ∈ boxPts b,
      planeAt pl (sends m p) < slackM pl (planeSize pl (sendsSize m (farthest b)))) ∧
    ((∃ pl ∈ planes, ∀ p ∈ boxPts b,
        planeAt pl (sends m p) < - slackM pl (planeSize pl (sendsSize m (farthest b)))) →
      Aabb.isBehindFrustumMOn k tg planes b m = true) := by
  have main : ∀ pl ∈ planes, ∀ v ∈ b.corners, (pl.distanceOn k (F32x4.mulVOn k tg m v)).isFinite = true ∧
      |(pl.distanceOn k (F32x4.mulVOn k tg m v)).val - planeAt pl (sends m (pos v))| ≤ slackM pl (planeSize pl (sendsSize m (farthest b))) := by
    intro pl hpl v hv
    obtain ⟨g1, g2, g3⟩ := corner_props hb hv
    obtain ⟨m1, m2, m3⟩ := mem_far g2
    have hok : MulVOk m v (F32x4.mulVOn k tg m v) := PlaceP.entry_ok k tg hm g1
    obtain ⟨o1, o2, o3, -⟩ := hok
    obtain ⟨k1, k2, k3⟩ := hc
    have x1 := placed_coord o1 g3 m1 m2 m3 (k1.trans (by norm_num))
    have x2 := placed_coord o2 g3 m1 m2 m3 (k2.trans (by norm_num))
    have x3 := placed_coord o3 g3 m1 m2 m3 (k3.trans (by norm_num))
    have y1 := placed_size (c0 := rv m.c0.x) (c1 := rv m.c1.x) (c2 := rv m.c2.x) (c3 := rv m.c3.x) m1 m2 m3
    have y2 := placed_size (c0 := rv m.c0.y) (c1 := rv m.c1.y) (c2 := rv m.c2.y) (c3 := rv m.c3.y) m1 m2 m3
    have y3 := placed_size (c0 := rv m.c0.z) (c1 := rv m.c1.z) (c2 := rv m.c2.z) (c3 := rv m.c3.z) m1 m2 m3
    have hS := hs pl hpl
    obtain ⟨n1, n2, n3, n4⟩ := VecAcc.fin4 (hn pl hpl)
    have big : ∀ {x : F32}, x.isFinite = true → |rv x| ≤ 2 ^ 128 := fun h => finite_abs h
    have hf3 : AllFinite [(F32x4.mulVOn k tg m v).x, (F32x4.mulVOn k tg m v).y, (F32x4.mulVOn k tg m v).z] := by
      simp only [AllFinite, List.mem_cons, List.not_mem_nil, or_false, forall_eq_or_imp, forall_eq]
      exact ⟨x1.1, x2.1, x3.1⟩
    have key := place_core (n1 := rv pl.normDist.x) (n2 := rv pl.normDist.y) (n3 := rv pl.normDist.z) (w := rv pl.normDist.w)
      x1.2 x2.2 x3.2 y1 y2 y3 (big n1) (big n2) (big n3)
      (by simpa only [planeSize, sendsSize, abs_of_nonneg (size_nonneg _ _ _ _ _ _ _)] using hS)
    have e := plane_distance_targets_f32 k pl (F32x4.mulVOn k tg m v) (hn pl hpl) hf3 key.1
    refine ⟨e.1, ?_⟩
    have tri := abs_sub_le (pl.distanceOn k (F32x4.mulVOn k tg m v)).val (planeAt pl (pos (F32x4.mulVOn k tg m v))) (planeAt pl (sends m (pos v)))
    refine (tri.trans (add_le_add e.2 le_rfl)).trans ?_
    simpa only [slackM, planeSize, planeAt, pos, sends, sendsSize, abs_of_nonneg (size_nonneg _ _ _ _ _ _ _)] using key.2
  unfold Aabb.isBehindFrustumMOn
  rw [anyRejects_on]
  constructor
  · rintro ⟨pl, hpl, h⟩
    rw [rejects_on] at h
    refine ⟨pl, hpl, fun p hp => ?_⟩
    have aff : ∀ q : V3 ℝ, planeAt pl (sends m q) =
        (rv pl.normDist.x * rv m.c0.x + rv pl.normDist.y * rv m.c0.y + rv pl.normDist.z * rv m.c0.z) * q.x +
        (rv pl.normDist.x * rv m.c1.x + rv pl.normDist.y * rv m.c1.y + rv pl.normDist.z * rv m.c1.z) * q.y +
        (rv pl.normDist.x * rv m.c2.x + rv pl.normDist.y * rv m.c2.y + rv pl.normDist.z * rv m.c2.z) * q.z +
        (rv pl.normDist.x * rv m.c3.x + rv pl.normDist.y * rv m.c3.y + rv pl.normDist.z * rv m.c3.z + rv pl.normDist.w) := by
      intro q; simp only [planeAt, sends]; ring
    rw [aff]
    refine affine_lt _ _ _ _ _ (fun v hv => ?_) hp
    rw [← aff]
    obtain ⟨e1, e2⟩ := main pl hpl v hv
    have := h v hv
    rw [flt_iff e1 zero_lit.1, zero_lit.2] at this
    have e3 := (abs_le.1 e2).1
    linarith
  · rintro ⟨pl, hpl, h⟩
    refine ⟨pl, hpl, (rejects_on k pl b _).2 fun v hv => ?_⟩
    obtain ⟨e1, e2⟩ := main pl hpl v hv
    rw [flt_iff e1 zero_lit.1, zero_lit.2]
    have e3 := (abs_le.1 e2).2
    linarith [h (pos v) (corner_props hb hv).2.1]

namespace CullTargets

/-- The culling decision, when every computed plane is a multiple of a face up to `d`. -/
theorem decision_on (k : Backend) {planes : List (Plane F32)} {b : Aabb F32} {m : M4 F32} {e : ℝ} (hb : FiniteBox b)
    (h : List.Forall₂ (fun pl g => AllFinite pl.normDist.toList ∧ planeSize pl (farthest b) ≤ 2 ^ 126 ∧
      ∃ c d : ℝ, 0 < c ∧ (∀ p ∈ boxPts b, |planeAt pl p - c * g (clipAt m p)| ≤ d) ∧
        slack (planeSize pl (farthest b)) + d ≤ c * e) planes faces) :
    (Aabb.isBehindFrustumOn k planes b = true → ∃ g ∈ faces, ∀ p ∈ boxPts b, g (clipAt m p) < e) ∧
    ((∃ g ∈ faces, ∀ p ∈ boxPts b, g (clipAt m p) < - e) → Aabb.isBehindFrustumOn k planes b = true) := by
  have l1 : ∀ pl ∈ planes, ∃ g ∈ faces, AllFinite pl.normDist.toList ∧ planeSize pl (farthest b) ≤ 2 ^ 126 ∧
      ∃ c d : ℝ, 0 < c ∧ (∀ p ∈ boxPts b, |planeAt pl p - c * g (clipAt m p)| ≤ d) ∧
        slack (planeSize pl (farthest b)) + d ≤ c * e := by
    intro pl hpl
    obtain ⟨i, hi, rfl⟩ := List.mem_iff_getElem.1 hpl
    exact ⟨faces[i]'(h.length_eq ▸ hi), List.getElem_mem _, (List.forall₂_iff_get.1 h).2 i hi (h.length_eq ▸ hi)⟩
  have l2 : ∀ g ∈ faces, ∃ pl ∈ planes, AllFinite pl.normDist.toList ∧ planeSize pl (farthest b) ≤ 2 ^ 126 ∧
      ∃ c d : ℝ, 0 < c ∧ (∀ p ∈ boxPts b, |planeAt pl p - c * g (clipAt m p)| ≤ d) ∧
        slack (planeSize pl (farthest b)) + d ≤ c * e := by
    intro g hg
    obtain ⟨i, hi, rfl⟩ := List.mem_iff_getElem.1 hg
    exact ⟨planes[i]'(h.length_eq.symm ▸ hi), List.getElem_mem _, (List.forall₂_iff_get.1 h).2 i (h.length_eq.symm ▸ hi) hi⟩
  obtain ⟨k1, k2⟩ := isBehindFrustum_targets_f32 k planes b hb (fun pl hpl => (l1 pl hpl).choose_spec.2.1)
    (fun pl hpl => (l1 pl hpl).choose_spec.2.2.1)
  constructor
  · intro hc
    obtain ⟨pl, hpl, hp⟩ := k1 hc
    obtain ⟨g, hg, -, -, c, d, c0, hd, he⟩ := l1 pl hpl
    refine ⟨g, hg, fun p hp' => ?_⟩
    have h1 := (abs_le.1 (hd p hp')).1
    have h2 := hp p hp'
    have : c * g (clipAt m p) < c * e := by linarith
    exact lt_of_mul_lt_mul_left this c0.le
  · rintro ⟨g, hg, hp⟩
    obtain ⟨pl, hpl, -, -, c, d, c0, hd, he⟩ := l2 g hg
    refine k2 ⟨pl, hpl, fun p hp' => ?_⟩
    have h1 := (abs_le.1 (hd p hp')).2
    have h2 := mul_lt_mul_of_pos_left (hp p hp') c0
    linarith

theorem norm_on (k : Backend) (pl : Plane F32) : pl.normalizeOn k =
    ⟨⟨fdiv pl.normDist.x (fsqrt (k.dot3 pl.normDist pl.normDist)), fdiv pl.normDist.y (fsqrt (k.dot3 pl.normDist pl.normDist)),
      fdiv pl.normDist.z (fsqrt (k.dot3 pl.normDist pl.normDist)), fdiv pl.normDist.w (fsqrt (k.dot3 pl.normDist pl.normDist))⟩⟩ := by
  have e : k.length3 pl.normDist = fsqrt (k.dot3 pl.normDist pl.normDist) := by cases k <;> rfl
  unfold Plane.normalizeOn V4.div V4.map2 V4.splat
  rw [e]
  generalize k.dot3 pl.normDist pl.normDist = l
  rfl

end CullTargets
open CullP

/-- C112, on every backend: culling a box by the planes extracted from a matrix, in binary32. When a box is culled, no point of it is inside the
clip volume by more than the slack `clipSize / 2^19 + 2^-147` at some face; when the whole box is outside one face by more than
the slack, it is culled. -/
theorem cull_targets_f32 (k : Backend) (m : M4 F32) (b : Aabb F32) (hm : EntriesLe m (2 ^ 100)) (hb : FiniteBox b)
    (hs : clipSize m (farthest b) ≤ 2 ^ 120) :
    (Aabb.isBehindFrustumOn k (Plane.extractFrustum m) b = true →
      ∃ g ∈ faces, ∀ p ∈ boxPts b, g (clipAt m p) < clipSize m (farthest b) / 2 ^ 19 + 1 / 2 ^ 147) ∧
    ((∃ g ∈ faces, ∀ p ∈ boxPts b, g (clipAt m p) < - (clipSize m (farthest b) / 2 ^ 19 + 1 / 2 ^ 147)) →
      Aabb.isBehindFrustumOn k (Plane.extractFrustum m) b = true) := by
  refine decision_on k hb ((extract_known hm le_rfl (farthest b)).imp fun pl g hk => ?_)
  obtain ⟨fin, x, y, z, w, hg, ex, ey, ez, ew, hS, -⟩ := hk
  have S0 := clipSize_nonneg m (farthest b)
  have u0 : 0 ≤ uro := by unfold uro; positivity
  obtain ⟨p1, p2⟩ := plane_close (pl := pl) (x := x) (y := y) (z := z) (w := w) (r := uro) (t := 0) u0 le_rfl (by linarith) (by linarith) (by linarith) (by linarith) (farthest b)
  set G := |x| * |(farthest b).x| + |y| * |(farthest b).y| + |z| * |(farthest b).z| + |w|
  have uu : uro = 1 / 2 ^ 24 := rfl
  rw [uu] at p1 p2
  refine ⟨fin, ?_, 1, 1 / 2 ^ 24 * G, one_pos, fun p hp => ?_, ?_⟩
  · linarith
  · obtain ⟨m1, m2, m3⟩ := mem_far hp
    have := p2 p m1 m2 m3
    rw [one_mul, hg]; linarith
  · unfold slack; linarith

/-- C112, on every backend: the same with the planes normalised after they were extracted. -/
theorem cull_normalized_targets_f32 (k : Backend) (m : M4 F32) (b : Aabb F32) (hm : EntriesLe m (2 ^ 48)) (hb : FiniteBox b)
    (hs : clipSize m (farthest b) ≤ 2 ^ 60) (hz : size1 (farthest b) ≤ 2 ^ 100)
    (hn : ∀ pl ∈ Plane.extractFrustum m, 1 / 2 ^ 100 ≤ normSq pl.normDist.xyz.toList) :
    (Aabb.isBehindFrustumOn k (Plane.normalizePlanesOn k (Plane.extractFrustum m)) b = true →
      ∃ g ∈ faces, ∀ p ∈ boxPts b,
        g (clipAt m p) < clipSize m (farthest b) / 2 ^ 19 + (1 + size1 (farthest b)) / 2 ^ 95) ∧
    ((∃ g ∈ faces, ∀ p ∈ boxPts b,
        g (clipAt m p) < - (clipSize m (farthest b) / 2 ^ 19 + (1 + size1 (farthest b)) / 2 ^ 95)) →
      Aabb.isBehindFrustumOn k (Plane.normalizePlanesOn k (Plane.extractFrustum m)) b = true) := by
  have S0 := clipSize_nonneg m (farthest b)
  have s0 : 0 ≤ size1 (farthest b) := by unfold size1; positivity
  have K : List.Forall₂ (fun pl g => 1 / 2 ^ 100 ≤ normSq pl.normDist.xyz.toList ∧ Known m (2 ^ 48) (farthest b) pl g)
      (Plane.extractFrustum m) faces := by
    have h := extract_known hm (by norm_num) (farthest b)
    rw [List.forall₂_iff_get] at h ⊢
    exact ⟨h.1, fun i h1 h2 => ⟨hn _ (List.getElem_mem _), h.2 i h1 h2⟩⟩
  refine decision_on k hb ?_
  unfold Plane.normalizePlanesOn
  rw [List.forall₂_map_left_iff]
  refine K.imp fun pl g hk => ?_
  obtain ⟨hX, fin, x, y, z, w, hg, ex, ey, ez, ew, hS, bx, by', bz, bw⟩ := hk
  obtain ⟨fx, fy, fz, fw⟩ := VecAcc.fin4 fin
  have uu : uro = 1 / 2 ^ 24 := rfl
  -- the length of the normal
  set X := normSq pl.normDist.xyz.toList with hXd
  have val : ∀ {a : F32} {α : ℝ}, |rv a - α| ≤ uro * |α| → |α| ≤ 2 * 2 ^ 48 → rv a ^ 2 ≤ 2 ^ 100 := by
    intro a α h1 h2
    rw [uu] at h1
    have := abs_add_le (rv a - α) α
    rw [sub_add_cancel] at this
    have h3 : |rv a| ≤ 2 ^ 50 := by linarith
    calc rv a ^ 2 = |rv a| ^ 2 := (sq_abs _).symm
      _ ≤ (2 ^ 50) ^ 2 := by gcongr
      _ = 2 ^ 100 := by norm_num
  have hX2 : X ≤ 2 ^ 102 := by
    have e : X = rv pl.normDist.x ^ 2 + (rv pl.normDist.y ^ 2 + (rv pl.normDist.z ^ 2 + 0)) := rfl
    have := val ex bx; have := val ey by'; have := val ez bz
    rw [e]; linarith
  have X0 : 0 < X := lt_of_lt_of_le (by positivity) hX
  obtain ⟨r1, r2⟩ := LenAcc.knownK3 k (v := pl.normDist) (fin_xyz fx fy fz) (hX2.trans (by norm_num))
  obtain ⟨l1, l2⟩ := LenAcc.len_rel r1 r2 hX (hX2.trans (by norm_num))
  rw [← hXd] at l2
  have L1 : 1 / 2 ^ 50 ≤ Real.sqrt X := by
    apply Real.le_sqrt_of_sq_le
    refine le_trans (le_of_eq ?_) hX
    norm_num
  have L2 : Real.sqrt X ≤ 2 ^ 51 := by
    rw [Real.sqrt_le_left (by positivity)]
    refine hX2.trans (le_of_eq ?_)
    norm_num
  rw [norm_on]
  generalize fsqrt (k.dot3 pl.normDist pl.normDist) = l at l1 l2 ⊢
  generalize Real.sqrt X = L at l2 L1 L2
  have L0 : 0 < L := lt_of_lt_of_le (by positivity) L1
  have qx := quot fx l1 l2 L1 ex bx
  have qy := quot fy l1 l2 L1 ey by'
  have qz := quot fz l1 l2 L1 ez bz
  have qw := quot fw l1 l2 L1 ew bw
  obtain ⟨p1, p2⟩ := plane_close
    (pl := ⟨⟨fdiv pl.normDist.x l, fdiv pl.normDist.y l, fdiv pl.normDist.z l, fdiv pl.normDist.w l⟩⟩)
    (x := x / L) (y := y / L) (z := z / L) (w := w / L) (r := 6 / 2 ^ 24) (t := 1 / 2 ^ 150)
    (by positivity) (by positivity) qx.2 qy.2 qz.2 qw.2 (farthest b)
  have hG : |x / L| * |(farthest b).x| + |y / L| * |(farthest b).y| + |z / L| * |(farthest b).z| + |w / L| =
      (|x| * |(farthest b).x| + |y| * |(farthest b).y| + |z| * |(farthest b).z| + |w|) / L := by
    simp only [abs_div, abs_of_pos L0]; ring
  rw [hG] at p1 p2
  set G := (|x| * |(farthest b).x| + |y| * |(farthest b).y| + |z| * |(farthest b).z| + |w|) / L with hGd
  have G1 : G ≤ 2 * (1 / L * clipSize m (farthest b)) := by
    rw [hGd, div_le_iff₀ L0]
    have : 2 * (1 / L * clipSize m (farthest b)) * L = 2 * clipSize m (farthest b) := by field_simp
    linarith
  have c1 : 1 / L ≤ 2 ^ 50 := by
    rw [div_le_iff₀ L0]
    have := mul_le_mul_of_nonneg_left L1 (show (0 : ℝ) ≤ 2 ^ 50 by positivity)
    linarith
  have c2 : 1 / 2 ^ 51 ≤ 1 / L := one_div_le_one_div_of_le L0 L2
  have c0 : 0 < 1 / L := by positivity
  set c := 1 / L with hc
  have S2 : c * clipSize m (farthest b) ≤ 2 ^ 50 * 2 ^ 60 := mul_le_mul c1 hs S0 (by positivity)
  refine ⟨allFinite4 qx.1 qy.1 qz.1 qw.1, ?_, c, 6 / 2 ^ 24 * G + 1 / 2 ^ 150 * (1 + size1 (farthest b)), c0, fun p hp => ?_, ?_⟩
  · linarith
  · obtain ⟨m1, m2, m3⟩ := mem_far hp
    have := p2 p m1 m2 m3
    rw [hg]
    have e : c * (x * p.x + y * p.y + z * p.z + w) = x / L * p.x + y / L * p.y + z / L * p.z + w / L := by rw [hc]; ring
    rw [e]; exact this
  · have e1 := mul_le_mul_of_nonneg_right c2 (show 0 ≤ (1 + size1 (farthest b)) / 2 ^ 95 by positivity)
    have S3 : 0 ≤ c * clipSize m (farthest b) := by positivity
    rw [mul_add c]
    unfold slack
    have e2 : c * (clipSize m (farthest b) / 2 ^ 19) = c * clipSize m (farthest b) / 2 ^ 19 := by ring
    rw [e2]
    linarith

/-- C112, on every backend: a box with a point that is inside every face of the clip volume by at least the slack is never culled, neither with
the extracted planes nor with the normalised ones. -/
theorem cull_keeps_targets_f32 (k : Backend) (m : M4 F32) (b : Aabb F32) (hm : EntriesLe m (2 ^ 48)) (hb : FiniteBox b)
    (hs : clipSize m (farthest b) ≤ 2 ^ 60) (hz : size1 (farthest b) ≤ 2 ^ 100)
    (hn : ∀ pl ∈ Plane.extractFrustum m, 1 / 2 ^ 100 ≤ normSq pl.normDist.xyz.toList)
    (p : V3 ℝ) (hp : p ∈ boxPts b)
    (hv : ∀ g ∈ faces, clipSize m (farthest b) / 2 ^ 19 + (1 + size1 (farthest b)) / 2 ^ 95 ≤ g (clipAt m p)) :
    Aabb.isBehindFrustumOn k (Plane.extractFrustum m) b = false ∧
    Aabb.isBehindFrustumOn k (Plane.normalizePlanesOn k (Plane.extractFrustum m)) b = false := by
  have s0 : 0 ≤ size1 (farthest b) := by unfold size1; positivity
  constructor
  · rw [← Bool.not_eq_true]
    intro h
    obtain ⟨g, hg, q⟩ := (cull_targets_f32 k m b (fun x hx => ⟨(hm x hx).1, (hm x hx).2.trans (by norm_num)⟩) hb
      (hs.trans (by norm_num))).1 h
    have h1 := q p hp
    have h2 := hv g hg
    have h3 : (1 : ℝ) / 2 ^ 147 ≤ 1 / 2 ^ 95 := by norm_num
    linarith
  · rw [← Bool.not_eq_true]
    intro h
    obtain ⟨g, hg, q⟩ := (cull_normalized_targets_f32 k m b hm hb hs hz hn).1 h
    exact absurd (q p hp) (not_lt.2 (hv g hg))

/-- The hypotheses are met by that matrix and the unit box, whose centre is well inside the clip volume. -/
example (k : Backend) : Aabb.isBehindFrustumOn k (Plane.extractFrustum plainView) unitBox = false ∧
    Aabb.isBehindFrustumOn k (Plane.normalizePlanesOn k (Plane.extractFrustum plainView)) unitBox = false := by
  have h0 : rv f0 = 0 := by unfold rv; rw [show f0.toRat = 0 by decide +kernel]; simp
  have h1 : rv f1 = 1 := by unfold rv; rw [show f1.toRat = 1 by decide +kernel]; simp
  have le : ∀ {a b : F32}, a.toRat ≤ b.toRat → rv a ≤ rv b := fun h => by unfold rv; exact_mod_cast h
  have far : farthest unitBox = ⟨1, 1, 1⟩ := by
    simp only [farthest, unitBox, V4.splat, h0, h1]; norm_num
  have cs : clipSize plainView ⟨1, 1, 1⟩ = 1 := by simp only [clipSize, plainView, h0, h1]; norm_num
  have sz : size1 ⟨1, 1, 1⟩ = 3 := by simp only [size1]; norm_num
  refine cull_keeps_targets_f32 k plainView unitBox ?_ ⟨?_, le ?_, le ?_, le ?_⟩ ?_ ?_ ?_ ⟨1 / 2, 1 / 2, 1 / 2⟩ ?_ ?_
  · intro x hx
    simp only [plainView, V4.toList, List.cons_append, List.nil_append, List.mem_cons, List.not_mem_nil, or_false] at hx
    have : x = f0 ∨ x = f1 := by tauto
    rcases this with rfl | rfl
    · exact ⟨by decide +kernel, by rw [h0]; norm_num⟩
    · exact ⟨by decide +kernel, by rw [h1]; norm_num⟩
  · unfold AllFinite; decide +kernel
  · decide +kernel
  · decide +kernel
  · decide +kernel
  · rw [far, cs]; norm_num
  · rw [far, sz]; norm_num
  · have q : ∀ pl ∈ Plane.extractFrustum plainView, (1 : ℚ) ≤ (pl.normDist.xyz.toList.map fun x => x.toRat ^ 2).sum := by decide +kernel
    intro pl hpl
    have h := q pl hpl
    have e : normSq pl.normDist.xyz.toList = (((pl.normDist.xyz.toList.map fun x => x.toRat ^ 2).sum : ℚ) : ℝ) := by
      simp only [normSq, V3.toList, List.map_cons, List.map_nil, List.sum_cons, List.sum_nil, rv]; push_cast; rfl
    rw [e]
    have h' : (1 : ℝ) ≤ (((pl.normDist.xyz.toList.map fun x => x.toRat ^ 2).sum : ℚ) : ℝ) := by exact_mod_cast h
    exact le_trans (by norm_num) h'
  · simp only [boxPts, Box, pos, unitBox, V4.splat, h0, h1, Set.mem_ofPred_eq]; norm_num
  · rw [far, cs, sz]
    simp only [faces, List.forall_mem_cons, List.not_mem_nil, false_imp_iff, implies_true, and_true, clipAt, plainView, h0, h1,
      Matrix.cons_val]
    norm_num

/-- A box beyond x = 2 is culled by the planes of that matrix. -/
example (k : Backend) :
    Aabb.isBehindFrustumOn k (Plane.extractFrustum plainView) ⟨⟨f2, f0, f0, f0⟩, ⟨f2, f1, f1, f0⟩⟩ = true := by
  cases k <;> decide +kernel

/-- Spheres: the unit sphere at the origin holds (0.5, 0.5, 0.5) and not (1, 0, 0). -/
example (k : Backend) : AllFinite (⟨⟨f0, f0, f0, f1⟩⟩ : Sphere F32).posRad.toList ∧ AllFinite [fhalf, fhalf, fhalf] ∧
    (⟨⟨f0, f0, f0, f1⟩⟩ : Sphere F32).isInsideOn k ⟨fhalf, fhalf, fhalf, f0⟩ = true ∧
    (⟨⟨f0, f0, f0, f1⟩⟩ : Sphere F32).isInsideOn k ⟨f1, f0, f0, f0⟩ = false := by
  refine ⟨?_, ?_, ?_, ?_⟩ <;> (try unfold AllFinite) <;> cases k <;> decide +kernel

end Verif
