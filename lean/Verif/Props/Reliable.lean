import Verif.Spec.Reliable
import Verif.Props.LengthAccuracy
import Verif.Props.AabbQueries
import Verif.Props.Frustum

/-!
# C103: sphere, plane and frustum tests in binary32 are wrong only within rounding distance of the boundary
-/

namespace Verif
open F32 Spec F32x4

namespace Reliable

theorem flt_iff {a b : F32} (ha : a.isFinite = true) (hb : b.isFinite = true) : ltb a b = true ↔ a.val < b.val := by
  rw [ltb_finite ha hb]; exact (Rat.cast_lt (K := ℝ)).symm

theorem fle_iff {a b : F32} (ha : a.isFinite = true) (hb : b.isFinite = true) : leb a b = true ↔ a.val ≤ b.val := by
  rw [leb_finite ha hb]; exact (Rat.cast_le (K := ℝ)).symm

/-- Up to six roundings and three underflows. -/
theorem rounded_le {k m : ℕ} {W : ℝ} (hk : k ≤ 6) (hm : m ≤ 3) (hW : 0 ≤ W) : rounded k W m ≤ W / 2 ^ 21 + 1 / 2 ^ 148 := by
  refine (rounded_mono (k' := 6) (m' := 3) hk le_rfl hm hW).trans ?_
  unfold rounded uro
  have h1 : ((1 : ℝ) + 1 / 2 ^ 24) ^ 6 - 1 ≤ 1 / 2 ^ 21 := by norm_num
  have h2 : ((3 : ℕ) : ℝ) * (1 + 1 / 2 ^ 24) ^ 6 / 2 ^ 150 ≤ 1 / 2 ^ 148 := by norm_num
  have h3 := mul_le_mul_of_nonneg_right h1 hW
  linarith

theorem err_le {r : F32} {x W : ℝ} {k m : ℕ} (h : Err r x W k m) (hk : k ≤ 6) (hm : m ≤ 3) :
    |r.val - x| ≤ W / 2 ^ 21 + 1 / 2 ^ 148 := h.2.2.trans (rounded_le hk hm h.W_nonneg)

/-- A comparison of two values, both known up to half a slack. -/
theorem lt_reliable {c d : F32} {C D : ℝ} {k m k' m' : ℕ} (hc : Err c C C k m) (hd : Err d D D k' m') (hk : k ≤ 6) (hm : m ≤ 3)
    (hk' : k' ≤ 6) (hm' : m' ≤ 3) :
    (ltb c d = true → C < D + slack (C + D)) ∧ (C + slack (C + D) < D → ltb c d = true) := by
  have e1 := abs_le.1 (err_le hc hk hm)
  have e2 := abs_le.1 (err_le hd hk' hm')
  have e3 : (1 : ℝ) / 2 ^ 147 = 1 / 2 ^ 148 + 1 / 2 ^ 148 := by norm_num
  have e4 : (C + D) / 2 ^ 21 = C / 2 ^ 21 + D / 2 ^ 21 := by ring
  rw [flt_iff hc.1 hd.1]
  unfold slack
  rw [e3, e4]
  constructor <;> intro h <;> linarith [e1.1, e1.2, e2.1, e2.2]

theorem le_reliable {c d : F32} {C D : ℝ} {k m k' m' : ℕ} (hc : Err c C C k m) (hd : Err d D D k' m') (hk : k ≤ 6) (hm : m ≤ 3)
    (hk' : k' ≤ 6) (hm' : m' ≤ 3) :
    (leb c d = true → C ≤ D + slack (C + D)) ∧ (C + slack (C + D) ≤ D → leb c d = true) := by
  have e1 := abs_le.1 (err_le hc hk hm)
  have e2 := abs_le.1 (err_le hd hk' hm')
  have e3 : (1 : ℝ) / 2 ^ 147 = 1 / 2 ^ 148 + 1 / 2 ^ 148 := by norm_num
  have e4 : (C + D) / 2 ^ 21 = C / 2 ^ 21 + D / 2 ^ 21 := by ring
  rw [fle_iff hc.1 hd.1]
  unfold slack
  rw [e3, e4]
  constructor <;> intro h <;> linarith [e1.1, e1.2, e2.1, e2.2]

theorem sq_bound {x y : ℝ} (h : x ^ 2 ≤ y) (hy : y ≤ 2 ^ 126) : |x| ≤ 2 ^ 126 := by
  have h1 : |x| ^ 2 ≤ (2 ^ 63) ^ 2 := by rw [sq_abs]; exact h.trans (hy.trans (by norm_num))
  exact (abs_le_of_sq_le_sq' (by simpa using h1) (by norm_num)).2.trans (by norm_num)

theorem err_sq {r : F32} {x : ℝ} (h : Err r x |x| 1 0) (hx : x ^ 2 ≤ 2 ^ 126) : Err (fmul r r) (x ^ 2) (x ^ 2) 3 1 := by
  have e : |x| * |x| = x ^ 2 := by rw [← sq, sq_abs]
  have := h.mul h (by rw [e]; exact hx) (by norm_num)
  rw [e, ← sq] at this
  exact this

theorem err_zero' : Err (ofRat 0) 0 0 3 0 := VecAcc.err_zero.mono (by norm_num) le_rfl le_rfl

/-- The computed squared length of a difference of two points. -/
theorem dist2_err {a b : V4 F32} (ha : AllFinite [a.x, a.y, a.z]) (hb : AllFinite [b.x, b.y, b.z])
    (h : dist2 (pos a) (pos b) ≤ 2 ^ 126) :
    Err (Simd.lengthSq3 (V4.sub a b)) (dist2 (pos a) (pos b)) (dist2 (pos a) (pos b)) 5 3 := by
  simp only [AllFinite, List.mem_cons, List.not_mem_nil, or_false, forall_eq_or_imp, forall_eq] at ha hb
  obtain ⟨a1, a2, a3⟩ := ha
  obtain ⟨b1, b2, b3⟩ := hb
  have s1 := sq_nonneg (a.x.val - b.x.val)
  have s2 := sq_nonneg (a.y.val - b.y.val)
  have s3 := sq_nonneg (a.z.val - b.z.val)
  have hd : dist2 (pos a) (pos b) = (a.x.val - b.x.val) ^ 2 + (a.y.val - b.y.val) ^ 2 + (a.z.val - b.z.val) ^ 2 := rfl
  rw [hd] at h ⊢
  have x1 := err_sq (Err.diff a1 b1 (sq_bound (y := 2 ^ 126) (by linarith) le_rfl)) (by linarith)
  have x2 := err_sq (Err.diff a2 b2 (sq_bound (y := 2 ^ 126) (by linarith) le_rfl)) (by linarith)
  have x3 := err_sq (Err.diff a3 b3 (sq_bound (y := 2 ^ 126) (by linarith) le_rfl)) (by linarith)
  have r := (x1.add x2 (by linarith) (by norm_num) (by norm_num)).add
    (x3.add err_zero' (by linarith) (by norm_num) (by norm_num)) (by linarith) (by norm_num) (by norm_num)
  rw [add_zero] at r
  exact r

theorem err_rr {r : F32} (hr : r.isFinite = true) (h : rv r ^ 2 ≤ 2 ^ 126) : Err (fmul r r) (rv r ^ 2) (rv r ^ 2) 3 1 :=
  err_sq ((Err.self hr).mono (by norm_num) le_rfl le_rfl) h

theorem err_plus {a b : F32} (ha : a.isFinite = true) (hb : b.isFinite = true) (h : |a.val + b.val| ≤ 2 ^ 126) :
    Err (fadd a b) (a.val + b.val) |a.val + b.val| 1 0 := by
  obtain ⟨h1, h2⟩ := fadd_err' ha hb (h.trans_lt (by norm_num))
  refine ⟨h1, le_rfl, h2.trans ?_⟩
  unfold rounded; simp

theorem fin_first3 {v : V4 F32} (h : AllFinite v.toList) : AllFinite [v.x, v.y, v.z] := by
  obtain ⟨h1, h2, h3, -⟩ := VecAcc.fin4 h
  simp [AllFinite, h1, h2, h3]

theorem clamp_finite {x lo hi : F32} (a : x.isFinite = true) (b : lo.isFinite = true) (c : hi.isFinite = true) :
    (Flt.mmMax (Flt.mmMin x hi) lo).isFinite = true := by
  unfold Flt.mmMin Flt.mmMax; split_ifs <;> assumption

theorem closest_finite {b : Aabb F32} {p : V4 F32} (g1 : p.x.isFinite = true) (g2 : p.y.isFinite = true)
    (g3 : p.z.isFinite = true) (f1 : b.min.x.isFinite = true) (f2 : b.min.y.isFinite = true) (f3 : b.min.z.isFinite = true)
    (f4 : b.max.x.isFinite = true) (f5 : b.max.y.isFinite = true) (f6 : b.max.z.isFinite = true) :
    AllFinite [(b.closestPoint p).x, (b.closestPoint p).y, (b.closestPoint p).z] := by
  have k1 := clamp_finite g1 f1 f4
  have k2 := clamp_finite g2 f2 f5
  have k3 := clamp_finite g3 f3 f6
  simp only [AllFinite, List.mem_cons, List.not_mem_nil, or_false, forall_eq_or_imp, forall_eq]
  exact ⟨k1, k2, k3⟩

end Reliable
open Reliable

/-- C103: the answer of `isInside(sphere, point)` for finite values whose squares stay below 2^126: true only if the squared
distance is below the squared radius plus the slack, and true whenever it is below by more than the slack. -/
theorem sphere_isInside_f32 (s : Sphere F32) (p : V4 F32) (hs : AllFinite s.posRad.toList) (hp : AllFinite [p.x, p.y, p.z])
    (hd : dist2 (pos s.posRad) (pos p) ≤ 2 ^ 126) (hr : rv s.radius ^ 2 ≤ 2 ^ 126) :
    (s.isInside p = true → dist2 (pos s.posRad) (pos p) <
      rv s.radius ^ 2 + slack (dist2 (pos s.posRad) (pos p) + rv s.radius ^ 2)) ∧
    (dist2 (pos s.posRad) (pos p) + slack (dist2 (pos s.posRad) (pos p) + rv s.radius ^ 2) < rv s.radius ^ 2 →
      s.isInside p = true) :=
  lt_reliable (dist2_err (fin_first3 hs) hp hd) (err_rr (VecAcc.fin4 hs).2.2.2 hr) (by norm_num) (by norm_num) (by norm_num)
    (by norm_num)

/-- C103: two spheres. -/
theorem sphere_isIntersected_f32 (a b : Sphere F32) (ha : AllFinite a.posRad.toList) (hb : AllFinite b.posRad.toList)
    (hd : dist2 (pos a.posRad) (pos b.posRad) ≤ 2 ^ 126) (hr : (rv a.radius + rv b.radius) ^ 2 ≤ 2 ^ 126) :
    (a.isIntersected b = true → dist2 (pos a.posRad) (pos b.posRad) ≤
      (rv a.radius + rv b.radius) ^ 2 + slack (dist2 (pos a.posRad) (pos b.posRad) + (rv a.radius + rv b.radius) ^ 2)) ∧
    (dist2 (pos a.posRad) (pos b.posRad) + slack (dist2 (pos a.posRad) (pos b.posRad) + (rv a.radius + rv b.radius) ^ 2) ≤
      (rv a.radius + rv b.radius) ^ 2 → a.isIntersected b = true) :=
  le_reliable (dist2_err (fin_first3 ha) (fin_first3 hb) hd)
    (err_sq (err_plus (VecAcc.fin4 ha).2.2.2 (VecAcc.fin4 hb).2.2.2 (sq_bound hr le_rfl)) hr) (by norm_num) (by norm_num)
    (by norm_num) (by norm_num)

/-- C103: sphere against box: the same with the squared distance from the centre to the nearest point of the box. -/
theorem sphere_isIntersectedB_f32 (s : Sphere F32) (b : Aabb F32) (hs : AllFinite s.posRad.toList) (hb : FiniteBox b)
    (hr : rv s.radius ^ 2 ≤ 2 ^ 126) :
    ∃ c, Nearest (boxPts b) (pos s.posRad) c ∧ (dist2 (pos s.posRad) c ≤ 2 ^ 126 →
      (s.isIntersectedB b = true → dist2 (pos s.posRad) c <
        rv s.radius ^ 2 + slack (dist2 (pos s.posRad) c + rv s.radius ^ 2)) ∧
      (dist2 (pos s.posRad) c + slack (dist2 (pos s.posRad) c + rv s.radius ^ 2) < rv s.radius ^ 2 →
        s.isIntersectedB b = true)) := by
  obtain ⟨hf, v1, v2, v3⟩ := hb
  simp only [AllFinite, List.mem_cons, List.not_mem_nil, or_false, forall_eq_or_imp, forall_eq] at hf
  obtain ⟨f1, f2, f3, f4, f5, f6⟩ := hf
  have ok : ∀ {x : F32}, x.isFinite = true → Valued.ok x := fun h => (finite_notNaN h).1
  obtain ⟨g1, g2, g3, g4⟩ := VecAcc.fin4 hs
  have ho : OkBox b := ⟨⟨ok f1, ok f2, ok f3⟩, ok f4, ok f5, ok f6⟩
  obtain ⟨hn, -⟩ := closestPoint_box b s.posRad ho ⟨v1, v2, v3⟩ ⟨ok g1, ok g2, ok g3⟩
  refine ⟨pos (b.closestPoint s.posRad), hn, fun hd => ?_⟩
  have hc := closest_finite g1 g2 g3 f1 f2 f3 f4 f5 f6
  exact lt_reliable (dist2_err (fin_first3 hs) hc hd) (err_rr g4 hr) (by norm_num) (by norm_num) (by norm_num) (by norm_num)

namespace Reliable

theorem distance_err {pl : Plane F32} {p : V4 F32} (hn : AllFinite pl.normDist.toList) (hp : AllFinite [p.x, p.y, p.z])
    (h : planeSize pl (pos p) ≤ 2 ^ 126) : Err (pl.distance p) (planeAt pl (pos p)) (planeSize pl (pos p)) 4 3 := by
  obtain ⟨n1, n2, n3, n4⟩ := VecAcc.fin4 hn
  simp only [AllFinite, List.mem_cons, List.not_mem_nil, or_false, forall_eq_or_imp, forall_eq] at hp
  obtain ⟨p1, p2, p3⟩ := hp
  have hd : planeSize pl (pos p) = |pl.normDist.x.val| * |p.x.val| + |pl.normDist.y.val| * |p.y.val| +
    |pl.normDist.z.val| * |p.z.val| + |pl.normDist.w.val| := rfl
  rw [hd] at h ⊢
  have q1 := mul_nonneg (abs_nonneg pl.normDist.x.val) (abs_nonneg p.x.val)
  have q2 := mul_nonneg (abs_nonneg pl.normDist.y.val) (abs_nonneg p.y.val)
  have q3 := mul_nonneg (abs_nonneg pl.normDist.z.val) (abs_nonneg p.z.val)
  have q4 := abs_nonneg pl.normDist.w.val
  have r := (((Err.prod n1 p1 (by linarith)).add (Err.prod n2 p2 (by linarith)) (by linarith) (by norm_num) (by norm_num)).add
    ((Err.prod n3 p3 (by linarith)).add VecAcc.err_zero (by linarith) (by norm_num) (by norm_num)) (by linarith) (by norm_num)
    (by norm_num)).add ((Err.self n4).mono (Nat.zero_le 3) le_rfl le_rfl) (by linarith) (by norm_num) (by norm_num)
  rw [add_zero, add_zero] at r
  exact r

end Reliable

/-- C103: `distance3(plane, point)` is within the slack of the exact value. -/
theorem plane_distance_f32 (pl : Plane F32) (p : V4 F32) (hn : AllFinite pl.normDist.toList) (hp : AllFinite [p.x, p.y, p.z])
    (h : planeSize pl (pos p) ≤ 2 ^ 126) : Near (pl.distance p) (planeAt pl (pos p)) (slack (planeSize pl (pos p))) := by
  have e := distance_err hn hp h
  refine ⟨e.1, (err_le e (by norm_num) (by norm_num)).trans ?_⟩
  unfold slack
  have : (1 : ℝ) / 2 ^ 148 ≤ 1 / 2 ^ 147 := by norm_num
  linarith

namespace Reliable

theorem zero_lit : (ofRat 0).isFinite = true ∧ (ofRat 0).val = 0 := by
  have h : (ofRat 0).isFinite = true ∧ (ofRat 0).units = 0 := by decide +kernel
  exact ⟨h.1, by rw [val_units, h.2]; simp⟩

theorem planeRejects_f32 (pl : Plane F32) (v0 v1 v2 v3 v4 v5 v6 v7 : V4 F32) :
    Aabb.planeRejects pl [v0, v1, v2, v3, v4, v5, v6, v7] = true ↔
      ∀ v ∈ [v0, v1, v2, v3, v4, v5, v6, v7], ltb (pl.distance v) (ofRat 0) = true := by
  simp only [List.forall_mem_cons, List.not_mem_nil, false_imp_iff, implies_true, and_true]
  unfold Aabb.planeRejects
  simp only [V4.splat, V4.cmp, V4.band, V4.map2, Verif.mask_and, areAllTrue_mask, Bool.and_eq_true]
  constructor
  · rintro ⟨⟨⟨⟨a, b⟩, c, d⟩, e, f⟩, g, h⟩; exact ⟨a, c, e, g, b, d, f, h⟩
  · rintro ⟨a, c, e, g, b, d, f, h⟩; exact ⟨⟨⟨⟨a, b⟩, c, d⟩, e, f⟩, g, h⟩

/-- The corners of a box: every coordinate is one of the two bounds. -/
theorem corner_iff {b : Aabb F32} {P : V4 F32 → Prop} :
    (∀ v ∈ b.corners, P v) ↔ ∀ X Y Z, (X = b.min.x ∨ X = b.max.x) → (Y = b.min.y ∨ Y = b.max.y) → (Z = b.min.z ∨ Z = b.max.z) →
      P ⟨X, Y, Z, ofRat 1⟩ := by
  simp only [Aabb.corners, List.forall_mem_cons, List.not_mem_nil, false_imp_iff, implies_true, and_true]
  constructor
  · rintro ⟨h0, h1, h2, h3, h4, h5, h6, h7⟩ X Y Z (rfl | rfl) (rfl | rfl) (rfl | rfl) <;> assumption
  · intro h
    refine ⟨h _ _ _ ?_ ?_ ?_, h _ _ _ ?_ ?_ ?_, h _ _ _ ?_ ?_ ?_, h _ _ _ ?_ ?_ ?_, h _ _ _ ?_ ?_ ?_, h _ _ _ ?_ ?_ ?_,
      h _ _ _ ?_ ?_ ?_, h _ _ _ ?_ ?_ ?_⟩ <;> simp

theorem rejects_corners (pl : Plane F32) (b : Aabb F32) (f : V4 F32 → V4 F32) :
    Aabb.planeRejects pl (b.corners.map f) = true ↔ ∀ v ∈ b.corners, ltb (pl.distance (f v)) (ofRat 0) = true := by
  simp only [Aabb.corners, List.map_cons, List.map_nil, planeRejects_f32, List.forall_mem_cons]
  simp

theorem allFinite4 {a b c d : F32} (h1 : a.isFinite = true) (h2 : b.isFinite = true) (h3 : c.isFinite = true)
    (h4 : d.isFinite = true) : AllFinite (V4.toList ⟨a, b, c, d⟩) := by
  simp only [AllFinite, V4.toList, List.mem_cons, List.not_mem_nil, or_false, forall_eq_or_imp, forall_eq]
  exact ⟨h1, h2, h3, h4⟩

/-- The corners, as exact points. -/
theorem corner_props {b : Aabb F32} (hb : FiniteBox b) {v : V4 F32} (hv : v ∈ b.corners) :
    AllFinite v.toList ∧ pos v ∈ boxPts b ∧ rv v.w = 1 := by
  obtain ⟨hf, v1, v2, v3⟩ := hb
  simp only [AllFinite, List.mem_cons, List.not_mem_nil, or_false, forall_eq_or_imp, forall_eq] at hf
  obtain ⟨f1, f2, f3, f4, f5, f6⟩ := hf
  have one : (ofRat 1).isFinite = true ∧ rv (ofRat 1) = 1 := by
    have h : (ofRat 1).isFinite = true ∧ (ofRat 1).toRat = 1 := by decide +kernel
    exact ⟨h.1, by unfold rv; rw [h.2]; simp⟩
  have key : ∀ {lo hi X : F32}, lo.isFinite = true → hi.isFinite = true → rv lo ≤ rv hi → (X = lo ∨ X = hi) →
      X.isFinite = true ∧ rv lo ≤ rv X ∧ rv X ≤ rv hi := by
    rintro lo hi X h1 h2 h3 (rfl | rfl)
    · exact ⟨h1, le_rfl, h3⟩
    · exact ⟨h2, h3, le_rfl⟩
  revert v
  rw [corner_iff]
  intro X Y Z hX hY hZ
  obtain ⟨a1, a2⟩ := key f1 f4 v1 hX
  obtain ⟨b1, b2⟩ := key f2 f5 v2 hY
  obtain ⟨c1, c2⟩ := key f3 f6 v3 hZ
  exact ⟨allFinite4 a1 b1 c1 one.1, ⟨a2, b2, c2⟩, one.2⟩

theorem abs_le_farthest {lo hi x : ℝ} (h : lo ≤ x ∧ x ≤ hi) : |x| ≤ max |lo| |hi| := by
  rcases le_total 0 x with h0 | h0
  · rw [abs_of_nonneg h0]; exact (h.2.trans (le_abs_self hi)).trans (le_max_right _ _)
  · rw [abs_of_nonpos h0]; exact ((neg_le_neg h.1).trans (neg_le_abs lo)).trans (le_max_left _ _)

theorem planeSize_mono {pl : Plane F32} {p q : V3 ℝ} (hx : |p.x| ≤ |q.x|) (hy : |p.y| ≤ |q.y|) (hz : |p.z| ≤ |q.z|) :
    planeSize pl p ≤ planeSize pl q := by
  unfold planeSize; gcongr

theorem mem_far {b : Aabb F32} {p : V3 ℝ} (h : p ∈ boxPts b) :
    |p.x| ≤ |(farthest b).x| ∧ |p.y| ≤ |(farthest b).y| ∧ |p.z| ≤ |(farthest b).z| :=
  ⟨(abs_le_farthest h.1).trans (le_abs_self _), (abs_le_farthest h.2.1).trans (le_abs_self _),
   (abs_le_farthest h.2.2).trans (le_abs_self _)⟩

/-- An affine function below a bound at the corners is below it in the whole box. -/
theorem affine_lt {b : Aabb F32} (A B C D E : ℝ)
    (h : ∀ v ∈ b.corners, A * (pos v).x + B * (pos v).y + C * (pos v).z + D < E) {p : V3 ℝ} (hp : p ∈ boxPts b) :
    A * p.x + B * p.y + C * p.z + D < E := by
  rw [corner_iff] at h
  have := affine_neg (a := A) (b := B) (c := C) (d := D - E) (x0 := rv b.min.x) (x1 := rv b.max.x) (y0 := rv b.min.y)
    (y1 := rv b.max.y) (z0 := rv b.min.z) (z1 := rv b.max.z) (x := p.x) (y := p.y) (z := p.z) ?_ hp.1 hp.2.1 hp.2.2
  · linarith
  · intro X Y Z hX hY hZ
    have conv : ∀ {lo hi : F32} {X : ℝ}, (X = rv lo ∨ X = rv hi) → ∃ x, (x = lo ∨ x = hi) ∧ rv x = X := by
      rintro lo hi X (rfl | rfl)
      · exact ⟨_, Or.inl rfl, rfl⟩
      · exact ⟨_, Or.inr rfl, rfl⟩
    obtain ⟨x, hx, rfl⟩ := conv hX
    obtain ⟨y, hy, rfl⟩ := conv hY
    obtain ⟨z, hz, rfl⟩ := conv hZ
    have := h x y z hx hy hz
    simp only [pos] at this
    linarith

end Reliable

/-- C103: frustum culling of a box in binary32, for any number of planes. When a box is culled, some plane has the whole box
below the slack: no point of the box is inside by more than that. When some plane has the whole box below minus the slack,
the box is culled. -/
theorem isBehindFrustum_f32 (planes : List (Plane F32)) (b : Aabb F32) (hb : FiniteBox b)
    (hn : ∀ pl ∈ planes, AllFinite pl.normDist.toList) (hs : ∀ pl ∈ planes, planeSize pl (farthest b) ≤ 2 ^ 126) :
    (b.isBehindFrustum planes = true →
      ∃ pl ∈ planes, ∀ p ∈ boxPts b, planeAt pl p < slack (planeSize pl (farthest b))) ∧
    ((∃ pl ∈ planes, ∀ p ∈ boxPts b, planeAt pl p < - slack (planeSize pl (farthest b))) →
      b.isBehindFrustum planes = true) := by
  have main : ∀ pl ∈ planes, ∀ v ∈ b.corners, (pl.distance v).isFinite = true ∧
      |(pl.distance v).val - planeAt pl (pos v)| ≤ slack (planeSize pl (farthest b)) := by
    intro pl hpl v hv
    obtain ⟨g1, g2, -⟩ := corner_props hb hv
    obtain ⟨m1, m2, m3⟩ := mem_far g2
    have hsz := planeSize_mono (pl := pl) m1 m2 m3
    have e := plane_distance_f32 pl v (hn pl hpl) (fin_first3 g1) (hsz.trans (hs pl hpl))
    refine ⟨e.1, e.2.trans ?_⟩
    unfold slack; gcongr
  unfold Aabb.isBehindFrustum
  rw [anyRejects_iff]
  have rj : ∀ pl, Aabb.planeRejects pl b.corners = true ↔ ∀ v ∈ b.corners, ltb (pl.distance v) (ofRat 0) = true := by
    intro pl; have := rejects_corners pl b id; rwa [List.map_id] at this
  constructor
  · rintro ⟨pl, hpl, h⟩
    rw [rj] at h
    refine ⟨pl, hpl, fun p hp => ?_⟩
    refine affine_lt (rv pl.normDist.x) (rv pl.normDist.y) (rv pl.normDist.z) (rv pl.normDist.w) _ (fun v hv => ?_) hp
    obtain ⟨e1, e2⟩ := main pl hpl v hv
    have := h v hv
    rw [flt_iff e1 zero_lit.1, zero_lit.2] at this
    have e3 := (abs_le.1 e2).1
    show planeAt pl (pos v) < _
    linarith
  · rintro ⟨pl, hpl, h⟩
    refine ⟨pl, hpl, (rj pl).2 fun v hv => ?_⟩
    obtain ⟨e1, e2⟩ := main pl hpl v hv
    rw [flt_iff e1 zero_lit.1, zero_lit.2]
    have e3 := (abs_le.1 e2).2
    linarith [h (pos v) (corner_props hb hv).2.1]

namespace Reliable

/-- One coordinate of a placed point. -/
theorem placed_coord {r c0 c1 c2 c3 : F32} {v : V4 F32} (h : SumOk r (row4 c0 c1 c2 c3 v)) (hw : rv v.w = 1)
    {X Y Z : ℝ} (hx : |rv v.x| ≤ |X|) (hy : |rv v.y| ≤ |Y|) (hz : |rv v.z| ≤ |Z|)
    (hs : |rv c0| * |X| + |rv c1| * |Y| + |rv c2| * |Z| + |rv c3| ≤ 2 ^ 126) :
    r.isFinite = true ∧ |rv r - (rv c0 * rv v.x + rv c1 * rv v.y + rv c2 * rv v.z + rv c3)| ≤
      (|rv c0| * |X| + |rv c1| * |Y| + |rv c2| * |Z| + |rv c3|) * (5 / 2 ^ 24) + 1 / 2 ^ 147 := by
  have ha : absProd (row4 c0 c1 c2 c3 v) ≤ |rv c0| * |X| + |rv c1| * |Y| + |rv c2| * |Z| + |rv c3| := by
    simp only [absProd, row4, List.map_cons, List.map_nil, List.sum_cons, List.sum_nil, abs_mul, hw, abs_one, mul_one]
    have := mul_le_mul_of_nonneg_left hx (abs_nonneg (rv c0))
    have := mul_le_mul_of_nonneg_left hy (abs_nonneg (rv c1))
    have := mul_le_mul_of_nonneg_left hz (abs_nonneg (rv c2))
    linarith
  have hsum : sumProd (row4 c0 c1 c2 c3 v) = rv c0 * rv v.x + rv c1 * rv v.y + rv c2 * rv v.z + rv c3 := by
    simp only [sumProd, row4, List.map_cons, List.map_nil, List.sum_cons, List.sum_nil, hw]; ring
  obtain ⟨h1, h2⟩ := h (ha.trans hs)
  refine ⟨h1, ?_⟩
  rw [hsum] at h2
  refine h2.trans ?_
  simp only [row4, List.length_cons, List.length_nil] at ha ⊢
  generalize |rv c0| * |X| + |rv c1| * |Y| + |rv c2| * |Z| + |rv c3| = S at *
  set A := absProd [(rv c0, rv v.x), (rv c1, rv v.y), (rv c2, rv v.z), (rv c3, rv v.w)] with hA
  have hA0 : 0 ≤ A := by
    simp only [hA, absProd, List.map_cons, List.map_nil, List.sum_cons, List.sum_nil]; positivity
  have k1 : ((1 : ℝ) + 1 / 2 ^ 24) ^ (0 + 1 + 1 + 1 + 1) - 1 ≤ 5 / 2 ^ 24 := by norm_num
  have k2 := mul_le_mul_of_nonneg_right k1 hA0
  have k3 : (((0 + 1 + 1 + 1 + 1 : ℕ) : ℝ)) / 2 ^ 149 ≤ 1 / 2 ^ 147 := by norm_num
  linarith

/-- The size of one exact coordinate. -/
theorem placed_size {c0 c1 c2 c3 x y z X Y Z : ℝ} (hx : |x| ≤ |X|) (hy : |y| ≤ |Y|) (hz : |z| ≤ |Z|) :
    |c0 * x + c1 * y + c2 * z + c3| ≤ |c0| * |X| + |c1| * |Y| + |c2| * |Z| + |c3| := by
  have h1 := abs_add_le (c0 * x + c1 * y + c2 * z) c3
  have h2 := abs_add_le (c0 * x + c1 * y) (c2 * z)
  have h3 := abs_add_le (c0 * x) (c1 * y)
  rw [abs_mul] at h2 h3
  rw [abs_mul c1] at h3
  have := mul_le_mul_of_nonneg_left hx (abs_nonneg c0)
  have := mul_le_mul_of_nonneg_left hy (abs_nonneg c1)
  have := mul_le_mul_of_nonneg_left hz (abs_nonneg c2)
  linarith

theorem sub_bound {n a b e : ℝ} (h : |a - b| ≤ e) : |n * a - n * b| ≤ |n| * e := by
  rw [← mul_sub, abs_mul]; exact mul_le_mul_of_nonneg_left h (abs_nonneg n)

theorem size_near {n q c S : ℝ} (h : |q - c| ≤ S * (5 / 2 ^ 24) + 1 / 2 ^ 147) (hc : |c| ≤ S) :
    |n| * |q| ≤ |n| * S * (1 + 5 / 2 ^ 24) + |n| / 2 ^ 147 ∧
    |n * q - n * c| ≤ |n| * S * (5 / 2 ^ 24) + |n| / 2 ^ 147 := by
  have h0 := abs_nonneg n
  have h1 := abs_add_le (q - c) c
  rw [sub_add_cancel] at h1
  constructor
  · have := mul_le_mul_of_nonneg_left (h1.trans (add_le_add h hc)) h0
    refine this.trans (le_of_eq ?_); ring
  · refine (sub_bound h).trans (le_of_eq ?_); ring

end Reliable

namespace Reliable

theorem finite_abs {x : F32} (h : x.isFinite = true) : |rv x| ≤ 2 ^ 128 := by
  have h1 := val_le_max h
  have h2 : maxRat ≤ 2 ^ 128 := by unfold maxRat; norm_num
  have h3 : |rv x| = ((|x.toRat| : ℚ) : ℝ) := by unfold rv; push_cast; rfl
  rw [h3]
  exact_mod_cast h1.trans h2

theorem size_nonneg (a b c d X Y Z : ℝ) : 0 ≤ |a| * |X| + |b| * |Y| + |c| * |Z| + |d| := by positivity

theorem place_core {n1 n2 n3 w q1 q2 q3 c1 c2 c3 S1 S2 S3 : ℝ} (h1 : |q1 - c1| ≤ S1 * (5 / 2 ^ 24) + 1 / 2 ^ 147)
    (h2 : |q2 - c2| ≤ S2 * (5 / 2 ^ 24) + 1 / 2 ^ 147) (h3 : |q3 - c3| ≤ S3 * (5 / 2 ^ 24) + 1 / 2 ^ 147)
    (k1 : |c1| ≤ S1) (k2 : |c2| ≤ S2) (k3 : |c3| ≤ S3) (b1 : |n1| ≤ 2 ^ 128) (b2 : |n2| ≤ 2 ^ 128) (b3 : |n3| ≤ 2 ^ 128)
    (hP : |n1| * S1 + |n2| * S2 + |n3| * S3 + |w| ≤ 2 ^ 125) :
    |n1| * |q1| + |n2| * |q2| + |n3| * |q3| + |w| ≤ 2 ^ 126 ∧
    slack (|n1| * |q1| + |n2| * |q2| + |n3| * |q3| + |w|) +
      |n1 * q1 + n2 * q2 + n3 * q3 + w - (n1 * c1 + n2 * c2 + n3 * c3 + w)| ≤
    (|n1| * S1 + |n2| * S2 + |n3| * S3 + |w|) / 2 ^ 20 + (1 + |n1| + |n2| + |n3|) / 2 ^ 146 := by
  obtain ⟨a1, d1⟩ := size_near (n := n1) h1 k1
  obtain ⟨a2, d2⟩ := size_near (n := n2) h2 k2
  obtain ⟨a3, d3⟩ := size_near (n := n3) h3 k3
  have t1 := mul_nonneg (abs_nonneg n1) ((abs_nonneg _).trans k1)
  have t2 := mul_nonneg (abs_nonneg n2) ((abs_nonneg _).trans k2)
  have t3 := mul_nonneg (abs_nonneg n3) ((abs_nonneg _).trans k3)
  have t4 := abs_nonneg w
  have z1 := abs_nonneg n1
  have z2 := abs_nonneg n2
  have z3 := abs_nonneg n3
  have e : n1 * q1 + n2 * q2 + n3 * q3 + w - (n1 * c1 + n2 * c2 + n3 * c3 + w) =
    (n1 * q1 - n1 * c1) + (n2 * q2 - n2 * c2) + (n3 * q3 - n3 * c3) := by ring
  rw [e]
  have f1 := abs_add_le ((n1 * q1 - n1 * c1) + (n2 * q2 - n2 * c2)) (n3 * q3 - n3 * c3)
  have f2 := abs_add_le (n1 * q1 - n1 * c1) (n2 * q2 - n2 * c2)
  unfold slack
  generalize |n1| * S1 = P1 at *
  generalize |n2| * S2 = P2 at *
  generalize |n3| * S3 = P3 at *
  generalize |n1| * |q1| = Q1 at *
  generalize |n2| * |q2| = Q2 at *
  generalize |n3| * |q3| = Q3 at *
  constructor
  · linarith
  · linarith

end Reliable

/-- C103: the same with a model matrix; the exact question is about the box placed by the exact matrix. -/
theorem isBehindFrustumM_f32 (planes : List (Plane F32)) (b : Aabb F32) (m : M4 F32) (hb : FiniteBox b) (hm : FinM m)
    (hn : ∀ pl ∈ planes, AllFinite pl.normDist.toList)
    (hc : (sendsSize m (farthest b)).x ≤ 2 ^ 125 ∧ (sendsSize m (farthest b)).y ≤ 2 ^ 125 ∧
      (sendsSize m (farthest b)).z ≤ 2 ^ 125)
    (hs : ∀ pl ∈ planes, planeSize pl (sendsSize m (farthest b)) ≤ 2 ^ 125) :
    (b.isBehindFrustumM planes m = true → ∃ pl ∈ planes, ∀ p ∈ boxPts b,
      planeAt pl (sends m p) < slackM pl (planeSize pl (sendsSize m (farthest b)))) ∧
    ((∃ pl ∈ planes, ∀ p ∈ boxPts b,
        planeAt pl (sends m p) < - slackM pl (planeSize pl (sendsSize m (farthest b)))) →
      b.isBehindFrustumM planes m = true) := by
  have main : ∀ pl ∈ planes, ∀ v ∈ b.corners, (pl.distance (Simd.mulV m v)).isFinite = true ∧
      |(pl.distance (Simd.mulV m v)).val - planeAt pl (sends m (pos v))| ≤ slackM pl (planeSize pl (sendsSize m (farthest b))) := by
    intro pl hpl v hv
    obtain ⟨g1, g2, g3⟩ := corner_props hb hv
    obtain ⟨m1, m2, m3⟩ := mem_far g2
    have hok : MulVOk m v (Simd.mulV m v) := mulV_accuracy.2.2.2.1 (.sse true) m v hm g1
    obtain ⟨o1, o2, o3, -⟩ := hok
    obtain ⟨k1, k2, k3⟩ := hc
    have x1 := placed_coord o1 g3 m1 m2 m3 (k1.trans (by norm_num))
    have x2 := placed_coord o2 g3 m1 m2 m3 (k2.trans (by norm_num))
    have x3 := placed_coord o3 g3 m1 m2 m3 (k3.trans (by norm_num))
    have y1 := placed_size (c0 := rv m.c0.x) (c1 := rv m.c1.x) (c2 := rv m.c2.x) (c3 := rv m.c3.x) m1 m2 m3
    have y2 := placed_size (c0 := rv m.c0.y) (c1 := rv m.c1.y) (c2 := rv m.c2.y) (c3 := rv m.c3.y) m1 m2 m3
    have y3 := placed_size (c0 := rv m.c0.z) (c1 := rv m.c1.z) (c2 := rv m.c2.z) (c3 := rv m.c3.z) m1 m2 m3
    have hS := hs pl hpl
    obtain ⟨n1, n2, n3, n4⟩ := VecAcc.fin4 (hn pl hpl)
    have big : ∀ {x : F32}, x.isFinite = true → |rv x| ≤ 2 ^ 128 := fun h => finite_abs h
    have hf3 : AllFinite [(Simd.mulV m v).x, (Simd.mulV m v).y, (Simd.mulV m v).z] := by
      simp only [AllFinite, List.mem_cons, List.not_mem_nil, or_false, forall_eq_or_imp, forall_eq]
      exact ⟨x1.1, x2.1, x3.1⟩
    have key := place_core (n1 := rv pl.normDist.x) (n2 := rv pl.normDist.y) (n3 := rv pl.normDist.z) (w := rv pl.normDist.w)
      x1.2 x2.2 x3.2 y1 y2 y3 (big n1) (big n2) (big n3)
      (by simpa only [planeSize, sendsSize, abs_of_nonneg (size_nonneg _ _ _ _ _ _ _)] using hS)
    have e := plane_distance_f32 pl (Simd.mulV m v) (hn pl hpl) hf3 key.1
    refine ⟨e.1, ?_⟩
    have tri := abs_sub_le (pl.distance (Simd.mulV m v)).val (planeAt pl (pos (Simd.mulV m v))) (planeAt pl (sends m (pos v)))
    refine (tri.trans (add_le_add e.2 le_rfl)).trans ?_
    simpa only [slackM, planeSize, planeAt, pos, sends, sendsSize, abs_of_nonneg (size_nonneg _ _ _ _ _ _ _)] using key.2
  unfold Aabb.isBehindFrustumM
  rw [anyRejects_iff]
  constructor
  · rintro ⟨pl, hpl, h⟩
    rw [rejects_corners] at h
    refine ⟨pl, hpl, fun p hp => ?_⟩
    have aff : ∀ q : V3 ℝ, planeAt pl (sends m q) =
        (rv pl.normDist.x * rv m.c0.x + rv pl.normDist.y * rv m.c0.y + rv pl.normDist.z * rv m.c0.z) * q.x +
        (rv pl.normDist.x * rv m.c1.x + rv pl.normDist.y * rv m.c1.y + rv pl.normDist.z * rv m.c1.z) * q.y +
        (rv pl.normDist.x * rv m.c2.x + rv pl.normDist.y * rv m.c2.y + rv pl.normDist.z * rv m.c2.z) * q.z +
        (rv pl.normDist.x * rv m.c3.x + rv pl.normDist.y * rv m.c3.y + rv pl.normDist.z * rv m.c3.z + rv pl.normDist.w) := by
      intro q; simp only [planeAt, sends]; ring
    rw [aff]
    refine affine_lt _ _ _ _ _ (fun v hv => ?_) hp
    rw [← aff]
    obtain ⟨e1, e2⟩ := main pl hpl v hv
    have := h v hv
    rw [flt_iff e1 zero_lit.1, zero_lit.2] at this
    have e3 := (abs_le.1 e2).1
    linarith
  · rintro ⟨pl, hpl, h⟩
    refine ⟨pl, hpl, (rejects_corners pl b _).2 fun v hv => ?_⟩
    obtain ⟨e1, e2⟩ := main pl hpl v hv
    rw [flt_iff e1 zero_lit.1, zero_lit.2]
    have e3 := (abs_le.1 e2).2
    linarith [h (pos v) (corner_props hb hv).2.1]

/-! ## Concrete cases -/

/-- Non-vacuity, spheres: the unit sphere at the origin and the point (0.5, 0.5, 0.5): inside, with squared distance 3/4. -/
example : AllFinite (⟨⟨f0, f0, f0, f1⟩⟩ : Sphere F32).posRad.toList ∧ AllFinite [fhalf, fhalf, fhalf] ∧
    (⟨⟨f0, f0, f0, f1⟩⟩ : Sphere F32).isInside ⟨fhalf, fhalf, fhalf, f0⟩ = true ∧
    (⟨⟨f0, f0, f0, f1⟩⟩ : Sphere F32).isInside ⟨f1, f0, f0, f0⟩ = false := by
  refine ⟨?_, ?_, ?_, ?_⟩ <;> (try unfold AllFinite) <;> decide +kernel

/-- Non-vacuity, frustum: the unit box against the plane x = 2 facing +x is culled, against x = 0 it is not; the box is
finite and ordered. -/
example : FiniteBox unitBox ∧
    Aabb.isBehindFrustum [⟨⟨f1, f0, f0, fneg f2⟩⟩] unitBox = true ∧
    Aabb.isBehindFrustum [⟨⟨f1, f0, f0, f0⟩⟩] unitBox = false := by
  have le : ∀ {a b : F32}, a.toRat ≤ b.toRat → rv a ≤ rv b := fun h => by unfold rv; exact_mod_cast h
  refine ⟨⟨?_, le ?_, le ?_, le ?_⟩, ?_, ?_⟩
  · unfold AllFinite; decide +kernel
  all_goals decide +kernel

/-- Non-vacuity, plane sizes: the sizes of that plane and box are far below the limit. -/
example : planeSize ⟨⟨f1, f0, f0, fneg f2⟩⟩ (farthest unitBox) ≤ 2 ^ 125 := by
  have h0 : rv f0 = 0 := by unfold rv; rw [show f0.toRat = 0 by decide +kernel]; simp
  have h1 : rv f1 = 1 := by unfold rv; rw [show f1.toRat = 1 by decide +kernel]; simp
  have h2 : rv (fneg f2) = -2 := by unfold rv; rw [show (fneg f2).toRat = -2 by decide +kernel]; simp
  simp only [planeSize, farthest, unitBox, V4.splat, h0, h1, h2]
  norm_num

end Verif
