import Verif.Props.AabbQueries

/-! # C35: triangle against box -/

namespace Verif
namespace Spec

/-- Cross product. -/
def crossP (a b : V3 ℝ) : V3 ℝ := ⟨a.y * b.z - a.z * b.y, a.z * b.x - a.x * b.z, a.x * b.y - a.y * b.x⟩
/-- The axis `a` strictly separates the two sets: their projections on it do not meet. -/
def Separates (a : V3 ℝ) (s t : Set (V3 ℝ)) : Prop :=
  (∀ p ∈ s, ∀ q ∈ t, dot a p < dot a q) ∨ (∀ p ∈ s, ∀ q ∈ t, dot a q < dot a p)
/-- The three axes of the box. -/
def boxAxes : List (V3 ℝ) := [⟨1, 0, 0⟩, ⟨0, 1, 0⟩, ⟨0, 0, 1⟩]
/-- The three edge vectors of a triangle. -/
def edges (p q r : V3 ℝ) : List (V3 ℝ) := [diff q p, diff r q, diff p r]
/-- The thirteen candidate axes: the axes of the box, the normal of the triangle, and the cross products of a box axis
with a triangle edge. -/
def candidates (p q r : V3 ℝ) : List (V3 ℝ) :=
  boxAxes ++ [crossP (diff q p) (diff r q)] ++ boxAxes.flatMap fun e => (edges p q r).map (crossP e)

end Spec
open Spec

theorem separates_disjoint {a : V3 ℝ} {s t : Set (V3 ℝ)} (h : Separates a s t) : ¬ (s ∩ t).Nonempty := by
  rintro ⟨p, h1, h2⟩
  rcases h with h | h <;> exact lt_irrefl _ (h p h1 p h2)

/-- Half the length of the projection of a box with half size `e` on the axis `a`. -/
noncomputable def projRadius (e a : V3 ℝ) : ℝ := e.x * |a.x| + e.y * |a.y| + e.z * |a.z|

theorem term_le (e a d : ℝ) (h1 : -e ≤ d) (h2 : d ≤ e) : -(e * |a|) ≤ a * d ∧ a * d ≤ e * |a| := by
  rw [← abs_le, abs_mul, mul_comm]
  exact mul_le_mul_of_nonneg_right (abs_le.2 ⟨h1, h2⟩) (abs_nonneg a)

/-- The corner coordinate of a box in the direction of `a`. -/
noncomputable def signed (a e : ℝ) : ℝ := if 0 ≤ a then e else -e

theorem signed_mul (a e : ℝ) : a * signed a e = e * |a| := by
  unfold signed; split_ifs with h
  · rw [abs_of_nonneg h]; ring
  · rw [abs_of_neg (not_le.1 h)]; ring

theorem signed_le (a e : ℝ) (he : 0 ≤ e) : -e ≤ signed a e ∧ signed a e ≤ e := by
  unfold signed; split_ifs <;> constructor <;> linarith

theorem weighted_gt {a b c s0 s1 s2 r : ℝ} (ha : 0 ≤ a) (hb : 0 ≤ b) (hc : 0 ≤ c) (h : a + b + c = 1)
    (h0 : r < s0) (h1 : r < s1) (h2 : r < s2) : r < a * s0 + b * s1 + c * s2 := by
  obtain ⟨m, hm, g0, g1, g2⟩ : ∃ m, r < m ∧ m ≤ s0 ∧ m ≤ s1 ∧ m ≤ s2 :=
    ⟨min s0 (min s1 s2), by simp [h0, h1, h2], by simp, by simp, by simp⟩
  have e : m = a * m + b * m + c * m := by rw [← add_mul, ← add_mul, h, one_mul]
  calc r < m := hm
    _ = _ := e
    _ ≤ _ := add_le_add (add_le_add (mul_le_mul_of_nonneg_left g0 ha) (mul_le_mul_of_nonneg_left g1 hb))
      (mul_le_mul_of_nonneg_left g2 hc)

theorem dot_along_diff (a c q : V3 ℝ) : dot a q = dot a c + dot a (diff q c) := by
  simp only [dot, diff]; ring

theorem tri_vertices (u v w : V3 ℝ) : u ∈ Tri u v w ∧ v ∈ Tri u v w ∧ w ∈ Tri u v w := by
  refine ⟨⟨1, 0, 0, ?_⟩, ⟨0, 1, 0, ?_⟩, ⟨0, 0, 1, ?_⟩⟩ <;> simp [combo]

/-- All three projected vertices are beyond the projected box, on the same side. -/
def Beyond (c e u v w a : V3 ℝ) : Prop :=
  (projRadius e a < dot a (diff u c) ∧ projRadius e a < dot a (diff v c) ∧ projRadius e a < dot a (diff w c)) ∨
  (dot a (diff u c) < -projRadius e a ∧ dot a (diff v c) < -projRadius e a ∧ dot a (diff w c) < -projRadius e a)

/-- An axis separates the box from the triangle exactly when all three projected vertices are beyond the projected
box, on the same side. -/
theorem separates_iff (c e u v w a : V3 ℝ) (he : 0 ≤ e.x ∧ 0 ≤ e.y ∧ 0 ≤ e.z) :
    Separates a (Box (diff c e) ⟨c.x + e.x, c.y + e.y, c.z + e.z⟩) (Tri u v w) ↔
      Beyond c e u v w a := by
  unfold Beyond
  obtain ⟨e1, e2, e3⟩ := he
  obtain ⟨tu, tv, tw⟩ := tri_vertices u v w
  have s1 := signed_le a.x e.x e1
  have s2 := signed_le a.y e.y e2
  have s3 := signed_le a.z e.z e3
  have m1 := signed_mul a.x e.x
  have m2 := signed_mul a.y e.y
  have m3 := signed_mul a.z e.z
  constructor
  · rintro (h | h)
    · left
      have hp := h ⟨c.x + signed a.x e.x, c.y + signed a.y e.y, c.z + signed a.z e.z⟩ (by
        simp only [Box, diff, Set.mem_ofPred_eq]; refine ⟨⟨?_, ?_⟩, ⟨?_, ?_⟩, ?_, ?_⟩ <;> linarith [s1.1, s1.2, s2.1, s2.2, s3.1, s3.2])
      have h1 := hp u tu; have h2 := hp v tv; have h3 := hp w tw
      simp only [dot, projRadius, diff] at *
      refine ⟨?_, ?_, ?_⟩ <;> nlinarith
    · right
      have hp := h ⟨c.x - signed a.x e.x, c.y - signed a.y e.y, c.z - signed a.z e.z⟩ (by
        simp only [Box, diff, Set.mem_ofPred_eq]; refine ⟨⟨?_, ?_⟩, ⟨?_, ?_⟩, ?_, ?_⟩ <;> linarith [s1.1, s1.2, s2.1, s2.2, s3.1, s3.2])
      have h1 := hp u tu; have h2 := hp v tv; have h3 := hp w tw
      simp only [dot, projRadius, diff] at *
      refine ⟨?_, ?_, ?_⟩ <;> nlinarith
  · have bound : ∀ p ∈ Box (diff c e) ⟨c.x + e.x, c.y + e.y, c.z + e.z⟩,
        -projRadius e a ≤ dot a (diff p c) ∧ dot a (diff p c) ≤ projRadius e a := by
      rintro p ⟨⟨a1, b1⟩, ⟨a2, b2⟩, a3, b3⟩
      simp only [diff] at a1 a2 a3
      have t1 := term_le e.x a.x (p.x - c.x) (by linarith) (by linarith)
      have t2 := term_le e.y a.y (p.y - c.y) (by linarith) (by linarith)
      have t3 := term_le e.z a.z (p.z - c.z) (by linarith) (by linarith)
      simp only [dot, projRadius, diff]
      constructor <;> linarith [t1.1, t2.1, t3.1, t1.2, t2.2, t3.2]
    have lin : ∀ q0 q1 q2, q0 + q1 + q2 = 1 → dot a (diff (combo u v w q0 q1 q2) c) =
        q0 * dot a (diff u c) + q1 * dot a (diff v c) + q2 * dot a (diff w c) := by
      intro q0 q1 q2 h
      have : q2 = 1 - q0 - q1 := by linarith
      subst this
      simp only [dot, diff, combo]; ring
    rintro (⟨h0, h1, h2⟩ | ⟨h0, h1, h2⟩)
    · left
      rintro p hp q ⟨q0, q1, q2, g0, g1, g2, gs, rfl⟩
      rw [dot_along_diff a c p, dot_along_diff a c (combo _ _ _ _ _ _), lin _ _ _ gs]
      linarith [weighted_gt g0 g1 g2 gs h0 h1 h2, (bound p hp).2]
    · right
      rintro p hp q ⟨q0, q1, q2, g0, g1, g2, gs, rfl⟩
      rw [dot_along_diff a c p, dot_along_diff a c (combo _ _ _ _ _ _), lin _ _ _ gs]
      have := weighted_gt g0 g1 g2 gs (neg_lt_neg h0) (neg_lt_neg h1) (neg_lt_neg h2)
      linarith [(bound p hp).1]

theorem axisSep_iff (c0 c1 c2 a : V4 ℝ) (r : ℝ) : Sat.axisSep c0 c1 c2 a r = true ↔
    (r < dot (pt a) (pt c0) ∧ r < dot (pt a) (pt c1) ∧ r < dot (pt a) (pt c2)) ∨
    (dot (pt a) (pt c0) < -r ∧ dot (pt a) (pt c1) < -r ∧ dot (pt a) (pt c2) < -r) := by
  have e : ∀ c : V4 ℝ, dot (pt a) (pt c) = c.x * a.x + c.y * a.y + c.z * a.z := fun c => by
    simp only [dot, real_pt]; ring
  rw [e, e, e]
  simp [vec]
  rw [lt_neg, max_lt_iff, max_lt_iff]
  tauto

theorem axis_match (c e p0 p1 p2 a4 : V4 ℝ) (r : ℝ) (a : V3 ℝ) (ha : pt a4 = a) (hr : r = projRadius (pt e) a) :
    Sat.axisSep (V4.sub p0 c) (V4.sub p1 c) (V4.sub p2 c) a4 r = true ↔
      Beyond (pt c) (pt e) (pt p0) (pt p1) (pt p2) a := by
  rw [axisSep_iff, ha, hr]; rfl

theorem box_match (c e u v w : V3 ℝ) :
    (Beyond c e u v w ⟨1, 0, 0⟩ ↔ (e.x < u.x - c.x ∧ e.x < v.x - c.x ∧ e.x < w.x - c.x) ∨
      (u.x - c.x < -e.x ∧ v.x - c.x < -e.x ∧ w.x - c.x < -e.x)) ∧
    (Beyond c e u v w ⟨0, 1, 0⟩ ↔ (e.y < u.y - c.y ∧ e.y < v.y - c.y ∧ e.y < w.y - c.y) ∨
      (u.y - c.y < -e.y ∧ v.y - c.y < -e.y ∧ w.y - c.y < -e.y)) ∧
    (Beyond c e u v w ⟨0, 0, 1⟩ ↔ (e.z < u.z - c.z ∧ e.z < v.z - c.z ∧ e.z < w.z - c.z) ∨
      (u.z - c.z < -e.z ∧ v.z - c.z < -e.z ∧ w.z - c.z < -e.z)) := by
  simp [Beyond, projRadius, dot, diff]

theorem normal_match (c e u v w : V3 ℝ) :
    Beyond c e u v w (crossP (diff v u) (diff w v)) ↔
      projRadius e (crossP (diff v u) (diff w v)) < |dot (crossP (diff v u) (diff w v)) (diff u c)| := by
  have h1 : dot (crossP (diff v u) (diff w v)) (diff v c) = dot (crossP (diff v u) (diff w v)) (diff u c) := by
    simp only [dot, crossP, diff]; ring
  have h2 : dot (crossP (diff v u) (diff w v)) (diff w c) = dot (crossP (diff v u) (diff w v)) (diff u c) := by
    simp only [dot, crossP, diff]; ring
  unfold Beyond
  rw [h1, h2, lt_abs, lt_neg]
  tauto

theorem edge_match (c e p0 p1 p2 f : V4 ℝ) (f' : V3 ℝ) (hf : pt f = f') :
    (Sat.axisSep (V4.sub p0 c) (V4.sub p1 c) (V4.sub p2 c) (V4.ofV3 ⟨Flt.lit 0, -. f.z, f.y⟩)
      (e.y *. Flt.abs f.z +. e.z *. Flt.abs f.y) = true ↔
      Beyond (pt c) (pt e) (pt p0) (pt p1) (pt p2) (crossP ⟨1, 0, 0⟩ f')) ∧
    (Sat.axisSep (V4.sub p0 c) (V4.sub p1 c) (V4.sub p2 c) (V4.ofV3 ⟨f.z, Flt.lit 0, -. f.x⟩)
      (e.x *. Flt.abs f.z +. e.z *. Flt.abs f.x) = true ↔
      Beyond (pt c) (pt e) (pt p0) (pt p1) (pt p2) (crossP ⟨0, 1, 0⟩ f')) ∧
    (Sat.axisSep (V4.sub p0 c) (V4.sub p1 c) (V4.sub p2 c) (V4.ofV3 ⟨-. f.y, f.x, Flt.lit 0⟩)
      (e.x *. Flt.abs f.y +. e.y *. Flt.abs f.x) = true ↔
      Beyond (pt c) (pt e) (pt p0) (pt p1) (pt p2) (crossP ⟨0, 0, 1⟩ f')) := by
  subst hf
  refine ⟨axis_match _ _ _ _ _ _ _ _ ?_ ?_, axis_match _ _ _ _ _ _ _ _ ?_ ?_, axis_match _ _ _ _ _ _ _ _ ?_ ?_⟩ <;>
    simp [V4.ofV3, crossP, projRadius]

theorem box6 (c e p0 p1 p2 : V4 ℝ) :
    let m := Simd.transpose3x3 ⟨V4.sub p0 c, V4.sub p1 c, V4.sub p2 c, V4.splat (Flt.lit 0)⟩
    (Simd.max3 m.c0 <. -. e.x || gt (Simd.min3 m.c0) e.x || Simd.max3 m.c1 <. -. e.y ||
        gt (Simd.min3 m.c1) e.y || Simd.max3 m.c2 <. -. e.z || gt (Simd.min3 m.c2) e.z) = true ↔
      Beyond (pt c) (pt e) (pt p0) (pt p1) (pt p2) ⟨1, 0, 0⟩ ∨ Beyond (pt c) (pt e) (pt p0) (pt p1) (pt p2) ⟨0, 1, 0⟩ ∨
      Beyond (pt c) (pt e) (pt p0) (pt p1) (pt p2) ⟨0, 0, 1⟩ := by
  obtain ⟨b1, b2, b3⟩ := box_match (pt c) (pt e) (pt p0) (pt p1) (pt p2)
  rw [b1, b2, b3]
  simp only [vec, real_pt, Bool.or_eq_true, decide_eq_true_eq, max_lt_iff, lt_min_iff, and_assoc]
  simp only [or_assoc]
  constructor
  · rintro (h | h | h | h | h | h) <;> simp only [h, and_self, true_or, or_true]
  · rintro (h | h | h | h | h | h) <;> simp only [h, and_self, true_or, or_true]

theorem norm_test (c e p0 p1 p2 : V4 ℝ) :
    let n := Simd.cross3 (V4.sub (V4.sub p1 c) (V4.sub p0 c)) (V4.sub (V4.sub p2 c) (V4.sub p1 c))
    (Flt.abs (Simd.dot3 n (V4.sub p0 c)) <=. e.x *. Flt.abs n.x +. e.y *. Flt.abs n.y +. e.z *. Flt.abs n.z) = false ↔
      Beyond (pt c) (pt e) (pt p0) (pt p1) (pt p2) (crossP (diff (pt p1) (pt p0)) (diff (pt p2) (pt p1))) := by
  intro n
  have ex : n.x = (crossP (diff (pt p1) (pt p0)) (diff (pt p2) (pt p1))).x := by
    simp [n, vec, crossP, diff]; ring
  have ey : n.y = (crossP (diff (pt p1) (pt p0)) (diff (pt p2) (pt p1))).y := by
    simp [n, vec, crossP, diff]; ring
  have ez : n.z = (crossP (diff (pt p1) (pt p0)) (diff (pt p2) (pt p1))).z := by
    simp [n, vec, crossP, diff]; ring
  have ed : Simd.dot3 n (V4.sub p0 c) =
      dot (crossP (diff (pt p1) (pt p0)) (diff (pt p2) (pt p1))) (diff (pt p0) (pt c)) := by
    simp only [dot, ← ex, ← ey, ← ez]
    simp [Simd.dot3, V4.sub, V4.map2, diff]
  rw [normal_match, ed, ex, ey, ez]
  simp [projRadius]

theorem chain (a b : Bool) : (if a = true then false else b) = (!a && b) := by cases a <;> rfl

/-- C35: the test answers false exactly when one of the thirteen candidate axes separates the box from the triangle. -/
theorem sat_exact (position extent : V4 ℝ) (t : Triangle ℝ)
    (he : 0 ≤ extent.x ∧ 0 ≤ extent.y ∧ 0 ≤ extent.z) :
    Sat.test position extent t = false ↔ ∃ a ∈ candidates (pt t.p0) (pt t.p1) (pt t.p2),
      Separates a (boxOf ⟨V4.sub position extent, V4.add position extent⟩) (Tri (pt t.p0) (pt t.p1) (pt t.p2)) := by
  have hb : boxOf (⟨V4.sub position extent, V4.add position extent⟩ : Aabb ℝ) =
      Box (diff (pt position) (pt extent)) ⟨(pt position).x + (pt extent).x, (pt position).y + (pt extent).y,
        (pt position).z + (pt extent).z⟩ := rfl
  rw [hb]
  simp only [separates_iff (pt position) (pt extent) _ _ _ _ he]
  unfold Sat.test
  simp only [chain]
  have f0 : pt (V4.sub (V4.sub t.p1 position) (V4.sub t.p0 position)) = diff (pt t.p1) (pt t.p0) := by
    simp [vec, diff]
  have f1 : pt (V4.sub (V4.sub t.p2 position) (V4.sub t.p1 position)) = diff (pt t.p2) (pt t.p1) := by
    simp [vec, diff]
  have f2 : pt (V4.sub (V4.sub t.p0 position) (V4.sub t.p2 position)) = diff (pt t.p0) (pt t.p2) := by
    simp [vec, diff]
  obtain ⟨x0, y0, z0⟩ := edge_match position extent t.p0 t.p1 t.p2 _ _ f0
  obtain ⟨x1, y1, z1⟩ := edge_match position extent t.p0 t.p1 t.p2 _ _ f1
  obtain ⟨x2, y2, z2⟩ := edge_match position extent t.p0 t.p1 t.p2 _ _ f2
  have n6 := box6 position extent t.p0 t.p1 t.p2
  have n7 := norm_test position extent t.p0 t.p1 t.p2
  simp only at n6 n7
  simp only [Bool.and_eq_false_iff, Bool.not_eq_false', x0, y0, z0, x1, y1, z1, x2, y2, z2]
  rw [n6, n7]
  simp only [candidates, boxAxes, edges, List.flatMap_cons, List.flatMap_nil, List.map_cons, List.map_nil,
    List.cons_append, List.nil_append, List.append_nil, List.mem_cons, List.not_mem_nil, or_false, exists_eq_or_imp,
    exists_eq_left]
  generalize Beyond (pt position) (pt extent) (pt t.p0) (pt t.p1) (pt t.p2) = B
  constructor
  · rintro (h | h | h | h | h | h | h | h | h | (h | h | h) | h) <;> simp only [h, true_or, or_true]
  · rintro (h | h | h | h | h | h | h | h | h | h | h | h | h) <;> simp only [h, true_or, or_true]

/-- The thirteen axes are thirteen. -/
example (p q r : V3 ℝ) : (candidates p q r).length = 13 := rfl

/-- Non-vacuity of `sat_exact` and `sat_complete`: a triangle touching the cube [-1,1]^3 at (1,0,0). -/
example : (boxOf (⟨V4.sub (V4.splat 0) (V4.splat 1), V4.add (V4.splat 0) (V4.splat 1)⟩ : Aabb ℝ) ∩
    Tri (pt (⟨1, 0, 0, 0⟩ : V4 ℝ)) (pt (⟨2, 1, 0, 0⟩ : V4 ℝ)) (pt (⟨2, 0, 1, 0⟩ : V4 ℝ))).Nonempty :=
  ⟨⟨1, 0, 0⟩, by simp [boxOf, Box, V4.sub, V4.add, V4.map2, V4.splat], (tri_vertices _ _ _).1⟩

/-- C35: the test never misses an overlap. -/
theorem sat_complete (position extent : V4 ℝ) (t : Triangle ℝ)
    (he : 0 ≤ extent.x ∧ 0 ≤ extent.y ∧ 0 ≤ extent.z)
    (h : (boxOf (⟨V4.sub position extent, V4.add position extent⟩ : Aabb ℝ) ∩
      Tri (pt t.p0) (pt t.p1) (pt t.p2)).Nonempty) : Sat.test position extent t = true := by
  by_contra hc
  rw [Bool.not_eq_true, sat_exact _ _ _ he] at hc
  obtain ⟨a, -, ha⟩ := hc
  exact separates_disjoint ha h

end Verif
