import Verif.Spec.TriFoot
import Verif.Props.Primitives
import Mathlib.Tactic.LinearCombination

/-!
# The closest point of a triangle (C124)
-/

namespace Verif
open Spec

namespace TriClosest

/-- A vector orthogonal to both edges is a multiple of the normal. -/
theorem ortho (e f v : V3 ℝ) (h1 : dot v e = 0) (h2 : dot v f = 0) :
    let n := crossP e f
    dot n n * v.x = dot v n * n.x ∧ dot n n * v.y = dot v n * n.y ∧ dot n n * v.z = dot v n * n.z := by
  intro n
  have hx : dot n n * v.x = dot v n * n.x + dot v e * (crossP f n).x + dot v f * (crossP n e).x := by
    simp only [n, dot, crossP]; ring
  have hy : dot n n * v.y = dot v n * n.y + dot v e * (crossP f n).y + dot v f * (crossP n e).y := by
    simp only [n, dot, crossP]; ring
  have hz : dot n n * v.z = dot v n * n.z + dot v e * (crossP f n).z + dot v f * (crossP n e).z := by
    simp only [n, dot, crossP]; ring
  rw [h1, h2] at hx hy hz
  refine ⟨?_, ?_, ?_⟩ <;> linarith

/-- Where the code projects to: off the triangle's plane by twice the distance of the plane from the origin. -/
theorem projected (t : Triangle ℝ) (x : V4 ℝ) (s : V3 ℝ) (h : NonDegenerate (pt t.p0) (pt t.p1) (pt t.p2))
    (hs : Foot (pt t.p0) (pt t.p1) (pt t.p2) (pt x) s) :
    pt ((Plane.ofTriangle t).closestPoint x) =
      along s (triNormal t) (-2 * (dot (triNormal t) (pt t.p0) / dot (triNormal t) (triNormal t))) := by
  obtain ⟨l, hl, hll, e, ew⟩ := ofTriangle_eq t h
  have hp : 0 < dot (triNormal t) (triNormal t) := nondegenerate_pos h
  have hc : pt ((Plane.ofTriangle t).closestPoint x) = along (pt x) (pt (Plane.ofTriangle t).normDist)
      (-(dot (pt (Plane.ofTriangle t).normDist) (pt x) + (Plane.ofTriangle t).normDist.w)) := by
    generalize Plane.ofTriangle t = pl
    simp only [Plane.closestPoint, Plane.distance, vec, along, dot, real_pt, V3.mk.injEq]
    push_cast
    refine ⟨?_, ?_, ?_⟩ <;> ring
  rw [hc, ew, e]
  obtain ⟨hpl, o1, o2⟩ := hs
  rw [mem_triPlane h] at hpl
  obtain ⟨vx, vy, vz⟩ := ortho _ _ _ o1 o2
  change dot (triNormal t) (triNormal t) * _ = _ * (triNormal t).x at vx
  change dot (triNormal t) (triNormal t) * _ = _ * (triNormal t).y at vy
  change dot (triNormal t) (triNormal t) * _ = _ * (triNormal t).z at vz
  change dot (diff (pt t.p1) (pt t.p0) |> fun _ => triNormal t) _ = 0 at hpl
  have k : dot (diff (pt x) s) (crossP (diff (pt t.p1) (pt t.p0)) (diff (pt t.p2) (pt t.p0))) =
      dot (triNormal t) (pt x) - dot (triNormal t) (pt t.p0) := by
    have : dot (diff (pt x) s) (triNormal t) = dot (triNormal t) (pt x) - dot (triNormal t) (pt t.p0)
      - dot (triNormal t) (diff s (pt t.p0)) := by simp only [dot, diff]; ring
    rw [show crossP (diff (pt t.p1) (pt t.p0)) (diff (pt t.p2) (pt t.p0)) = triNormal t from rfl, this, hpl, sub_zero]
  rw [k] at vx vy vz
  generalize triNormal t = n at *
  generalize pt x = y at *
  generalize pt t.p0 = p at *
  have d1 : ∀ z : V3 ℝ, dot ⟨n.x / l, n.y / l, n.z / l⟩ z = dot n z / l := by intro z; simp only [dot]; field_simp
  rw [d1, d1]
  simp only [along, V3.mk.injEq]
  simp only [diff] at vx vy vz
  rw [← hll] at *
  generalize dot n y = A at *
  generalize dot n p = B at *
  have hl' := hl.ne'
  refine ⟨?_, ?_, ?_⟩ <;> field_simp <;> linarith

/-- Distances from a point above the foot. -/
theorem pyth (p q r x s z : V3 ℝ) (hs : Foot p q r x s) (hz : z ∈ TriPlane p q r) :
    dist2 x z = dist2 x s + dist2 s z := by
  obtain ⟨⟨a, b, c, h1, rfl⟩, o1, o2⟩ := hs
  obtain ⟨a', b', c', h2, rfl⟩ := hz
  have e1 : a = 1 - b - c := by linarith
  have e2 : a' = 1 - b' - c' := by linarith
  subst e1 e2
  have : dist2 x (combo p q r (1 - b' - c') b' c') = dist2 x (combo p q r (1 - b - c) b c) +
      dist2 (combo p q r (1 - b - c) b c) (combo p q r (1 - b' - c') b' c') +
      2 * ((b - b') * dot (diff x (combo p q r (1 - b - c) b c)) (diff q p) +
        (c - c') * dot (diff x (combo p q r (1 - b - c) b c)) (diff r p)) := by
    simp only [dist2, combo, dot, diff]; ring
  rw [this, o1, o2]; ring

/-- The point the code projects to has the same foot. -/
theorem foot_along (p q r s : V3 ℝ) (k : ℝ) (hs : s ∈ TriPlane p q r) : Foot p q r (along s (normalOf p q r) k) s := by
  refine ⟨hs, ?_, ?_⟩ <;> simp only [dot, diff, along, normalOf, crossP] <;> ring

/-- What `isInside` tests for a point above or below the plane. -/
theorem isInside_off (t : Triangle ℝ) (x : V4 ℝ) (h : NonDegenerate (pt t.p0) (pt t.p1) (pt t.p2)) (a b c k : ℝ)
    (h1 : a + b + c = 1) (hx : pt x = along (combo (pt t.p0) (pt t.p1) (pt t.p2) a b c) (triNormal t) k) :
    t.isInside x = true ↔
      0 ≤ a * b + k ^ 2 * dot (diff (pt t.p1) (pt t.p2)) (diff (pt t.p2) (pt t.p0)) ∧
      0 ≤ a * c + k ^ 2 * dot (diff (pt t.p1) (pt t.p2)) (diff (pt t.p0) (pt t.p1)) := by
  have hp : 0 < dot (triNormal t) (triNormal t) := nondegenerate_pos h
  have hd : ∀ a b : V4 ℝ, Simd.dot3 a b = dot (pt a) (pt b) := by
    intro a b; simp only [Simd.dot3, dot, real_pt, Flt.real_add, Flt.real_mul, Flt.real_lit]; push_cast; ring
  have hg : ∀ a b : V4 ℝ, pt (V4.sub a b) = diff (pt a) (pt b) := by intro a b; rfl
  have hcr : ∀ a b : V4 ℝ, pt (Simd.cross3 a b) = crossP (pt a) (pt b) := by
    intro a b; simp only [vec, crossP, real_pt, V3.mk.injEq]; refine ⟨?_, ?_, ?_⟩ <;> ring
  simp only [Triangle.isInside, hd, hcr, hg, hx]
  have on : dot (triNormal t) (diff (pt t.p1) (pt t.p0)) = 0 ∧ dot (triNormal t) (diff (pt t.p2) (pt t.p0)) = 0 := by
    constructor <;> simp only [dot, triNormal, normalOf, crossP, diff] <;> ring
  have hn : triNormal t = crossP (diff (pt t.p1) (pt t.p0)) (diff (pt t.p2) (pt t.p0)) := rfl
  have ha : a = 1 - b - c := by linarith
  generalize triNormal t = n at *
  generalize pt t.p0 = p at *
  generalize pt t.p1 = q at *
  generalize pt t.p2 = r at *
  -- the three cross products
  have sh : ∀ u v s : V3 ℝ, crossP (diff u (along s n k)) (diff v (along s n k)) =
      along (crossP (diff u s) (diff v s)) (crossP n (diff u v)) k := by
    intro u v s
    simp only [crossP, diff, along, V3.mk.injEq]
    refine ⟨?_, ?_, ?_⟩ <;> ring
  have cu : crossP (diff q (combo p q r a b c)) (diff r (combo p q r a b c)) = ⟨a * n.x, a * n.y, a * n.z⟩ := by
    subst ha hn
    simp only [crossP, diff, combo, V3.mk.injEq]
    refine ⟨?_, ?_, ?_⟩ <;> ring
  have cv : crossP (diff r (combo p q r a b c)) (diff p (combo p q r a b c)) = ⟨b * n.x, b * n.y, b * n.z⟩ := by
    subst ha hn
    simp only [crossP, diff, combo, V3.mk.injEq]
    refine ⟨?_, ?_, ?_⟩ <;> ring
  have cw : crossP (diff p (combo p q r a b c)) (diff q (combo p q r a b c)) = ⟨c * n.x, c * n.y, c * n.z⟩ := by
    subst ha hn
    simp only [crossP, diff, combo, V3.mk.injEq]
    refine ⟨?_, ?_, ?_⟩ <;> ring
  rw [sh, sh, sh, cu, cv, cw]
  have dd : ∀ (f g : V3 ℝ) (u v : ℝ), dot n f = 0 → dot n g = 0 →
      dot (along ⟨u * n.x, u * n.y, u * n.z⟩ (crossP n f) k) (along ⟨v * n.x, v * n.y, v * n.z⟩ (crossP n g) k) =
        dot n n * (u * v + k ^ 2 * dot f g) := by
    intro f g u v hf hg
    have : dot (along ⟨u * n.x, u * n.y, u * n.z⟩ (crossP n f) k) (along ⟨v * n.x, v * n.y, v * n.z⟩ (crossP n g) k) =
        dot n n * (u * v + k ^ 2 * dot f g) - k ^ 2 * dot n f * dot n g := by
      simp only [dot, along, crossP]; ring
    rw [this, hf]; ring
  obtain ⟨o1, o2⟩ := on
  have n1 : dot n (diff q r) = 0 := by
    have : dot n (diff q r) = dot n (diff q p) - dot n (diff r p) := by simp only [dot, diff]; ring
    rw [this, o1, o2, sub_zero]
  have n3 : dot n (diff p q) = 0 := by
    have : dot n (diff p q) = -dot n (diff q p) := by simp only [dot, diff]; ring
    rw [this, o1, neg_zero]
  rw [dd _ _ _ _ n1 o2, dd _ _ _ _ n1 n3]
  have pos : ∀ y, (dot n n * y < 0) ↔ y < 0 := fun y => by
    constructor
    · intro hy; by_contra hc; exact absurd hy (not_lt.2 (mul_nonneg hp.le (not_lt.1 hc)))
    · exact fun hy => mul_neg_of_pos_of_neg hp hy
  generalize a * b + k ^ 2 * dot (diff q r) (diff r p) = A
  generalize a * c + k ^ 2 * dot (diff q r) (diff p q) = B
  have e1 : (dot n n * A <. Flt.lit 0) = decide (A < 0) := by
    rw [Bool.eq_iff_iff, decide_eq_true_iff, ← pos A]; simp
  have e2 : (dot n n * B <. Flt.lit 0) = decide (B < 0) := by
    rw [Bool.eq_iff_iff, decide_eq_true_iff, ← pos B]; simp
  rw [e1, e2]
  by_cases hA : A < 0 <;> by_cases hB : B < 0 <;> simp [hA, hB, not_lt.1] <;> grind

/-- Going from a point off the interior towards a point of the triangle, one meets the edges. -/
theorem exit {a b c a' b' c' : ℝ} (h : a ≤ 0 ∨ b ≤ 0 ∨ c ≤ 0) (ha : 0 ≤ a') (hb : 0 ≤ b') (hc : 0 ≤ c') :
    ∃ l, 0 ≤ l ∧ l ≤ 1 ∧ 0 ≤ a + l * (a' - a) ∧ 0 ≤ b + l * (b' - b) ∧ 0 ≤ c + l * (c' - c) ∧
      (a + l * (a' - a) = 0 ∨ b + l * (b' - b) = 0 ∨ c + l * (c' - c) = 0) := by
  -- the first moment at which a coordinate is not negative
  have one : ∀ x x' : ℝ, 0 ≤ x' → ∃ l, 0 ≤ l ∧ l ≤ 1 ∧ (∀ m, l ≤ m → m ≤ 1 → 0 ≤ x + m * (x' - x)) ∧
      ((x ≤ 0 → x + l * (x' - x) = 0) ∧ (0 < l → x ≤ 0) ∧ (0 ≤ x → l = 0)) := by
    intro x x' hx'
    by_cases hx : 0 ≤ x
    · refine ⟨0, le_rfl, zero_le_one, fun m m0 m1 => by nlinarith, fun h => by linarith, fun h => absurd h (lt_irrefl _), fun _ => rfl⟩
    · rw [not_le] at hx
      have hd : 0 < x' - x := by linarith
      have e : x + -x / (x' - x) * (x' - x) = 0 := by field_simp; ring
      refine ⟨-x / (x' - x), by apply div_nonneg <;> linarith, by rw [div_le_one hd]; linarith, fun m m0 _ => ?_,
        fun _ => e, fun _ => hx.le, fun h => absurd h (not_le.2 hx)⟩
      nlinarith
  obtain ⟨l1, p1, q1, r1, z1, w1, y1⟩ := one a a' ha
  obtain ⟨l2, p2, q2, r2, z2, w2, y2⟩ := one b b' hb
  obtain ⟨l3, p3, q3, r3, z3, w3, y3⟩ := one c c' hc
  have main : ∀ l, l1 ≤ l → l2 ≤ l → l3 ≤ l → l ≤ 1 → (a + l * (a' - a) = 0 ∨ b + l * (b' - b) = 0 ∨ c + l * (c' - c) = 0) → _ :=
    fun l m1 m2 m3 m h => (⟨l, p1.trans m1, m, r1 l m1 m, r2 l m2 m, r3 l m3 m, h⟩ :
      ∃ l, 0 ≤ l ∧ l ≤ 1 ∧ 0 ≤ a + l * (a' - a) ∧ 0 ≤ b + l * (b' - b) ∧ 0 ≤ c + l * (c' - c) ∧
      (a + l * (a' - a) = 0 ∨ b + l * (b' - b) = 0 ∨ c + l * (c' - c) = 0))
  by_cases n : 0 < l1 ∨ 0 < l2 ∨ 0 < l3
  · rcases le_total l1 l2 with h12 | h12
    · rcases le_total l2 l3 with h23 | h23
      · exact main l3 (h12.trans h23) h23 le_rfl q3 (.inr (.inr (z3 (w3 (by rcases n with n | n | n <;> linarith)))))
      · exact main l2 h12 le_rfl h23 q2 (.inr (.inl (z2 (w2 (by rcases n with n | n | n <;> linarith)))))
    · rcases le_total l1 l3 with h13 | h13
      · exact main l3 h13 (h12.trans h13) le_rfl q3 (.inr (.inr (z3 (w3 (by rcases n with n | n | n <;> linarith)))))
      · exact main l1 le_rfl h12 h13 q1 (.inl (z1 (w1 (by rcases n with n | n | n <;> linarith))))
  · simp only [not_or, not_lt] at n
    obtain ⟨n1, n2, n3⟩ := n
    have e1 : l1 = 0 := le_antisymm n1 p1
    have e2 : l2 = 0 := le_antisymm n2 p2
    have e3 : l3 = 0 := le_antisymm n3 p3
    refine main 0 n1 n2 n3 zero_le_one ?_
    rcases h with h | h | h
    · left; exact e1 ▸ z1 h
    · right; left; exact e2 ▸ z2 h
    · right; right; exact e3 ▸ z3 h

theorem seg_tri {p q r x : V3 ℝ} (h : x ∈ Segment p q ∨ x ∈ Segment q r ∨ x ∈ Segment r p) : x ∈ Tri p q r := by
  rcases h with ⟨t, h0, h1, rfl⟩ | ⟨t, h0, h1, rfl⟩ | ⟨t, h0, h1, rfl⟩
  · refine ⟨1 - t, t, 0, by linarith, h0, le_rfl, by ring, ?_⟩
    simp only [along, diff, combo, V3.mk.injEq]; refine ⟨?_, ?_, ?_⟩ <;> ring
  · refine ⟨0, 1 - t, t, le_rfl, by linarith, h0, by ring, ?_⟩
    simp only [along, diff, combo, V3.mk.injEq]; refine ⟨?_, ?_, ?_⟩ <;> ring
  · refine ⟨t, 0, 1 - t, h0, le_rfl, by linarith, by ring, ?_⟩
    simp only [along, diff, combo, V3.mk.injEq]; refine ⟨?_, ?_, ?_⟩ <;> ring

theorem tri_plane {p q r x : V3 ℝ} (h : x ∈ Tri p q r) : x ∈ TriPlane p q r := by
  obtain ⟨a, b, c, -, -, -, h1, h2⟩ := h
  exact ⟨a, b, c, h1, h2⟩

/-- A point of an edge that is nearest among the points of the edges is nearest in the triangle, for a point of the
plane off the interior. -/
theorem nearest_edge {p q r s y : V3 ℝ} (a b c : ℝ) (h1 : a + b + c = 1) (hs : s = combo p q r a b c)
    (h : a ≤ 0 ∨ b ≤ 0 ∨ c ≤ 0)
    (hy : ∀ z, z ∈ Segment p q ∨ z ∈ Segment q r ∨ z ∈ Segment r p → dist2 s y ≤ dist2 s z) :
    ∀ z ∈ Tri p q r, dist2 s y ≤ dist2 s z := by
  rintro z ⟨a', b', c', ha, hb, hc, h2, rfl⟩
  obtain ⟨l, l0, l1, k1, k2, k3, hz⟩ := exit h ha hb hc
  have e1 : a = 1 - b - c := by linarith
  have e2 : a' = 1 - b' - c' := by linarith
  have dl : dist2 s (combo p q r (a + l * (a' - a)) (b + l * (b' - b)) (c + l * (c' - c))) =
      l ^ 2 * dist2 s (combo p q r a' b' c') := by
    subst hs e1 e2; simp only [dist2, combo]; ring
  have d0 : 0 ≤ dist2 s (combo p q r a' b' c') := by
    simp only [dist2]; positivity
  have : dist2 s y ≤ dist2 s (combo p q r (a + l * (a' - a)) (b + l * (b' - b)) (c + l * (c' - c))) := by
    apply hy
    have su : (a + l * (a' - a)) + (b + l * (b' - b)) + (c + l * (c' - c)) = 1 := by
      subst e1 e2; ring
    generalize a + l * (a' - a) = u at *
    generalize b + l * (b' - b) = v at *
    generalize c + l * (c' - c) = w at *
    rcases hz with hz | hz | hz
    · right; left
      refine ⟨w, k3, by linarith, ?_⟩
      have : v = 1 - w := by linarith
      subst hz this
      simp only [along, diff, combo, V3.mk.injEq]; refine ⟨?_, ?_, ?_⟩ <;> ring
    · right; right
      refine ⟨u, k1, by linarith, ?_⟩
      have : w = 1 - u := by linarith
      subst hz this
      simp only [along, diff, combo, V3.mk.injEq]; refine ⟨?_, ?_, ?_⟩ <;> ring
    · left
      refine ⟨v, k2, by linarith, ?_⟩
      have : u = 1 - v := by linarith
      subst hz this
      simp only [along, diff, combo, V3.mk.injEq]; refine ⟨?_, ?_, ?_⟩ <;> ring
  rw [dl] at this
  exact this.trans (mul_le_of_le_one_left d0 (pow_le_one₀ l0 l1))

/-- The point of the three edges the code chooses. -/
noncomputable def edgePoint (t : Triangle ℝ) (p : V4 ℝ) : V4 ℝ :=
  let c0 := Line.closestPoint ⟨t.p0, t.p1⟩ p
  let c1 := Line.closestPoint ⟨t.p1, t.p2⟩ p
  let c2 := Line.closestPoint ⟨t.p2, t.p0⟩ p
  let v : V4 ℝ := V4.ofV3 ⟨Simd.lengthSq3 (V4.sub p c0), Simd.lengthSq3 (V4.sub p c1), Simd.lengthSq3 (V4.sub p c2)⟩
  let m := Simd.min3 v
  if m ==. v.x then c0 else if m ==. v.y then c1 else c2

theorem closestPoint_eq (t : Triangle ℝ) (x : V4 ℝ) : t.closestPoint x =
    if t.isInside ((Plane.ofTriangle t).closestPoint x) then (Plane.ofTriangle t).closestPoint x
    else edgePoint t ((Plane.ofTriangle t).closestPoint x) := rfl

theorem edge_ne {p q r : V3 ℝ} (h : NonDegenerate p q r) : q ≠ p ∧ r ≠ q ∧ p ≠ r := by
  refine ⟨?_, ?_, ?_⟩
  · rintro rfl
    exact one_ne_zero (h 1 0 (by ring) (by ring) (by ring)).1
  · rintro rfl
    exact one_ne_zero (h 1 (-1) (by ring) (by ring) (by ring)).1
  · rintro rfl
    exact one_ne_zero (h 0 1 (by ring) (by ring) (by ring)).2

theorem edgePoint_spec (t : Triangle ℝ) (x : V4 ℝ) (h : NonDegenerate (pt t.p0) (pt t.p1) (pt t.p2)) :
    (pt (edgePoint t x) ∈ Segment (pt t.p0) (pt t.p1) ∨ pt (edgePoint t x) ∈ Segment (pt t.p1) (pt t.p2) ∨
      pt (edgePoint t x) ∈ Segment (pt t.p2) (pt t.p0)) ∧
    ∀ z, z ∈ Segment (pt t.p0) (pt t.p1) ∨ z ∈ Segment (pt t.p1) (pt t.p2) ∨ z ∈ Segment (pt t.p2) (pt t.p0) →
      dist2 (pt x) (pt (edgePoint t x)) ≤ dist2 (pt x) z := by
  obtain ⟨n1, n2, n3⟩ := edge_ne h
  obtain ⟨a1, b1⟩ := line_closestPoint ⟨t.p0, t.p1⟩ x n1
  obtain ⟨a2, b2⟩ := line_closestPoint ⟨t.p1, t.p2⟩ x n2
  obtain ⟨a3, b3⟩ := line_closestPoint ⟨t.p2, t.p0⟩ x n3
  have hl : ∀ c : V4 ℝ, Simd.lengthSq3 (V4.sub x c) = dist2 (pt x) (pt c) := by
    intro c; simp only [vec, dist2, real_pt]; push_cast; ring
  have hm : ∀ a b c : ℝ, Simd.min3 (V4.ofV3 ⟨a, b, c⟩) = min (min a b) c := by
    intro a b c
    simp [vec, V4.swizzle, V4.get]
  unfold edgePoint
  simp only [hl, hm]
  generalize Line.closestPoint ⟨t.p0, t.p1⟩ x = c0 at *
  generalize Line.closestPoint ⟨t.p1, t.p2⟩ x = c1 at *
  generalize Line.closestPoint ⟨t.p2, t.p0⟩ x = c2 at *
  have eq1 : ∀ a b : ℝ, (a ==. b) = decide (a = b) := by intro a b; simp [vec]
  simp only [V4.ofV3, eq1, decide_eq_true_eq]
  have m0 := (min_le_left (min (dist2 (pt x) (pt c0)) (dist2 (pt x) (pt c1))) (dist2 (pt x) (pt c2))).trans (min_le_left _ _)
  have m1 := (min_le_left (min (dist2 (pt x) (pt c0)) (dist2 (pt x) (pt c1))) (dist2 (pt x) (pt c2))).trans (min_le_right _ _)
  have m2 := min_le_right (min (dist2 (pt x) (pt c0)) (dist2 (pt x) (pt c1))) (dist2 (pt x) (pt c2))
  have mm : min (min (dist2 (pt x) (pt c0)) (dist2 (pt x) (pt c1))) (dist2 (pt x) (pt c2)) = dist2 (pt x) (pt c0) ∨
      min (min (dist2 (pt x) (pt c0)) (dist2 (pt x) (pt c1))) (dist2 (pt x) (pt c2)) = dist2 (pt x) (pt c1) ∨
      min (min (dist2 (pt x) (pt c0)) (dist2 (pt x) (pt c1))) (dist2 (pt x) (pt c2)) = dist2 (pt x) (pt c2) := by
    rcases min_choice (min (dist2 (pt x) (pt c0)) (dist2 (pt x) (pt c1))) (dist2 (pt x) (pt c2)) with h | h <;> rw [h]
    · rcases min_choice (dist2 (pt x) (pt c0)) (dist2 (pt x) (pt c1)) with h | h <;> rw [h] <;> simp
    · simp
  generalize min (min (dist2 (pt x) (pt c0)) (dist2 (pt x) (pt c1))) (dist2 (pt x) (pt c2)) = m at *
  have fin : ∀ c : V4 ℝ, m = dist2 (pt x) (pt c) → ∀ z, z ∈ Segment (pt t.p0) (pt t.p1) ∨ z ∈ Segment (pt t.p1) (pt t.p2) ∨ z ∈ Segment (pt t.p2) (pt t.p0) →
      dist2 (pt x) (pt c) ≤ dist2 (pt x) z := by
    rintro c hc z (hz | hz | hz) <;> rw [← hc]
    · exact m0.trans (b1 z hz)
    · exact m1.trans (b2 z hz)
    · exact m2.trans (b3 z hz)
  by_cases h0 : m = dist2 (pt x) (pt c0)
  · rw [if_pos h0]; exact ⟨.inl a1, fin _ h0⟩
  · rw [if_neg h0]
    by_cases h1 : m = dist2 (pt x) (pt c1)
    · rw [if_pos h1]; exact ⟨.inr (.inl a2), fin _ h1⟩
    · rw [if_neg h1]
      exact ⟨.inr (.inr a3), fin _ ((mm.resolve_left h0).resolve_left h1)⟩

/-- When the edges are searched and the foot is not inside, the result is right. -/
theorem search (t : Triangle ℝ) (x : V4 ℝ) (s : V3 ℝ) (h : NonDegenerate (pt t.p0) (pt t.p1) (pt t.p2))
    (hs : Foot (pt t.p0) (pt t.p1) (pt t.p2) (pt x) s) (a b c : ℝ) (h1 : a + b + c = 1)
    (hc : s = combo (pt t.p0) (pt t.p1) (pt t.p2) a b c) (ho : a ≤ 0 ∨ b ≤ 0 ∨ c ≤ 0) :
    Nearest (Tri (pt t.p0) (pt t.p1) (pt t.p2)) (pt x) (pt (edgePoint t ((Plane.ofTriangle t).closestPoint x))) := by
  have hp := projected t x s h hs
  generalize (Plane.ofTriangle t).closestPoint x = y at *
  obtain ⟨m, k⟩ := edgePoint_spec t y h
  have hf : Foot (pt t.p0) (pt t.p1) (pt t.p2) (pt y) s := by rw [hp]; exact foot_along _ _ _ _ _ hs.1
  have mt := seg_tri m
  have key := nearest_edge a b c h1 hc ho (y := pt (edgePoint t y)) fun z hz => by
    have := k z hz
    rw [pyth _ _ _ _ _ _ hf (tri_plane mt), pyth _ _ _ _ _ _ hf (tri_plane (seg_tri hz))] at this
    linarith
  refine ⟨mt, fun z hz => ?_⟩
  rw [pyth _ _ _ _ _ _ hs (tri_plane mt), pyth _ _ _ _ _ _ hs (tri_plane hz)]
  linarith [key z hz]

/-- On the line through the last two vertices exactly when the first coordinate is zero. -/
theorem on_line {p q r : V3 ℝ} {a b c : ℝ} (h1 : a + b + c = 1) (ha : a = 0) :
    combo p q r a b c ∈ LinePts q r := by
  refine ⟨c, ?_⟩
  have : b = 1 - c := by linarith
  subst ha this
  simp only [along, diff, combo, V3.mk.injEq]; refine ⟨?_, ?_, ?_⟩ <;> ring

/-- Coordinates are unique. -/
theorem unique {p q r : V3 ℝ} (h : NonDegenerate p q r) {a b c a' b' c' : ℝ} (h1 : a + b + c = 1) (h2 : a' + b' + c' = 1)
    (e : combo p q r a b c = combo p q r a' b' c') : a = a' ∧ b = b' ∧ c = c' := by
  simp only [combo, V3.mk.injEq] at e
  obtain ⟨ex, ey, ez⟩ := e
  have e1 : a = 1 - b - c := by linarith
  have e2 : a' = 1 - b' - c' := by linarith
  subst e1 e2
  obtain ⟨k1, k2⟩ := h (b - b') (c - c') (by linear_combination ex) (by linear_combination ey) (by linear_combination ez)
  refine ⟨?_, ?_, ?_⟩ <;> linarith

end TriClosest
open TriClosest

/-- C124 (partial): for a triangle whose plane passes through the origin, the point returned is the nearest point of
the triangle, unless the point is right above the line through the second and third vertices, off the triangle. Missing:
triangles in other planes, for which the result is wrong (`triangle_closest_wrong`), and that line. -/
theorem triangle_closest_partial (t : Triangle ℝ) (x : V4 ℝ) (s : V3 ℝ) (h : NonDegenerate (pt t.p0) (pt t.p1) (pt t.p2))
    (h0 : ⟨0, 0, 0⟩ ∈ TriPlane (pt t.p0) (pt t.p1) (pt t.p2)) (hs : Foot (pt t.p0) (pt t.p1) (pt t.p2) (pt x) s)
    (hl : s ∈ Tri (pt t.p0) (pt t.p1) (pt t.p2) ∨ s ∉ LinePts (pt t.p1) (pt t.p2)) :
    Nearest (Tri (pt t.p0) (pt t.p1) (pt t.p2)) (pt x) (pt (t.closestPoint x)) := by
  have hp := projected t x s h hs
  obtain ⟨a, b, c, h1, hc⟩ := hs.1
  have hz : dot (triNormal t) (pt t.p0) = 0 := by
    have := (mem_triPlane h _).1 h0
    have e : dot (triNormal t) (pt t.p0) = -dot (normalOf (pt t.p0) (pt t.p1) (pt t.p2)) (diff ⟨0, 0, 0⟩ (pt t.p0)) := by
      simp only [triNormal, dot, diff]; ring
    rw [e, this, neg_zero]
  rw [hz, zero_div, mul_zero] at hp
  have hi := isInside_off t _ h a b c 0 h1 (by rw [hp, hc])
  have hp' : pt ((Plane.ofTriangle t).closestPoint x) = s := by rw [hp]; cases s; simp [along]
  simp only [ne_eq, OfNat.ofNat_ne_zero, not_false_eq_true, zero_pow, zero_mul, add_zero] at hi
  rw [closestPoint_eq]
  by_cases hin : t.isInside ((Plane.ofTriangle t).closestPoint x) = true
  · rw [if_pos hin, hp']
    obtain ⟨i1, i2⟩ := hi.1 hin
    have ht : s ∈ Tri (pt t.p0) (pt t.p1) (pt t.p2) := by
      rcases hl with hl | hl
      · exact hl
      · have ha : a ≠ 0 := fun ha => hl (hc ▸ on_line h1 ha)
        have ap : 0 < a := by
          by_contra hn
          have an : a < 0 := lt_of_le_of_ne (not_lt.1 hn) ha
          have : b ≤ 0 := by by_contra hb; nlinarith
          have : c ≤ 0 := by by_contra hb; nlinarith
          linarith
        exact ⟨a, b, c, ap.le, nonneg_of_mul_nonneg_right i1 ap, nonneg_of_mul_nonneg_right i2 ap, h1, hc⟩
    refine ⟨ht, fun z hz => ?_⟩
    rw [pyth _ _ _ _ _ _ hs (tri_plane hz)]
    have : 0 ≤ dist2 s z := by simp only [dist2]; positivity
    linarith
  · rw [if_neg hin]
    refine search t x s h hs a b c h1 hc ?_
    by_contra hn
    simp only [not_or, not_le] at hn
    exact hin (hi.2 ⟨(mul_pos hn.1 hn.2.1).le, (mul_pos hn.1 hn.2.2).le⟩)

/-- C124 (partial): for a triangle in any plane, with no obtuse angle at the second and third vertices, the point
returned is the nearest point of the triangle to every point that is not above or below it, except above the line
through those vertices. -/
theorem triangle_closest_outside_partial (t : Triangle ℝ) (x : V4 ℝ) (s : V3 ℝ) (h : NonDegenerate (pt t.p0) (pt t.p1) (pt t.p2))
    (q1 : 0 ≤ dot (diff (pt t.p0) (pt t.p1)) (diff (pt t.p2) (pt t.p1)))
    (q2 : 0 ≤ dot (diff (pt t.p0) (pt t.p2)) (diff (pt t.p1) (pt t.p2)))
    (hs : Foot (pt t.p0) (pt t.p1) (pt t.p2) (pt x) s)
    (hl : s ∉ Tri (pt t.p0) (pt t.p1) (pt t.p2) ∧ s ∉ LinePts (pt t.p1) (pt t.p2)) :
    Nearest (Tri (pt t.p0) (pt t.p1) (pt t.p2)) (pt x) (pt (t.closestPoint x)) := by
  have hp := projected t x s h hs
  obtain ⟨a, b, c, h1, hc⟩ := hs.1
  rw [hc] at hp
  have hi := isInside_off t _ h a b c _ h1 hp
  generalize -2 * (dot (triNormal t) (pt t.p0) / dot (triNormal t) (triNormal t)) = k at *
  have ha : a ≠ 0 := fun ha => hl.2 (hc ▸ on_line h1 ha)
  have g1 : dot (diff (pt t.p1) (pt t.p2)) (diff (pt t.p2) (pt t.p0)) = -dot (diff (pt t.p0) (pt t.p2)) (diff (pt t.p1) (pt t.p2)) := by
    simp only [dot, diff]; ring
  have g2 : dot (diff (pt t.p1) (pt t.p2)) (diff (pt t.p0) (pt t.p1)) = -dot (diff (pt t.p0) (pt t.p1)) (diff (pt t.p2) (pt t.p1)) := by
    simp only [dot, diff]; ring
  rw [g1, g2] at hi
  have r1 := mul_nonneg (sq_nonneg k) q2
  have r2 := mul_nonneg (sq_nonneg k) q1
  have nn : ¬(0 ≤ a ∧ 0 ≤ b ∧ 0 ≤ c) := fun hn => hl.1 ⟨a, b, c, hn.1, hn.2.1, hn.2.2, h1, hc⟩
  rw [closestPoint_eq, if_neg]
  · refine search t x s h hs a b c h1 hc ?_
    by_contra hn
    simp only [not_or, not_le] at hn
    exact nn ⟨hn.1.le, hn.2.1.le, hn.2.2.le⟩
  · intro hin
    obtain ⟨i1, i2⟩ := hi.1 hin
    have i1 : 0 ≤ a * b := by linarith
    have i2 : 0 ≤ a * c := by linarith
    have ap : 0 < a := by
      by_contra hn
      have an : a < 0 := lt_of_le_of_ne (not_lt.1 hn) ha
      have : b ≤ 0 := by by_contra hb; nlinarith
      have : c ≤ 0 := by by_contra hb; nlinarith
      linarith
    exact nn ⟨ap.le, nonneg_of_mul_nonneg_right i1 ap, nonneg_of_mul_nonneg_right i2 ap⟩

/-- C124 fails: for every triangle whose plane does not pass through the origin and every point above or below its
interior, the point returned is not the nearest point of the triangle. -/
theorem triangle_closest_wrong (t : Triangle ℝ) (x : V4 ℝ) (s : V3 ℝ) (h : NonDegenerate (pt t.p0) (pt t.p1) (pt t.p2))
    (h0 : ⟨0, 0, 0⟩ ∉ TriPlane (pt t.p0) (pt t.p1) (pt t.p2)) (hs : Foot (pt t.p0) (pt t.p1) (pt t.p2) (pt x) s)
    (hi : s ∈ TriInterior (pt t.p0) (pt t.p1) (pt t.p2)) :
    ¬Nearest (Tri (pt t.p0) (pt t.p1) (pt t.p2)) (pt x) (pt (t.closestPoint x)) := by
  have hp := projected t x s h hs
  rintro ⟨m, k⟩
  obtain ⟨a, b, c, ha, hb, hc, h1, he⟩ := hi
  -- the result would be the foot
  have st : s ∈ Tri (pt t.p0) (pt t.p1) (pt t.p2) := ⟨a, b, c, ha.le, hb.le, hc.le, h1, he⟩
  have k' := k s st
  rw [pyth _ _ _ _ _ _ hs (tri_plane m)] at k'
  have z0 : dist2 s (pt (t.closestPoint x)) = 0 := le_antisymm (by linarith) (by simp only [dist2]; positivity)
  have es : pt (t.closestPoint x) = s := by
    generalize pt (t.closestPoint x) = y at z0
    simp only [dist2] at z0
    cases y; cases s
    simp only at z0
    simp only [V3.mk.injEq]
    refine ⟨?_, ?_, ?_⟩ <;> nlinarith
  rw [closestPoint_eq] at es
  split at es
  · rw [hp] at es
    apply h0
    rw [mem_triPlane h]
    have np : 0 < dot (triNormal t) (triNormal t) := nondegenerate_pos h
    have : dot (triNormal t) (along s (triNormal t) (-2 * (dot (triNormal t) (pt t.p0) / dot (triNormal t) (triNormal t)))) =
        dot (triNormal t) s - 2 * dot (triNormal t) (pt t.p0) := by
      have : ∀ q, dot (triNormal t) (along s (triNormal t) q) = dot (triNormal t) s + q * dot (triNormal t) (triNormal t) := by
        intro q; simp only [dot, along]; ring
      rw [this]; field_simp; ring
    rw [es] at this
    have e : dot (normalOf (pt t.p0) (pt t.p1) (pt t.p2)) (diff ⟨0, 0, 0⟩ (pt t.p0)) = -dot (triNormal t) (pt t.p0) := by
      simp only [triNormal, dot, diff]; ring
    rw [e]; linarith
  · obtain ⟨m', -⟩ := edgePoint_spec t ((Plane.ofTriangle t).closestPoint x) h
    rw [es, he] at m'
    rcases m' with ⟨l, -, -, e⟩ | ⟨l, -, -, e⟩ | ⟨l, -, -, e⟩
    · have := unique h h1 (a' := 1 - l) (b' := l) (c' := 0) (by ring) (by
        rw [e]; simp only [along, diff, combo, V3.mk.injEq]; refine ⟨?_, ?_, ?_⟩ <;> ring)
      linarith [this.2.2]
    · have := unique h h1 (a' := 0) (b' := 1 - l) (c' := l) (by ring) (by
        rw [e]; simp only [along, diff, combo, V3.mk.injEq]; refine ⟨?_, ?_, ?_⟩ <;> ring)
      linarith [this.1]
    · have := unique h h1 (a' := l) (b' := 0) (c' := 1 - l) (by ring) (by
        rw [e]; simp only [along, diff, combo, V3.mk.injEq]; refine ⟨?_, ?_, ?_⟩ <;> ring)
      linarith [this.2.1]

/-- Non-vacuity for C124: a point above the interior of a triangle through the origin, one beside it, and the same
triangle lifted off the origin. -/
example : NonDegenerate ⟨0, 0, 0⟩ ⟨4, 0, 0⟩ ⟨0, 4, 0⟩ ∧ ⟨0, 0, 0⟩ ∈ TriPlane ⟨0, 0, 0⟩ ⟨4, 0, 0⟩ ⟨0, 4, 0⟩ ∧
    Foot ⟨0, 0, 0⟩ ⟨4, 0, 0⟩ ⟨0, 4, 0⟩ ⟨1, 1, 5⟩ ⟨1, 1, 0⟩ ∧ ⟨1, 1, 0⟩ ∈ TriInterior ⟨0, 0, 0⟩ ⟨4, 0, 0⟩ ⟨0, 4, 0⟩ ∧
    Foot ⟨0, 0, 0⟩ ⟨4, 0, 0⟩ ⟨0, 4, 0⟩ ⟨5, 5, 5⟩ ⟨5, 5, 0⟩ ∧ ⟨5, 5, 0⟩ ∉ LinePts ⟨4, 0, 0⟩ ⟨0, 4, 0⟩ ∧
    ⟨5, 5, 0⟩ ∉ Tri ⟨0, 0, 0⟩ ⟨4, 0, 0⟩ ⟨0, 4, 0⟩ ∧
    0 ≤ dot (diff ⟨0, 0, 0⟩ ⟨4, 0, 0⟩) (diff ⟨0, 4, 0⟩ ⟨4, 0, 0⟩) ∧
    0 ≤ dot (diff ⟨0, 0, 0⟩ ⟨0, 4, 0⟩) (diff ⟨4, 0, 0⟩ ⟨0, 4, 0⟩) ∧
    ⟨0, 0, 0⟩ ∉ TriPlane ⟨0, 0, 1⟩ ⟨4, 0, 1⟩ ⟨0, 4, 1⟩ := by
  refine ⟨?_, ⟨1, 0, 0, by norm_num, by simp [combo]⟩, ?_, ⟨1 / 2, 1 / 4, 1 / 4, by norm_num, by norm_num, by norm_num, by norm_num, by simp [combo]⟩,
    ?_, ?_, ?_, by norm_num [dot, diff], by norm_num [dot, diff], ?_⟩
  · intro a b h1 h2 _
    simp at h1 h2
    exact ⟨h1, h2⟩
  · exact ⟨⟨1 / 2, 1 / 4, 1 / 4, by norm_num, by simp [combo]⟩, by norm_num [dot, diff], by norm_num [dot, diff]⟩
  · exact ⟨⟨-3 / 2, 5 / 4, 5 / 4, by norm_num, by norm_num [combo]⟩, by norm_num [dot, diff], by norm_num [dot, diff]⟩
  · rintro ⟨l, e⟩
    simp only [along, diff, V3.mk.injEq] at e
    linarith [e.1, e.2.1]
  · rintro ⟨a, b, c, ha, hb, hc, h1, e⟩
    simp only [combo, V3.mk.injEq] at e
    linarith [e.1, e.2.1]
  · rintro ⟨a, b, c, h1, e⟩
    simp only [combo, V3.mk.injEq] at e
    linarith [e.2.2]

end Verif
