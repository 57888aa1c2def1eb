import Verif.Props.TriangleBox

/-! # C36-C38, C41, C42: spheres, planes, triangles, segments and rays -/

namespace Verif
open Spec

/-! ### C36: spheres -/

namespace Spec
/-- The points at distance at most `r` from `c`. -/
def Ball (c : V3 ℝ) (r : ℝ) : Set (V3 ℝ) := {p | dist c p ≤ r}
/-- The points at distance `r` from `c`. -/
def Shell (c : V3 ℝ) (r : ℝ) : Set (V3 ℝ) := {p | dist c p = r}
end Spec

theorem dist2_nonneg (p q : V3 ℝ) : 0 ≤ dist2 p q := by unfold dist2; positivity
theorem dist2_symm (p q : V3 ℝ) : dist2 p q = dist2 q p := by unfold dist2; ring
theorem dist_symm (p q : V3 ℝ) : dist p q = dist q p := by unfold Spec.dist; rw [dist2_symm]
theorem dist_nonneg' (p q : V3 ℝ) : 0 ≤ dist p q := Real.sqrt_nonneg _
theorem dist_sq (p q : V3 ℝ) : dist p q * dist p q = dist2 p q := Real.mul_self_sqrt (dist2_nonneg p q)
theorem dist_lt_iff (p q : V3 ℝ) {r : ℝ} (hr : 0 ≤ r) : dist p q < r ↔ dist2 p q < r * r := by
  rw [← dist_sq, mul_self_lt_mul_self_iff (dist_nonneg' _ _) hr]
theorem dist_le_iff (p q : V3 ℝ) {r : ℝ} (hr : 0 ≤ r) : dist p q ≤ r ↔ dist2 p q ≤ r * r := by
  rw [← dist_sq, mul_self_le_mul_self_iff (dist_nonneg' _ _) hr]
theorem dist_eq_iff (p q : V3 ℝ) {r : ℝ} (hr : 0 ≤ r) : dist p q = r ↔ dist2 p q = r * r := by
  rw [← dist_sq, mul_self_inj (dist_nonneg' _ _) hr]

/-- Cauchy-Schwarz in three dimensions. -/
theorem cauchy (a b : V3 ℝ) : dot a b * dot a b ≤ dot a a * dot b b := by
  simp only [dot]
  nlinarith [sq_nonneg (a.x * b.y - a.y * b.x), sq_nonneg (a.x * b.z - a.z * b.x), sq_nonneg (a.y * b.z - a.z * b.y)]

theorem dist2_split (p q c : V3 ℝ) : dist2 p q = dist2 c p + dist2 c q - 2 * dot (diff p c) (diff q c) := by
  simp only [dist2, dot, diff]; ring

theorem dot_le_dist (p q c : V3 ℝ) : dot (diff p c) (diff q c) ≤ dist c p * dist c q := by
  have h := cauchy (diff p c) (diff q c)
  have h1 : dot (diff p c) (diff p c) = dist2 c p := by simp only [dot, diff, dist2]; ring
  have h2 : dot (diff q c) (diff q c) = dist2 c q := by simp only [dot, diff, dist2]; ring
  rw [h1, h2, ← dist_sq, ← dist_sq] at h
  have h3 : 0 ≤ dist c p * dist c q := mul_nonneg (dist_nonneg' _ _) (dist_nonneg' _ _)
  nlinarith [abs_le_of_sq_le_sq' (a := dot (diff p c) (diff q c)) (b := dist c p * dist c q) (by nlinarith) h3]

theorem neg_dot_le_dist (p q c : V3 ℝ) : -dot (diff p c) (diff q c) ≤ dist c p * dist c q := by
  have h := cauchy (diff p c) (diff q c)
  have h1 : dot (diff p c) (diff p c) = dist2 c p := by simp only [dot, diff, dist2]; ring
  have h2 : dot (diff q c) (diff q c) = dist2 c q := by simp only [dot, diff, dist2]; ring
  rw [h1, h2, ← dist_sq, ← dist_sq] at h
  have h3 : 0 ≤ dist c p * dist c q := mul_nonneg (dist_nonneg' _ _) (dist_nonneg' _ _)
  nlinarith [abs_le_of_sq_le_sq' (a := dot (diff p c) (diff q c)) (b := dist c p * dist c q) (by nlinarith) h3]

theorem dist_triangle' (p q c : V3 ℝ) : dist p q ≤ dist c p + dist c q := by
  rw [dist_le_iff _ _ (add_nonneg (dist_nonneg' _ _) (dist_nonneg' _ _)), dist2_split p q c, ← dist_sq, ← dist_sq]
  nlinarith [neg_dot_le_dist p q c]

theorem normalize3_pt (v : V4 ℝ) : Simd.normalize3 v = ⟨v.x / Real.sqrt (dot (pt v) (pt v)),
    v.y / Real.sqrt (dot (pt v) (pt v)), v.z / Real.sqrt (dot (pt v) (pt v)), v.w / Real.sqrt (dot (pt v) (pt v))⟩ := by
  have : v.x * v.x + v.y * v.y + (v.z * v.z + (0 : ℚ)) = dot (pt v) (pt v) := by
    simp only [dot, real_pt]; push_cast; ring
  simp only [vec, this]

/-- C36: a point is reported inside exactly when its distance to the center is less than the radius. -/
theorem sphere_isInside (s : Sphere ℝ) (p : V4 ℝ) (hr : 0 ≤ s.radius) :
    s.isInside p = true ↔ dist (pt s.posRad) (pt p) < s.radius := by
  rw [dist_lt_iff _ _ hr]
  simp [vec, dist2]
  ring_nf

/-- C36: two spheres are reported as intersecting exactly when they share a point. -/
theorem sphere_isIntersected (a b : Sphere ℝ) (ha : 0 ≤ a.radius) (hb : 0 ≤ b.radius) :
    a.isIntersected b = true ↔ (Ball (pt a.posRad) a.radius ∩ Ball (pt b.posRad) b.radius).Nonempty := by
  have h : a.isIntersected b = true ↔ dist (pt a.posRad) (pt b.posRad) ≤ a.radius + b.radius := by
    rw [dist_le_iff _ _ (add_nonneg ha hb)]
    simp [vec, dist2]
    ring_nf
  rw [h]
  generalize a.radius = ra at *
  generalize b.radius = rb at *
  generalize pt a.posRad = p at *
  generalize pt b.posRad = q at *
  constructor
  · intro hd
    rcases eq_or_lt_of_le (add_nonneg ha hb) with h0 | h0
    · have e1 : ra = 0 := by linarith
      have e2 : rb = 0 := by linarith
      subst e1 e2
      have h1 : dist p q = 0 := le_antisymm (by simpa using hd) (dist_nonneg' _ _)
      refine ⟨p, ?_, ?_⟩
      · show dist p p ≤ 0
        rw [dist_le_iff _ _ le_rfl]; simp [dist2]
      · show dist q p ≤ 0
        rw [dist_symm, h1]
    · refine ⟨along p (diff q p) (ra / (ra + rb)), ?_, ?_⟩
      · show dist p _ ≤ ra
        rw [dist_le_iff _ _ ha]
        have e : dist2 p (along p (diff q p) (ra / (ra + rb))) = dist2 p q * (ra / (ra + rb)) ^ 2 := by
          simp only [dist2, along, diff]; ring
        rw [e, ← dist_sq, div_pow, mul_div_assoc', div_le_iff₀ (by positivity)]
        nlinarith [mul_self_le_mul_self (dist_nonneg' p q) hd, mul_self_nonneg ra]
      · show dist q _ ≤ rb
        rw [dist_le_iff _ _ hb]
        have e : dist2 q (along p (diff q p) (ra / (ra + rb))) = dist2 p q * (rb / (ra + rb)) ^ 2 := by
          have : ra / (ra + rb) = 1 - rb / (ra + rb) := by field_simp; ring
          rw [this]
          simp only [dist2, along, diff]; ring
        rw [e, ← dist_sq, div_pow, mul_div_assoc', div_le_iff₀ (by positivity)]
        nlinarith [mul_self_le_mul_self (dist_nonneg' p q) hd, mul_self_nonneg rb]
  · rintro ⟨x, h1, h2⟩
    have h1 : dist p x ≤ ra := h1
    have h2 : dist q x ≤ rb := h2
    have := dist_triangle' p q x
    rw [dist_symm x p, dist_symm x q] at this
    linarith

/-- C36: sphere against box is reported exactly when some point of the box is strictly inside the sphere. -/
theorem sphere_isIntersectedB (s : Sphere ℝ) (b : Aabb ℝ) (hr : 0 ≤ s.radius) (hv : ValidBox b) :
    s.isIntersectedB b = true ↔ ∃ p ∈ boxOf b, dist (pt s.posRad) p < s.radius := by
  obtain ⟨⟨h1, h2⟩, -⟩ := closestPoint_box b s.posRad (real_okBox _) hv (real_ok3 _)
  have e : s.isIntersectedB b = true ↔ dist2 (pt s.posRad) (pt (b.closestPoint s.posRad)) < s.radius * s.radius := by
    unfold Sphere.isIntersectedB
    generalize b.closestPoint s.posRad = c
    simp [vec, dist2]
    ring_nf
  rw [e]
  constructor
  · intro h
    exact ⟨_, h1, (dist_lt_iff _ _ hr).2 h⟩
  · rintro ⟨p, hp, hd⟩
    rw [dist_lt_iff _ _ hr] at hd
    exact lt_of_le_of_lt (h2 p hp) hd

/-- C36: the closest point is on the surface and no point of the surface is nearer (for a point other than the
center). -/
theorem sphere_closestPoint (s : Sphere ℝ) (p : V4 ℝ) (hr : 0 ≤ s.radius) (hp : pt p ≠ pt s.posRad) :
    Nearest (Shell (pt s.posRad) s.radius) (pt p) (pt (s.closestPoint p)) := by
  have hd : 0 < dist (pt s.posRad) (pt p) := by
    apply lt_of_le_of_ne (dist_nonneg' _ _)
    intro h
    apply hp
    have h := (dist_eq_iff _ _ le_rfl).1 h.symm
    simp only [dist2, real_pt, mul_zero] at h
    simp only [real_pt, V3.mk.injEq]
    refine ⟨?_, ?_, ?_⟩ <;> nlinarith [sq_nonneg (s.posRad.x - p.x), sq_nonneg (s.posRad.y - p.y), sq_nonneg (s.posRad.z - p.z)]
  have e : pt (s.closestPoint p) =
      along (pt s.posRad) (diff (pt p) (pt s.posRad)) (s.radius / dist (pt s.posRad) (pt p)) := by
    have hl : Real.sqrt (dot (pt (V4.sub p s.posRad)) (pt (V4.sub p s.posRad))) = dist (pt s.posRad) (pt p) := by
      unfold Spec.dist
      congr 1
      simp only [dist2, dot, vec, real_pt]; ring
    simp only [Sphere.closestPoint, normalize3_pt, hl]
    generalize dist (pt s.posRad) (pt p) = l
    simp only [vec, along, diff, real_pt]
    simp only [V3.mk.injEq]
    refine ⟨?_, ?_, ?_⟩ <;> ring
  generalize pt s.posRad = c at *
  generalize pt p = q at *
  generalize pt (s.closestPoint p) = t at *
  generalize s.radius = r at *
  have hs : dist2 c t = r * r := by
    rw [e]
    have : dist2 c (along c (diff q c) (r / dist c q)) = dist2 c q * (r / dist c q) ^ 2 := by
      simp only [dist2, along, diff]; ring
    rw [this, ← dist_sq]; field_simp
  refine ⟨(dist_eq_iff _ _ hr).2 hs, ?_⟩
  intro x hx
  have hx : dist c x = r := hx
  have h1 : dist2 q t = (dist c q - r) ^ 2 := by
    rw [e]
    have : dist2 q (along c (diff q c) (r / dist c q)) = dist2 c q * (1 - r / dist c q) ^ 2 := by
      simp only [dist2, along, diff]; ring
    rw [this, ← dist_sq]; field_simp
  rw [h1, dist2_split q x c, ← dist_sq, ← dist_sq, hx]
  nlinarith [dot_le_dist q x c]

/-- Non-vacuity: the unit sphere, the point (2,0,0) and the box [0,1]^3 meet the hypotheses. -/
example : (0 : ℝ) ≤ (Sphere.mk ⟨0, 0, 0, 1⟩ : Sphere ℝ).radius ∧
    pt (⟨2, 0, 0, 0⟩ : V4 ℝ) ≠ pt (Sphere.mk ⟨0, 0, 0, 1⟩ : Sphere ℝ).posRad ∧
    ValidBox (⟨V4.splat 0, V4.splat 1⟩ : Aabb ℝ) := by
  refine ⟨by simp [vec], by simp, ?_, ?_, ?_⟩ <;> simp [V4.splat]

/-! ### C37: planes -/

/-- C37: for a unit normal, `closestPoint` is the nearest point of the plane, `|distance|` is the distance to it, the
sign of `distance` tells the side, and `distance` is zero exactly on the plane. -/
theorem plane_spec (pl : Plane ℝ) (p : V4 ℝ) (hn : dot (pt pl.normDist) (pt pl.normDist) = 1) :
    Nearest (PlanePts (pt pl.normDist) pl.normDist.w) (pt p) (pt (pl.closestPoint p)) ∧
    |pl.distance p| = dist (pt p) (pt (pl.closestPoint p)) ∧
    pt p = along (pt (pl.closestPoint p)) (pt pl.normDist) (pl.distance p) ∧
    (pl.distance p = 0 ↔ pt p ∈ PlanePts (pt pl.normDist) pl.normDist.w) := by
  have hd : pl.distance p = dot (pt pl.normDist) (pt p) + pl.normDist.w := by
    simp only [vec, dot, real_pt]; push_cast; ring
  have hc : pt (pl.closestPoint p) = along (pt p) (pt pl.normDist) (-pl.distance p) := by
    unfold Plane.closestPoint
    generalize pl.distance p = d
    simp only [vec, along, real_pt, V3.mk.injEq]
    refine ⟨?_, ?_, ?_⟩ <;> ring
  generalize pl.distance p = d at *
  rw [hc]
  generalize pt pl.normDist = n at *
  generalize pt p = q at *
  generalize pl.normDist.w = w at *
  have hq : dist2 q (along q n (-d)) = d ^ 2 := by
    have : dist2 q (along q n (-d)) = d ^ 2 * dot n n := by simp only [dist2, along, dot]; ring
    rw [this, hn, mul_one]
  refine ⟨⟨?_, ?_⟩, ?_, ?_, ?_⟩
  · show dot n (along q n (-d)) + w = 0
    have : dot n (along q n (-d)) = dot n q - d * dot n n := by simp only [dot, along]; ring
    rw [this, hn, hd]; ring
  · intro x hx
    have hx : dot n x + w = 0 := hx
    rw [hq]
    have h1 : d = dot n (diff q x) := by
      have : dot n (diff q x) = dot n q - dot n x := by simp only [dot, diff]; ring
      rw [this, hd]; linarith
    have h2 := cauchy n (diff q x)
    have h3 : dot (diff q x) (diff q x) = dist2 q x := by simp only [dot, diff, dist2]; ring
    rw [hn, one_mul, h3, ← h1] at h2
    nlinarith
  · unfold Spec.dist
    rw [hq, Real.sqrt_sq_eq_abs]
  · simp only [along]
    cases q; simp
  · rw [hd]; rfl

/-- C37: `normalize` gives a unit normal and does not change the points of the plane, for a non-zero normal. -/
theorem plane_normalize (pl : Plane ℝ) (h : pt pl.normDist ≠ ⟨0, 0, 0⟩) :
    dot (pt pl.normalize.normDist) (pt pl.normalize.normDist) = 1 ∧
    PlanePts (pt pl.normalize.normDist) pl.normalize.normDist.w = PlanePts (pt pl.normDist) pl.normDist.w := by
  have hp : 0 < dot (pt pl.normDist) (pt pl.normDist) := by
    simp only [real_pt, dot]
    simp only [real_pt, ne_eq, V3.mk.injEq] at h
    by_contra hc
    apply h
    refine ⟨?_, ?_, ?_⟩ <;> nlinarith [mul_self_nonneg pl.normDist.x, mul_self_nonneg pl.normDist.y, mul_self_nonneg pl.normDist.z]
  have hl : Simd.length3 pl.normDist = Real.sqrt (dot (pt pl.normDist) (pt pl.normDist)) := by
    simp only [vec, dot, real_pt]
    congr 1; push_cast; ring
  have hs := Real.mul_self_sqrt hp.le
  have hs0 := Real.sqrt_pos.2 hp
  unfold Plane.normalize
  rw [hl]
  generalize Real.sqrt (dot (pt pl.normDist) (pt pl.normDist)) = l at *
  constructor
  · simp only [V4.div, V4.map2, V4.splat, dot, real_pt, Flt.real_div] at *
    field_simp
    linarith
  · ext q
    simp only [PlanePts, V4.div, V4.map2, V4.splat, dot, real_pt, Flt.real_div, Set.mem_ofPred_eq]
    have : pl.normDist.x / l * q.x + pl.normDist.y / l * q.y + pl.normDist.z / l * q.z + pl.normDist.w / l =
      (pl.normDist.x * q.x + pl.normDist.y * q.y + pl.normDist.z * q.z + pl.normDist.w) / l := by field_simp
    rw [this, div_eq_zero_iff]
    simp [hs0.ne']

/-- Non-vacuity: the plane y = 3 has a unit normal. -/
example : dot (pt (⟨0, 1, 0, -3⟩ : V4 ℝ)) (pt (⟨0, 1, 0, -3⟩ : V4 ℝ)) = 1 := by norm_num [dot]

/-! ### C38: plane from a triangle -/

/-- The cross product of two edges. -/
def normalOf (p q r : V3 ℝ) : V3 ℝ := crossP (diff q p) (diff r p)
/-- The cross product of the edges at `p0`. -/
noncomputable def triNormal (t : Triangle ℝ) : V3 ℝ := normalOf (pt t.p0) (pt t.p1) (pt t.p2)

theorem dot_self_nonneg (a : V3 ℝ) : 0 ≤ dot a a := by
  simp only [dot]; nlinarith [mul_self_nonneg a.x, mul_self_nonneg a.y, mul_self_nonneg a.z]

theorem dot_self_zero {a : V3 ℝ} (h : dot a a = 0) : a.x = 0 ∧ a.y = 0 ∧ a.z = 0 := by
  simp only [dot] at h
  refine ⟨?_, ?_, ?_⟩ <;> nlinarith [mul_self_nonneg a.x, mul_self_nonneg a.y, mul_self_nonneg a.z]

theorem nondegenerate_pos {p q r : V3 ℝ} (h : NonDegenerate p q r) : 0 < dot (normalOf p q r) (normalOf p q r) := by
  apply lt_of_le_of_ne (dot_self_nonneg _)
  intro h0
  obtain ⟨h1, h2, h3⟩ := dot_self_zero h0.symm
  simp only [normalOf, crossP, diff] at h1 h2 h3
  have k1 := h (r.x - p.x) (-(q.x - p.x)) (by ring) (by linarith) (by linarith)
  have k2 := h (r.y - p.y) (-(q.y - p.y)) (by linarith) (by ring) (by linarith)
  have k3 := h (r.z - p.z) (-(q.z - p.z)) (by linarith) (by linarith) (by ring)
  have := h 1 0 (by linarith [k1.2]) (by linarith [k2.2]) (by linarith [k3.2])
  exact one_ne_zero this.1

/-- A point is in the plane of a triangle exactly when its offset from a vertex is orthogonal to the normal. -/
theorem mem_triPlane {p q r : V3 ℝ} (h : NonDegenerate p q r) (s : V3 ℝ) :
    s ∈ TriPlane p q r ↔ dot (normalOf p q r) (diff s p) = 0 := by
  have hp := nondegenerate_pos h
  constructor
  · rintro ⟨a, b, c, hs, rfl⟩
    have : a = 1 - b - c := by linarith
    subst this
    simp only [dot, normalOf, crossP, diff, combo]; ring
  · intro h0
    generalize hn : normalOf p q r = n at *
    refine ⟨1 - dot (crossP (diff s p) (diff r p)) n / dot n n - dot (crossP (diff q p) (diff s p)) n / dot n n,
      dot (crossP (diff s p) (diff r p)) n / dot n n, dot (crossP (diff q p) (diff s p)) n / dot n n, by ring, ?_⟩
    have k : ∀ x, x = p.x + (s.x - p.x) → x = s.x := fun x hx => by rw [hx]; ring
    have ex : dot n n * (s.x - p.x) = dot (crossP (diff s p) (diff r p)) n * (q.x - p.x) +
        dot (crossP (diff q p) (diff s p)) n * (r.x - p.x) + dot n (diff s p) * n.x := by
      subst hn; simp only [dot, normalOf, crossP, diff]; ring
    have ey : dot n n * (s.y - p.y) = dot (crossP (diff s p) (diff r p)) n * (q.y - p.y) +
        dot (crossP (diff q p) (diff s p)) n * (r.y - p.y) + dot n (diff s p) * n.y := by
      subst hn; simp only [dot, normalOf, crossP, diff]; ring
    have ez : dot n n * (s.z - p.z) = dot (crossP (diff s p) (diff r p)) n * (q.z - p.z) +
        dot (crossP (diff q p) (diff s p)) n * (r.z - p.z) + dot n (diff s p) * n.z := by
      subst hn; simp only [dot, normalOf, crossP, diff]; ring
    rw [h0] at ex ey ez
    generalize dot (crossP (diff s p) (diff r p)) n = b at *
    generalize dot (crossP (diff q p) (diff s p)) n = c at *
    generalize dot n n = m at *
    have hm := hp.ne'
    cases s
    simp only [combo, V3.mk.injEq] at *
    refine ⟨?_, ?_, ?_⟩
    · field_simp; linarith
    · field_simp; linarith
    · field_simp; linarith

theorem ofTriangle_eq (t : Triangle ℝ) (h : NonDegenerate (pt t.p0) (pt t.p1) (pt t.p2)) : ∃ l > 0,
    l * l = dot (triNormal t) (triNormal t) ∧
    pt (Plane.ofTriangle t).normDist = ⟨(triNormal t).x / l, (triNormal t).y / l, (triNormal t).z / l⟩ ∧
    (Plane.ofTriangle t).normDist.w = dot (pt (Plane.ofTriangle t).normDist) (pt t.p0) := by
  have hp : 0 < dot (triNormal t) (triNormal t) := nondegenerate_pos h
  refine ⟨_, Real.sqrt_pos.2 hp, Real.mul_self_sqrt hp.le, ?_⟩
  have hn : pt (Simd.cross3 (V4.sub t.p1 t.p0) (V4.sub t.p2 t.p0)) = triNormal t := by
    simp only [vec, triNormal, normalOf, crossP, diff, real_pt, V3.mk.injEq]
    refine ⟨?_, ?_, ?_⟩ <;> ring
  have hl : Simd.length3 (Simd.cross3 (V4.sub t.p1 t.p0) (V4.sub t.p2 t.p0)) =
      Real.sqrt (dot (triNormal t) (triNormal t)) := by
    rw [← hn]
    generalize Simd.cross3 (V4.sub t.p1 t.p0) (V4.sub t.p2 t.p0) = v
    simp only [vec, dot, real_pt]
    congr 1; push_cast; ring
  have hc : (Flt.lit 0 <. Simd.length3 (Simd.cross3 (V4.sub t.p1 t.p0) (V4.sub t.p2 t.p0))) = true := by
    rw [hl]; simp [Real.sqrt_pos.2 hp]
  unfold Plane.ofTriangle
  simp only [hc, if_true]
  rw [normalize3_pt, hn]
  generalize Simd.cross3 (V4.sub t.p1 t.p0) (V4.sub t.p2 t.p0) = v at *
  have e1 : v.x = (triNormal t).x := by rw [← hn]; rfl
  have e2 : v.y = (triNormal t).y := by rw [← hn]; rfl
  have e3 : v.z = (triNormal t).z := by rw [← hn]; rfl
  constructor
  · simp only [real_pt, V4.withW, e1, e2, e3]
  · simp only [real_pt, V4.withW, Simd.dot3, dot, Flt.real_add, Flt.real_mul, Flt.real_lit]; push_cast; ring

/-- C38 fails: what the constructor does. The normal is a unit vector orthogonal to the edges, but every vertex is at
distance `2 * (normal . p0)` from the plane instead of zero: the stored distance has the wrong sign. -/
theorem plane_ofTriangle_distance (t : Triangle ℝ) (h : NonDegenerate (pt t.p0) (pt t.p1) (pt t.p2)) :
    let pl := Plane.ofTriangle t
    dot (pt pl.normDist) (pt pl.normDist) = 1 ∧
    dot (pt pl.normDist) (diff (pt t.p1) (pt t.p0)) = 0 ∧ dot (pt pl.normDist) (diff (pt t.p2) (pt t.p0)) = 0 ∧
    pl.distance t.p0 = 2 * dot (pt pl.normDist) (pt t.p0) ∧ pl.distance t.p1 = 2 * dot (pt pl.normDist) (pt t.p0) ∧
    pl.distance t.p2 = 2 * dot (pt pl.normDist) (pt t.p0) := by
  intro pl
  obtain ⟨l, hl, hll, e, ew⟩ := ofTriangle_eq t h
  have hd : ∀ p, pl.distance p = dot (pt pl.normDist) (pt p) + pl.normDist.w := by
    intro p; simp only [Plane.distance, Simd.dot3, dot, real_pt, Flt.real_add, Flt.real_mul, Flt.real_lit]; push_cast; ring
  have h1 : dot (pt pl.normDist) (diff (pt t.p1) (pt t.p0)) = 0 := by
    rw [e]; simp only [dot, triNormal, normalOf, crossP, diff]; field_simp; ring
  have h2 : dot (pt pl.normDist) (diff (pt t.p2) (pt t.p0)) = 0 := by
    rw [e]; simp only [dot, triNormal, normalOf, crossP, diff]; field_simp; ring
  have s : ∀ a b c, dot a (diff b c) = dot a b - dot a c := by intro a b c; simp only [dot, diff]; ring
  have ew' : pl.normDist.w = dot (pt pl.normDist) (pt t.p0) := ew
  refine ⟨?_, h1, h2, ?_, ?_, ?_⟩
  · rw [e]; simp only [dot] at hll ⊢; field_simp; linarith
  · rw [hd, ew']; ring
  · rw [hd, ew']; rw [s] at h1; linarith
  · rw [hd, ew']; rw [s] at h2; linarith

/-- C38, proved part: the vertices are at distance zero exactly when the plane of the triangle passes through the
origin. Missing: every other triangle, for which the claim is false. -/
theorem plane_ofTriangle_partial (t : Triangle ℝ) (h : NonDegenerate (pt t.p0) (pt t.p1) (pt t.p2)) :
    ((Plane.ofTriangle t).distance t.p0 = 0 ∧ (Plane.ofTriangle t).distance t.p1 = 0 ∧
      (Plane.ofTriangle t).distance t.p2 = 0) ↔ (⟨0, 0, 0⟩ : V3 ℝ) ∈ TriPlane (pt t.p0) (pt t.p1) (pt t.p2) := by
  obtain ⟨hu, h1, h2, d0, d1, d2⟩ := plane_ofTriangle_distance t h
  obtain ⟨l, hl, hll, e, -⟩ := ofTriangle_eq t h
  rw [d0, d1, d2]
  have hz : dot (pt (Plane.ofTriangle t).normDist) (pt t.p0) = 0 ↔ dot (triNormal t) (pt t.p0) = 0 := by
    rw [e]
    have : dot ⟨(triNormal t).x / l, (triNormal t).y / l, (triNormal t).z / l⟩ (pt t.p0) =
      dot (triNormal t) (pt t.p0) / l := by simp only [dot]; field_simp
    rw [this, div_eq_zero_iff]; simp [hl.ne']
  have hz2 : (2 * dot (pt (Plane.ofTriangle t).normDist) (pt t.p0) = 0 ∧
      2 * dot (pt (Plane.ofTriangle t).normDist) (pt t.p0) = 0 ∧
      2 * dot (pt (Plane.ofTriangle t).normDist) (pt t.p0) = 0) ↔ dot (triNormal t) (pt t.p0) = 0 := by
    rw [← hz]; constructor
    · rintro ⟨h, -⟩; linarith
    · intro h; rw [h]; simp
  rw [hz2]
  rw [mem_triPlane h]
  have : dot (normalOf (pt t.p0) (pt t.p1) (pt t.p2)) (diff ⟨0, 0, 0⟩ (pt t.p0)) = -dot (triNormal t) (pt t.p0) := by
    simp only [dot, diff, triNormal]; ring
  rw [this, neg_eq_zero]

/-- C38 fails, concretely: the triangle (0,0,1), (1,0,1), (0,1,1) is in the plane z = 1; the constructed plane has its
vertices at distance 2. -/
theorem plane_ofTriangle_wrong :
    let t : Triangle ℝ := ⟨⟨0, 0, 1, 0⟩, ⟨1, 0, 1, 0⟩, ⟨0, 1, 1, 0⟩⟩
    NonDegenerate (pt t.p0) (pt t.p1) (pt t.p2) ∧ (Plane.ofTriangle t).distance t.p0 = 2 := by
  intro t
  have hn : NonDegenerate (pt t.p0) (pt t.p1) (pt t.p2) := by
    intro a b h1 h2 _
    simp [t] at h1 h2
    exact ⟨h1, h2⟩
  refine ⟨hn, ?_⟩
  obtain ⟨l, hl, hll, e, -⟩ := ofTriangle_eq t hn
  rw [(plane_ofTriangle_distance t hn).2.2.2.1, e]
  have e' : triNormal t = ⟨0, 0, 1⟩ := by simp [triNormal, normalOf, crossP, diff, t]
  rw [e'] at hll ⊢
  simp only [dot] at hll ⊢
  have : l = 1 := by nlinarith
  subst this
  simp [t]

/-! ### C41: barycentric coordinates and point in triangle -/

theorem bary_eq (t : Triangle ℝ) (s : V4 ℝ) :
    let e1 := diff (pt t.p1) (pt t.p0)
    let e2 := diff (pt t.p2) (pt t.p0)
    let d := diff (pt s) (pt t.p0)
    let k := dot e1 e1 * dot e2 e2 - dot e1 e2 * dot e1 e2
    let v := (dot e2 e2 * dot d e1 - dot e1 e2 * dot d e2) / k
    let w := (dot e1 e1 * dot d e2 - dot e1 e2 * dot d e1) / k
    t.calcBarycentric s = ⟨1 - v - w, v, w, 0⟩ := by
  have h : ∀ a b : V4 ℝ, Simd.dot3 a b = dot (pt a) (pt b) := by
    intro a b; simp only [Simd.dot3, dot, real_pt, Flt.real_add, Flt.real_mul, Flt.real_lit]; push_cast; ring
  have g : ∀ a b : V4 ℝ, pt (V4.sub a b) = diff (pt a) (pt b) := by intro a b; rfl
  simp only [Triangle.calcBarycentric, h, g]
  simp only [Flt.real_sub, Flt.real_mul, Flt.real_div, Flt.real_lit]
  push_cast
  simp only [mul_one_div]

theorem lagrange (a b : V3 ℝ) : dot a a * dot b b - dot a b * dot a b = dot (crossP a b) (crossP a b) := by
  simp only [dot, crossP]; ring

/-- C41: barycentric coordinates sum to one and reproduce every point of the plane of a non-degenerate triangle; the
coordinates of a given combination are its weights. -/
theorem barycentric_spec (t : Triangle ℝ) (s : V4 ℝ) (h : NonDegenerate (pt t.p0) (pt t.p1) (pt t.p2)) :
    let b := t.calcBarycentric s
    b.x + b.y + b.z = 1 ∧
    (pt s ∈ TriPlane (pt t.p0) (pt t.p1) (pt t.p2) → combo (pt t.p0) (pt t.p1) (pt t.p2) b.x b.y b.z = pt s) ∧
    (∀ u v w, u + v + w = 1 → pt s = combo (pt t.p0) (pt t.p1) (pt t.p2) u v w → b.x = u ∧ b.y = v ∧ b.z = w) := by
  intro b
  have e : b = _ := bary_eq t s
  have hp := nondegenerate_pos h
  unfold normalOf at hp
  rw [← lagrange] at hp
  simp only [lagrange] at e
  rw [← lagrange] at e
  have main : ∀ u v w, u + v + w = 1 → pt s = combo (pt t.p0) (pt t.p1) (pt t.p2) u v w → b.x = u ∧ b.y = v ∧ b.z = w := by
    intro u v w hs hc
    have hu : u = 1 - v - w := by linarith
    have hd : ∀ a, dot (diff (pt s) (pt t.p0)) a =
        v * dot (diff (pt t.p1) (pt t.p0)) a + w * dot (diff (pt t.p2) (pt t.p0)) a := by
      intro a; rw [hc, hu]; simp only [dot, diff, combo]; ring
    have hsym : dot (diff (pt t.p2) (pt t.p0)) (diff (pt t.p1) (pt t.p0)) =
        dot (diff (pt t.p1) (pt t.p0)) (diff (pt t.p2) (pt t.p0)) := by simp only [dot]; ring
    rw [e]
    simp only [hd, hsym]
    generalize dot (diff (pt t.p1) (pt t.p0)) (diff (pt t.p1) (pt t.p0)) = A at *
    generalize dot (diff (pt t.p1) (pt t.p0)) (diff (pt t.p2) (pt t.p0)) = B at *
    generalize dot (diff (pt t.p2) (pt t.p0)) (diff (pt t.p2) (pt t.p0)) = C at *
    have hv : (C * (v * A + w * B) - B * (v * B + w * C)) / (A * C - B * B) = v := by
      rw [div_eq_iff hp.ne']; ring
    have hw : (A * (v * B + w * C) - B * (v * A + w * B)) / (A * C - B * B) = w := by
      rw [div_eq_iff hp.ne']; ring
    rw [hv, hw]
    exact ⟨hu.symm, rfl, rfl⟩
  refine ⟨?_, ?_, main⟩
  · rw [e]; ring
  · rintro ⟨u, v, w, hs, hc⟩
    obtain ⟨e1, e2, e3⟩ := main u v w hs hc
    rw [e1, e2, e3, hc]

/-- The exact meaning of `isInside(triangle, point)` for a point of the plane with barycentric coordinates
`(a, b, c)`: `a * b >= 0` and `a * c >= 0`. -/
theorem triangle_isInside_iff (t : Triangle ℝ) (s : V4 ℝ) (h : NonDegenerate (pt t.p0) (pt t.p1) (pt t.p2))
    (a b c : ℝ) (hs : a + b + c = 1) (hc : pt s = combo (pt t.p0) (pt t.p1) (pt t.p2) a b c) :
    t.isInside s = true ↔ 0 ≤ a * b ∧ 0 ≤ a * c := by
  have hp := nondegenerate_pos h
  have hd : ∀ a b : V4 ℝ, Simd.dot3 a b = dot (pt a) (pt b) := by
    intro a b; simp only [Simd.dot3, dot, real_pt, Flt.real_add, Flt.real_mul, Flt.real_lit]; push_cast; ring
  have hx : ∀ a b : V4 ℝ, pt (Simd.cross3 a b) = crossP (pt a) (pt b) := by
    intro a b
    simp only [vec, crossP, real_pt, V3.mk.injEq]
    refine ⟨?_, ?_, ?_⟩ <;> ring
  have hg : ∀ a b : V4 ℝ, pt (V4.sub a b) = diff (pt a) (pt b) := by intro a b; rfl
  simp only [Triangle.isInside, hd, hx, hg]
  rw [hc]
  have ha : a = 1 - b - c := by linarith
  generalize pt t.p0 = p at *
  generalize pt t.p1 = q at *
  generalize pt t.p2 = r at *
  have h1 : crossP (diff q (combo p q r a b c)) (diff r (combo p q r a b c)) = ⟨a * (normalOf p q r).x,
      a * (normalOf p q r).y, a * (normalOf p q r).z⟩ := by
    subst ha; simp only [crossP, diff, combo, normalOf, V3.mk.injEq]; refine ⟨?_, ?_, ?_⟩ <;> ring
  have h2 : crossP (diff r (combo p q r a b c)) (diff p (combo p q r a b c)) = ⟨b * (normalOf p q r).x,
      b * (normalOf p q r).y, b * (normalOf p q r).z⟩ := by
    subst ha; simp only [crossP, diff, combo, normalOf, V3.mk.injEq]; refine ⟨?_, ?_, ?_⟩ <;> ring
  have h3 : crossP (diff p (combo p q r a b c)) (diff q (combo p q r a b c)) = ⟨c * (normalOf p q r).x,
      c * (normalOf p q r).y, c * (normalOf p q r).z⟩ := by
    subst ha; simp only [crossP, diff, combo, normalOf, V3.mk.injEq]; refine ⟨?_, ?_, ?_⟩ <;> ring
  rw [h1, h2, h3]
  have k : ∀ x y : ℝ, dot ⟨x * (normalOf p q r).x, x * (normalOf p q r).y, x * (normalOf p q r).z⟩
      ⟨y * (normalOf p q r).x, y * (normalOf p q r).y, y * (normalOf p q r).z⟩ =
      x * y * dot (normalOf p q r) (normalOf p q r) := by intro x y; simp only [dot]; ring
  rw [k, k]
  have z : ∀ x : ℝ, x * dot (normalOf p q r) (normalOf p q r) < 0 ↔ x < 0 := fun x => by
    rw [mul_neg_iff]; constructor
    · rintro (h | h); · linarith [h.2]
      exact h.1
    · intro h; right; exact ⟨h, hp⟩
  simp [z]

/-- C41, proved part: for a point of the plane that is not on the line through the second and third vertex, `isInside`
is true exactly when the point is a point of the triangle; and points of the triangle are always accepted. Missing:
points of that line outside the triangle, which are accepted too (`triangle_isInside_wrong`). -/
theorem triangle_isInside_partial (t : Triangle ℝ) (s : V4 ℝ) (h : NonDegenerate (pt t.p0) (pt t.p1) (pt t.p2))
    (hs : pt s ∈ TriPlane (pt t.p0) (pt t.p1) (pt t.p2)) :
    t.isInside s = true ↔ pt s ∈ Tri (pt t.p0) (pt t.p1) (pt t.p2) ∨
      ∃ k, pt s = along (pt t.p1) (diff (pt t.p2) (pt t.p1)) k := by
  constructor
  · obtain ⟨a, b, c, hsum, hc⟩ := hs
    rw [triangle_isInside_iff t s h a b c hsum hc]
    rintro ⟨h1, h2⟩
    rcases lt_trichotomy a 0 with ha | ha | ha
    · nlinarith
    · right
      refine ⟨c, ?_⟩
      rw [hc, ha]
      have : b = 1 - c := by linarith
      subst this
      simp only [combo, along, diff, V3.mk.injEq]
      refine ⟨?_, ?_, ?_⟩ <;> ring
    · left
      exact ⟨a, b, c, ha.le, by nlinarith, by nlinarith, hsum, hc⟩
  · rintro (⟨a, b, c, ha, hb, hcc, hsum, hc⟩ | ⟨k, hk⟩)
    · rw [triangle_isInside_iff t s h a b c hsum hc]
      exact ⟨mul_nonneg ha hb, mul_nonneg ha hcc⟩
    · rw [triangle_isInside_iff t s h 0 (1 - k) k (by ring) (by
        rw [hk]; simp only [combo, along, diff, V3.mk.injEq]; refine ⟨?_, ?_, ?_⟩ <;> ring)]
      simp

/-- C41 fails: for every non-degenerate triangle there is a point of its plane, outside it, that is accepted. -/
theorem triangle_isInside_wrong (t : Triangle ℝ) (h : NonDegenerate (pt t.p0) (pt t.p1) (pt t.p2)) :
    ∃ s : V4 ℝ, pt s ∉ Tri (pt t.p0) (pt t.p1) (pt t.p2) ∧ pt s ∈ TriPlane (pt t.p0) (pt t.p1) (pt t.p2) ∧
      t.isInside s = true := by
  have hc : pt (⟨2 * t.p1.x - t.p2.x, 2 * t.p1.y - t.p2.y, 2 * t.p1.z - t.p2.z, 0⟩ : V4 ℝ) =
      combo (pt t.p0) (pt t.p1) (pt t.p2) 0 2 (-1) := by
    simp only [combo, real_pt, V3.mk.injEq]; refine ⟨?_, ?_, ?_⟩ <;> ring
  refine ⟨_, ?_, ⟨0, 2, -1, by norm_num, hc⟩, ?_⟩
  · rintro ⟨a, b, c, ha, hb, hcc, hsum, hx⟩
    have h1 := (barycentric_spec t _ h).2.2 _ _ _ hsum hx
    have h2 := (barycentric_spec t _ h).2.2 0 2 (-1) (by norm_num) hc
    linarith [h1.2.2, h2.2.2]
  · rw [triangle_isInside_iff t _ h 0 2 (-1) (by norm_num) hc]; simp

/-! ### C42: closest point on a segment and on a ray -/

theorem proj_near (a d p : V3 ℝ) (t x : ℝ) (hd : 0 < dot d d)
    (h : (t - dot (diff p a) d / dot d d) ^ 2 ≤ (x - dot (diff p a) d / dot d d) ^ 2) :
    dist2 p (along a d t) ≤ dist2 p (along a d x) := by
  have e : ∀ t, dist2 p (along a d t) = dot d d * (t - dot (diff p a) d / dot d d) ^ 2 +
      (dist2 p a - dot (diff p a) d * dot (diff p a) d / dot d d) := by
    intro t
    have e1 : dist2 p (along a d t) = dist2 p a - 2 * t * dot (diff p a) d + t ^ 2 * dot d d := by
      simp only [dist2, along, dot, diff]; ring
    rw [e1]; field_simp; ring
  rw [e, e]
  nlinarith

theorem line_t (l : Line ℝ) (p : V4 ℝ) : pt (l.closestPoint p) = along (pt l.start) (diff (pt l.end) (pt l.start))
    (max 0 (min (dot (diff (pt p) (pt l.start)) (diff (pt l.end) (pt l.start)) /
      dot (diff (pt l.end) (pt l.start)) (diff (pt l.end) (pt l.start))) 1)) := by
  have hd : ∀ a b : V4 ℝ, Simd.dot3 a b = dot (pt a) (pt b) := by
    intro a b; simp only [Simd.dot3, dot, real_pt, Flt.real_add, Flt.real_mul, Flt.real_lit]; push_cast; ring
  have hg : ∀ a b : V4 ℝ, pt (V4.sub a b) = diff (pt a) (pt b) := by intro a b; rfl
  simp only [Line.closestPoint, Line.closestPointT, hd, hg, Flt.real_div]
  generalize dot (diff (pt p) (pt l.start)) (diff (pt l.end) (pt l.start)) /
      dot (diff (pt l.end) (pt l.start)) (diff (pt l.end) (pt l.start)) = t
  rw [Flt.real_stdClamp _ _ _ (by simp)]
  simp only [vec, along, diff, real_pt, V3.mk.injEq]
  push_cast
  refine ⟨?_, ?_, ?_⟩ <;> ring

/-- C42: the closest point of a (non-degenerate) segment is on it and nearest. -/
theorem line_closestPoint (l : Line ℝ) (p : V4 ℝ) (h : pt l.end ≠ pt l.start) :
    Nearest (Segment (pt l.start) (pt l.end)) (pt p) (pt (l.closestPoint p)) := by
  rw [line_t]
  have hp : 0 < dot (diff (pt l.end) (pt l.start)) (diff (pt l.end) (pt l.start)) := by
    apply lt_of_le_of_ne (dot_self_nonneg _)
    intro h0
    obtain ⟨h1, h2, h3⟩ := dot_self_zero h0.symm
    apply h
    simp only [diff, real_pt] at h1 h2 h3
    simp only [real_pt, V3.mk.injEq]
    refine ⟨?_, ?_, ?_⟩ <;> linarith
  generalize hr : dot (diff (pt p) (pt l.start)) (diff (pt l.end) (pt l.start)) /
    dot (diff (pt l.end) (pt l.start)) (diff (pt l.end) (pt l.start)) = r
  refine ⟨⟨_, le_max_left _ _, max_le (by norm_num) (min_le_right _ _), rfl⟩, ?_⟩
  rintro q ⟨x, h0, h1, rfl⟩
  apply proj_near _ _ _ _ _ hp
  rw [hr]
  have := clamp_near r 0 1 x h0 h1
  rw [max_comm 0]
  nlinarith

theorem ray_t (r : Ray ℝ) (p : V4 ℝ) : pt (r.closestPoint p) = along (pt r.origin) (pt r.direction)
    (max (dot (diff (pt p) (pt r.origin)) (pt r.direction) / dot (pt r.direction) (pt r.direction)) 0) := by
  have hd : ∀ a b : V4 ℝ, Simd.dot3 a b = dot (pt a) (pt b) := by
    intro a b; simp only [Simd.dot3, dot, real_pt, Flt.real_add, Flt.real_mul, Flt.real_lit]; push_cast; ring
  have hg : ∀ a b : V4 ℝ, pt (V4.sub a b) = diff (pt a) (pt b) := by intro a b; rfl
  have ha : diff (pt (V4.add r.origin r.direction)) (pt r.origin) = pt r.direction := by
    simp only [vec, diff, real_pt, V3.mk.injEq]; refine ⟨?_, ?_, ?_⟩ <;> ring
  simp only [Ray.closestPoint, hd, hg, Flt.real_div, ha]
  generalize dot (diff (pt p) (pt r.origin)) (pt r.direction) / dot (pt r.direction) (pt r.direction) = t
  simp only [vec, along, real_pt, V3.mk.injEq]
  push_cast
  refine ⟨?_, ?_, ?_⟩ <;> ring

/-- C42: the closest point of a ray (of any non-zero direction) is on it and nearest. -/
theorem ray_closestPoint (r : Ray ℝ) (p : V4 ℝ) (h : pt r.direction ≠ ⟨0, 0, 0⟩) :
    Nearest (RayPts (pt r.origin) (pt r.direction)) (pt p) (pt (r.closestPoint p)) := by
  rw [ray_t]
  have hp : 0 < dot (pt r.direction) (pt r.direction) := by
    apply lt_of_le_of_ne (dot_self_nonneg _)
    intro h0
    obtain ⟨h1, h2, h3⟩ := dot_self_zero h0.symm
    apply h
    simp only [real_pt] at h1 h2 h3
    simp only [real_pt, V3.mk.injEq]
    exact ⟨h1, h2, h3⟩
  generalize hr : dot (diff (pt p) (pt r.origin)) (pt r.direction) / dot (pt r.direction) (pt r.direction) = k
  refine ⟨⟨_, le_max_right _ _, rfl⟩, ?_⟩
  rintro q ⟨x, h0, rfl⟩
  apply proj_near _ _ _ _ _ hp
  rw [hr]
  rcases le_total k 0 with h | h
  · rw [max_eq_right h]; nlinarith
  · rw [max_eq_left h]; nlinarith [sq_nonneg (x - k)]

/-- Non-vacuity: a segment and a ray along x, and a right triangle. -/
example : pt (⟨1, 0, 0, 0⟩ : V4 ℝ) ≠ pt (⟨0, 0, 0, 0⟩ : V4 ℝ) ∧
    NonDegenerate (pt (⟨0, 0, 0, 0⟩ : V4 ℝ)) (pt (⟨1, 0, 0, 0⟩ : V4 ℝ)) (pt (⟨0, 1, 0, 0⟩ : V4 ℝ)) := by
  refine ⟨by simp, ?_⟩
  intro a b h1 h2 _
  simp at h1 h2
  exact ⟨h1, h2⟩

end Verif
