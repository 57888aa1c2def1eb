import Verif.Model.GeomOps
import Verif.Props.Primitives
import Verif.Props.FloatOps
import Verif.Props.Mask
import Verif.Proofs.F32Div

/-! # C85, C86, C87: arithmetic, equality and constants of the geometric types -/

namespace Verif
open Spec

/-! ### C85: scaling and moving shapes -/

namespace Spec
/-- The point `p op v`, component by component. -/
noncomputable def movePt (op : FOp) (v p : V3 ℝ) : V3 ℝ :=
  match op with
  | .add => ⟨p.x + v.x, p.y + v.y, p.z + v.z⟩
  | .sub => ⟨p.x - v.x, p.y - v.y, p.z - v.z⟩
  | .mul => ⟨p.x * v.x, p.y * v.y, p.z * v.z⟩
  | .div => ⟨p.x / v.x, p.y / v.y, p.z / v.z⟩
/-- The operation can be undone or is at least defined: division needs non-zero divisors. -/
def MoveOk (op : FOp) (v : V3 ℝ) : Prop := op = .div → v.x ≠ 0 ∧ v.y ≠ 0 ∧ v.z ≠ 0
end Spec

/-- A map that scales and shifts each coordinate. -/
def laneAffine (a b : V3 ℝ) (p : V3 ℝ) : V3 ℝ := ⟨a.x * p.x + b.x, a.y * p.y + b.y, a.z * p.z + b.z⟩

/-- Scale factors of `movePt`. -/
noncomputable def moveA (op : FOp) (v : V3 ℝ) : V3 ℝ :=
  match op with
  | .add | .sub => ⟨1, 1, 1⟩
  | .mul => v
  | .div => ⟨v.x⁻¹, v.y⁻¹, v.z⁻¹⟩
/-- Shifts of `movePt`. -/
noncomputable def moveB (op : FOp) (v : V3 ℝ) : V3 ℝ :=
  match op with
  | .add => v
  | .sub => ⟨-v.x, -v.y, -v.z⟩
  | _ => ⟨0, 0, 0⟩

theorem movePt_affine (op : FOp) (v : V3 ℝ) : movePt op v = laneAffine (moveA op v) (moveB op v) := by
  funext p
  cases op <;> simp only [movePt, laneAffine, moveA, moveB, V3.mk.injEq, div_eq_mul_inv] <;>
    refine ⟨?_, ?_, ?_⟩ <;> ring

theorem segment_image (a b p q : V3 ℝ) :
    Segment (laneAffine a b p) (laneAffine a b q) = laneAffine a b '' Segment p q := by
  ext r
  constructor
  · rintro ⟨t, h0, h1, rfl⟩
    refine ⟨along p (diff q p) t, ⟨t, h0, h1, rfl⟩, ?_⟩
    simp only [laneAffine, along, diff, V3.mk.injEq]; refine ⟨?_, ?_, ?_⟩ <;> ring
  · rintro ⟨_, ⟨t, h0, h1, rfl⟩, rfl⟩
    refine ⟨t, h0, h1, ?_⟩
    simp only [laneAffine, along, diff, V3.mk.injEq]; refine ⟨?_, ?_, ?_⟩ <;> ring

theorem tri_image (a b p q s : V3 ℝ) :
    Tri (laneAffine a b p) (laneAffine a b q) (laneAffine a b s) = laneAffine a b '' Tri p q s := by
  have e : ∀ x y z : ℝ, x + y + z = 1 → combo (laneAffine a b p) (laneAffine a b q) (laneAffine a b s) x y z =
      laneAffine a b (combo p q s x y z) := by
    intro x y z h
    have hz : z = 1 - x - y := by linarith
    subst hz
    simp only [laneAffine, combo, V3.mk.injEq]; refine ⟨?_, ?_, ?_⟩ <;> ring
  ext r
  constructor
  · rintro ⟨x, y, z, hx, hy, hz, h, rfl⟩
    exact ⟨_, ⟨x, y, z, hx, hy, hz, h, rfl⟩, (e x y z h).symm⟩
  · rintro ⟨_, ⟨x, y, z, hx, hy, hz, h, rfl⟩, rfl⟩
    exact ⟨x, y, z, hx, hy, hz, h, (e x y z h).symm⟩

theorem rayPts_image (a b o d : V3 ℝ) :
    RayPts (laneAffine a b o) ⟨a.x * d.x, a.y * d.y, a.z * d.z⟩ = laneAffine a b '' RayPts o d := by
  ext r
  constructor
  · rintro ⟨t, h0, rfl⟩
    refine ⟨along o d t, ⟨t, h0, rfl⟩, ?_⟩
    simp only [laneAffine, along, V3.mk.injEq]; refine ⟨?_, ?_, ?_⟩ <;> ring
  · rintro ⟨_, ⟨t, h0, rfl⟩, rfl⟩
    refine ⟨t, h0, ?_⟩
    simp only [laneAffine, along, V3.mk.injEq]; refine ⟨?_, ?_, ?_⟩ <;> ring

theorem interval_image {a b lo hi y : ℝ} (ha : 0 ≤ a) (h : lo ≤ hi) :
    (a * lo + b ≤ y ∧ y ≤ a * hi + b) ↔ ∃ x, (lo ≤ x ∧ x ≤ hi) ∧ a * x + b = y := by
  constructor
  · rintro ⟨h1, h2⟩
    rcases eq_or_lt_of_le ha with h0 | h0
    · subst h0
      exact ⟨lo, ⟨le_rfl, h⟩, by linarith⟩
    · refine ⟨(y - b) / a, ⟨?_, ?_⟩, ?_⟩
      · rw [le_div_iff₀ h0]; linarith
      · rw [div_le_iff₀ h0]; linarith
      · field_simp; ring
  · rintro ⟨x, ⟨h1, h2⟩, rfl⟩
    constructor <;> nlinarith

theorem box_image (a b lo hi : V3 ℝ) (ha : 0 ≤ a.x ∧ 0 ≤ a.y ∧ 0 ≤ a.z)
    (h : lo.x ≤ hi.x ∧ lo.y ≤ hi.y ∧ lo.z ≤ hi.z) :
    Box (laneAffine a b lo) (laneAffine a b hi) = laneAffine a b '' Box lo hi := by
  ext r
  constructor
  · rintro ⟨h1, h2, h3⟩
    obtain ⟨x, hx, ex⟩ := (interval_image ha.1 h.1).1 h1
    obtain ⟨y, hy, ey⟩ := (interval_image ha.2.1 h.2.1).1 h2
    obtain ⟨z, hz, ez⟩ := (interval_image ha.2.2 h.2.2).1 h3
    exact ⟨⟨x, y, z⟩, ⟨hx, hy, hz⟩, by cases r; simp only [laneAffine, V3.mk.injEq]; exact ⟨ex, ey, ez⟩⟩
  · rintro ⟨p, ⟨hx, hy, hz⟩, rfl⟩
    exact ⟨(interval_image ha.1 h.1).2 ⟨_, hx, rfl⟩, (interval_image ha.2.1 h.2.1).2 ⟨_, hy, rfl⟩,
      (interval_image ha.2.2 h.2.2).2 ⟨_, hz, rfl⟩⟩

theorem pt_op (op : FOp) (p v : V4 ℝ) : pt (match op with
    | .add => V4.add p v | .sub => V4.sub p v | .mul => V4.mul p v | .div => V4.div p v) = movePt op (pt v) (pt p) := by
  cases op <;> rfl

/-- C85: `line op v` and `line op= v` are the same line, in every arithmetic, and its points are exactly the points
`p op v` of the points `p` of the line. -/
theorem line_op (op : FOp) :
    (∀ {F : Type} [Flt F] (l : Line F) (v : V4 F), l.asg op v = l.bin op v) ∧
    (∀ (l : Line ℝ) (v : V4 ℝ), MoveOk op (pt v) →
      Segment (pt (l.bin op v).start) (pt (l.bin op v).end) = movePt op (pt v) '' Segment (pt l.start) (pt l.end)) := by
  constructor
  · intro F _ l v; cases op <;> rfl
  · intro l v _
    have e1 : pt (l.bin op v).start = movePt op (pt v) (pt l.start) := by cases op <;> rfl
    have e2 : pt (l.bin op v).end = movePt op (pt v) (pt l.end) := by cases op <;> rfl
    rw [e1, e2, movePt_affine, segment_image]

/-- C85: the same for triangles. -/
theorem triangle_op (op : FOp) :
    (∀ {F : Type} [Flt F] (t : Triangle F) (v : V4 F), t.asg op v = t.bin op v) ∧
    (∀ (t : Triangle ℝ) (v : V4 ℝ), MoveOk op (pt v) →
      Tri (pt (t.bin op v).p0) (pt (t.bin op v).p1) (pt (t.bin op v).p2) =
        movePt op (pt v) '' Tri (pt t.p0) (pt t.p1) (pt t.p2)) := by
  constructor
  · intro F _ t v; cases op <;> rfl
  · intro t v _
    have e1 : pt (t.bin op v).p0 = movePt op (pt v) (pt t.p0) := by cases op <;> rfl
    have e2 : pt (t.bin op v).p1 = movePt op (pt v) (pt t.p1) := by cases op <;> rfl
    have e3 : pt (t.bin op v).p2 = movePt op (pt v) (pt t.p2) := by cases op <;> rfl
    rw [e1, e2, e3, movePt_affine, tri_image]

/-- Moving, and scaling by factors that are not negative (for division: positive). -/
def KeepsOrder (op : FOp) (v : V3 ℝ) : Prop :=
  match op with
  | .add | .sub => True
  | .mul => 0 ≤ v.x ∧ 0 ≤ v.y ∧ 0 ≤ v.z
  | .div => 0 < v.x ∧ 0 < v.y ∧ 0 < v.z

theorem real_ctor (lo hi : V4 ℝ) : Aabb.ctor lo hi = if (lo.x ≤ hi.x ∧ lo.y ≤ hi.y ∧ lo.z ≤ hi.z) then
    some ⟨lo, hi⟩ else none := by
  simp only [vec, decide_eq_true_eq, Bool.and_eq_true]
  norm_num
  congr 1
  simp only [eq_iff_iff]; tauto

/-- C85: moving a box, or scaling it by factors that are not negative, succeeds and gives exactly the box of the moved
points; `op=` gives the same box. -/
theorem aabb_op (op : FOp) (b : Aabb ℝ) (v : V4 ℝ) (hb : ValidBox b) (hv : KeepsOrder op (pt v)) :
    b.bin op v = some (b.asg op v) ∧ ValidBox (b.asg op v) ∧ boxOf (b.asg op v) = movePt op (pt v) '' boxOf b := by
  have e1 : pt (b.asg op v).min = movePt op (pt v) (pt b.min) := by cases op <;> rfl
  have e2 : pt (b.asg op v).max = movePt op (pt v) (pt b.max) := by cases op <;> rfl
  have hA : 0 ≤ (moveA op (pt v)).x ∧ 0 ≤ (moveA op (pt v)).y ∧ 0 ≤ (moveA op (pt v)).z := by
    cases op with
    | add => simp [moveA]
    | sub => simp [moveA]
    | mul => exact hv
    | div => exact ⟨inv_nonneg.2 hv.1.le, inv_nonneg.2 hv.2.1.le, inv_nonneg.2 hv.2.2.le⟩
  have hval : ValidBox (b.asg op v) := by
    unfold ValidBox
    rw [e1, e2, movePt_affine]
    obtain ⟨h1, h2, h3⟩ := hb
    simp only [laneAffine]
    refine ⟨?_, ?_, ?_⟩
    · nlinarith [mul_le_mul_of_nonneg_left h1 hA.1]
    · nlinarith [mul_le_mul_of_nonneg_left h2 hA.2.1]
    · nlinarith [mul_le_mul_of_nonneg_left h3 hA.2.2]
  refine ⟨?_, hval, ?_⟩
  · have : b.bin op v = Aabb.ctor (b.asg op v).min (b.asg op v).max := by cases op <;> rfl
    rw [this, real_ctor]; exact if_pos hval
  · unfold boxOf
    rw [e1, e2, movePt_affine, box_image _ _ _ _ hA hb]

/-- C85 fails for scaling a box by a negative factor: the operator's assertion fails, and `*=` (which has no
assertion) leaves an inverted box that contains no point, although the scaled box has points. -/
theorem aabb_negative_scale :
    (Aabb.mulV ⟨V4.splat 0, V4.splat 1⟩ (V4.splat (-1)) : Option (Aabb ℝ)) = none ∧
    (∀ (b : Aabb ℝ) (v : V4 ℝ), b.min.x < b.max.x → v.x < 0 →
      b.mulV v = none ∧ boxOf (b.asg .mul v) = ∅ ∧ (ValidBox b → (movePt .mul (pt v) '' boxOf b).Nonempty)) := by
  have key : ∀ (b : Aabb ℝ) (v : V4 ℝ), b.min.x < b.max.x → v.x < 0 → b.max.x * v.x < b.min.x * v.x :=
    fun b v h hv => by nlinarith
  have h2 : ∀ (b : Aabb ℝ) (v : V4 ℝ), b.min.x < b.max.x → v.x < 0 → b.mulV v = none := by
    intro b v h hv
    unfold Aabb.mulV
    rw [real_ctor, if_neg]
    intro hc
    have := hc.1
    simp only [vec] at this
    linarith [key b v h hv]
  refine ⟨h2 _ _ (by norm_num [vec]) (by norm_num [vec]), fun b v h hv => ⟨h2 b v h hv, ?_, ?_⟩⟩
  · ext p
    simp only [boxOf, Box, Set.mem_ofPred_eq, Set.mem_empty_iff_false, iff_false]
    rintro ⟨⟨h3, h4⟩, -⟩
    have := key b v h hv
    simp only [vec, real_pt] at h3 h4
    linarith
  · intro hb
    refine ⟨_, pt b.min, ?_, rfl⟩
    exact ⟨⟨le_rfl, hb.1⟩, ⟨le_rfl, hb.2.1⟩, ⟨le_rfl, hb.2.2⟩⟩

theorem rayPts_scale (o d : V3 ℝ) {c : ℝ} (hc : 0 < c) : RayPts o ⟨d.x / c, d.y / c, d.z / c⟩ = RayPts o d := by
  ext r
  constructor
  · rintro ⟨t, h0, rfl⟩
    refine ⟨t / c, by positivity, ?_⟩
    simp only [along, V3.mk.injEq]; refine ⟨?_, ?_, ?_⟩ <;> ring
  · rintro ⟨t, h0, rfl⟩
    refine ⟨t * c, by positivity, ?_⟩
    simp only [along, V3.mk.injEq]; refine ⟨?_, ?_, ?_⟩ <;> field_simp

theorem len_pos {d : V3 ℝ} (h : d ≠ ⟨0, 0, 0⟩) : 0 < Real.sqrt (dot d d) := by
  apply Real.sqrt_pos.2
  apply lt_of_le_of_ne (dot_self_nonneg _)
  intro h0
  obtain ⟨h1, h2, h3⟩ := dot_self_zero h0.symm
  obtain ⟨x, y, z⟩ := d
  exact h (by simp only at h1 h2 h3; rw [h1, h2, h3])

theorem ctor_dir (o d : V4 ℝ) (h : pt d ≠ ⟨0, 0, 0⟩) (p : V3 ℝ) :
    RayPts p (pt (Ray.ctor o d true).direction) = RayPts p (pt d) ∧
    dot (pt (Ray.ctor o d true).direction) (pt (Ray.ctor o d true).direction) = 1 := by
  have hp := len_pos h
  have e : pt (Ray.ctor o d true).direction = ⟨(pt d).x / Real.sqrt (dot (pt d) (pt d)),
      (pt d).y / Real.sqrt (dot (pt d) (pt d)), (pt d).z / Real.sqrt (dot (pt d) (pt d))⟩ := by
    simp only [Ray.ctor, if_true, normalize3_pt]; rfl
  rw [e]
  refine ⟨rayPts_scale _ _ hp, ?_⟩
  have hs : Real.sqrt (dot (pt d) (pt d)) * Real.sqrt (dot (pt d) (pt d)) = dot (pt d) (pt d) :=
    Real.mul_self_sqrt (dot_self_nonneg _)
  generalize Real.sqrt (dot (pt d) (pt d)) = s at *
  simp only [dot] at *
  field_simp
  nlinarith

/-- C85: scaling a ray by a vector (that does not flatten its direction to zero) with `*` or `/` gives exactly the ray
of the scaled points, with a direction of unit length; `*=` and `/=` give the same points. -/
theorem ray_scale (op : FOp) (hop : op = .mul ∨ op = .div) (r : Ray ℝ) (v : V4 ℝ) (hv : MoveOk op (pt v))
    (hd : movePt op (pt v) (pt r.direction) ≠ ⟨0, 0, 0⟩) :
    RayPts (pt (r.bin op v).origin) (pt (r.bin op v).direction) =
      movePt op (pt v) '' RayPts (pt r.origin) (pt r.direction) ∧
    dot (pt (r.bin op v).direction) (pt (r.bin op v).direction) = 1 ∧
    RayPts (pt (r.asg op v).origin) (pt (r.asg op v).direction) =
      movePt op (pt v) '' RayPts (pt r.origin) (pt r.direction) := by
  have key : RayPts (movePt op (pt v) (pt r.origin)) (movePt op (pt v) (pt r.direction)) =
      movePt op (pt v) '' RayPts (pt r.origin) (pt r.direction) := by
    rw [movePt_affine]
    have : laneAffine (moveA op (pt v)) (moveB op (pt v)) (pt r.direction) = ⟨(moveA op (pt v)).x * (pt r.direction).x,
        (moveA op (pt v)).y * (pt r.direction).y, (moveA op (pt v)).z * (pt r.direction).z⟩ := by
      rcases hop with rfl | rfl <;> simp [laneAffine, moveB]
    rw [this, rayPts_image]
  rcases hop with rfl | rfl
  · have h := ctor_dir (V4.mul r.origin v) (V4.mul r.direction v) hd (pt (V4.mul r.origin v))
    exact ⟨h.1.trans key, h.2, key⟩
  · have h := ctor_dir (V4.div r.origin v) (V4.div r.direction v) hd (pt (V4.div r.origin v))
    exact ⟨h.1.trans key, h.2, key⟩

theorem rayPts_inj {o d1 d2 : V3 ℝ} (h1 : d1 ≠ ⟨0, 0, 0⟩) :
    RayPts o d1 = RayPts o d2 ↔ ∃ c, 0 < c ∧ d1 = ⟨c * d2.x, c * d2.y, c * d2.z⟩ := by
  constructor
  · intro h
    have : along o d1 1 ∈ RayPts o d2 := h ▸ ⟨1, zero_le_one, rfl⟩
    obtain ⟨t, h0, e⟩ := this
    simp only [along, V3.mk.injEq] at e
    have e' : d1 = ⟨t * d2.x, t * d2.y, t * d2.z⟩ := by
      cases d1; simp only [V3.mk.injEq] at *; refine ⟨?_, ?_, ?_⟩ <;> linarith
    refine ⟨t, lt_of_le_of_ne h0 ?_, e'⟩
    rintro rfl
    exact h1 (by rw [e']; simp)
  · rintro ⟨c, hc, rfl⟩
    ext r
    constructor
    · rintro ⟨t, h0, rfl⟩
      refine ⟨t * c, by positivity, ?_⟩
      simp only [along, V3.mk.injEq]; refine ⟨?_, ?_, ?_⟩ <;> ring
    · rintro ⟨t, h0, rfl⟩
      refine ⟨t / c, by positivity, ?_⟩
      simp only [along, V3.mk.injEq]; refine ⟨?_, ?_, ?_⟩ <;> field_simp

/-- C85 fails for moving a ray: `ray + v` (and `ray += v`) adds `v` to the direction as well, so its points are the
moved points exactly when `direction + v` is a positive multiple of `direction`: no ray can be moved sideways. -/
theorem ray_move_wrong (r : Ray ℝ) (v : V4 ℝ) (hd : pt (V4.add r.direction v) ≠ ⟨0, 0, 0⟩) :
    (RayPts (pt (r.addV v).origin) (pt (r.addV v).direction) = movePt .add (pt v) '' RayPts (pt r.origin) (pt r.direction) ↔
      ∃ c, 0 < c ∧ pt (V4.add r.direction v) =
        ⟨c * (pt r.direction).x, c * (pt r.direction).y, c * (pt r.direction).z⟩) ∧
    (RayPts (pt (r.asg .add v).origin) (pt (r.asg .add v).direction) =
        movePt .add (pt v) '' RayPts (pt r.origin) (pt r.direction) ↔
      ∃ c, 0 < c ∧ pt (V4.add r.direction v) =
        ⟨c * (pt r.direction).x, c * (pt r.direction).y, c * (pt r.direction).z⟩) := by
  have e : movePt .add (pt v) '' RayPts (pt r.origin) (pt r.direction) =
      RayPts (pt (V4.add r.origin v)) (pt r.direction) := by
    rw [movePt_affine, ← rayPts_image]
    congr 1
    · simp only [laneAffine, moveA, moveB, vec, real_pt, one_mul]
    · simp [moveA]
  rw [e]
  have h := (ctor_dir (V4.add r.origin v) (V4.add r.direction v) hd (pt (V4.add r.origin v))).1
  refine ⟨?_, rayPts_inj hd⟩
  show RayPts _ (pt (Ray.ctor (V4.add r.origin v) (V4.add r.direction v) true).direction) = _ ↔ _
  exact (by rw [← rayPts_inj (o := pt (V4.add r.origin v)) hd]; exact ⟨fun h' => h.symm.trans h', fun h' => h.trans h'⟩)

/-- C85, concretely: the ray along x moved by one in y: the point at parameter 1 is not the moved point. -/
theorem ray_move_counterexample :
    pt ((Ray.ctor (V4.splat 0) ⟨1, 0, 0, 0⟩ true : Ray ℝ).asg .add ⟨0, 1, 0, 0⟩).direction = ⟨1, 1, 0⟩ ∧
    RayPts (pt ((Ray.ctor (V4.splat 0) ⟨1, 0, 0, 0⟩ true : Ray ℝ).asg .add ⟨0, 1, 0, 0⟩).origin)
      (pt ((Ray.ctor (V4.splat 0) ⟨1, 0, 0, 0⟩ true : Ray ℝ).asg .add ⟨0, 1, 0, 0⟩).direction) ≠
    movePt .add ⟨0, 1, 0⟩ '' RayPts ⟨0, 0, 0⟩ ⟨1, 0, 0⟩ := by
  have hn : (Ray.ctor (V4.splat 0) ⟨1, 0, 0, 0⟩ true : Ray ℝ).direction = ⟨1, 0, 0, 0⟩ := by
    simp only [Ray.ctor, if_true, normalize3_pt]
    simp [dot]
  have hdir : pt (V4.add (Ray.ctor (V4.splat 0) ⟨1, 0, 0, 0⟩ true : Ray ℝ).direction ⟨0, 1, 0, 0⟩) = ⟨1, 1, 0⟩ := by
    rw [hn]; simp [vec]
  refine ⟨hdir, fun h => ?_⟩
  have h2 := (ray_move_wrong (Ray.ctor (V4.splat 0) ⟨1, 0, 0, 0⟩ true) ⟨0, 1, 0, 0⟩ (by rw [hdir]; simp)).2.1
  rw [hn] at h2
  have h3 := h2 (by
    rw [h]
    have : pt (Ray.ctor (V4.splat 0) ⟨1, 0, 0, 0⟩ true : Ray ℝ).origin = ⟨0, 0, 0⟩ := by simp [vec]
    rw [this]; rfl)
  obtain ⟨c, hc, e⟩ := h3
  simp [vec] at e

/-- C85: `ray * v` is normalised and `ray *= v` is not: the two forms of one operator leave different directions (and
so different hit distances), here (1, 0, 0) and (2, 0, 0). -/
theorem ray_scale_forms_differ :
    pt ((⟨⟨1, 0, 0, 0⟩, V4.splat 0, V4.splat 0⟩ : Ray ℝ).mulV (V4.splat 2)).direction = ⟨1, 0, 0⟩ ∧
    pt ((⟨⟨1, 0, 0, 0⟩, V4.splat 0, V4.splat 0⟩ : Ray ℝ).asg .mul (V4.splat 2)).direction = ⟨2, 0, 0⟩ := by
  constructor
  · have hs : Real.sqrt (2 * 2) = 2 := by rw [Real.sqrt_mul_self]; norm_num
    simp only [Ray.mulV, Ray.ctor, if_true, normalize3_pt]
    simp [dot, vec, hs]
  · simp [vec]

example : ValidBox (⟨V4.splat 0, V4.splat 1⟩ : Aabb ℝ) ∧ KeepsOrder .mul (pt (V4.splat (2 : ℝ))) ∧
    MoveOk .div (pt (V4.splat (2 : ℝ))) ∧ movePt .div (pt (V4.splat (2 : ℝ))) ⟨1, 0, 0⟩ ≠ ⟨0, 0, 0⟩ := by
  refine ⟨?_, ?_, ?_, ?_⟩ <;> norm_num [ValidBox, KeepsOrder, MoveOk, movePt, V4.splat]

/-- x, y and z are neither infinite nor NaN. -/
def Finite3 (v : V4 F32) : Prop := v.x.isFinite ∧ v.y.isFinite ∧ v.z.isFinite

theorem fsub_mono {a b c : F32} (ha : a.isFinite) (hb : b.isFinite) (hc : c.isFinite)
    (h : a.key ≤ b.key) : (F32.fsub a c).key ≤ (F32.fsub b c).key := by
  rw [(F32.fsub_finite ha hc).2, (F32.fsub_finite hb hc).2]
  apply F32.roundUnits_mono (by decide) (by decide)
  have := (F32.units_le_iff a b).2 h
  omega

theorem fdiv_mono {a b c : F32} (ha : a.isFinite) (hb : b.isFinite) (hc : c.isFinite) (h0 : 0 < c.key)
    (h : a.key ≤ b.key) : (F32.fdiv a c).key ≤ (F32.fdiv b c).key := by
  have hz : (F32.zero false).units = 0 := by decide
  have hu : 0 < c.units := by
    by_contra hc
    have := (F32.units_le_iff c (F32.zero false)).1 (by rw [hz]; omega)
    rw [F32.zero_key] at this; omega
  have hm : c.mag ≠ 0 := by rw [ne_eq, ← F32.units_zero_iff]; omega
  rw [(F32.fdiv_finite ha hc hm).2, (F32.fdiv_finite hb hc hm).2]
  have h1 := (F32.units_le_iff a b).2 h
  have hn : 0 < c.units.natAbs := by omega
  rw [Int.sign_eq_one_of_pos hu, mul_one, mul_one]
  apply F32.roundUnits_mono hn hn
  exact Int.mul_le_mul_of_nonneg_right (Int.mul_le_mul_of_nonneg_right h1 (by positivity)) (by positivity)

/-- C85 in binary32: moving a box of finite corners, scaling it by finite factors that are not negative, or dividing it by
positive ones, never fails the constructor's assertion, and although every coordinate is rounded, each finite point of the box is moved to a point
of the moved box. -/
theorem aabb_op_f32 (op : FOp) (b : Aabb F32) (v p : V4 F32) (hlo : Finite3 b.min) (hhi : Finite3 b.max)
    (hv : Finite3 v) (hp : Finite3 p) (hb : ValidBox b)
    (hop : op = .add ∨ op = .sub ∨ (op = .mul ∧ 0 ≤ (pt v).x ∧ 0 ≤ (pt v).y ∧ 0 ≤ (pt v).z) ∨
      (op = .div ∧ 0 < (pt v).x ∧ 0 < (pt v).y ∧ 0 < (pt v).z)) :
    b.bin op v = some (b.asg op v) ∧ OkBox (b.asg op v) ∧
    (pt p ∈ boxOf b → pt (Float4.bin op p v) ∈ boxOf (b.asg op v)) := by
  have hval : ∀ a : F32, (Valued.val a : ℝ) = (a.toRat : ℝ) := fun _ => rfl
  have hle : ∀ a c : F32, (Valued.val a : ℝ) ≤ Valued.val c ↔ a.key ≤ c.key := by
    intro a c; rw [hval, hval, Rat.cast_le, F32.toRat_le_iff]
  let f : F32 → F32 → F32 := match op with | .add => F32.fadd | .sub => F32.fsub | .mul => F32.fmul | .div => F32.fdiv
  have hz : ∀ c : F32, 0 ≤ (Valued.val c : ℝ) → 0 ≤ c.key := by
    intro c h
    have h0 : (Valued.val (F32.zero false) : ℝ) = 0 := by
      rw [hval]; have : (F32.zero false).toRat = 0 := by decide +kernel
      rw [this]; simp
    rw [← h0, hle, F32.zero_key] at h; exact h
  have hzp : ∀ c : F32, 0 < (Valued.val c : ℝ) → 0 < c.key := by
    intro c h
    have h0 : (Valued.val (F32.zero false) : ℝ) = 0 := by
      rw [hval]; have : (F32.zero false).toRat = 0 := by decide +kernel
      rw [this]; simp
    rw [← h0, ← not_le, hle, F32.zero_key, not_le] at h; exact h
  have hm : ∀ a c w : F32, a.isFinite → c.isFinite → w.isFinite → ((op = .mul → 0 ≤ w.key) ∧ (op = .div → 0 < w.key)) →
      ((f a w).isNaN = false ∧ (a.key ≤ c.key → (f a w).key ≤ (f c w).key)) := by
    intro a c w ha hc hw h0
    rcases hop with rfl | rfl | ⟨rfl, -⟩ | ⟨rfl, -⟩
    · exact ⟨(F32.fadd_finite ha hw).1, F32.fadd_mono ha hc hw⟩
    · exact ⟨(F32.fsub_finite ha hw).1, fsub_mono ha hc hw⟩
    · exact ⟨(F32.fmul_finite ha hw).1, F32.fmul_mono ha hc hw (h0.1 rfl)⟩
    · have hp := h0.2 rfl
      have hm : w.mag ≠ 0 := by
        rw [ne_eq, ← F32.units_zero_iff]
        intro hu
        have := (F32.units_le_iff w (F32.zero false)).1 (by rw [hu]; decide)
        rw [F32.zero_key] at this; omega
      exact ⟨(F32.fdiv_finite ha hw hm).1, fdiv_mono ha hc hw hp⟩
  have hw : ((op = .mul → 0 ≤ v.x.key) ∧ (op = .div → 0 < v.x.key)) ∧ ((op = .mul → 0 ≤ v.y.key) ∧ (op = .div → 0 < v.y.key)) ∧
      ((op = .mul → 0 ≤ v.z.key) ∧ (op = .div → 0 < v.z.key)) := by
    rcases hop with rfl | rfl | ⟨rfl, h1, h2, h3⟩ | ⟨rfl, h1, h2, h3⟩
    · exact ⟨⟨nofun, nofun⟩, ⟨nofun, nofun⟩, ⟨nofun, nofun⟩⟩
    · exact ⟨⟨nofun, nofun⟩, ⟨nofun, nofun⟩, ⟨nofun, nofun⟩⟩
    · exact ⟨⟨fun _ => hz _ h1, nofun⟩, ⟨fun _ => hz _ h2, nofun⟩, ⟨fun _ => hz _ h3, nofun⟩⟩
    · exact ⟨⟨nofun, fun _ => hzp _ h1⟩, ⟨nofun, fun _ => hzp _ h2⟩, ⟨nofun, fun _ => hzp _ h3⟩⟩
  have ebin : ∀ a : V4 F32, Float4.bin op a v = ⟨f a.x v.x, f a.y v.y, f a.z v.z, f a.w v.w⟩ := by
    intro a; cases op <;> rfl
  have easg : b.asg op v = ⟨Float4.bin op b.min v, Float4.bin op b.max v⟩ := by cases op <;> rfl
  have ector : b.bin op v = Aabb.ctor (Float4.bin op b.min v) (Float4.bin op b.max v) := by cases op <;> rfl
  obtain ⟨l1, l2, l3⟩ := hlo
  obtain ⟨u1, u2, u3⟩ := hhi
  obtain ⟨v1, v2, v3⟩ := hv
  obtain ⟨p1, p2, p3⟩ := hp
  obtain ⟨w1, w2, w3⟩ := hw
  have o1 : Ok3 (Float4.bin op b.min v) := by
    rw [ebin]; exact ⟨(hm _ _ _ l1 l1 v1 w1).1, (hm _ _ _ l2 l2 v2 w2).1, (hm _ _ _ l3 l3 v3 w3).1⟩
  have o2 : Ok3 (Float4.bin op b.max v) := by
    rw [ebin]; exact ⟨(hm _ _ _ u1 u1 v1 w1).1, (hm _ _ _ u2 u2 v2 w2).1, (hm _ _ _ u3 u3 v3 w3).1⟩
  have hvb : ValidBox (⟨Float4.bin op b.min v, Float4.bin op b.max v⟩ : Aabb F32) := by
    obtain ⟨h1, h2, h3⟩ := hb
    simp only [ValidBox, pt, ebin, hle] at *
    exact ⟨(hm _ _ _ l1 u1 v1 w1).2 h1, (hm _ _ _ l2 u2 v2 w2).2 h2, (hm _ _ _ l3 u3 v3 w3).2 h3⟩
  refine ⟨?_, ?_, ?_⟩
  · rw [ector, easg]
    exact ((set_checks _ _ o1 o2 b).2.1 _).2 ⟨hvb, rfl⟩
  · rw [easg]; exact ⟨o1, o2⟩
  · rintro ⟨⟨a1, b1⟩, ⟨a2, b2⟩, ⟨a3, b3⟩⟩
    rw [easg]
    simp only [boxOf, Box, Set.mem_ofPred_eq, pt, ebin, hle] at *
    exact ⟨⟨(hm _ _ _ l1 p1 v1 w1).2 a1, (hm _ _ _ p1 u1 v1 w1).2 b1⟩,
      ⟨(hm _ _ _ l2 p2 v2 w2).2 a2, (hm _ _ _ p2 u2 v2 w2).2 b2⟩,
      ⟨(hm _ _ _ l3 p3 v3 w3).2 a3, (hm _ _ _ p3 u3 v3 w3).2 b3⟩⟩

example : (Aabb.bin .div (⟨V4.splat (F32.ofRat 1), V4.splat (F32.ofRat 2)⟩ : Aabb F32) (V4.splat (F32.ofRat 3))).map
    (fun b => (b.min.x, b.max.x)) = some (F32.ofRat (1 / 3), F32.ofRat (2 / 3)) := by decide +kernel

/-! ### C86: equality -/

theorem memcmpEq_iff : ∀ a b : List Nat, a.length = b.length → (Bin.memcmpEq a b = true ↔ a = b)
  | [], [], _ => by simp [Bin.memcmpEq]
  | [], _ :: _, h => by simp at h
  | _ :: _, [], h => by simp at h
  | a :: as, b :: bs, h => by
    have ih := memcmpEq_iff as bs (by simpa using h)
    simp only [Bin.memcmpEq]
    by_cases hab : a = b
    · rw [if_pos hab, ih]; simp [hab]
    · rw [if_neg hab]; simp [hab]

theorem bytes_flat_inj : ∀ a b : List W, a.flatMap Bin.bytes = b.flatMap Bin.bytes → a = b
  | [], [], _ => rfl
  | [], _ :: _, h => by simp [Bin.bytes] at h
  | _ :: _, [], h => by simp [Bin.bytes] at h
  | a :: as, b :: bs, h => by
    simp only [List.flatMap_cons] at h
    obtain ⟨h1, h2⟩ := List.append_inj h rfl
    rw [bytes_inj h1, bytes_flat_inj as bs h2]

theorem bytes_flat_length : ∀ a : List W, (a.flatMap Bin.bytes).length = 4 * a.length
  | [] => rfl
  | a :: as => by simp only [List.flatMap_cons, List.length_append, bytes_flat_length as, List.length_cons]
                  simp [Bin.bytes]; omega

theorem memEq_iff {a b : List W} (h : a.length = b.length) : memEq a b = true ↔ a = b := by
  unfold memEq
  rw [memcmpEq_iff _ _ (by rw [bytes_flat_length, bytes_flat_length, h])]
  exact ⟨bytes_flat_inj a b, fun h => by rw [h]⟩

theorem F32.bits_inj {a b : F32} : a.bits = b.bits ↔ a = b :=
  ⟨fun h => by cases a; cases b; simp_all, fun h => by rw [h]⟩

/-- C86: `==` on lines, triangles, rays, planes, spheres, boxes and the scalar matrices holds exactly when all stored
values are identical, bit for bit; so it is an equivalence relation (even with NaN inside), and equal objects give equal
results in every computation. -/
theorem geom_eq_iff :
    (∀ a b : Line F32, a.eq b = true ↔ a = b) ∧ (∀ a b : Triangle F32, a.eq b = true ↔ a = b) ∧
    (∀ a b : Ray F32, a.eq b = true ↔ a = b) ∧ (∀ a b : Plane F32, a.eq b = true ↔ a = b) ∧
    (∀ a b : Sphere F32, a.eq b = true ↔ a = b) ∧ (∀ a b : Aabb F32, a.eq b = true ↔ a = b) ∧
    (∀ a b : M2 F32, a.eq b = true ↔ a = b) ∧ (∀ a b : M3 F32, a.eq b = true ↔ a = b) ∧
    (∀ a b : M43 F32, a.eq b = true ↔ a = b) ∧ (∀ a b : M4 F32, a.eq b = true ↔ a = b) := by
  have w4 : ∀ a b : V4 F32, a = b ↔ (a.x.bits = b.x.bits ∧ a.y.bits = b.y.bits ∧ a.z.bits = b.z.bits ∧ a.w.bits = b.w.bits) := by
    rintro ⟨a1, a2, a3, a4⟩ ⟨b1, b2, b3, b4⟩; simp [F32.bits_inj]
  have w3 : ∀ a b : V3 F32, a = b ↔ (a.x.bits = b.x.bits ∧ a.y.bits = b.y.bits ∧ a.z.bits = b.z.bits) := by
    rintro ⟨a1, a2, a3⟩ ⟨b1, b2, b3⟩; simp [F32.bits_inj]
  have w2 : ∀ a b : V2 F32, a = b ↔ (a.x.bits = b.x.bits ∧ a.y.bits = b.y.bits) := by
    rintro ⟨a1, a2⟩ ⟨b1, b2⟩; simp [F32.bits_inj]
  have wu : ∀ a b : V4 W, a = b ↔ (a.x = b.x ∧ a.y = b.y ∧ a.z = b.z ∧ a.w = b.w) := by
    rintro ⟨a1, a2, a3, a4⟩ ⟨b1, b2, b3, b4⟩; simp
  refine ⟨?_, ?_, ?_, ?_, ?_, ?_, ?_, ?_, ?_, ?_⟩
  · rintro ⟨a1, a2⟩ ⟨b1, b2⟩
    rw [Line.eq, memEq_iff (a := Line.words _) (b := Line.words _) (by rfl)]
    simp only [Line.mk.injEq, w4]
    simp [Line.words, V4.words, V4.toList, and_assoc]
  · rintro ⟨a1, a2, a3⟩ ⟨b1, b2, b3⟩
    rw [Triangle.eq, memEq_iff (a := Triangle.words _) (b := Triangle.words _) (by rfl)]
    simp only [Triangle.mk.injEq, w4]
    simp [Triangle.words, V4.words, V4.toList, and_assoc]
  · rintro ⟨a1, a2, a3⟩ ⟨b1, b2, b3⟩
    rw [Ray.eq, memEq_iff (a := Ray.words _) (b := Ray.words _) (by rfl)]
    simp only [Ray.mk.injEq, w4, wu]
    simp [Ray.words, V4.words, V4.toList, and_assoc]
  · rintro ⟨a1⟩ ⟨b1⟩
    rw [Plane.eq, memEq_iff (a := Plane.words _) (b := Plane.words _) (by rfl)]
    simp only [Plane.mk.injEq, w4]
    simp [Plane.words, V4.words, V4.toList]
  · rintro ⟨a1⟩ ⟨b1⟩
    rw [Sphere.eq, memEq_iff (a := Sphere.words _) (b := Sphere.words _) (by rfl)]
    simp only [Sphere.mk.injEq, w4]
    simp [Sphere.words, V4.words, V4.toList]
  · rintro ⟨a1, a2⟩ ⟨b1, b2⟩
    rw [Aabb.eq, memEq_iff (a := Aabb.words _) (b := Aabb.words _) (by rfl)]
    simp only [Aabb.mk.injEq, w4]
    simp [Aabb.words, V4.words, V4.toList, and_assoc]
  · rintro ⟨a1, a2⟩ ⟨b1, b2⟩
    rw [M2.eq, memEq_iff (a := M2.words _) (b := M2.words _) (by rfl)]
    simp only [M2.mk.injEq, w2]
    simp [M2.words, V2.words, V2.toList, and_assoc]
  · rintro ⟨a1, a2, a3⟩ ⟨b1, b2, b3⟩
    rw [M3.eq, memEq_iff (a := M3.words _) (b := M3.words _) (by rfl)]
    simp only [M3.mk.injEq, w3]
    simp [M3.words, V3.words, V3.toList, and_assoc]
  · rintro ⟨a1, a2, a3, a4⟩ ⟨b1, b2, b3, b4⟩
    rw [M43.eq, memEq_iff (a := M43.words _) (b := M43.words _) (by rfl)]
    simp only [M43.mk.injEq, w3]
    simp [M43.words, V3.words, V3.toList, and_assoc]
  · rintro ⟨a1, a2, a3, a4⟩ ⟨b1, b2, b3, b4⟩
    rw [M4.eq, memEq_iff (a := M4.words _) (b := M4.words _) (by rfl)]
    simp only [M4.mk.injEq, w4]
    simp [M4.words, V4.words, V4.toList, and_assoc]

/-- C86 is not numeric equality: lines from 0 to 0 and from -0 to 0, which `float` comparison calls equal in every
component, are unequal; two boxes with the same corners are unequal when an unused fourth lane differs; and a ray built
by the constructor differs from the same ray given the same direction by `setDirection`, since only the latter records
the parallel axes. -/
theorem geom_eq_not_numeric :
    Line.eq ⟨V4.splat (F32.zero false), V4.splat (F32.zero false)⟩ ⟨V4.splat (F32.zero true), V4.splat (F32.zero false)⟩ = false ∧
    Float4.eq (V4.splat (F32.zero false)) (V4.splat (F32.zero true)) = true ∧
    Aabb.eq ⟨⟨Flt.lit 0, Flt.lit 0, Flt.lit 0, Flt.lit 0⟩, V4.splat (Flt.lit 1)⟩
      ⟨⟨Flt.lit 0, Flt.lit 0, Flt.lit 0, Flt.lit 1⟩, V4.splat (Flt.lit 1)⟩ = false ∧
    Ray.eq (Ray.ctor (V4.splat (Flt.lit 0)) ⟨Flt.lit 1, Flt.lit 0, Flt.lit 0, Flt.lit 0⟩ false)
      ((Ray.ctor (V4.splat (Flt.lit 0)) ⟨Flt.lit 1, Flt.lit 0, Flt.lit 0, Flt.lit 0⟩ false).setDirection
        ⟨Flt.lit 1, Flt.lit 0, Flt.lit 0, Flt.lit 0⟩ false) = false := by
  decide +kernel

theorem mask_bor (a b : Bool) : (mask a ||| mask b : W) = mask (a || b) := by cases a <;> cases b <;> decide
theorem mask_band (a b : Bool) : (mask a &&& mask b : W) = mask (a && b) := by cases a <;> cases b <;> decide

/-- C20 on every instruction set: for comparison results (each lane all ones or all zeros) the four mask tests mean
what they say, on every instruction set. -/
theorem mask_tests_isa (k : Isa) (a b c d : Bool) :
    (U32x4.areAllTrue k ⟨mask a, mask b, mask c, mask d⟩ = (a && b && c && d)) ∧
    (U32x4.areAllFalse k ⟨mask a, mask b, mask c, mask d⟩ = !(a || b || c || d)) ∧
    (U32x4.areAnyTrue k ⟨mask a, mask b, mask c, mask d⟩ = (a || b || c || d)) ∧
    (U32x4.areAnyFalse k ⟨mask a, mask b, mask c, mask d⟩ = !(a && b && c && d)) := by
  cases k <;> cases a <;> cases b <;> cases c <;> cases d <;> decide

/-- C20 on values that are not comparison results: the instruction sets disagree. With SSE2 the value (1, 1, 1, 1)
counts as "all false", with SSE4.1, NEON and the fallback it does not; and `areAllTrue` accepts 0x80808080 on SSE only. -/
theorem mask_tests_disagree :
    U32x4.areAllFalse .sse2 (V4.splat 1) = true ∧ U32x4.areAllFalse .sse41 (V4.splat 1) = false ∧
    U32x4.areAllFalse .neon (V4.splat 1) = false ∧ U32x4.areAllFalse .scalar (V4.splat 1) = false ∧
    U32x4.areAllTrue .sse41 (V4.splat 0x80808080) = true ∧ U32x4.areAllTrue .neon (V4.splat 0x80808080) = false ∧
    U32x4.areAllTrue .scalar (V4.splat 0x80808080) = false := by decide

/-- C86: on `f32x4x4`, on every instruction set, `==` holds exactly when all sixteen pairs of elements compare equal as
floats, and `!=` is its negation. -/
theorem f32x4x4_equality (k : Isa) (a b : M4 F32) :
    (F32x4x4.eq k a b = true ↔
      Float4.eq a.c0 b.c0 = true ∧ Float4.eq a.c1 b.c1 = true ∧ Float4.eq a.c2 b.c2 = true ∧ Float4.eq a.c3 b.c3 = true) ∧
    F32x4x4.ne k a b = !F32x4x4.eq k a b := by
  have he : ∀ x y : V4 F32, F32x4.cmp k .eq x y = V4.map2 (fun p q => mask (F32.eqb p q)) x y := by
    intro x y; cases k <;> rfl
  have hn : ∀ x y : V4 F32, F32x4.cmp k .ne x y = V4.map2 (fun p q => mask (!F32.eqb p q)) x y := by
    intro x y
    have hx : ∀ p q : F32, (~~~ mask (F32.eqb p q) : W) = mask (!F32.eqb p q) := by
      intro p q; cases F32.eqb p q <;> decide
    cases k <;> first | rfl | (show V4.map _ _ = _; simp only [vec, hx])
  simp only [F32x4x4.eq, F32x4x4.ne, he, hn, V4.band, V4.bor, V4.map2, mask_band, mask_bor, (mask_tests_isa _ _ _ _ _).1,
    (mask_tests_isa _ _ _ _ _).2.2.1]
  have h4 : ∀ x y : V4 F32, Float4.eq x y = (F32.eqb x.x y.x && F32.eqb x.y y.y && F32.eqb x.z y.z && F32.eqb x.w y.w) :=
    fun _ _ => rfl
  simp only [h4]
  constructor
  · simp only [Bool.and_eq_true]; tauto
  · simp only [Bool.not_and, Bool.or_assoc]

/-- C86: numeric equality is not reflexive: the matrix `f32x4x4::nan` differs from itself, while `float4x4` equality of
the same numbers holds. -/
theorem f32x4x4_nan (k : Isa) : F32x4x4.eq k ⟨V4.splat F32.nan, V4.splat F32.nan, V4.splat F32.nan, V4.splat F32.nan⟩
      ⟨V4.splat F32.nan, V4.splat F32.nan, V4.splat F32.nan, V4.splat F32.nan⟩ = false ∧
    M4.eq ⟨V4.splat F32.nan, V4.splat F32.nan, V4.splat F32.nan, V4.splat F32.nan⟩
      ⟨V4.splat F32.nan, V4.splat F32.nan, V4.splat F32.nan, V4.splat F32.nan⟩ = true := by
  cases k <;> decide +kernel

/-- C24 for matrices: `isBinaryLess` is a strict total order on the stored bits. -/
theorem m4_isBinaryLess_total : StrictTotal M4.isBinaryLess := by
  refine ⟨fun a => memcmp_irrefl _, fun a b c => memcmp_trans _ _ _, fun a b h => ?_⟩
  refine memcmp_total _ _ (by rw [bytes_flat_length, bytes_flat_length]; rfl) (fun h' => h ?_)
  have := bytes_flat_inj _ _ h'
  have h2 := geom_eq_iff.2.2.2.2.2.2.2.2.2 a b
  rw [← h2]
  exact (memEq_iff (a := M4.words _) (b := M4.words _) (by rfl)).2 this

theorem memcmp_take (a b : List Nat) (n : Nat) (h : a.take n = b.take n) :
    Bin.memcmpLt (a.take n) (b.take n) = false := by rw [h]; exact memcmp_irrefl _

/-- C24 for boxes: `isBinaryLess` is irreflexive and transitive, but it looks at 24 of the 32 bytes only: all of `min`
and the x and y of `max`. Boxes that differ only in `max.z` are not ordered either way, so as map keys they are one. -/
theorem aabb_isBinaryLess_partial :
    (∀ a, Aabb.isBinaryLess a a = false) ∧
    (∀ a b c, Aabb.isBinaryLess a b = true → Aabb.isBinaryLess b c = true → Aabb.isBinaryLess a c = true) ∧
    (∀ a b : Aabb F32, Aabb.isBinaryLess a b = false ∧ Aabb.isBinaryLess b a = false ↔
      a.min = b.min ∧ a.max.x = b.max.x ∧ a.max.y = b.max.y) := by
  refine ⟨fun a => memcmp_irrefl _, fun a b c => memcmp_trans _ _ _, fun a b => ?_⟩
  have e : ∀ c : Aabb F32, (c.words.flatMap Bin.bytes).take 24 =
      [c.min.x.bits, c.min.y.bits, c.min.z.bits, c.min.w.bits, c.max.x.bits, c.max.y.bits].flatMap Bin.bytes := by
    intro c; rfl
  unfold Aabb.isBinaryLess
  rw [e, e]
  constructor
  · rintro ⟨h1, h2⟩
    by_contra hne
    have := memcmp_total ([a.min.x.bits, a.min.y.bits, a.min.z.bits, a.min.w.bits, a.max.x.bits, a.max.y.bits].flatMap Bin.bytes)
      ([b.min.x.bits, b.min.y.bits, b.min.z.bits, b.min.w.bits, b.max.x.bits, b.max.y.bits].flatMap Bin.bytes)
      (by rw [bytes_flat_length, bytes_flat_length]; rfl) (fun h' => hne ?_)
    · rw [h1, h2] at this; simp at this
    · have := bytes_flat_inj _ _ h'
      simp only [List.cons.injEq, F32.bits_inj] at this
      obtain ⟨⟨a1, a2, a3, a4⟩, c⟩ := a
      obtain ⟨⟨b1, b2, b3, b4⟩, d⟩ := b
      simp only at this
      obtain ⟨rfl, rfl, rfl, rfl, h5, h6, -⟩ := this
      exact ⟨rfl, h5, h6⟩
  · rintro ⟨h1, h2, h3⟩
    rw [h1, h2, h3]
    exact ⟨memcmp_irrefl _, memcmp_irrefl _⟩

/-- C24 fails for boxes: two different boxes, of different heights in z, and neither is less. -/
theorem aabb_isBinaryLess_counterexample :
    let a : Aabb F32 := ⟨V4.splat (Flt.lit 0), ⟨Flt.lit 1, Flt.lit 1, Flt.lit 1, Flt.lit 1⟩⟩
    let b : Aabb F32 := ⟨V4.splat (Flt.lit 0), ⟨Flt.lit 1, Flt.lit 1, Flt.lit 2, Flt.lit 2⟩⟩
    a.isBinaryLess b = false ∧ b.isBinaryLess a = false ∧ a.eq b = false := by
  decide +kernel

example : Line.eq ⟨V4.splat F32.nan, V4.splat (F32.ofRat 1)⟩ ⟨V4.splat F32.nan, V4.splat (F32.ofRat 1)⟩ = true := by
  decide +kernel

/-! ### C87: named shapes -/

/-- C87: `Aabb::zero`, `one`, `two`, `half` pass the constructor's check and are the boxes of size 0, 1, 2, 1/2 centred at
the origin (as binary32 computes size and position); `Sphere::one`, `two`, `half` are the spheres of that diameter. -/
theorem named_boxes :
    (Aabb.zero : Option (Aabb F32)).map (fun b => (b.getSize, b.getPosition)) =
      some (V4.splat (Flt.lit 0), V4.splat (Flt.lit 0)) ∧
    (Aabb.one : Option (Aabb F32)).map (fun b => (b.getSize, b.getPosition)) =
      some (V4.splat (Flt.lit 1), V4.splat (Flt.lit 0)) ∧
    (Aabb.two : Option (Aabb F32)).map (fun b => (b.getSize, b.getPosition)) =
      some (V4.splat (Flt.lit 2), V4.splat (Flt.lit 0)) ∧
    (Aabb.half : Option (Aabb F32)).map (fun b => (b.getSize, b.getPosition)) =
      some (V4.splat (Flt.lit (1 / 2)), V4.splat (Flt.lit 0)) ∧
    (Sphere.one : Sphere F32).radius *. Flt.lit 2 = Flt.lit 1 ∧ (Sphere.two : Sphere F32).radius *. Flt.lit 2 = Flt.lit 2 ∧
    (Sphere.half : Sphere F32).radius *. Flt.lit 2 = Flt.lit (1 / 2) ∧
    (Sphere.one : Sphere F32).posRad.xyz = V3.splat (Flt.lit 0) := by
  decide +kernel

/-- C87: the named rays start at the origin and the named planes pass through it; their directions and normals are the
unit vectors ±x (right, left), ±y (top, bottom) and ±z (front, back). -/
theorem named_directions :
    [Ray.left, .right, .bottom, .top, .back, .front].map (fun r : Ray ℝ => (pt r.origin, pt r.direction)) =
      [(⟨0, 0, 0⟩, ⟨-1, 0, 0⟩), (⟨0, 0, 0⟩, ⟨1, 0, 0⟩), (⟨0, 0, 0⟩, ⟨0, -1, 0⟩), (⟨0, 0, 0⟩, ⟨0, 1, 0⟩),
        (⟨0, 0, 0⟩, ⟨0, 0, -1⟩), (⟨0, 0, 0⟩, ⟨0, 0, 1⟩)] ∧
    [Plane.left, .right, .bottom, .top, .back, .front].map (fun p : Plane ℝ => (p.distance (V4.splat 0), pt p.normDist)) =
      [(0, ⟨-1, 0, 0⟩), (0, ⟨1, 0, 0⟩), (0, ⟨0, -1, 0⟩), (0, ⟨0, 1, 0⟩), (0, ⟨0, 0, -1⟩), (0, ⟨0, 0, 1⟩)] := by
  constructor <;> simp [vec]

/-- C87: `Aabb::inf` contains every point that has no NaN. -/
theorem inf_contains (p : V4 F32) (hx : p.x.isNaN = false) (hy : p.y.isNaN = false) (hz : p.z.isNaN = false)
    (hw : p.w.isNaN = false) : ∃ b, Aabb.inf = some b ∧ b.isInsideP p = true := by
  have hk : ∀ a : F32, a.isNaN = false → F32.leb (F32.inf true) a = true ∧ F32.leb a (F32.inf false) = true := by
    intro a ha
    have h1 : (F32.inf true).isNaN = false := by decide
    have h2 : (F32.inf false).isNaN = false := by decide
    have k1 : (F32.inf true).key = -2139095040 := by decide
    have k2 : (F32.inf false).key = 2139095040 := by decide
    have hm : a.mag ≤ 2139095040 := not_lt.1 (of_decide_eq_false ha)
    rw [F32.leb_iff, F32.leb_iff, k1, k2]
    simp only [ha, h1, h2, F32.key, true_and]
    split <;> omega
  refine ⟨⟨V4.splat (F32.inf true), V4.splat (F32.inf false)⟩, by decide +kernel, ?_⟩
  have e : ∀ a b : F32, Flt.le a b = F32.leb a b := fun _ _ => rfl
  simp only [vec, e, (hk _ hx).1, (hk _ hx).2, (hk _ hy).1, (hk _ hy).2, (hk _ hz).1, (hk _ hz).2, (hk _ hw).1,
    (hk _ hw).2]
  rfl

/-- C87 fails for `Aabb::full`: its minimum is `FLT_MIN`, the smallest positive normal number, so it contains no point
that has a coordinate at or below zero; in particular not the origin. -/
theorem full_is_not_full :
    ∃ b : Aabb F32, Aabb.full = some b ∧ (∀ p : V4 F32, p.x.key ≤ 0 → b.isInsideP p = false) ∧
      b.isInsideP (V4.splat (Flt.lit 0)) = false := by
  have hk : (Flt.lit (1 / 2 ^ 126) : F32).key = 8388608 := by decide +kernel
  have h2 : ∀ p : V4 F32, p.x.key ≤ 0 →
      Aabb.isInsideP ⟨V4.splat (Flt.lit (1 / 2 ^ 126) : F32), V4.splat fltMax⟩ p = false := by
    intro p hp
    have : Flt.le (Flt.lit (1 / 2 ^ 126) : F32) p.x = false := by
      show F32.leb _ _ = false
      rw [Bool.eq_false_iff]
      intro h
      have := F32.leb_iff.1 h
      rw [hk] at this
      omega
    simp only [Aabb.isInsideP, V4.band, V4.map2, V4.cmp, V4.splat, mask_band, areAllTrue_mask, this]
    simp
  refine ⟨_, by decide +kernel, h2, h2 _ (by decide +kernel)⟩

end Verif
