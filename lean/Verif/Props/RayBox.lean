import Verif.Props.AabbQueries

/-! # C34: ray against box -/

namespace Verif
open Spec

theorem top_or (a b : W) : top (a ||| b) = (top a || top b) := by
  unfold top; exact BitVec.getLsbD_or
theorem top_and (a b : W) : top (a &&& b) = (top a && top b) := by
  unfold top; exact BitVec.getLsbD_and

/-- Entry parameter of one slab. -/
noncomputable def slabIn (lo hi o i : ℝ) : ℝ := min ((lo - o) * i) ((hi - o) * i)
/-- Exit parameter of one slab. -/
noncomputable def slabOut (lo hi o i : ℝ) : ℝ := max ((lo - o) * i) ((hi - o) * i)

theorem slab_iff (lo hi o d t : ℝ) (hd : d ≠ 0) (h : lo ≤ hi) :
    (lo ≤ o + t * d ∧ o + t * d ≤ hi) ↔ slabIn lo hi o (1 / d) ≤ t ∧ t ≤ slabOut lo hi o (1 / d) := by
  unfold slabIn slabOut
  rw [mul_one_div, mul_one_div]
  rcases lt_or_gt_of_ne hd with hd | hd
  · have h2 : (hi - o) / d ≤ (lo - o) / d := div_le_div_of_nonpos_of_le hd.le (by linarith)
    rw [min_eq_right h2, max_eq_left h2, div_le_iff_of_neg hd, le_div_iff_of_neg hd]
    constructor <;> rintro ⟨a, b⟩ <;> constructor <;> linarith
  · have h2 : (lo - o) / d ≤ (hi - o) / d := div_le_div_of_nonneg_right (by linarith) hd.le
    rw [min_eq_left h2, max_eq_right h2, div_le_iff₀ hd, le_div_iff₀ hd]
    constructor <;> rintro ⟨a, b⟩ <;> constructor <;> linarith

/-- The largest entry parameter and the smallest exit parameter. -/
noncomputable def tIn (b : Aabb ℝ) (o i : V4 ℝ) : ℝ :=
  max (max (slabIn b.min.x b.max.x o.x i.x) (slabIn b.min.y b.max.y o.y i.y)) (slabIn b.min.z b.max.z o.z i.z)
noncomputable def tOut (b : Aabb ℝ) (o i : V4 ℝ) : ℝ :=
  min (min (slabOut b.min.x b.max.x o.x i.x) (slabOut b.min.y b.max.y o.y i.y)) (slabOut b.min.z b.max.z o.z i.z)

theorem raycast2I_eq (b : Aabb ℝ) (o i : V4 ℝ) (w : Bool) :
    b.raycast2I ⟨i, ⟨0, 0, 0, mask w⟩, o⟩ =
      if tOut b o i < tIn b o i ∨ tOut b o i < 0 then ⟨(2 ^ 24 - 1) * 2 ^ 104, -((2 ^ 24 - 1) * 2 ^ 104)⟩
      else ⟨tIn b o i, tOut b o i⟩ := by
  unfold tIn tOut slabIn slabOut
  simp only [vec, top_or, top_and, top_mask, top_zero, Bool.or_false, Bool.false_and, if_false, Bool.false_eq_true]
  generalize ((b.min.x - o.x) * i.x) = ax
  generalize ((b.max.x - o.x) * i.x) = bx
  generalize ((b.min.y - o.y) * i.y) = ay
  generalize ((b.max.y - o.y) * i.y) = by'
  generalize ((b.min.z - o.z) * i.z) = az
  generalize ((b.max.z - o.z) * i.z) = bz
  generalize min ax bx = nx
  generalize min ay by' = ny
  generalize min az bz = nz
  generalize max ax bx = fx
  generalize max ay by' = fy
  generalize max az bz = fz
  have m1 : max (max nx ny) (max nz nx) = max (max nx ny) nz := by
    rw [max_comm nz nx, ← max_assoc, max_right_comm nx ny nx, max_self]
  have m2 : max (max ny nz) (max nx ny) = max (max nx ny) nz := by
    rw [max_comm ny nz, max_comm, max_comm nz ny, ← max_assoc, max_assoc nx ny ny, max_self]
  have m3 : max (max nz nx) (max ny nz) = max (max nx ny) nz := by
    rw [max_comm ny nz, ← max_assoc, max_right_comm nz nx nz, max_self, max_assoc, max_comm]
  have m4 : min (min fx fy) (min fz fx) = min (min fx fy) fz := by
    rw [min_comm fz fx, ← min_assoc, min_right_comm fx fy fx, min_self]
  have m5 : min (min fy fz) (min fx fy) = min (min fx fy) fz := by
    rw [min_comm fy fz, min_comm, min_comm fz fy, ← min_assoc, min_assoc fx fy fy, min_self]
  have m6 : min (min fz fx) (min fy fz) = min (min fx fy) fz := by
    rw [min_comm fy fz, ← min_assoc, min_right_comm fz fx fz, min_self, min_assoc, min_comm]
  rw [m1, m2, m3, m4, m5, m6]
  generalize min (min fx fy) fz = f
  generalize max (max nx ny) nz = n
  by_cases h1 : f < n <;> by_cases h2 : f < 0 <;> simp [h1, h2]

theorem tIn_le_iff (b : Aabb ℝ) (o : V4 ℝ) (d : V3 ℝ) (w : ℝ) (hd : d.x ≠ 0 ∧ d.y ≠ 0 ∧ d.z ≠ 0) (hv : ValidBox b)
    (t : ℝ) : (tIn b o ⟨1 / d.x, 1 / d.y, 1 / d.z, w⟩ ≤ t ∧ t ≤ tOut b o ⟨1 / d.x, 1 / d.y, 1 / d.z, w⟩) ↔
      along (pt o) d t ∈ boxOf b := by
  obtain ⟨v1, v2, v3⟩ := hv
  obtain ⟨d1, d2, d3⟩ := hd
  unfold tIn tOut
  rw [max_le_iff, max_le_iff, le_min_iff, le_min_iff]
  have h1 := slab_iff _ _ o.x _ t d1 v1
  have h2 := slab_iff _ _ o.y _ t d2 v2
  have h3 := slab_iff _ _ o.z _ t d3 v3
  simp only [real_pt] at h1 h2 h3
  simp only [boxOf, Box, along, real_pt, Set.mem_ofPred_eq, h1, h2, h3]
  tauto

theorem hit_iff (b : Aabb ℝ) (o i : V4 ℝ) (w : Bool) :
    Aabb.hit (b.raycast2I ⟨i, ⟨0, 0, 0, mask w⟩, o⟩) = true ↔ tIn b o i ≤ tOut b o i ∧ 0 ≤ tOut b o i := by
  rw [raycast2I_eq]
  split_ifs with h
  · constructor
    · intro h'; simp [Aabb.hit] at h'; norm_num at h'
    · rintro ⟨h1, h2⟩; rcases h with h | h <;> linarith
  · push Not at h
    simp [Aabb.hit, h.1, h.2]

theorem hit_exists {b : Aabb ℝ} {o : V4 ℝ} {d : V3 ℝ} {w : ℝ} (hd : d.x ≠ 0 ∧ d.y ≠ 0 ∧ d.z ≠ 0) (hv : ValidBox b) :
    (tIn b o ⟨1 / d.x, 1 / d.y, 1 / d.z, w⟩ ≤ tOut b o ⟨1 / d.x, 1 / d.y, 1 / d.z, w⟩ ∧
      0 ≤ tOut b o ⟨1 / d.x, 1 / d.y, 1 / d.z, w⟩) ↔ ∃ t, 0 ≤ t ∧ along (pt o) d t ∈ boxOf b := by
  constructor
  · rintro ⟨h1, h2⟩
    exact ⟨_, h2, (tIn_le_iff b o d w hd hv _).1 ⟨h1, le_rfl⟩⟩
  · rintro ⟨t, h1, h2⟩
    rw [← tIn_le_iff b o d w hd hv] at h2
    exact ⟨h2.1.trans h2.2, h1.trans h2.2⟩

/-- C34 for the functions that take the inverted direction (`raycastI`, `raycast2I`, `raycast1I`), rays with no zero
direction component (and no component flagged parallel, as the constructor leaves it): the answer is hit exactly when
some point at `t >= 0` is in the box; on a hit the two distances are the entry and exit parameters (exactly the
parameters between them are in the box), and `raycast1I` returns the first; on a miss they are (FLT_MAX, -FLT_MAX). -/
theorem raycastI_partial (b : Aabb ℝ) (o : V4 ℝ) (d : V3 ℝ) (w : ℝ) (hv : ValidBox b)
    (hd : d.x ≠ 0 ∧ d.y ≠ 0 ∧ d.z ≠ 0) :
    let r := Ray.ctor o ⟨1 / d.x, 1 / d.y, 1 / d.z, w⟩ false
    (b.raycastI r = true ↔ ∃ t, 0 ≤ t ∧ along (pt o) d t ∈ boxOf b) ∧
    (b.raycastI r = true → b.raycast1I r = (b.raycast2I r).x ∧
      ∀ t, along (pt o) d t ∈ boxOf b ↔ (b.raycast2I r).x ≤ t ∧ t ≤ (b.raycast2I r).y) ∧
    (b.raycastI r = false → b.raycast2I r = ⟨(2 ^ 24 - 1) * 2 ^ 104, -((2 ^ 24 - 1) * 2 ^ 104)⟩) := by
  intro r
  have hr : r = ⟨⟨1 / d.x, 1 / d.y, 1 / d.z, w⟩, ⟨0, 0, 0, mask false⟩, o⟩ := rfl
  have key : b.raycastI r = true ↔ _ := hr ▸ hit_iff b o ⟨1 / d.x, 1 / d.y, 1 / d.z, w⟩ false
  have e := raycast2I_eq b o ⟨1 / d.x, 1 / d.y, 1 / d.z, w⟩ false
  rw [← hr] at e
  refine ⟨key.trans (hit_exists hd hv), ?_, ?_⟩
  · intro h
    rw [key] at h
    refine ⟨rfl, fun t => ?_⟩
    rw [if_neg (by rintro (g | g) <;> linarith [h.1, h.2])] at e
    rw [e, ← tIn_le_iff b o d w hd hv]
  · intro h
    rw [Bool.eq_false_iff, ne_eq, key] at h
    rw [e, if_pos]
    by_contra g
    push Not at g
    exact h ⟨g.1, g.2⟩

theorem slab_scale (lo hi o i c : ℝ) (hc : 0 ≤ c) :
    slabIn lo hi o (i / c) = slabIn lo hi o i / c ∧ slabOut lo hi o (i / c) = slabOut lo hi o i / c := by
  unfold slabIn slabOut
  rw [← mul_div_assoc, ← mul_div_assoc, min_div_div_right hc, max_div_div_right hc]
  exact ⟨rfl, rfl⟩

theorem t_scale (b : Aabb ℝ) (o : V4 ℝ) (x y z w w' c : ℝ) (hc : 0 ≤ c) :
    tIn b o ⟨x / c, y / c, z / c, w⟩ = tIn b o ⟨x, y, z, w'⟩ / c ∧
    tOut b o ⟨x / c, y / c, z / c, w⟩ = tOut b o ⟨x, y, z, w'⟩ / c := by
  unfold tIn tOut
  simp only [(slab_scale _ _ _ _ _ hc).1, (slab_scale _ _ _ _ _ hc).2, max_div_div_right hc, min_div_div_right hc]
  exact ⟨trivial, trivial⟩

/-- The length of the componentwise inverse of a direction. -/
noncomputable def invLen (d : V3 ℝ) : ℝ := Real.sqrt (1 / d.x ^ 2 + 1 / d.y ^ 2 + 1 / d.z ^ 2)

theorem invLen_pos {d : V3 ℝ} (hd : d.x ≠ 0 ∧ d.y ≠ 0 ∧ d.z ≠ 0) : 0 < invLen d := by
  obtain ⟨d1, d2, d3⟩ := hd
  unfold invLen
  positivity

theorem raycast_ray (o : V4 ℝ) (d : V3 ℝ) (w : ℝ) (hd : d.x ≠ 0 ∧ d.y ≠ 0 ∧ d.z ≠ 0)
    (hb : |d.x| < 10 ^ 20 ∧ |d.y| < 10 ^ 20 ∧ |d.z| < 10 ^ 20) (p : V4 W) : ∃ w' v,
    (Ray.mk ⟨d.x, d.y, d.z, w⟩ p o).setDirection (V4.div (V4.splat (Flt.lit 1)) ⟨d.x, d.y, d.z, w⟩) true =
      ⟨⟨1 / d.x / invLen d, 1 / d.y / invLen d, 1 / d.z / invLen d, w'⟩, ⟨0, 0, 0, mask v⟩, o⟩ := by
  have key : ∀ x : ℝ, x ≠ 0 → |x| < 10 ^ 20 → mask (decide (|1 / x| ≤ 1 / 10 ^ 20)) = 0 := by
    intro x hx h
    rw [decide_eq_false]
    · rfl
    · rw [abs_div, abs_one, not_le]
      exact one_div_lt_one_div_of_lt (abs_pos.2 hx) h
  refine ⟨1 / w / invLen d, decide (|1 / w| ≤ 1 / 10 ^ 20), ?_⟩
  have hl : Real.sqrt (1 / d.x * (1 / d.x) + 1 / d.y * (1 / d.y) + (1 / d.z * (1 / d.z) + (0 : ℚ))) = invLen d := by
    unfold invLen; congr 1; push_cast; ring
  simp only [vec, Rat.cast_one, if_true, Rat.cast_div, Rat.cast_pow, Rat.cast_ofNat]
  rw [key _ hd.1 hb.1, key _ hd.2.1 hb.2.1, key _ hd.2.2 hb.2.2]
  simp only [hl]

/-- C34, proved part for `raycast`: for every valid box and every ray whose direction has no zero component (and none
of magnitude 1e20 or more), the answer is hit exactly when some point at `t >= 0` is in the box. Missing: axis-parallel
rays, for which the answer is wrong (`raycast_axis_z`, `raycast_axis_x`), and the distances, which are scaled
(`raycast2_scaled`). -/
theorem raycast_partial (b : Aabb ℝ) (o : V4 ℝ) (d : V3 ℝ) (w : ℝ) (hv : ValidBox b)
    (hd : d.x ≠ 0 ∧ d.y ≠ 0 ∧ d.z ≠ 0) (hb : |d.x| < 10 ^ 20 ∧ |d.y| < 10 ^ 20 ∧ |d.z| < 10 ^ 20) :
    b.raycast (Ray.ctor o ⟨d.x, d.y, d.z, w⟩ false) = true ↔ ∃ t, 0 ≤ t ∧ along (pt o) d t ∈ boxOf b := by
  obtain ⟨w', v, e⟩ := raycast_ray o d w hd hb (V4.splat 0)
  have : b.raycast (Ray.ctor o ⟨d.x, d.y, d.z, w⟩ false) = Aabb.hit (b.raycast2I
    ((Ray.mk ⟨d.x, d.y, d.z, w⟩ (V4.splat 0) o).setDirection (V4.div (V4.splat (Flt.lit 1)) ⟨d.x, d.y, d.z, w⟩) true)) :=
    rfl
  have hp := invLen_pos hd
  rw [this, e, hit_iff, (t_scale b o _ _ _ _ w _ hp.le).1, (t_scale b o _ _ _ _ w _ hp.le).2,
    div_le_div_iff_of_pos_right hp, le_div_iff₀ hp, zero_mul]
  exact hit_exists hd hv

/-- C34 fails for the distances: for every hit by a ray of unit length (no zero component), `raycast2` returns the entry
and exit distances divided by the length of the inverted direction, which is at least 3. -/
theorem raycast2_scaled (b : Aabb ℝ) (o : V4 ℝ) (d : V3 ℝ) (w : ℝ) (hv : ValidBox b)
    (hd : d.x ≠ 0 ∧ d.y ≠ 0 ∧ d.z ≠ 0) (hu : d.x ^ 2 + d.y ^ 2 + d.z ^ 2 = 1)
    (h : b.raycast (Ray.ctor o ⟨d.x, d.y, d.z, w⟩ false) = true) : ∃ c : ℝ, 3 ≤ c ∧ ∀ t,
      along (pt o) d t ∈ boxOf b ↔ c * (b.raycast2 (Ray.ctor o ⟨d.x, d.y, d.z, w⟩ false)).x ≤ t ∧
        t ≤ c * (b.raycast2 (Ray.ctor o ⟨d.x, d.y, d.z, w⟩ false)).y := by
  have hb : ∀ x : ℝ, x ^ 2 ≤ 1 → |x| < 10 ^ 20 := fun x hx =>
    lt_of_le_of_lt ((sq_le_one_iff_abs_le_one x).1 hx) (by norm_num)
  have hb : |d.x| < 10 ^ 20 ∧ |d.y| < 10 ^ 20 ∧ |d.z| < 10 ^ 20 :=
    ⟨hb _ (by nlinarith [sq_nonneg d.y, sq_nonneg d.z]), hb _ (by nlinarith [sq_nonneg d.x, sq_nonneg d.z]),
      hb _ (by nlinarith [sq_nonneg d.y, sq_nonneg d.x])⟩
  obtain ⟨w', v, e⟩ := raycast_ray o d w hd hb (V4.splat 0)
  have hp := invLen_pos hd
  refine ⟨invLen d, ?_, fun t => ?_⟩
  · unfold invLen
    apply Real.le_sqrt_of_sq_le
    have p1 : 0 < d.x ^ 2 := by have := hd.1; positivity
    have p2 : 0 < d.y ^ 2 := by have := hd.2.1; positivity
    have p3 : 0 < d.z ^ 2 := by have := hd.2.2; positivity
    generalize d.x ^ 2 = x at *
    generalize d.y ^ 2 = y at *
    generalize d.z ^ 2 = z at *
    have tan : ∀ x : ℝ, 0 < x → 6 - 9 * x ≤ 1 / x := by
      intro x hx
      rw [le_div_iff₀ hx]
      nlinarith [sq_nonneg (3 * x - 1)]
    linarith [tan x p1, tan y p2, tan z p3]
  · have e1 : b.raycast (Ray.ctor o ⟨d.x, d.y, d.z, w⟩ false) = Aabb.hit (b.raycast2I
      ((Ray.mk ⟨d.x, d.y, d.z, w⟩ (V4.splat 0) o).setDirection (V4.div (V4.splat (Flt.lit 1)) ⟨d.x, d.y, d.z, w⟩) true)) :=
      rfl
    have e2 : b.raycast2 (Ray.ctor o ⟨d.x, d.y, d.z, w⟩ false) = (b.raycast2I
      ((Ray.mk ⟨d.x, d.y, d.z, w⟩ (V4.splat 0) o).setDirection (V4.div (V4.splat (Flt.lit 1)) ⟨d.x, d.y, d.z, w⟩) true)) :=
      rfl
    rw [e1, e, hit_iff] at h
    rw [e2, e, raycast2I_eq, if_neg (by rintro (g | g) <;> linarith [h.1, h.2]), (t_scale b o _ _ _ _ w _ hp.le).1,
      (t_scale b o _ _ _ _ w _ hp.le).2, mul_div_cancel₀ _ hp.ne', mul_div_cancel₀ _ hp.ne', tIn_le_iff b o d w hd hv]

/-- Non-vacuity: a ray from (-1,-1,-1) along (1,1,1) and the box [0,1]^3. -/
example : ValidBox (⟨V4.splat 0, V4.splat 1⟩ : Aabb ℝ) ∧ ∃ t : ℝ, 0 ≤ t ∧
    along (pt (V4.splat (-1 : ℝ))) ⟨1, 1, 1⟩ t ∈ boxOf (⟨V4.splat 0, V4.splat 1⟩ : Aabb ℝ) := by
  refine ⟨⟨?_, ?_, ?_⟩, 1, by norm_num, ⟨?_, ?_⟩, ⟨?_, ?_⟩, ?_, ?_⟩ <;> simp [V4.splat, along]

/-! ### Axis-parallel rays, in binary32 -/

theorem mmMin_nan (a b : F32) (h : b.isNaN = true) : (Flt.mmMin a b).isNaN = true := by
  unfold Flt.mmMin
  rw [if_neg]; · exact h
  show ¬ F32.ltb a b = true
  simp [F32.ltb_iff, h]

theorem mmMax_nan (a b : F32) (h : b.isNaN = true) : (Flt.mmMax a b).isNaN = true := by
  unfold Flt.mmMax
  rw [if_neg]; · exact h
  show ¬ F32.ltb b a = true
  simp [F32.ltb_iff, h]

theorem mul_nan (a b : F32) (h : b.isNaN = true) : (Flt.mul a b).isNaN = true := by
  show (F32.fmul a b).isNaN = true
  unfold F32.fmul
  simp only [h, Bool.or_true, if_true]
  decide

theorem hit_nan (d : V2 F32) (h : d.x.isNaN = true) : Aabb.hit d = false := by
  unfold Aabb.hit
  rw [Bool.and_eq_false_iff]; left
  show F32.leb d.x d.y = false
  rw [Bool.eq_false_iff, ne_eq, F32.leb_iff, h]
  simp

theorem axis_z_ray (o : V4 F32) : (Ray.ctor o ⟨f0, f0, f1, f0⟩ false).setDirection
      (V4.div (V4.splat (Flt.lit 1)) (Ray.ctor o ⟨f0, f0, f1, f0⟩ false).direction) true =
      ⟨⟨F32.nan, F32.nan, f0, F32.nan⟩, V4.splat 0, o⟩ := by
  have h1 : (Simd.normalize3 (V4.div (V4.splat (Flt.lit 1)) ⟨f0, f0, f1, f0⟩) : V4 F32) =
    ⟨F32.nan, F32.nan, f0, F32.nan⟩ := by decide +kernel
  have h2 : V4.cmp Flt.le (V4.map Flt.abs (V4.div (V4.splat (Flt.lit 1)) (⟨f0, f0, f1, f0⟩ : V4 F32)))
    (V4.splat (Flt.lit (1 / 10 ^ 20))) = V4.splat 0 := by decide +kernel
  simp only [Ray.setDirection, Ray.ctor, Bool.false_eq_true, if_false, if_true]
  rw [h1, h2]

theorem slabs_x {F : Type} [Flt F] (b : Aabb F) (d o : V4 F) : (Aabb.slabs b ⟨d, V4.splat 0, o⟩).1.x =
      Flt.mmMax (Flt.mmMax (Flt.mmMin ((b.min.x -. o.x) *. d.x) ((b.max.x -. o.x) *. d.x))
        (Flt.mmMin ((b.min.y -. o.y) *. d.y) ((b.max.y -. o.y) *. d.y)))
        (Flt.mmMax (Flt.mmMin ((b.min.z -. o.z) *. d.z) ((b.max.z -. o.z) *. d.z))
          (Flt.mmMin ((b.min.x -. o.x) *. d.x) ((b.max.x -. o.x) *. d.x))) := by
  simp only [vec, top_zero, Bool.false_eq_true, if_false]

theorem axis_z_slab (b : Aabb F32) (d o : V4 F32) (hx : d.x.isNaN = true) :
    (Aabb.slabs b ⟨d, V4.splat 0, o⟩).1.x.isNaN = true := by
  rw [slabs_x]
  exact mmMax_nan _ _ (mmMax_nan _ _ (mmMin_nan _ _ (mul_nan _ _ hx)))

theorem miss_consts : Aabb.hit (⟨fltMax, minusFltMax⟩ : V2 F32) = false := by decide +kernel

theorem raycast2I_nan (b : Aabb F32) (r : Ray F32) (h : (Aabb.slabs b r).1.x.isNaN = true) :
    Aabb.hit (b.raycast2I r) = false := by
  by_cases hc : top (Aabb.slabs b r).2.2.x = true
  · have : b.raycast2I r = ⟨fltMax, minusFltMax⟩ := by
      simp only [Aabb.raycast2I, V4.select, if_pos hc, V4.splat]
    rw [this]; exact miss_consts
  · have : (b.raycast2I r).x = (Aabb.slabs b r).1.x := by
      simp only [Aabb.raycast2I, V4.select, if_neg hc]
    exact hit_nan _ (this ▸ h)

/-- C34 fails for axis-parallel rays: a ray along +z (`Ray::front`, from any origin) misses every box. -/
theorem raycast_axis_z (b : Aabb F32) (o : V4 F32) :
    b.raycast (Ray.ctor o ⟨f0, f0, f1, f0⟩ false) = false := by
  unfold Aabb.raycast Aabb.raycast2
  rw [axis_z_ray]
  exact raycast2I_nan _ _ (axis_z_slab b _ o (by decide))

/-- C34 fails for axis-parallel rays: the ray from the origin along +x (`Ray::right`) hits the box [2,3]^3, which it
passes at distance 2 in y and z; and it hits the box [-3,-2]^3 behind it. -/
theorem raycast_axis_x :
    Aabb.raycast ⟨V4.splat f2, V4.splat f3⟩ (Ray.ctor (V4.splat f0) ⟨f1, f0, f0, f0⟩ false) = true ∧
    Aabb.raycast ⟨V4.splat (F32.fneg f3), V4.splat (F32.fneg f2)⟩ (Ray.ctor (V4.splat f0) ⟨f1, f0, f0, f0⟩ false) =
      true := by decide +kernel

end Verif
