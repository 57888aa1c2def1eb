import Verif.Proofs.Slab
import Verif.Props.SimdSinCos
import Verif.Props.TriangleBoxF32

/-!
# The ray test against a box, in binary32 (C121)
-/

namespace Verif
open Spec F32 BoxTest Reliable Slab

/-- C121, for the functions that take the reciprocals of the direction, `q`: a ray that meets the box with its faces moved in
by `3 / 2^24` of their distance from the origin is reported as meeting the box; a ray that is so reported meets the box with
its faces moved out by as much; on a hit the two times returned enclose every time the ray is in the smaller box, and at
every time they enclose the ray is in the larger box. On a miss the two limits are returned. -/
theorem rayI_margin (b : Aabb F32) (o q : V4 F32) (hb : InRange (2 ^ 60) b) (ho : Within (2 ^ 60) o)
    (hq : AllFinite [q.x, q.y, q.z]) (hs : ∀ x ∈ [q.x, q.y, q.z], 1 / 2 ^ 60 ≤ |rv x| ∧ |rv x| ≤ 2 ^ 60) :
    let r := Ray.ctor o q false
    let d : V3 ℝ := ⟨1 / rv q.x, 1 / rv q.y, 1 / rv q.z⟩
    ((∃ t, 0 ≤ t ∧ along (pt o) d t ∈ FacesMoved b (pt o) (-(3 / 2 ^ 24)) (-(1 / 2 ^ 80))) → b.raycastI r = true) ∧
    (b.raycastI r = true → ∃ t, 0 ≤ t ∧ along (pt o) d t ∈ FacesMoved b (pt o) (3 / 2 ^ 24) (1 / 2 ^ 80)) ∧
    (b.raycastI r = true → b.raycast1I r = (b.raycast2I r).x ∧ AllFinite [(b.raycast2I r).x, (b.raycast2I r).y] ∧ ∀ t,
      (along (pt o) d t ∈ FacesMoved b (pt o) (-(3 / 2 ^ 24)) (-(1 / 2 ^ 80)) →
        rv (b.raycast2I r).x ≤ t ∧ t ≤ rv (b.raycast2I r).y) ∧
      (rv (b.raycast2I r).x ≤ t ∧ t ≤ rv (b.raycast2I r).y →
        along (pt o) d t ∈ FacesMoved b (pt o) (3 / 2 ^ 24) (1 / 2 ^ 80))) ∧
    (b.raycastI r = false → b.raycast1I r = fltMax ∧ b.raycast2I r = ⟨fltMax, minusFltMax⟩) := by
  intro r d
  have lane : ∀ x ∈ [q.x, q.y, q.z], ∃ i : ℝ, 1 / rv x * i = 1 ∧ 1 / 2 ^ 60 ≤ |i| ∧ |i| ≤ 2 ^ 60 ∧ |x.val - i| ≤ 0 * |i| := by
    intro x hx
    obtain ⟨h1, h2⟩ := hs x hx
    have hp : rv x ≠ 0 := abs_pos.1 (lt_of_lt_of_le (by norm_num) h1)
    exact ⟨rv x, one_div_mul_cancel hp, h1, h2, by simp [rv, F32.val]⟩
  have held : Held r.direction d 1 0 := ⟨hq, lane _ (by simp), lane _ (by simp), lane _ (by simp)⟩
  have u1 : uro = 1 / 2 ^ 24 := rfl
  obtain ⟨T, U, k1, k2, k3, k4⟩ := test_spec (b := b) (r := r) (E := 3 / 2 ^ 24) hb ho top_zero top_zero top_zero held le_rfl
    (by norm_num) (by rw [u1]; norm_num) (by norm_num)
  simp only [mul_one] at k4
  refine ⟨?_, ?_, ?_, ?_⟩
  · rintro ⟨t, h0, ht⟩
    obtain ⟨h1, h2⟩ := (k4 t).1 ht
    exact k1.2 ⟨h1.trans h2, h0.trans h2⟩
  · intro h
    obtain ⟨h1, h2⟩ := k1.1 h
    exact ⟨U, h2, (k4 U).2 ⟨h1, le_rfl⟩⟩
  · intro h
    obtain ⟨⟨f1, v1⟩, f2, v2⟩ := k2 h
    refine ⟨rfl, ?_, fun t => ?_⟩
    · simp only [AllFinite, List.mem_cons, List.not_mem_nil, or_false, forall_eq_or_imp, forall_eq]
      exact ⟨f1, f2⟩
    · have w1 : rv (b.raycast2I r).x = T := v1
      have w2 : rv (b.raycast2I r).y = U := v2
      rw [w1, w2]
      exact k4 t
  · intro h
    have := k3 h
    exact ⟨(congrArg V2.x this : (b.raycast2I r).x = _), this⟩

namespace Slab

/-- The reciprocal of a coordinate. -/
theorem recip_rel {x : F32} (hx : x.isFinite = true) (h1 : 1 / 2 ^ 20 ≤ |rv x|) (h2 : |rv x| ≤ 2 ^ 20) :
    (fdiv (ofRat 1) x).isFinite = true ∧ |(fdiv (ofRat 1) x).val - 1 / x.val| ≤ (uro + 1 / 2 ^ 100) * |1 / x.val| ∧
      1 / 2 ^ 21 ≤ |(fdiv (ofRat 1) x).val| ∧ |(fdiv (ofRat 1) x).val| ≤ 2 ^ 21 := by
  replace h1 : 1 / 2 ^ 20 ≤ |x.val| := h1
  replace h2 : |x.val| ≤ 2 ^ 20 := h2
  have hp : 0 < |x.val| := lt_of_lt_of_le (by norm_num) h1
  have h0 : x.val ≠ 0 := abs_pos.1 hp
  have e : |1 / x.val| = 1 / |x.val| := by rw [abs_div, abs_one]
  have hi : |1 / x.val| ≤ 2 ^ 20 := by
    rw [e, div_le_iff₀ hp]
    norm_num at h1 ⊢; linarith
  have lo : 1 / 2 ^ 20 ≤ |1 / x.val| := by rw [e]; exact one_div_le_one_div_of_le hp h2
  obtain ⟨f, r⟩ := fdiv_rel (a := ofRat 1) one_val.1 hx h0 (by rw [one_val.2]; exact lt_of_le_of_lt hi (by norm_num))
  rw [one_val.2] at r
  have u1 : uro = 1 / 2 ^ 24 := rfl
  have s : (1 : ℝ) / 2 ^ 150 ≤ 1 / 2 ^ 100 * |1 / x.val| := by
    norm_num at lo ⊢; linarith
  have R : F32.Rel (fdiv (ofRat 1) x).val (1 / x.val) (uro + 1 / 2 ^ 100) 0 := by unfold F32.Rel; linarith
  have a1 := R.abs_le
  have a2 := R.le_abs
  refine ⟨f, by unfold F32.Rel at R; linarith, ?_, ?_⟩
  · rw [u1] at a2; norm_num at a2 lo ⊢; linarith
  · rw [u1] at a1; norm_num at a1 hi ⊢; linarith

/-- That reciprocal divided by a length `l`. -/
theorem unit_rel {x l : F32} (hx : x.isFinite = true) (h1 : 1 / 2 ^ 20 ≤ |rv x|) (h2 : |rv x| ≤ 2 ^ 20) (hl : l.isFinite = true)
    (l1 : 1 / 2 ^ 25 ≤ l.val) (l2 : l.val ≤ 2 ^ 25) :
    (fdiv (fdiv (ofRat 1) x) l).isFinite = true ∧ ∃ i : ℝ, rv x * i = 1 / l.val ∧ 1 / 2 ^ 60 ≤ |i| ∧ |i| ≤ 2 ^ 60 ∧
      |(fdiv (fdiv (ofRat 1) x) l).val - i| ≤ (2 * uro + 1 / 2 ^ 42) * |i| := by
  obtain ⟨f, r, a1, a2⟩ := recip_rel hx h1 h2
  have lp : 0 < l.val := lt_of_lt_of_le (by norm_num) l1
  have la : |l.val| = l.val := abs_of_pos lp
  replace h1 : 1 / 2 ^ 20 ≤ |x.val| := h1
  replace h2 : |x.val| ≤ 2 ^ 20 := h2
  have hp : 0 < |x.val| := lt_of_lt_of_le (by norm_num) h1
  have h0 : x.val ≠ 0 := abs_pos.1 hp
  have u1 : uro = 1 / 2 ^ 24 := rfl
  generalize hv : fdiv (ofRat 1) x = v at *
  have q1 : |v.val / l.val| < 2 ^ 127 := by
    rw [abs_div, la, div_lt_iff₀ lp]
    norm_num at l1 a2 ⊢; linarith
  obtain ⟨f2, r2⟩ := fdiv_rel f hl lp.ne' q1
  have R1 : F32.Rel v.val (1 / x.val) (uro + 1 / 2 ^ 100) 0 := by unfold F32.Rel; linarith
  have R2 := R1.div (F32.Rel.refl l.val) (by norm_num) lp.ne'
  have R3 := R2.round r2 (by rw [u1]; norm_num)
  have ei : |1 / x.val / l.val| = 1 / |x.val| / l.val := by rw [abs_div, abs_div, abs_one, la]
  have i1 : 1 / 2 ^ 60 ≤ |1 / x.val / l.val| := by
    rw [ei, div_div]
    apply one_div_le_one_div_of_le (by positivity)
    calc |x.val| * l.val ≤ 2 ^ 20 * 2 ^ 25 := mul_le_mul h2 l2 lp.le (by norm_num)
      _ ≤ _ := by norm_num
  have i2 : |1 / x.val / l.val| ≤ 2 ^ 60 := by
    rw [ei, div_div, div_le_iff₀ (by positivity)]
    have : (1 : ℝ) / 2 ^ 20 * (1 / 2 ^ 25) ≤ |x.val| * l.val := mul_le_mul h1 l1 (by norm_num) hp.le
    norm_num at this ⊢; linarith
  refine ⟨f2, 1 / x.val / l.val, ?_, i1, i2, ?_⟩
  · change x.val * _ = _; field_simp
  · have R4 := R3.mono (e' := 2 * uro + 1 / 2 ^ 43) (a' := 1 / 2 ^ 150) (by rw [u1]; norm_num) (by simp)
    unfold F32.Rel at R4
    have s : (1 : ℝ) / 2 ^ 150 ≤ 1 / 2 ^ 43 * |1 / x.val / l.val| := by
      norm_num at i1 ⊢; linarith
    linarith

theorem not_parallel {v : F32} (hv : v.isFinite = true) (h : 1 / 2 ^ 21 ≤ |v.val|) : leb (fabs v) (ofRat (1 / 10 ^ 20)) = false := by
  obtain ⟨f, e⟩ := F32x4.fabs_val v hv
  rw [Bool.eq_false_iff, ne_eq, fle_iff f (by decide +kernel), e, not_le]
  have k : (ofRat (1 / 10 ^ 20)).val ≤ (ofRat (1 / 2 ^ 22)).val := (val_le_key _ _).2 (by decide +kernel)
  have k2 : (ofRat (1 / 2 ^ 22)).val = ((1 : ℤ) : ℝ) / 2 ^ 22 := SatF32.rv_at 1 22 (by decide +kernel) (by decide +kernel) (by norm_num)
  rw [k2] at k
  norm_num at k h ⊢
  linarith

/-- The length of the reciprocals. -/
theorem inv_length {v : V4 F32} (hf : AllFinite v.xyz.toList) (h : ∀ x ∈ [v.x, v.y, v.z], 1 / 2 ^ 21 ≤ |x.val| ∧ |x.val| ≤ 2 ^ 21) :
    (fsqrt (Simd.dot3 v v)).isFinite = true ∧ 1 / 2 ^ 25 ≤ (fsqrt (Simd.dot3 v v)).val ∧ (fsqrt (Simd.dot3 v v)).val ≤ 2 ^ 25 := by
  have sq : ∀ x ∈ [v.x, v.y, v.z], 1 / 2 ^ 42 ≤ x.val ^ 2 ∧ x.val ^ 2 ≤ 2 ^ 42 := by
    intro x hx
    obtain ⟨a, b⟩ := h x hx
    rw [← sq_abs]
    constructor
    · calc (1 : ℝ) / 2 ^ 42 = (1 / 2 ^ 21) ^ 2 := by norm_num
        _ ≤ |x.val| ^ 2 := by gcongr
    · calc |x.val| ^ 2 ≤ (2 ^ 21) ^ 2 := by gcongr
        _ = 2 ^ 42 := by norm_num
  obtain ⟨x1, x2⟩ := sq v.x (by simp)
  obtain ⟨y1, y2⟩ := sq v.y (by simp)
  obtain ⟨z1, z2⟩ := sq v.z (by simp)
  have n := normSq3 v
  have lo : 1 / 2 ^ 42 ≤ normSq v.xyz.toList := by rw [n]; norm_num at x1 y1 z1 ⊢; linarith
  have hi : normSq v.xyz.toList ≤ 2 ^ 44 := by rw [n]; norm_num at x2 y2 z2 ⊢; linarith
  obtain ⟨f, r⟩ := (length_accuracy.2.2.2.1 Backend.sse41 v hf).2 (le_trans (by norm_num) lo) (hi.trans (by norm_num))
  have s1 : 1 / 2 ^ 21 ≤ Real.sqrt (normSq v.xyz.toList) := by
    apply Real.le_sqrt_of_sq_le
    refine le_trans ?_ lo; norm_num
  have s2 : Real.sqrt (normSq v.xyz.toList) ≤ 2 ^ 22 := by
    rw [Real.sqrt_le_left (by norm_num)]
    refine hi.trans ?_; norm_num
  have r' := abs_le.1 r
  change _ ≤ (fsqrt (Simd.dot3 v v)).val - _ ∧ (fsqrt (Simd.dot3 v v)).val - _ ≤ _ at r'
  refine ⟨f, ?_, ?_⟩
  · norm_num at r' s1 s2 ⊢; linarith
  · norm_num at r' s1 s2 ⊢; linarith

end Slab

/-- C121, for the functions that take the direction: the same for `raycast`, with faces moved by `5 / 2^24` of their distance
from the origin, for every direction whose coordinates are between `2^-20` and `2^20` in size. -/
theorem ray_margin (b : Aabb F32) (o d : V4 F32) (hb : InRange (2 ^ 60) b) (ho : Within (2 ^ 60) o)
    (hd : AllFinite [d.x, d.y, d.z]) (hs : ∀ x ∈ [d.x, d.y, d.z], 1 / 2 ^ 20 ≤ |rv x| ∧ |rv x| ≤ 2 ^ 20) :
    ((∃ t, 0 ≤ t ∧ along (pt o) (pt d) t ∈ FacesMoved b (pt o) (-(5 / 2 ^ 24)) (-(1 / 2 ^ 80))) →
      b.raycast (Ray.ctor o d false) = true) ∧
    (b.raycast (Ray.ctor o d false) = true →
      ∃ t, 0 ≤ t ∧ along (pt o) (pt d) t ∈ FacesMoved b (pt o) (5 / 2 ^ 24) (1 / 2 ^ 80)) := by
  let v : V4 F32 := V4.div (V4.splat (Flt.lit 1)) d
  let r : Ray F32 := (Ray.ctor o d false).setDirection v true
  simp only [AllFinite, List.mem_cons, List.not_mem_nil, or_false, forall_eq_or_imp, forall_eq] at hd hs
  obtain ⟨fx, fy, fz⟩ := hd
  obtain ⟨⟨x1, x2⟩, ⟨y1, y2⟩, z1, z2⟩ := hs
  obtain ⟨vx, -, wx⟩ := recip_rel fx x1 x2
  obtain ⟨vy, -, wy⟩ := recip_rel fy y1 y2
  obtain ⟨vz, -, wz⟩ := recip_rel fz z1 z2
  have hv : AllFinite v.xyz.toList := by
    intro w hw
    have hw' : w = v.x ∨ w = v.y ∨ w = v.z := by simpa [V4.xyz, V3.toList] using hw
    rcases hw' with rfl | rfl | rfl
    exacts [vx, vy, vz]
  have hw : ∀ x ∈ [v.x, v.y, v.z], 1 / 2 ^ 21 ≤ |x.val| ∧ |x.val| ≤ 2 ^ 21 := by
    intro w hw
    have hw' : w = v.x ∨ w = v.y ∨ w = v.z := by simpa using hw
    rcases hw' with rfl | rfl | rfl
    exacts [wx, wy, wz]
  obtain ⟨fl, l1, l2⟩ := inv_length hv hw
  obtain ⟨gx, ix⟩ := unit_rel fx x1 x2 fl l1 l2
  obtain ⟨gy, iy⟩ := unit_rel fy y1 y2 fl l1 l2
  obtain ⟨gz, iz⟩ := unit_rel fz z1 z2 fl l1 l2
  have lp : 0 < (fsqrt (Simd.dot3 v v)).val := lt_of_lt_of_le (by norm_num) l1
  have held : Held r.direction (pt d) (1 / (fsqrt (Simd.dot3 v v)).val) (2 * uro + 1 / 2 ^ 42) := by
    refine ⟨?_, ix, iy, iz⟩
    simp only [AllFinite, List.mem_cons, List.not_mem_nil, or_false, forall_eq_or_imp, forall_eq]
    exact ⟨gx, gy, gz⟩
  have par : ∀ {w : F32}, leb (fabs w) (ofRat (1 / 10 ^ 20)) = false → top (mask (leb (fabs w) (ofRat (1 / 10 ^ 20)))) = false := by
    intro w h; rw [top_mask]; exact h
  have u1 : uro = 1 / 2 ^ 24 := rfl
  obtain ⟨T, U, k1, -, -, k4⟩ := test_spec (b := b) (r := r) (E := 5 / 2 ^ 24) hb ho (par (not_parallel vx wx.1))
    (par (not_parallel vy wy.1)) (par (not_parallel vz wz.1)) held (by rw [u1]; positivity) (by rw [u1]; norm_num)
    (by rw [u1]; norm_num) (by norm_num)
  change (_ → b.raycastI r = true) ∧ (b.raycastI r = true → _)
  constructor
  · rintro ⟨t, h0, ht⟩
    obtain ⟨h1, h2⟩ := (k4 t).1 ht
    exact k1.2 ⟨h1.trans h2, le_trans (by positivity) h2⟩
  · intro h
    obtain ⟨h1, h2⟩ := k1.1 h
    refine ⟨U * (fsqrt (Simd.dot3 v v)).val, by positivity, (k4 _).2 ?_⟩
    rw [mul_assoc, mul_one_div_cancel lp.ne', mul_one]
    exact ⟨h1, le_rfl⟩

namespace Slab

/-- A box, and a point or direction, with given coordinates. -/
def bx (a b c d e f : Rat) : Aabb F32 := ⟨⟨ofRat a, ofRat b, ofRat c, ofRat 0⟩, ⟨ofRat d, ofRat e, ofRat f, ofRat 0⟩⟩
def v3 (a b c : Rat) : V4 F32 := ⟨ofRat a, ofRat b, ofRat c, ofRat 0⟩

theorem pt_v3 {a b c : Rat} {x y z : ℝ} (ha : rv (ofRat a) = x) (hb : rv (ofRat b) = y) (hc : rv (ofRat c) = z) :
    pt (v3 a b c) = ⟨x, y, z⟩ := by
  subst ha hb hc; rfl

theorem r0 : rv (ofRat 0) = 0 := SatF32.lit0.2
theorem r1 : rv (ofRat 1) = 1 := one_val.2
theorem r2 : rv (ofRat 2) = 2 := by
  have := SatF32.rv_at (q := 2) 2 0 (by decide +kernel) (by decide +kernel) (by norm_num)
  simpa using this
theorem r3 : rv (ofRat 3) = 3 := by
  have := SatF32.rv_at (q := 3) 3 0 (by decide +kernel) (by decide +kernel) (by norm_num)
  simpa using this
theorem r4 : rv (ofRat 4) = 4 := by
  have := SatF32.rv_at (q := 4) 4 0 (by decide +kernel) (by decide +kernel) (by norm_num)
  simpa using this
theorem r7 : rv (ofRat 7) = 7 := by
  have := SatF32.rv_at (q := 7) 7 0 (by decide +kernel) (by decide +kernel) (by norm_num)
  simpa using this

theorem within_of {v : V4 F32} {x y z : ℝ} (h : pt v = ⟨x, y, z⟩) (f : ([v.x, v.y, v.z].all fun a => a.isFinite) = true)
    (hx : |x| ≤ 7) (hy : |y| ≤ 7) (hz : |z| ≤ 7) : Within (2 ^ 60) v := by
  obtain ⟨h1, h2, h3⟩ := V3.mk.inj h
  have e1 : rv v.x = x := h1
  have e2 : rv v.y = y := h2
  have e3 : rv v.z = z := h3
  refine ⟨by simpa [AllFinite] using f, ?_, ?_, ?_⟩
  · rw [e1]; exact hx.trans (by norm_num)
  · rw [e2]; exact hy.trans (by norm_num)
  · rw [e3]; exact hz.trans (by norm_num)

theorem inRange_bx {b : Aabb F32} {x y z x' y' z' : ℝ} (h : pt b.min = ⟨x, y, z⟩) (h' : pt b.max = ⟨x', y', z'⟩)
    (w : Within (2 ^ 60) b.min) (w' : Within (2 ^ 60) b.max) (k : x ≤ x' ∧ y ≤ y' ∧ z ≤ z') : InRange (2 ^ 60) b := by
  obtain ⟨h1, h2, h3⟩ := V3.mk.inj h
  obtain ⟨h4, h5, h6⟩ := V3.mk.inj h'
  refine ⟨w, w', ?_⟩
  change rv b.min.x = x at h1
  change rv b.min.y = y at h2
  change rv b.min.z = z at h3
  change rv b.max.x = x' at h4
  change rv b.max.y = y' at h5
  change rv b.max.z = z' at h6
  unfold Below3
  rw [h1, h2, h3, h4, h5, h6]
  exact k

end Slab

/-- C121: without a margin the claim is false: the box that is the single point (1, 3, 7) is not hit by the ray from the
origin in the direction (1, 3, 7). -/
theorem ray_touch_counterexample : ∃ (b : Aabb F32) (o d : V4 F32), InRange (2 ^ 60) b ∧
    (∃ t, 0 ≤ t ∧ along (pt o) (pt d) t ∈ boxOf b) ∧ b.raycast (Ray.ctor o d false) = false := by
  have p := pt_v3 r1 r3 r7
  have w := within_of p (by decide +kernel) (by norm_num) (by norm_num) (by norm_num [abs_of_pos])
  refine ⟨bx 1 3 7 1 3 7, v3 0 0 0, v3 1 3 7, ⟨w, w, le_rfl, le_rfl, le_rfl⟩, ⟨1, by norm_num, ?_⟩, by decide +kernel⟩
  have e : boxOf (bx 1 3 7 1 3 7) = Box (pt (v3 1 3 7)) (pt (v3 1 3 7)) := rfl
  rw [e, p, pt_v3 r0 r0 r0]
  simp only [along, Box, Set.mem_ofPred_eq]
  norm_num

/-- A ray that passes through the middle of a box, one that misses it, and the box and directions are in range. -/
example : InRange (2 ^ 60) (bx 1 2 3 2 3 4) ∧ Within (2 ^ 60) (v3 0 0 0) ∧
    (∀ x ∈ [(v3 2 3 4).x, (v3 2 3 4).y, (v3 2 3 4).z], 1 / 2 ^ 20 ≤ |rv x| ∧ |rv x| ≤ 2 ^ 20) ∧
    (∃ t, 0 ≤ t ∧ along (pt (v3 0 0 0)) (pt (v3 2 3 4)) t ∈
      FacesMoved (bx 1 2 3 2 3 4) (pt (v3 0 0 0)) (-(5 / 2 ^ 24)) (-(1 / 2 ^ 80))) ∧
    (bx 1 2 3 2 3 4).raycast (Ray.ctor (v3 0 0 0) (v3 2 3 4) false) = true ∧
    (bx 1 2 3 2 3 4).raycast (Ray.ctor (v3 0 0 0) (v3 1 1 1) false) = false ∧
    (bx 1 2 3 2 3 4).raycastI (Ray.ctor (v3 0 0 0) (v3 4 3 2) false) = true := by
  have p := pt_v3 r1 r2 r3
  have q := pt_v3 r2 r3 r4
  refine ⟨inRange_bx (b := bx 1 2 3 2 3 4) p q (within_of p (by decide +kernel) (by norm_num) (by norm_num) (by norm_num))
    (within_of q (by decide +kernel) (by norm_num) (by norm_num) (by norm_num)) (by norm_num),
    within_of (pt_v3 r0 r0 r0) (by decide +kernel) (by norm_num) (by norm_num) (by norm_num), ?_, ⟨7 / 8, by norm_num, ?_⟩,
    by decide +kernel, by decide +kernel, by decide +kernel⟩
  · have a2 := r2
    have a3 := r3
    have a4 := r4
    generalize h2 : ofRat 2 = x2 at *
    generalize h3 : ofRat 3 = x3 at *
    generalize h4 : ofRat 4 = x4 at *
    simp only [v3, h2, h3, h4, List.mem_cons, List.not_mem_nil, or_false, forall_eq_or_imp, forall_eq, a2, a3, a4]
    norm_num
  · have e : ∀ c e a, FacesMoved (bx 1 2 3 2 3 4) c e a = Box
        ⟨(pt (v3 1 2 3)).x - moved e a c.x (pt (v3 1 2 3)).x, (pt (v3 1 2 3)).y - moved e a c.y (pt (v3 1 2 3)).y,
          (pt (v3 1 2 3)).z - moved e a c.z (pt (v3 1 2 3)).z⟩
        ⟨(pt (v3 2 3 4)).x + moved e a c.x (pt (v3 2 3 4)).x, (pt (v3 2 3 4)).y + moved e a c.y (pt (v3 2 3 4)).y,
          (pt (v3 2 3 4)).z + moved e a c.z (pt (v3 2 3 4)).z⟩ := fun _ _ _ => rfl
    rw [e, p, q, pt_v3 r0 r0 r0]
    simp only [along, Box, moved, Set.mem_ofPred_eq]
    norm_num

end Verif
