import Verif.Model.RayTargets
import Verif.Props.BoxTest
import Verif.Props.FloatElem
import Verif.Props.MinMaxTargets
import Verif.Props.SatTargets

/-! # C106: the ray-box test on every backend -/

namespace Verif
open Bvh Spec F32 BoxTest

namespace RayTargets
open MinMaxTargets

/-- Two numbers that compare equal. -/
def Same (a b : F32) : Prop := a.isNaN = false ∧ b.isNaN = false ∧ a.key = b.key

theorem Same.refl {a : F32} (h : a.isNaN = false) : Same a a := ⟨h, h, rfl⟩

theorem Same.min {k : Backend} {a b a' b' : F32} (h : Same a a') (g : Same b b') : Same (k.minF a b) (Flt.mmMin a' b') := by
  obtain ⟨h1, h2, h3⟩ := h
  obtain ⟨g1, g2, g3⟩ := g
  refine ⟨(min_low k h1 g1).2.1, (min_low .sse41 h2 g2).2.1, ?_⟩
  change (k.minF a b).key = (Backend.minF .sse41 a' b').key
  rcases min_cases k h1 g1 with ⟨x, y⟩ | ⟨x, y⟩ <;> rcases min_cases .sse41 h2 g2 with ⟨x', y'⟩ | ⟨x', y'⟩ <;> rw [x, x'] <;> omega

theorem Same.max {k : Backend} {a b a' b' : F32} (h : Same a a') (g : Same b b') : Same (k.maxF a b) (Flt.mmMax a' b') := by
  obtain ⟨h1, h2, h3⟩ := h
  obtain ⟨g1, g2, g3⟩ := g
  refine ⟨(max_high k h1 g1).2.1, (max_high .sse41 h2 g2).2.1, ?_⟩
  change (k.maxF a b).key = (Backend.maxF .sse41 a' b').key
  rcases max_cases k h1 g1 with ⟨x, y⟩ | ⟨x, y⟩ <;> rcases max_cases .sse41 h2 g2 with ⟨x', y'⟩ | ⟨x', y'⟩ <;> rw [x, x'] <;> omega

theorem Same.ite {c : Bool} {a b a' b' : F32} (h : Same a a') (g : Same b b') : Same (if c then a else b) (if c then a' else b') := by
  cases c
  · exact g
  · exact h

theorem Same.eqb {a b : F32} (h : Same a b) : eqb a b = true := by
  unfold F32.eqb; rw [h.1, h.2.1, h.2.2]; simp

/-- The interval of one lane is empty, or lies behind the origin. -/
def cut (t u : F32) (e : Bool) : Bool := gt t u || u <. Flt.lit 0 || e
/-- The answer once the three lanes are decided. -/
def pick (c1 c2 c3 : Bool) (t u : F32) : V2 F32 :=
  ⟨if (c1 || c2) || (c3 || c2) then fltMax else t, if (c1 || c2) || (c3 || c2) then minusFltMax else u⟩
/-- The distances after the three axes have been cut, with the minimum `mn` and the maximum `mx` of a backend. -/
def dists (mn mx : F32 → F32 → F32) (nx ny nz ux uy uz : F32) (ex ey ez : Bool) : V2 F32 :=
  pick (cut (mx (mx nx ny) (mx nz nx)) (mn (mn ux uy) (mn uz ux)) ex)
    (cut (mx (mx ny nz) (mx nx ny)) (mn (mn uy uz) (mn ux uy)) ey)
    (cut (mx (mx nz nx) (mx ny nz)) (mn (mn uz ux) (mn uy uz)) ez) (mx (mx nx ny) (mx nz nx)) (mn (mn ux uy) (mn uz ux))

/-- One lane of the products with the reciprocals. -/
def near (mn : F32 → F32 → F32) (p : W) (lo hi o d : F32) : F32 := if top p then minusFltMax else mn ((lo -. o) *. d) ((hi -. o) *. d)
/-- One lane of the products with the reciprocals. -/
def far (mx : F32 → F32 → F32) (p : W) (lo hi o d : F32) : F32 := if top p then fltMax else mx ((lo -. o) *. d) ((hi -. o) *. d)
/-- The ray stays outside the slab it is parallel to. -/
def out (p : W) (lo hi o : F32) : Bool := top p && (o <. lo || gt o hi)

theorem on_dists (k : Backend) (b : Aabb F32) (r : Ray F32) : b.raycast2IOn k r = dists k.minF k.maxF
    (near k.minF r.isParallel.x b.min.x b.max.x r.origin.x r.direction.x) (near k.minF r.isParallel.y b.min.y b.max.y r.origin.y r.direction.y)
    (near k.minF r.isParallel.z b.min.z b.max.z r.origin.z r.direction.z) (far k.maxF r.isParallel.x b.min.x b.max.x r.origin.x r.direction.x)
    (far k.maxF r.isParallel.y b.min.y b.max.y r.origin.y r.direction.y) (far k.maxF r.isParallel.z b.min.z b.max.z r.origin.z r.direction.z)
    (out r.isParallel.x b.min.x b.max.x r.origin.x) (out r.isParallel.y b.min.y b.max.y r.origin.y)
    (out r.isParallel.z b.min.z b.max.z r.origin.z) := by
  simp only [Aabb.raycast2IOn, Aabb.slabsOn, Elem.select_eq, V4.select, V4.cmp, V4.map2, V4.bor, V4.band, V4.mul, V4.sub,
    V4.swizzle, V4.get, V4.splat, top_or, top_and, top_mask, dists, pick, cut, near, far, out]
  rfl

theorem sse_dists (b : Aabb F32) (r : Ray F32) : b.raycast2I r = b.raycast2IOn .sse41 r := by
  rw [on_dists]
  simp only [Aabb.raycast2I, Aabb.slabs, V4.select, V4.cmp, V4.map2, V4.bor, V4.band, V4.mul, V4.sub, Simd.min, Simd.max,
    V4.swizzle, V4.get, V4.splat, top_or, top_and, top_mask, dists, pick, cut, near, far, out, Backend.minF, Backend.maxF]
  rfl

theorem same_dists {k : Backend} {nx ny nz ux uy uz nx' ny' nz' ux' uy' uz' : F32} (ex ey ez : Bool) (h1 : Same nx nx') (h2 : Same ny ny')
    (h3 : Same nz nz') (g1 : Same ux ux') (g2 : Same uy uy') (g3 : Same uz uz') :
    Same (dists k.minF k.maxF nx ny nz ux uy uz ex ey ez).x (dists Flt.mmMin Flt.mmMax nx' ny' nz' ux' uy' uz' ex ey ez).x ∧
    Same (dists k.minF k.maxF nx ny nz ux uy uz ex ey ez).y (dists Flt.mmMin Flt.mmMax nx' ny' nz' ux' uy' uz' ex ey ez).y := by
  have T1 := (h1.max (k := k) h2).max (k := k) (h3.max (k := k) h1)
  have T2 := (h2.max (k := k) h3).max (k := k) (h1.max (k := k) h2)
  have T3 := (h3.max (k := k) h1).max (k := k) (h2.max (k := k) h3)
  have U1 := (g1.min (k := k) g2).min (k := k) (g3.min (k := k) g1)
  have U2 := (g2.min (k := k) g3).min (k := k) (g1.min (k := k) g2)
  have U3 := (g3.min (k := k) g1).min (k := k) (g2.min (k := k) g3)
  have c : ∀ {t u t' u' : F32} (e : Bool), Same t t' → Same u u' →
      cut t u e = cut t' u' e := by
    unfold cut
    intro t u t' u' e ht hu
    have a : gt t u = gt t' u' := SatF32.ltb_key hu.2.2 ht.2.2
    have b : (u <. Flt.lit 0) = (u' <. Flt.lit 0) := SatF32.ltb_key hu.2.2 rfl
    rw [a, b]
  have nlo : (minusFltMax : F32).isNaN = false := okLimits_f32.2
  have nhi : (fltMax : F32).isNaN = false := okLimits_f32.1
  unfold dists
  rw [c ex T1 U1, c ey T2 U2, c ez T3 U3]
  exact ⟨(Same.refl nhi).ite T1, (Same.refl nlo).ite U1⟩

theorem same_near (k : Backend) (p : W) {lo hi o d : F32} (h : top p = true ∨ (fmul (fsub lo o) d).isNaN = false ∧ (fmul (fsub hi o) d).isNaN = false) :
    Same (near k.minF p lo hi o d) (near Flt.mmMin p lo hi o d) ∧ Same (far k.maxF p lo hi o d) (far Flt.mmMax p lo hi o d) := by
  unfold near far
  rcases h with h | ⟨h1, h2⟩
  · rw [if_pos h, if_pos h, if_pos h, if_pos h]
    exact ⟨Same.refl okLimits_f32.2, Same.refl okLimits_f32.1⟩
  · exact ⟨(Same.refl okLimits_f32.2).ite ((Same.refl h1).min (Same.refl h2)), (Same.refl okLimits_f32.1).ite ((Same.refl h1).max (Same.refl h2))⟩

end RayTargets
open RayTargets

/-- C106: when no product with a reciprocal is NaN (outside the axes the ray is marked parallel to), the ray test gives the same
answer on every backend, and distances that compare equal. -/
theorem raycastI_targets_agree (k : Backend) (b : Aabb F32) (r : Ray F32)
    (hx : top r.isParallel.x = true ∨ (fmul (fsub b.min.x r.origin.x) r.direction.x).isNaN = false ∧ (fmul (fsub b.max.x r.origin.x) r.direction.x).isNaN = false)
    (hy : top r.isParallel.y = true ∨ (fmul (fsub b.min.y r.origin.y) r.direction.y).isNaN = false ∧ (fmul (fsub b.max.y r.origin.y) r.direction.y).isNaN = false)
    (hz : top r.isParallel.z = true ∨ (fmul (fsub b.min.z r.origin.z) r.direction.z).isNaN = false ∧ (fmul (fsub b.max.z r.origin.z) r.direction.z).isNaN = false) :
    b.raycastIOn k r = b.raycastI r ∧ eqb (b.raycast2IOn k r).x (b.raycast2I r).x = true ∧ eqb (b.raycast2IOn k r).y (b.raycast2I r).y = true := by
  obtain ⟨x1, x2⟩ := same_near k r.isParallel.x hx
  obtain ⟨y1, y2⟩ := same_near k r.isParallel.y hy
  obtain ⟨z1, z2⟩ := same_near k r.isParallel.z hz
  obtain ⟨s, t⟩ := same_dists (k := k) (out r.isParallel.x b.min.x b.max.x r.origin.x) (out r.isParallel.y b.min.y b.max.y r.origin.y)
    (out r.isParallel.z b.min.z b.max.z r.origin.z) x1 y1 z1 x2 y2 z2
  have e : b.raycast2I r = dists Flt.mmMin Flt.mmMax _ _ _ _ _ _ _ _ _ := (sse_dists b r).trans (on_dists .sse41 b r)
  rw [← on_dists] at s t
  unfold Aabb.raycastIOn Aabb.raycastI
  rw [e]
  refine ⟨?_, s.eqb, t.eqb⟩
  unfold Aabb.hit
  have a1 : ((b.raycast2IOn k r).x <=. (b.raycast2IOn k r).y) = _ := SatF32.leb_key s.2.2 t.2.2
  have a2 : (Flt.lit 0 <=. (b.raycast2IOn k r).y) = _ := SatF32.leb_key rfl t.2.2
  rw [a1, a2]
  rfl

/-- C106: on every backend, a ray given by the reciprocals of its direction that meets a box meets every larger box. -/
theorem rayI_grows_targets_partial (k : Backend) (r : Ray F32) (ho : Within (2 ^ 60) r.origin)
    (hd : AllFinite [r.direction.x, r.direction.y, r.direction.z]) : Grows (2 ^ 60) (fun b => b.raycastIOn k r) := by
  have same : ∀ b : Aabb F32, InRange (2 ^ 60) b → b.raycastIOn k r = b.raycastI r := by
    intro b hb
    obtain ⟨x, y, z⟩ := lanes hb
    obtain ⟨f, b1, b2, b3⟩ := ho
    simp only [AllFinite, List.mem_cons, List.not_mem_nil, or_false, forall_eq_or_imp, forall_eq] at f hd
    obtain ⟨f1, f2, f3⟩ := f
    obtain ⟨d1, d2, d3⟩ := hd
    have one : ∀ {v o d : F32}, v.isFinite = true → |v.val| ≤ 2 ^ 60 → o.isFinite = true → |o.val| ≤ 2 ^ 60 → d.isFinite = true →
        (fmul (fsub v o) d).isNaN = false := fun hv bv ho bo hd =>
      (fmul_finite (BoxTest.sub_bd hv ho bv bo (by norm_num) (by norm_num)).1 hd).1
    exact (raycastI_targets_agree k b r (Or.inr ⟨one x.flo x.blo f1 b1 d1, one x.fhi x.bhi f1 b1 d1⟩)
      (Or.inr ⟨one y.flo y.blo f2 b2 d2, one y.fhi y.bhi f2 b2 d2⟩) (Or.inr ⟨one z.flo z.blo f3 b3 d3, one z.fhi z.bhi f3 b3 d3⟩)).1
  intro a c ha hc h ht
  have := rayI_grows_partial r ho hd a c ha hc h
  dsimp only at ht this ⊢
  rw [same a ha] at ht
  rw [same c hc]
  exact this ht

/-- C106: on every backend, a ray that meets a box meets every larger box. -/
theorem ray_grows_targets_partial (k : Backend) (r : Ray F32) (ho : Within (2 ^ 60) r.origin)
    (hd : AllFinite [r.direction.x, r.direction.y, r.direction.z])
    (h1 : ∀ x ∈ [r.direction.x, r.direction.y, r.direction.z], 1 / 2 ^ 40 ≤ |rv x| ∧ |rv x| ≤ 2 ^ 40) :
    Grows (2 ^ 60) (fun b => b.raycastOn k r) := by
  refine rayI_grows_targets_partial k (r.setDirectionOn k (V4.div (V4.splat (Flt.lit 1)) r.direction) true) ho ?_
  obtain ⟨fx, lx, ux⟩ := recip_size (hd r.direction.x (by simp)) (h1 r.direction.x (by simp)).1 (h1 r.direction.x (by simp)).2
  obtain ⟨fy, ly, uy⟩ := recip_size (hd r.direction.y (by simp)) (h1 r.direction.y (by simp)).1 (h1 r.direction.y (by simp)).2
  obtain ⟨fz, lz, uz⟩ := recip_size (hd r.direction.z (by simp)) (h1 r.direction.z (by simp)).1 (h1 r.direction.z (by simp)).2
  have sq : ∀ {x : ℝ}, 1 / 2 ^ 41 ≤ |x| → |x| ≤ 2 ^ 41 → 1 / 2 ^ 82 ≤ x ^ 2 ∧ x ^ 2 ≤ 2 ^ 82 := by
    intro x a b
    rw [← sq_abs]
    constructor
    · calc (1 : ℝ) / 2 ^ 82 = (1 / 2 ^ 41) ^ 2 := by norm_num
        _ ≤ |x| ^ 2 := by gcongr
    · calc |x| ^ 2 ≤ (2 ^ 41) ^ 2 := by gcongr
        _ = 2 ^ 82 := by norm_num
  obtain ⟨sx, tx⟩ := sq lx ux
  obtain ⟨sy, ty⟩ := sq ly uy
  obtain ⟨sz, tz⟩ := sq lz uz
  let v : V4 F32 := V4.div (V4.splat (Flt.lit 1)) r.direction
  have hv : AllFinite v.xyz.toList := by
    intro w hw
    have : w = fdiv (ofRat 1) r.direction.x ∨ w = fdiv (ofRat 1) r.direction.y ∨ w = fdiv (ofRat 1) r.direction.z := by
      have hw' : w = v.x ∨ w = v.y ∨ w = v.z := by simpa [V4.xyz, V3.toList] using hw
      exact hw'
    rcases this with rfl | rfl | rfl
    · exact fx
    · exact fy
    · exact fz
  have e : normSq v.xyz.toList = (fdiv (ofRat 1) r.direction.x).val ^ 2 + ((fdiv (ofRat 1) r.direction.y).val ^ 2 +
    (fdiv (ofRat 1) r.direction.z).val ^ 2) := normSq3 v
  have u := normalize_accuracy.2.2.2.1 k v hv (by rw [e]; norm_num at sx sy sz ⊢; linarith) (by rw [e]; norm_num at tx ty tz ⊢; linarith)
  have fin : AllFinite ((k.normalize3 v).xyz.toList) := by
    intro w hw
    obtain ⟨i, hi, rfl⟩ := List.getElem_of_mem hw
    have := u.get (by simpa using hi) (by simpa [V4.xyz, V3.toList] using hi)
    exact this.1
  exact fin

/-- C106: `ray_parallel_counterexample` on the other backends. Zero times infinity is not a number, and then the backends
disagree. On SSE2, SSE4.1 and without SIMD a box is hit and a box around it is not; on NEON neither box is. -/
theorem ray_parallel_targets_counterexample :
    let r : Ray F32 := ⟨⟨ofRat 1, fdiv (ofRat 1) (ofRat 0), ofRat 1, ofRat 0⟩, V4.splat 0, V4.splat (ofRat 0)⟩
    (∀ k ∈ [Backend.sse2, .sse41], (BvhCases.box (-1) 0 0 0 0 1).raycastIOn k r = true ∧
      (BvhCases.box (-1) 0 (-1) 1 1 1).raycastIOn k r = false) ∧
    (BvhCases.box (-1) 0 0 0 0 1).raycastIOn .scalar r = true ∧ (BvhCases.box (-1) (-1) (-1) 1 0 1).raycastIOn .scalar r = false ∧
    (BvhCases.box (-1) 0 0 0 0 1).raycastIOn .neon r = false ∧ (BvhCases.box (-1) 0 (-1) 1 1 1).raycastIOn .neon r = false ∧
    (BvhCases.box (-1) 0 (-1) 1 1 1).raycastIOn .scalar r = true := by
  decide +kernel

/-- The hypotheses of the theorems hold of a ray that meets one box and misses another, on every backend. -/
example (k : Backend) : Grows (2 ^ 60) (fun b => b.raycastIOn k beamI) ∧ (BvhCases.box 8 0 0 10 1 1).raycastIOn k beamI = true ∧
    (BvhCases.box 0 0 0 2 1 1).raycastIOn k beamI = false :=
  ⟨rayI_grows_targets_partial k beamI (within_of_grid (by decide +kernel)) (by unfold AllFinite; decide +kernel),
    by cases k <;> decide +kernel, by cases k <;> decide +kernel⟩

example (k : Backend) : (BvhCases.box 8 0 0 10 1 1).raycastIOn k beamI = (BvhCases.box 8 0 0 10 1 1).raycastI beamI :=
  (raycastI_targets_agree k _ _ (by decide +kernel) (by decide +kernel) (by decide +kernel)).1

example (k : Backend) : Grows (2 ^ 60) (fun b => b.raycastOn k beam) ∧ (BvhCases.box 8 0 0 10 1 1).raycastOn k beam = true := by
  refine ⟨ray_grows_targets_partial k beam (within_of_grid (by decide +kernel)) (by unfold AllFinite; decide +kernel) ?_,
    by cases k <;> decide +kernel⟩
  have u : beam.direction.x.units = 2 ^ 149 ∧ beam.direction.y.units = 2 ^ 143 ∧ beam.direction.z.units = 2 ^ 144 := by decide +kernel
  intro x hx
  simp only [List.mem_cons, List.not_mem_nil, or_false] at hx
  show 1 / 2 ^ 40 ≤ |x.val| ∧ |x.val| ≤ 2 ^ 40
  rcases hx with rfl | rfl | rfl
  · rw [val_units, u.1]; push_cast; norm_num [abs_of_pos]
  · rw [val_units, u.2.1]; push_cast; norm_num [abs_of_pos]
  · rw [val_units, u.2.2]; push_cast; norm_num [abs_of_pos]

end Verif
