import Verif.Proofs.BoxTest
import Verif.Props.BvhQuery
import Verif.Props.BvhSafe
import Verif.Props.LengthAccuracy

/-!
# A query of a hierarchy loses nothing (C105, C106)

In binary32 the tests of a box against a frustum, a sphere and a ray give the same or a more generous answer for a larger
box, although every step is rounded; so a node is accepted whenever a primitive below it would be.
-/

namespace Verif
open Bvh Spec F32 BoxTest Reliable

/-- C105: when a box is not culled, no larger box is culled, for any number of planes. -/
theorem frustum_grows (planes : List (Plane F32)) (hp : ∀ pl ∈ planes, PlaneWithin (2 ^ 60) pl) :
    Grows (2 ^ 60) (fun b => !b.isBehindFrustum planes) := by
  intro a c ha hc h ht
  simp only [Bool.not_eq_true', ← Bool.not_eq_true] at ht ⊢
  unfold Aabb.isBehindFrustum at ht ⊢
  rw [anyRejects_iff] at ht ⊢
  rintro ⟨pl, hm, hr⟩
  exact ht ⟨pl, hm, rejects_mono (hp pl hm) ha hc h hr⟩

/-- C105: a sphere that meets a box meets every larger box. -/
theorem sphere_grows (s : Sphere F32) (hs : Within (2 ^ 60) s.posRad) :
    Grows (2 ^ 60) (fun b => s.isIntersectedB b) := by
  intro a c ha hc h ht
  obtain ⟨x, y, z⟩ := lanes ha
  obtain ⟨x', y', z'⟩ := lanes hc
  obtain ⟨ix, iy, iz⟩ := insides ha h
  obtain ⟨f, b1, b2, b3⟩ := hs
  simp only [AllFinite, List.mem_cons, List.not_mem_nil, or_false, forall_eq_or_imp, forall_eq] at f
  obtain ⟨f1, f2, f3⟩ := f
  obtain ⟨X, X', kx⟩ := lane_sq f1 b1 x x' ix
  obtain ⟨Y, Y', ky⟩ := lane_sq f2 b2 y y' iy
  obtain ⟨Z, Z', kz⟩ := lane_sq f3 b3 z z' iz
  have zb : |(ofRat 0).val| ≤ 18 * 2 ^ 120 := by rw [zero_lit.2]; norm_num
  have s1 := add_bd X.1 Y.1 X.2 Y.2 (by norm_num) (by norm_num)
  have s2 := add_bd Z.1 zero_lit.1 Z.2 zb (by norm_num) (by norm_num)
  have s1' := add_bd X'.1 Y'.1 X'.2 Y'.2 (by norm_num) (by norm_num)
  have s2' := add_bd Z'.1 zero_lit.1 Z'.2 zb (by norm_num) (by norm_num)
  have s3' := add_bd s1'.1 s2'.1 s1'.2 s2'.2 (by norm_num) (by norm_num)
  have k := add_le s1'.1 s2'.1 s1.1 s2.1 (add_le X'.1 Y'.1 X.1 Y.1 kx ky) (add_le Z'.1 zero_lit.1 Z.1 zero_lit.1 kz le_rfl)
  replace ht : ltb _ _ = true := ht
  rw [ltb_iff] at ht
  exact ltb_iff.2 ⟨finite_not_nan s3'.1, ht.2.1, lt_of_le_of_lt k ht.2.2⟩

namespace BoxTest

/-- The part of the ray test after the three axes have been cut: `n` where each is entered, `m` where it is left, `e` that
the ray is parallel to the axis and outside. -/
def answer (nx ny nz mx my mz : F32) (ex ey ez : Bool) : Bool :=
  let t1 := Flt.mmMax (Flt.mmMax nx ny) (Flt.mmMax nz nx)
  let t2 := Flt.mmMax (Flt.mmMax ny nz) (Flt.mmMax nx ny)
  let t3 := Flt.mmMax (Flt.mmMax nz nx) (Flt.mmMax ny nz)
  let u1 := Flt.mmMin (Flt.mmMin mx my) (Flt.mmMin mz mx)
  let u2 := Flt.mmMin (Flt.mmMin my mz) (Flt.mmMin mx my)
  let u3 := Flt.mmMin (Flt.mmMin mz mx) (Flt.mmMin my mz)
  let no := fun (t u : F32) (e : Bool) => gt t u || u <. Flt.lit 0 || e
  let no := (no t1 u1 ex || no t2 u2 ey) || (no t3 u3 ez || no t2 u2 ey)
  (if no then fltMax else t1) <=. (if no then minusFltMax else u1) && Flt.lit 0 <=. (if no then minusFltMax else u1)

theorem raycastI_answer (b : Aabb F32) (r : Ray F32) : b.raycastI r = answer
    (if top r.isParallel.x then minusFltMax else
      Flt.mmMin ((b.min.x -. r.origin.x) *. r.direction.x) ((b.max.x -. r.origin.x) *. r.direction.x))
    (if top r.isParallel.y then minusFltMax else
      Flt.mmMin ((b.min.y -. r.origin.y) *. r.direction.y) ((b.max.y -. r.origin.y) *. r.direction.y))
    (if top r.isParallel.z then minusFltMax else
      Flt.mmMin ((b.min.z -. r.origin.z) *. r.direction.z) ((b.max.z -. r.origin.z) *. r.direction.z))
    (if top r.isParallel.x then fltMax else
      Flt.mmMax ((b.min.x -. r.origin.x) *. r.direction.x) ((b.max.x -. r.origin.x) *. r.direction.x))
    (if top r.isParallel.y then fltMax else
      Flt.mmMax ((b.min.y -. r.origin.y) *. r.direction.y) ((b.max.y -. r.origin.y) *. r.direction.y))
    (if top r.isParallel.z then fltMax else
      Flt.mmMax ((b.min.z -. r.origin.z) *. r.direction.z) ((b.max.z -. r.origin.z) *. r.direction.z))
    (top r.isParallel.x && (r.origin.x <. b.min.x || gt r.origin.x b.max.x))
    (top r.isParallel.y && (r.origin.y <. b.min.y || gt r.origin.y b.max.y))
    (top r.isParallel.z && (r.origin.z <. b.min.z || gt r.origin.z b.max.z)) := by
  simp only [Aabb.raycastI, Aabb.raycast2I, Aabb.slabs, Aabb.hit, V4.select, V4.cmp, V4.map2, V4.bor, V4.band, V4.mul, V4.sub,
    Simd.min, Simd.max, V4.swizzle, V4.get, V4.splat, top_or, top_and, top_mask, answer]

theorem answer_mono {nx ny nz mx my mz nx' ny' nz' mx' my' mz' : F32} {ex ey ez ex' ey' ez' : Bool} (hx : Le nx' nx)
    (hy : Le ny' ny) (hz : Le nz' nz) (kx : Le mx mx') (ky : Le my my') (kz : Le mz mz') (gx : ex' = true → ex = true)
    (gy : ey' = true → ey = true) (gz : ez' = true → ez = true) (h : answer nx ny nz mx my mz ex ey ez = true) :
    answer nx' ny' nz' mx' my' mz' ex' ey' ez' = true := by
  unfold answer at h ⊢
  have T1 := (hx.mmMax hy).mmMax (hz.mmMax hx)
  have T2 := (hy.mmMax hz).mmMax (hx.mmMax hy)
  have T3 := (hz.mmMax hx).mmMax (hy.mmMax hz)
  have U1 := (kx.mmMin ky).mmMin (kz.mmMin kx)
  have U2 := (ky.mmMin kz).mmMin (kx.mmMin ky)
  have U3 := (kz.mmMin kx).mmMin (ky.mmMin kz)
  dsimp only at h ⊢
  generalize Flt.mmMax (Flt.mmMax nx ny) (Flt.mmMax nz nx) = t1 at *
  generalize Flt.mmMax (Flt.mmMax ny nz) (Flt.mmMax nx ny) = t2 at *
  generalize Flt.mmMax (Flt.mmMax nz nx) (Flt.mmMax ny nz) = t3 at *
  generalize Flt.mmMin (Flt.mmMin mx my) (Flt.mmMin mz mx) = u1 at *
  generalize Flt.mmMin (Flt.mmMin my mz) (Flt.mmMin mx my) = u2 at *
  generalize Flt.mmMin (Flt.mmMin mz mx) (Flt.mmMin my mz) = u3 at *
  generalize Flt.mmMax (Flt.mmMax nx' ny') (Flt.mmMax nz' nx') = t1' at *
  generalize Flt.mmMax (Flt.mmMax ny' nz') (Flt.mmMax nx' ny') = t2' at *
  generalize Flt.mmMax (Flt.mmMax nz' nx') (Flt.mmMax ny' nz') = t3' at *
  generalize Flt.mmMin (Flt.mmMin mx' my') (Flt.mmMin mz' mx') = u1' at *
  generalize Flt.mmMin (Flt.mmMin my' mz') (Flt.mmMin mx' my') = u2' at *
  generalize Flt.mmMin (Flt.mmMin mz' mx') (Flt.mmMin my' mz') = u3' at *
  have z : Le (Flt.lit 0 : F32) (Flt.lit 0) := Le.refl (finite_not_nan zero_lit.1)
  have lane : ∀ {t u t' u' : F32} {e e' : Bool}, Le t' t → Le u u' → (e' = true → e = true) →
      (gt t' u' || u' <. Flt.lit 0 || e') = true → (gt t u || u <. Flt.lit 0 || e) = true := by
    intro t u t' u' e e' ht hu he h
    simp only [Bool.or_eq_true] at h ⊢
    rcases h with (h | h) | h
    · exact Or.inl (Or.inl (hu.lt_trans ht h))
    · exact Or.inl (Or.inr (hu.lt_trans z h))
    · exact Or.inr (he h)
  have l1 := lane T1 U1 gx
  have l2 := lane T2 U2 gy
  have l3 := lane T3 U3 gz
  by_cases hn : (((gt t1 u1 || u1 <. Flt.lit 0 || ex) || (gt t2 u2 || u2 <. Flt.lit 0 || ey)) ||
      ((gt t3 u3 || u3 <. Flt.lit 0 || ez) || (gt t2 u2 || u2 <. Flt.lit 0 || ey))) = true
  · rw [if_pos hn, if_pos hn] at h
    exact absurd h (by rw [show ((fltMax : F32) <=. minusFltMax && Flt.lit 0 <=. (minusFltMax : F32)) = false from miss_consts]; decide)
  · rw [if_neg hn, if_neg hn, Bool.and_eq_true] at h
    have hn' : ¬ (((gt t1' u1' || u1' <. Flt.lit 0 || ex') || (gt t2' u2' || u2' <. Flt.lit 0 || ey')) ||
        ((gt t3' u3' || u3' <. Flt.lit 0 || ez') || (gt t2' u2' || u2' <. Flt.lit 0 || ey'))) = true := by
      intro hc
      apply hn
      rw [Bool.or_eq_true, Bool.or_eq_true, Bool.or_eq_true (gt t3' u3' || _ || _)] at hc
      rw [Bool.or_eq_true, Bool.or_eq_true, Bool.or_eq_true (gt t3 u3 || _ || _)]
      rcases hc with (hc | hc) | (hc | hc)
      · exact Or.inl (Or.inl (l1 hc))
      · exact Or.inl (Or.inr (l2 hc))
      · exact Or.inr (Or.inl (l3 hc))
      · exact Or.inr (Or.inr (l2 hc))
    rw [if_neg hn', if_neg hn', Bool.and_eq_true]
    exact ⟨T1.le_trans U1 h.1, z.le_trans U1 h.2⟩

theorem out_mono {o lo hi lo' hi' : F32} {p : Bool} (ho : o.isFinite = true) (h : Lane (2 ^ 60) lo hi) (h' : Lane (2 ^ 60) lo' hi')
    (hin : Inside lo hi lo' hi') (hp : (p && (o <. lo' || gt o hi')) = true) : (p && (o <. lo || gt o hi)) = true := by
  rw [Bool.and_eq_true, Bool.or_eq_true] at hp ⊢
  have r := Le.refl (finite_not_nan ho)
  refine ⟨hp.1, hp.2.imp (fun k => r.lt_trans ⟨finite_not_nan h'.flo, finite_not_nan h.flo, hin.1⟩ k)
    (fun k => Le.lt_trans ⟨finite_not_nan h.fhi, finite_not_nan h'.fhi, hin.2⟩ r k)⟩

end BoxTest
open BoxTest

/-- C106: a ray, given by the reciprocals of its direction, that meets a box meets every larger box. -/
theorem rayI_grows_partial (r : Ray F32) (ho : Within (2 ^ 60) r.origin) (hd : AllFinite [r.direction.x, r.direction.y, r.direction.z]) :
    Grows (2 ^ 60) (fun b => b.raycastI r) := by
  intro a c ha hc h ht
  obtain ⟨x, y, z⟩ := lanes ha
  obtain ⟨x', y', z'⟩ := lanes hc
  obtain ⟨ix, iy, iz⟩ := insides ha h
  obtain ⟨f, b1, b2, b3⟩ := ho
  simp only [AllFinite, List.mem_cons, List.not_mem_nil, or_false, forall_eq_or_imp, forall_eq] at f hd
  obtain ⟨f1, f2, f3⟩ := f
  obtain ⟨d1, d2, d3⟩ := hd
  obtain ⟨X, X'⟩ := lane_slab f1 b1 d1 x x' ix
  obtain ⟨Y, Y'⟩ := lane_slab f2 b2 d2 y y' iy
  obtain ⟨Z, Z'⟩ := lane_slab f3 b3 d3 z z' iz
  have nlo : (minusFltMax : F32).isNaN = false := okLimits_f32.2
  have nhi : (fltMax : F32).isNaN = false := okLimits_f32.1
  have A := Le.ite (c := top r.isParallel.x) (Le.refl nlo) X
  have B := Le.ite (c := top r.isParallel.y) (Le.refl nlo) Y
  have C := Le.ite (c := top r.isParallel.z) (Le.refl nlo) Z
  have A' := Le.ite (c := top r.isParallel.x) (Le.refl nhi) X'
  have B' := Le.ite (c := top r.isParallel.y) (Le.refl nhi) Y'
  have C' := Le.ite (c := top r.isParallel.z) (Le.refl nhi) Z'
  rw [show (fun b : Aabb F32 => b.raycastI r) c = c.raycastI r from rfl, raycastI_answer]
  rw [show (fun b : Aabb F32 => b.raycastI r) a = a.raycastI r from rfl, raycastI_answer] at ht
  exact answer_mono A B C A' B' C' (out_mono f1 x x' ix) (out_mono f2 y y' iy) (out_mono f3 z z' iz) ht

namespace BoxTest

theorem finite_abs {x : F32} (h : |x.val| ≤ 2 ^ 60) : x.isFinite = true := by
  obtain ⟨a1, a2⟩ := abs_le.mp h
  rw [finite_iff_key]
  constructor
  · by_contra hc
    rw [not_lt] at hc
    have : x.val ≤ (minusFltMax : F32).val := (val_le_key _ _).mpr (hc.trans (by decide +kernel))
    rw [BvhSafe.fmin_fact.2] at this
    norm_num at this; linarith
  · by_contra hc
    rw [not_lt] at hc
    have : (fltMax : F32).val ≤ x.val := (val_le_key _ _).mpr (le_trans (by decide +kernel) hc)
    rw [BvhSafe.fmax_fact.2] at this
    norm_num at this; linarith

theorem inRange_xyz {m : ℝ} {a b : Aabb F32} (h1 : a.min.xyz = b.min.xyz) (h2 : a.max.xyz = b.max.xyz) (h : InRange m b) :
    InRange m a := by
  obtain ⟨⟨a1, a2, a3, a4⟩, b1, b2, b3, b4⟩ := a
  obtain ⟨⟨c1, c2, c3, c4⟩, d1, d2, d3, d4⟩ := b
  simp only [V4.xyz] at h1 h2
  injection h1 with e1 e2 e3
  injection h2 with e4 e5 e6
  subst e1 e2 e3 e4 e5 e6
  exact h

/-- Everything a query needs to know about one primitive: `a` is a box inside whatever the tree puts around it. -/
theorem query_source {old : Bvh.Tree F32} {src : Source F32} {root : Aabb F32} (hn : src.count ≤ 2 ^ 31) {t : Bvh.Tree F32}
    (h : recreate old src root = .ok t) (hroot : InRange (2 ^ 60) root)
    (hc : ∀ p it, src.item p = some it → (∀ q ∈ it.mins, Within (2 ^ 60) q) ∧ (∀ q ∈ it.maxs, Within (2 ^ 60) q) ∧
      ∃ p ∈ it.mins, ∃ q ∈ it.maxs, Below3 p q)
    (test : Aabb F32 → Bool) (ht : Grows (2 ^ 60) test) {k : ℕ} (hk : k < src.count) {a : Aabb F32} (ha : InRange (2 ^ 60) a)
    (hr : boxOf a ⊆ boxOf root) (hin : ∀ lo hi, (∃ it, src.item k = some it) → PrimIn src k lo hi → boxOf a ⊆ Box lo hi) (hta : test a = true) :
    ∃ (l : Nat) (nd : Node F32) (pos : ℕ), Passed t.nodes (fun _ nd => test nd.aabb) 0 l ∧ t.nodes[l]? = some nd ∧
      test nd.aabb = true ∧ nd.isLeaf = true ∧ nd.getFirstPrimitive ≤ pos ∧
      pos < nd.getFirstPrimitive + nd.getPrimitiveCount ∧ t.prims[pos]? = some k := by
  have ok3 : ∀ {q : V4 F32}, Within (2 ^ 60) q → Ok3 q := by
    intro q hq
    obtain ⟨f, -⟩ := hq
    exact ⟨finite_not_nan (f _ (by simp)), finite_not_nan (f _ (by simp)), finite_not_nan (f _ (by simp))⟩
  have hok : ∀ p it, src.item p = some it → (∀ q ∈ it.mins, Ok3 q) ∧ ∀ q ∈ it.maxs, Ok3 q := fun p it hp =>
    ⟨fun q hq => ok3 ((hc p it hp).1 q hq), fun q hq => ok3 ((hc p it hp).2.1 q hq)⟩
  obtain ⟨hperm, rs, t1, t2⟩ := wellFormed_recreate old src root hn t h
  have hqm : k ∈ t.prims.toList := (hperm.mem_iff).mpr (List.mem_range.mpr hk)
  obtain ⟨pos, hpos, hpq⟩ := List.getElem_of_mem hqm
  have hget : t.prims[pos]? = some k := by
    rw [Array.getElem?_eq_getElem (by simpa using hpos), ← hpq]; rfl
  have hsz : t.prims.size = src.count := by simpa using hperm.length_eq
  have hlt : pos < 0 + src.count := by rw [Nat.zero_add, ← hsz]; simpa using hpos
  obtain ⟨l, nd, a1, a2, a3, a4, a5, a6⟩ := passed_of_range (p := fun _ nd => test nd.aabb) t1 pos (Nat.zero_le _) hlt (by
      intro e he e1 e2 nd hnd
      have hu : Under t e.1 k := (under_iff t1 e he k).mpr ⟨pos, e1, e2, hget⟩
      obtain ⟨n1, n2⟩ := node_bounds okLimits_f32 hn h hok hnd
      by_cases h0 : e.1 = 0
      · obtain ⟨x1, x2⟩ := n1 h0
        refine ht a nd.aabb ha (inRange_xyz x1 x2 hroot) ?_ hta
        unfold boxOf at hr ⊢
        rw [pt_of_xyz x1, pt_of_xyz x2]
        exact hr
      · obtain ⟨-, n3, n4⟩ := n2 h0
        obtain ⟨it, hit⟩ := under_item hn h hnd h0 hu
        have hp := n3 k hu
        refine ht a nd.aabb ha ?_ (hin _ _ ⟨it, hit⟩ hp) hta
        obtain ⟨p, hp1, q, hq1, hpq⟩ := (hc k it hit).2.2
        have o1 := (hp it hit).1 p hp1
        have o2 := (hp it hit).2 q hq1
        have below : Below3 nd.aabb.min nd.aabb.max :=
          ⟨o1.1.trans (hpq.1.trans o2.1), o1.2.1.trans (hpq.2.1.trans o2.2.1), o1.2.2.trans (hpq.2.2.trans o2.2.2)⟩
        have cube := n4 ⟨-2 ^ 60, -2 ^ 60, -2 ^ 60⟩ ⟨2 ^ 60, 2 ^ 60, 2 ^ 60⟩
          (by
            have : (-2 ^ 60 : ℝ) ≤ (fltMax : F32).val := by rw [BvhSafe.fmax_fact.2]; norm_num
            exact ⟨this, this, this⟩)
          (by
            have : (minusFltMax : F32).val ≤ 2 ^ 60 := by rw [BvhSafe.fmin_fact.2]; norm_num
            exact ⟨this, this, this⟩)
          (by
            intro p _ it hit
            refine ⟨fun q hq => ?_, fun q hq => ?_⟩
            · obtain ⟨-, b1, b2, b3⟩ := (hc p it hit).1 q hq
              exact ⟨(abs_le.mp b1).1, (abs_le.mp b2).1, (abs_le.mp b3).1⟩
            · obtain ⟨-, b1, b2, b3⟩ := (hc p it hit).2.1 q hq
              exact ⟨(abs_le.mp b1).2, (abs_le.mp b2).2, (abs_le.mp b3).2⟩)
        obtain ⟨⟨l1, l2, l3⟩, u1, u2, u3⟩ := cube
        obtain ⟨k1, k2, k3⟩ := below
        have hx : |rv nd.aabb.min.x| ≤ 2 ^ 60 ∧ |rv nd.aabb.max.x| ≤ 2 ^ 60 :=
          ⟨abs_le.mpr ⟨l1, k1.trans u1⟩, abs_le.mpr ⟨le_trans l1 k1, u1⟩⟩
        have hy : |rv nd.aabb.min.y| ≤ 2 ^ 60 ∧ |rv nd.aabb.max.y| ≤ 2 ^ 60 :=
          ⟨abs_le.mpr ⟨l2, k2.trans u2⟩, abs_le.mpr ⟨le_trans l2 k2, u2⟩⟩
        have hz : |rv nd.aabb.min.z| ≤ 2 ^ 60 ∧ |rv nd.aabb.max.z| ≤ 2 ^ 60 :=
          ⟨abs_le.mpr ⟨l3, k3.trans u3⟩, abs_le.mpr ⟨le_trans l3 k3, u3⟩⟩
        have fin : ∀ {x y z : F32}, |rv x| ≤ 2 ^ 60 → |rv y| ≤ 2 ^ 60 → |rv z| ≤ 2 ^ 60 → AllFinite [x, y, z] := by
          intro x y z h1 h2 h3 w hw
          simp only [List.mem_cons, List.not_mem_nil, or_false] at hw
          rcases hw with rfl | rfl | rfl
          · exact finite_abs h1
          · exact finite_abs h2
          · exact finite_abs h3
        exact ⟨⟨fin hx.1 hy.1 hz.1, hx.1, hy.1, hz.1⟩, ⟨fin hx.2 hy.2 hz.2, hx.2, hy.2, hz.2⟩, k1, k2, k3⟩)
  exact ⟨l, nd, pos, a1, a2, a3, a4, a5, a6, hget⟩

theorem reported_of {t : Bvh.Tree F32} {n : ℕ} (hw : WellFormed t n) (p : Nat → Node F32 → Bool) : ∃ tr, Bvh.traverse t p = .ok tr ∧
    ∀ q, (∃ (l : Nat) (nd : Node F32) (pos : ℕ), Passed t.nodes p 0 l ∧ t.nodes[l]? = some nd ∧
      p l nd = true ∧ nd.isLeaf = true ∧ nd.getFirstPrimitive ≤ pos ∧
      pos < nd.getFirstPrimitive + nd.getPrimitiveCount ∧ t.prims[pos]? = some q) → Reported t tr q := by
  obtain ⟨tr, h1, h2, h3, h4, -⟩ := bvh_traverse t n hw p
  refine ⟨tr, h1, fun q => ?_⟩
  rintro ⟨l, nd, pos, a1, a2, a3, a4, a5, a6, a7⟩
  exact ⟨nd.getFirstPrimitive, nd.getPrimitiveCount, pos, (h4 _ _).mpr ⟨l, nd, (h3 l).mpr a1, a2, a3, a4, rfl, rfl⟩, a5, a6, a7⟩

theorem boxes_corners {boxes : Array (Aabb F32)} {cents : Option (Array (V4 F32))} (hb : ∀ b ∈ boxes, InRange (2 ^ 60) b) :
    ∀ p it, (Source.ofAabbs boxes cents).item p = some it → (∀ q ∈ it.mins, Within (2 ^ 60) q) ∧
      (∀ q ∈ it.maxs, Within (2 ^ 60) q) ∧ ∃ p ∈ it.mins, ∃ q ∈ it.maxs, Below3 p q := by
  intro p it hp
  obtain ⟨b, hb', e1, e2⟩ := boxes_item hp
  obtain ⟨w1, w2, w3⟩ := hb b (Array.mem_of_getElem? hb')
  rw [e1, e2]
  simp only [List.mem_singleton, forall_eq, exists_eq_left]
  exact ⟨w1, w2, w3⟩

theorem hull_boxes {boxes : Array (Aabb F32)} {cents : Option (Array (V4 F32))} {k : ℕ} {b : Aabb F32} (hk : boxes[k]? = some b)
    {a : Aabb F32} (h : InHull a (boxOf b)) (lo hi : V3 ℝ) (he : ∃ it, (Source.ofAabbs boxes cents).item k = some it)
    (hp : PrimIn (Source.ofAabbs boxes cents) k lo hi) : boxOf a ⊆ Box lo hi := by
  obtain ⟨it, hit⟩ := he
  obtain ⟨b', hb', e1, e2⟩ := boxes_item hit
  rw [hk] at hb'; cases hb'
  have := hp it hit
  rw [e1, e2] at this
  simp only [List.mem_singleton, forall_eq] at this
  exact h lo hi (box_sub this.1 this.2)

end BoxTest

/-- C105: a query of a tree over boxes, with a test that grows, reports every primitive whose box, or any part of it that
is a box, passes the test. -/
theorem bvh_query_boxes (old : Bvh.Tree F32) (boxes : Array (Aabb F32)) (cents : Option (Array (V4 F32))) (root : Aabb F32)
    (hn : boxes.size ≤ 2 ^ 31) (hb : ∀ b ∈ boxes, InRange (2 ^ 60) b) (hroot : InRange (2 ^ 60) root)
    (hin : ∀ b ∈ boxes, boxOf b ⊆ boxOf root) (t : Bvh.Tree F32)
    (h : recreate old (Source.ofAabbs boxes cents) root = .ok t) (test : Aabb F32 → Bool) (ht : Grows (2 ^ 60) test) :
    ∃ tr, Bvh.traverse t (fun _ nd => test nd.aabb) = .ok tr ∧
      ∀ q b a, boxes[q]? = some b → InRange (2 ^ 60) a → boxOf a ⊆ boxOf b → test a = true → Reported t tr q := by
  obtain ⟨tr, h1, h2⟩ := reported_of (wellFormed_recreate old _ root hn t h) (fun _ nd => test nd.aabb)
  refine ⟨tr, h1, fun q b a hq ha hab hta => h2 q ?_⟩
  have hbm := Array.mem_of_getElem? hq
  exact query_source hn h hroot (boxes_corners hb) test ht (Array.getElem?_eq_some_iff.mp hq).1 ha (hab.trans (hin b hbm))
    (hull_boxes hq (fun lo hi hs => hab.trans hs)) hta

/-- C105: the same for a tree over triangles: a triangle is reported when any box that lies within every box around the
triangle passes the test. -/
theorem bvh_query_triangles (old : Bvh.Tree F32) (tris : Array (Triangle F32)) (cents : Option (Array (V4 F32)))
    (root : Aabb F32) (hn : tris.size ≤ 2 ^ 31)
    (hb : ∀ b ∈ tris, Within (2 ^ 60) b.p0 ∧ Within (2 ^ 60) b.p1 ∧ Within (2 ^ 60) b.p2) (hroot : InRange (2 ^ 60) root)
    (hin : ∀ b ∈ tris, Tri (pt b.p0) (pt b.p1) (pt b.p2) ⊆ boxOf root) (t : Bvh.Tree F32)
    (h : recreate old (Source.ofTriangles tris cents) root = .ok t) (test : Aabb F32 → Bool) (ht : Grows (2 ^ 60) test) :
    ∃ tr, Bvh.traverse t (fun _ nd => test nd.aabb) = .ok tr ∧
      ∀ q b a, tris[q]? = some b → InRange (2 ^ 60) a → InHull a (Tri (pt b.p0) (pt b.p1) (pt b.p2)) → test a = true →
        Reported t tr q := by
  obtain ⟨tr, h1, h2⟩ := reported_of (wellFormed_recreate old _ root hn t h) (fun _ nd => test nd.aabb)
  refine ⟨tr, h1, fun q b a hq ha hab hta => h2 q ?_⟩
  have hbm := Array.mem_of_getElem? hq
  refine query_source hn h hroot ?_ test ht (Array.getElem?_eq_some_iff.mp hq).1 ha (hab _ _ (hin b hbm)) ?_ hta
  · intro p it hp
    obtain ⟨b, hb', e1, e2⟩ := tris_item hp
    obtain ⟨w1, w2, w3⟩ := hb b (Array.mem_of_getElem? hb')
    rw [e1, e2]
    simp only [List.mem_cons, List.not_mem_nil, or_false, forall_eq_or_imp, forall_eq]
    exact ⟨⟨w1, w2, w3⟩, ⟨w1, w2, w3⟩, b.p0, Or.inl rfl, b.p0, Or.inl rfl, le_rfl, le_rfl, le_rfl⟩
  · intro lo hi he hp
    obtain ⟨it, hit⟩ := he
    obtain ⟨b', hb', e1, e2⟩ := tris_item hit
    rw [hq] at hb'; cases hb'
    have := hp it hit
    rw [e1, e2] at this
    simp only [List.mem_cons, List.not_mem_nil, or_false, forall_eq_or_imp, forall_eq] at this
    exact hab lo hi (tri_sub_box this.1 this.2)

/-- C105: collecting from a tree in binary32 leaves out no primitive whose own box is not culled. -/
theorem bvh_collect_f32 (old : Bvh.Tree F32) (boxes : Array (Aabb F32)) (cents : Option (Array (V4 F32))) (root : Aabb F32)
    (hn : boxes.size ≤ 2 ^ 31) (hb : ∀ b ∈ boxes, InRange (2 ^ 60) b) (hroot : InRange (2 ^ 60) root)
    (hin : ∀ b ∈ boxes, boxOf b ⊆ boxOf root) (t : Bvh.Tree F32)
    (h : recreate old (Source.ofAabbs boxes cents) root = .ok t) (planes : List (Plane F32))
    (hp : ∀ pl ∈ planes, PlaneWithin (2 ^ 60) pl) :
    ∃ out, collectInFrustum t planes = .ok out ∧
      ∀ q b, boxes[q]? = some b → b.isBehindFrustum planes = false → q ∈ out := by
  obtain ⟨out, h1, -, -, h4⟩ := bvh_collect t _ (wellFormed_recreate old _ root hn t h) planes
  refine ⟨out, h1, fun q b hq hc => (h4 q).mpr ?_⟩
  have hbm := Array.mem_of_getElem? hq
  obtain ⟨l, nd, pos, a1, a2, a3, a4⟩ := query_source hn h hroot (boxes_corners hb) _ (frustum_grows planes hp)
    (Array.getElem?_eq_some_iff.mp hq).1 (hb b hbm) (hin b hbm) (hull_boxes hq (fun lo hi hs => hs)) (by simpa using hc)
  exact ⟨l, nd, pos, a1, a2, by simpa using a3, a4⟩

namespace BoxTest

theorem one_val : (ofRat 1).isFinite = true ∧ (ofRat 1).val = 1 := by
  have h : (ofRat 1).isFinite = true ∧ (ofRat 1).units = 2 ^ 149 := by decide +kernel
  refine ⟨h.1, ?_⟩
  rw [val_units, h.2]; push_cast; norm_num

/-- The reciprocal of a coordinate of moderate size. -/
theorem recip_size {x : F32} (hx : x.isFinite = true) (h1 : 1 / 2 ^ 40 ≤ |rv x|) (h2 : |rv x| ≤ 2 ^ 40) :
    (fdiv (ofRat 1) x).isFinite = true ∧ 1 / 2 ^ 41 ≤ |(fdiv (ofRat 1) x).val| ∧ |(fdiv (ofRat 1) x).val| ≤ 2 ^ 41 := by
  have h1' : 1 / 2 ^ 40 ≤ |x.val| := h1
  have h2' : |x.val| ≤ 2 ^ 40 := h2
  have hp : 0 < |x.val| := lt_of_lt_of_le (by norm_num) h1'
  have h0 : x.val ≠ 0 := abs_pos.mp hp
  have e : |(ofRat 1).val / x.val| = 1 / |x.val| := by rw [one_val.2, abs_div, abs_one]
  have hi : 1 / |x.val| ≤ 2 ^ 40 := by
    rw [div_le_iff₀ hp]; nlinarith
  have lo : 1 / 2 ^ 40 ≤ 1 / |x.val| := one_div_le_one_div_of_le hp h2'
  have a := fdiv_approx one_val.1 hx h0 (M := 1 / |x.val|) (le_of_eq e) (lt_of_le_of_lt hi (by norm_num))
  refine ⟨a.1, ?_⟩
  have a2 := a.2
  have r1 := abs_sub_abs_le_abs_sub ((ofRat 1).val / x.val) ((fdiv (ofRat 1) x).val)
  have r2 := abs_sub_abs_le_abs_sub ((fdiv (ofRat 1) x).val) ((ofRat 1).val / x.val)
  rw [abs_sub_comm] at r1
  rw [e] at r1 r2
  have u : ulp (1 / |x.val|) ≤ (1 / |x.val|) / 2 := by
    unfold ulp
    linarith [lo, show (0:ℝ) < 1 / 2 ^ 40 by norm_num]
  constructor
  · linarith
  · linarith

theorem normSq3 (v : V4 F32) : normSq v.xyz.toList = v.x.val ^ 2 + (v.y.val ^ 2 + v.z.val ^ 2) := by
  simp [normSq, V4.xyz, V3.toList, rv, F32.val]

end BoxTest

/-- C106: the ray test itself, for a ray none of whose direction coordinates is near zero or huge. -/
theorem ray_grows_partial (r : Ray F32) (ho : Within (2 ^ 60) r.origin) (hd : AllFinite [r.direction.x, r.direction.y, r.direction.z])
    (h1 : ∀ x ∈ [r.direction.x, r.direction.y, r.direction.z], 1 / 2 ^ 40 ≤ |rv x| ∧ |rv x| ≤ 2 ^ 40) :
    Grows (2 ^ 60) (fun b => b.raycast r) := by
  refine rayI_grows_partial (r.setDirection (V4.div (V4.splat (Flt.lit 1)) r.direction) true) ho ?_
  obtain ⟨fx, lx, ux⟩ := recip_size (hd r.direction.x (by simp)) (h1 r.direction.x (by simp)).1 (h1 r.direction.x (by simp)).2
  obtain ⟨fy, ly, uy⟩ := recip_size (hd r.direction.y (by simp)) (h1 r.direction.y (by simp)).1 (h1 r.direction.y (by simp)).2
  obtain ⟨fz, lz, uz⟩ := recip_size (hd r.direction.z (by simp)) (h1 r.direction.z (by simp)).1 (h1 r.direction.z (by simp)).2
  have sq : ∀ {x : ℝ}, 1 / 2 ^ 41 ≤ |x| → |x| ≤ 2 ^ 41 → 1 / 2 ^ 82 ≤ x ^ 2 ∧ x ^ 2 ≤ 2 ^ 82 := by
    intro x a b
    rw [← sq_abs]
    constructor
    · calc (1 : ℝ) / 2 ^ 82 = (1 / 2 ^ 41) ^ 2 := by norm_num
        _ ≤ |x| ^ 2 := by gcongr
    · calc |x| ^ 2 ≤ (2 ^ 41) ^ 2 := by gcongr
        _ = 2 ^ 82 := by norm_num
  obtain ⟨sx, tx⟩ := sq lx ux
  obtain ⟨sy, ty⟩ := sq ly uy
  obtain ⟨sz, tz⟩ := sq lz uz
  let v : V4 F32 := V4.div (V4.splat (Flt.lit 1)) r.direction
  have hv : AllFinite v.xyz.toList := by
    intro w hw
    have : w = fdiv (ofRat 1) r.direction.x ∨ w = fdiv (ofRat 1) r.direction.y ∨ w = fdiv (ofRat 1) r.direction.z := by
      have hw' : w = v.x ∨ w = v.y ∨ w = v.z := by simpa [V4.xyz, V3.toList] using hw
      exact hw'
    rcases this with rfl | rfl | rfl
    · exact fx
    · exact fy
    · exact fz
  have e : normSq v.xyz.toList = (fdiv (ofRat 1) r.direction.x).val ^ 2 + ((fdiv (ofRat 1) r.direction.y).val ^ 2 +
    (fdiv (ofRat 1) r.direction.z).val ^ 2) := normSq3 v
  have u := normalize_accuracy.2.2.2.1 Backend.sse41 v hv (by rw [e]; norm_num at sx sy sz ⊢; linarith) (by rw [e]; norm_num at tx ty tz ⊢; linarith)
  have fin : AllFinite ((Backend.sse41.normalize3 v).xyz.toList) := by
    intro w hw
    obtain ⟨i, hi, rfl⟩ := List.getElem_of_mem hw
    have := u.get (by simpa using hi) (by simpa [V4.xyz, V3.toList] using hi)
    exact this.1
  exact fin

/-- C105: asking a tree for the boxes that hold a point, with `isInside` on the boxes of its nodes, is not such a query: in a
leaf the fourth lane of the upper corner is the number of primitives, and `isInside` compares all four lanes. Here the point
is inside one of the five boxes, and in the root box, and nothing is reported. -/
theorem bvh_point_query_counterexample :
    (BvhCases.box 8 0 0 10 1 1).isInsideP ⟨ofRat 9, ofRat (1 / 2), ofRat (1 / 2), ofRat 0⟩ = true ∧
    BvhCases.row[2]? = some (BvhCases.box 8 0 0 10 1 1) ∧
    ((recreate BvhCases.fresh (Source.ofAabbs BvhCases.row none) (BvhCases.box 0 0 0 22 1 1)).bind fun t =>
      (Bvh.traverse t fun _ nd => nd.aabb.isInsideP ⟨ofRat 9, ofRat (1 / 2), ofRat (1 / 2), ofRat 0⟩).map Trace.leaves) = .ok [] := by
  decide +kernel

/-- C106: with the reciprocal of a zero coordinate, as `raycastI` expects it, a box is hit and a larger one is not: a face of
both lies in the plane the ray stays in, and zero times infinity is not a number. So a query of a tree over that box, whose
root is the larger one, reports nothing. -/
theorem ray_parallel_counterexample :
    let r : Ray F32 := ⟨⟨ofRat 1, fdiv (ofRat 1) (ofRat 0), ofRat 1, ofRat 0⟩, V4.splat 0, V4.splat (ofRat 0)⟩
    (BvhCases.box (-1) 0 0 0 0 1).raycastI r = true ∧ (BvhCases.box (-1) 0 (-1) 1 1 1).raycastI r = false ∧
    ((recreate BvhCases.fresh (Source.ofAabbs #[BvhCases.box (-1) 0 0 0 0 1] none) (BvhCases.box (-1) 0 (-1) 1 1 1)).bind fun t =>
      (Bvh.traverse t fun _ nd => nd.aabb.raycastI r).map Trace.leaves) = .ok [] := by
  decide +kernel

namespace BoxTest

theorem inRange_of {b : Aabb F32} (h : BvhSafe.boxB (2 ^ 19) b = true) : InRange (2 ^ 60) b := by
  obtain ⟨h1, h2, h3⟩ := BvhSafe.box_of h
  have w : ∀ {v : V4 F32}, Within (2 ^ 40) v → Within (2 ^ 60) v := fun hv =>
    ⟨hv.1, hv.2.1.trans (by norm_num), hv.2.2.1.trans (by norm_num), hv.2.2.2.trans (by norm_num)⟩
  exact ⟨w (BvhSafe.grid_within (by norm_num) (by norm_num) h1), w (BvhSafe.grid_within (by norm_num) (by norm_num) h2), h3⟩

theorem sub_of {a b : Aabb F32} (h : (decide (b.min.x.units ≤ a.min.x.units) && decide (b.min.y.units ≤ a.min.y.units) &&
    decide (b.min.z.units ≤ a.min.z.units)) = true) (h' : (decide (a.max.x.units ≤ b.max.x.units) &&
    decide (a.max.y.units ≤ b.max.y.units) && decide (a.max.z.units ≤ b.max.z.units)) = true) : boxOf a ⊆ boxOf b :=
  box_sub (BvhSafe.below_of h) (BvhSafe.below_of h')

/-- A plane, a ball and a ray for the examples. -/
def cut : Plane F32 := ⟨⟨ofRat (-1), ofRat 0, ofRat 0, ofRat 7⟩⟩
def ball : Sphere F32 := ⟨⟨ofRat 5, ofRat 0, ofRat 0, ofRat 1⟩⟩
def beam : Ray F32 := ⟨⟨ofRat 1, ofRat (1 / 64), ofRat (1 / 32), ofRat 0⟩, V4.splat 0, ⟨ofRat 7, ofRat 0, ofRat 0, ofRat 0⟩⟩
/-- The same ray with the reciprocals, as `raycastI` takes it. -/
def beamI : Ray F32 := ⟨⟨ofRat 1, ofRat 64, ofRat 32, ofRat 0⟩, V4.splat 0, ⟨ofRat 7, ofRat 0, ofRat 0, ofRat 0⟩⟩

theorem within_of_grid {v : V4 F32} (h : BvhSafe.pointB (2 ^ 19) v = true) : Within (2 ^ 60) v := by
  have hv := BvhSafe.grid_within (s := 0) (by norm_num) (by norm_num) (BvhSafe.point_of h)
  exact ⟨hv.1, hv.2.1.trans (by norm_num), hv.2.2.1.trans (by norm_num), hv.2.2.2.trans (by norm_num)⟩

theorem row_hyps : (∀ b ∈ BvhCases.row, InRange (2 ^ 60) b) ∧ InRange (2 ^ 60) (BvhCases.box 0 0 0 22 1 1) ∧
    ∀ b ∈ BvhCases.row, boxOf b ⊆ boxOf (BvhCases.box 0 0 0 22 1 1) := by
  have h1 : (BvhCases.row.toList.all (BvhSafe.boxB (2 ^ 19))) = true := by decide +kernel
  have h2 : BvhSafe.boxB (2 ^ 19) (BvhCases.box 0 0 0 22 1 1) = true := by decide +kernel
  have h3 : (BvhCases.row.toList.all fun a => let b := BvhCases.box 0 0 0 22 1 1
    (decide (b.min.x.units ≤ a.min.x.units) && decide (b.min.y.units ≤ a.min.y.units) &&
      decide (b.min.z.units ≤ a.min.z.units)) && (decide (a.max.x.units ≤ b.max.x.units) &&
      decide (a.max.y.units ≤ b.max.y.units) && decide (a.max.z.units ≤ b.max.z.units))) = true := by decide +kernel
  refine ⟨fun b hb => inRange_of (List.all_eq_true.1 h1 b (Array.mem_toList_iff.2 hb)), inRange_of h2, fun b hb => ?_⟩
  have := List.all_eq_true.1 h3 b (Array.mem_toList_iff.2 hb)
  rw [Bool.and_eq_true] at this
  exact sub_of this.1 this.2

end BoxTest

/-- Non-vacuity of C105 and C106: the tree over five boxes, a ball that meets three of them and a ray that meets two. -/
example : ∃ t tr tr' out, recreate BvhCases.fresh (Source.ofAabbs BvhCases.row none) (BvhCases.box 0 0 0 22 1 1) = .ok t ∧
    Bvh.traverse t (fun _ nd => ball.isIntersectedB nd.aabb) = .ok tr ∧ Reported t tr 1 ∧ Reported t tr 3 ∧
    Bvh.traverse t (fun _ nd => nd.aabb.raycastI beamI) = .ok tr' ∧ Reported t tr' 2 ∧ Reported t tr' 4 ∧
    collectInFrustum t [cut] = .ok out ∧ 0 ∈ out ∧ 1 ∈ out ∧ 3 ∈ out := by
  obtain ⟨b1, b2, b3⟩ := row_hyps
  obtain ⟨t, h, _⟩ := row_builds
  have s1 : ball.isIntersectedB (BvhCases.box 4 0 0 6 1 1) = true ∧ ball.isIntersectedB (BvhCases.box 3 0 0 5 1 1) = true := by
    decide +kernel
  have s2 : (BvhCases.box 8 0 0 10 1 1).raycastI beamI = true ∧ (BvhCases.box 20 0 0 22 1 1).raycastI beamI = true := by
    decide +kernel
  have s3 : (BvhCases.box 0 0 0 2 1 1).isBehindFrustum [cut] = false ∧ (BvhCases.box 4 0 0 6 1 1).isBehindFrustum [cut] = false ∧
      (BvhCases.box 3 0 0 5 1 1).isBehindFrustum [cut] = false := by decide +kernel
  have mem : ∀ {q : ℕ} {b : Aabb F32}, BvhCases.row[q]? = some b → b ∈ BvhCases.row := fun e => Array.mem_of_getElem? e
  obtain ⟨tr, e1, e2⟩ := bvh_query_boxes _ _ _ _ (by decide) b1 b2 b3 t h _ (sphere_grows ball (within_of_grid (by decide +kernel)))
  obtain ⟨tr', f1, f2⟩ := bvh_query_boxes _ _ _ _ (by decide) b1 b2 b3 t h _ (rayI_grows_partial beamI (within_of_grid (by decide +kernel))
    (by unfold AllFinite; decide +kernel))
  obtain ⟨out, g1, g2⟩ := bvh_collect_f32 _ _ _ _ (by decide) b1 b2 b3 t h [cut] (by
    intro pl hp
    rw [List.mem_singleton.1 hp]
    refine ⟨within_of_grid (by decide +kernel), by decide +kernel, ?_⟩
    have : cut.normDist.w.units = 7 * 2 ^ 149 := by decide +kernel
    show |cut.normDist.w.val| ≤ 2 ^ 60
    rw [val_units, this]; push_cast; norm_num [abs_of_pos])
  have r0 : BvhCases.row[0]? = some (BvhCases.box 0 0 0 2 1 1) := rfl
  have r1 : BvhCases.row[1]? = some (BvhCases.box 4 0 0 6 1 1) := rfl
  have r2 : BvhCases.row[2]? = some (BvhCases.box 8 0 0 10 1 1) := rfl
  have r3 : BvhCases.row[3]? = some (BvhCases.box 3 0 0 5 1 1) := rfl
  have r4 : BvhCases.row[4]? = some (BvhCases.box 20 0 0 22 1 1) := rfl
  exact ⟨t, tr, tr', out, h, e1, e2 1 _ _ r1 (b1 _ (mem r1)) subset_rfl s1.1, e2 3 _ _ r3 (b1 _ (mem r3)) subset_rfl s1.2,
    f1, f2 2 _ _ r2 (b1 _ (mem r2)) subset_rfl s2.1, f2 4 _ _ r4 (b1 _ (mem r4)) subset_rfl s2.2,
    g1, g2 0 _ r0 s3.1, g2 1 _ r1 s3.2.1, g2 3 _ r3 s3.2.2⟩

/-- The direction of the ray above meets the hypotheses of `ray_grows_partial`, and the larger of two boxes is hit too. -/
example : Grows (2 ^ 60) (fun b => b.raycast beam) ∧ (BvhCases.box 8 0 0 10 1 1).raycast beam = true := by
  refine ⟨ray_grows_partial beam (within_of_grid (by decide +kernel)) (by unfold AllFinite; decide +kernel) ?_, by decide +kernel⟩
  have u : beam.direction.x.units = 2 ^ 149 ∧ beam.direction.y.units = 2 ^ 143 ∧ beam.direction.z.units = 2 ^ 144 := by decide +kernel
  intro x hx
  simp only [List.mem_cons, List.not_mem_nil, or_false] at hx
  show 1 / 2 ^ 40 ≤ |x.val| ∧ |x.val| ≤ 2 ^ 40
  rcases hx with rfl | rfl | rfl
  · rw [val_units, u.1]; push_cast; norm_num [abs_of_pos]
  · rw [val_units, u.2.1]; push_cast; norm_num [abs_of_pos]
  · rw [val_units, u.2.2]; push_cast; norm_num [abs_of_pos]

namespace BoxTest
/-- Two triangles for the example. -/
def sails : Array (Triangle F32) := #[⟨BvhCases.vec 0 0 0, BvhCases.vec 1 0 0, BvhCases.vec 0 1 0⟩,
      ⟨BvhCases.vec 7 0 0, BvhCases.vec 5 2 0, BvhCases.vec 6 0 1⟩]
end BoxTest

/-- The bounding box of a triangle lies within every box around the triangle. -/
theorem bounds_inHull (a : Aabb F32) (p q r : V4 F32)
    (hx : min (rv p.x) (min (rv q.x) (rv r.x)) ≤ rv a.min.x ∧ rv a.max.x ≤ max (rv p.x) (max (rv q.x) (rv r.x)))
    (hy : min (rv p.y) (min (rv q.y) (rv r.y)) ≤ rv a.min.y ∧ rv a.max.y ≤ max (rv p.y) (max (rv q.y) (rv r.y)))
    (hz : min (rv p.z) (min (rv q.z) (rv r.z)) ≤ rv a.min.z ∧ rv a.max.z ≤ max (rv p.z) (max (rv q.z) (rv r.z))) :
    InHull a (Tri (pt p) (pt q) (pt r)) := by
  intro lo hi h
  have hp : pt p ∈ Tri (pt p) (pt q) (pt r) := ⟨1, 0, 0, by norm_num, by norm_num, by norm_num, by norm_num, by simp [pt, combo]⟩
  have hq : pt q ∈ Tri (pt p) (pt q) (pt r) := ⟨0, 1, 0, by norm_num, by norm_num, by norm_num, by norm_num, by simp [pt, combo]⟩
  have hr : pt r ∈ Tri (pt p) (pt q) (pt r) := ⟨0, 0, 1, by norm_num, by norm_num, by norm_num, by norm_num, by simp [pt, combo]⟩
  obtain ⟨⟨p1, p2, p3⟩, p4, p5, p6⟩ := mem_iff_box.mp (h hp)
  obtain ⟨⟨q1, q2, q3⟩, q4, q5, q6⟩ := mem_iff_box.mp (h hq)
  obtain ⟨⟨r1, r2, r3⟩, r4, r5, r6⟩ := mem_iff_box.mp (h hr)
  exact box_sub ⟨(le_min p1 (le_min q1 r1)).trans hx.1, (le_min p2 (le_min q2 r2)).trans hy.1, (le_min p3 (le_min q3 r3)).trans hz.1⟩
    ⟨hx.2.trans (max_le p4 (max_le q4 r4)), hy.2.trans (max_le p5 (max_le q5 r5)), hz.2.trans (max_le p6 (max_le q6 r6))⟩

/-- Non-vacuity of C105 for triangles: a tree over two triangles and a ball that meets the bounding box of the second. -/
example : ∃ t tr, recreate BvhCases.fresh (Source.ofTriangles sails none) (BvhCases.box 0 0 0 7 2 1) = .ok t ∧
    Bvh.traverse t (fun _ nd => ball.isIntersectedB nd.aabb) = .ok tr ∧ Reported t tr 1 := by
  have hp : ([BvhCases.vec 0 0 0, BvhCases.vec 1 0 0, BvhCases.vec 0 1 0, BvhCases.vec 7 0 0, BvhCases.vec 5 2 0,
    BvhCases.vec 6 0 1].all (BvhSafe.pointB (2 ^ 17))) = true := by decide +kernel
  have hroot : BvhSafe.boxB (2 ^ 19) (BvhCases.box 0 0 0 7 2 1) = true := by decide +kernel
  have hk : BvhSafe.boxB (2 ^ 19) (BvhCases.box 5 0 0 7 2 1) = true := by decide +kernel
  have hs : ball.isIntersectedB (BvhCases.box 5 0 0 7 2 1) = true := by decide +kernel
  have hp' := List.all_eq_true.1 hp
  have hcases : ∀ b ∈ sails,
      b = ⟨BvhCases.vec 0 0 0, BvhCases.vec 1 0 0, BvhCases.vec 0 1 0⟩ ∨
        b = ⟨BvhCases.vec 7 0 0, BvhCases.vec 5 2 0, BvhCases.vec 6 0 1⟩ := by
    intro b hb
    rw [← Array.mem_toList_iff] at hb
    rcases List.mem_cons.1 hb with h | h
    · exact Or.inl h
    · exact Or.inr (List.mem_singleton.1 h)
  have hw : ∀ {v : V4 F32}, BvhSafe.pointB (2 ^ 17) v = true → Within (2 ^ 60) v := by
    intro v h
    have hv := BvhSafe.grid_within (s := 0) (by norm_num) (by norm_num) (BvhSafe.point_of h)
    exact ⟨hv.1, hv.2.1.trans (by norm_num), hv.2.2.1.trans (by norm_num), hv.2.2.2.trans (by norm_num)⟩
  obtain ⟨g1, g2, g3⟩ := BvhSafe.box_of hroot
  obtain ⟨t, h, -⟩ := bvh_build_triangles BvhCases.fresh sails (BvhCases.box 0 0 0 7 2 1) 0 (by norm_num) (by norm_num) (by decide) (by decide) (fun b hb => by
      rcases hcases b hb with rfl | rfl
      · exact ⟨BvhSafe.point_of (hp' _ (by simp)), BvhSafe.point_of (hp' _ (by simp)), BvhSafe.point_of (hp' _ (by simp))⟩
      · exact ⟨BvhSafe.point_of (hp' _ (by simp)), BvhSafe.point_of (hp' _ (by simp)), BvhSafe.point_of (hp' _ (by simp))⟩)
    (BvhSafe.grid_within (by norm_num) (by norm_num) g1) (BvhSafe.grid_within (by norm_num) (by norm_num) g2) g3
  obtain ⟨tr, e1, e2⟩ := bvh_query_triangles _ sails none (BvhCases.box 0 0 0 7 2 1) (by decide) (fun b hb => by
      rcases hcases b hb with rfl | rfl
      · exact ⟨hw (hp' _ (by simp)), hw (hp' _ (by simp)), hw (hp' _ (by simp))⟩
      · exact ⟨hw (hp' _ (by simp)), hw (hp' _ (by simp)), hw (hp' _ (by simp))⟩)
    (inRange_of hroot) (fun b hb => by
      have le : ∀ {p q : V4 F32}, (decide (p.x.units ≤ q.x.units) && decide (p.y.units ≤ q.y.units) &&
        decide (p.z.units ≤ q.z.units)) = true → Le3 (pt p) (pt q) := fun h => BvhSafe.below_of h
      rcases hcases b hb with rfl | rfl
      · exact tri_sub_box ⟨le (by decide +kernel), le (by decide +kernel), le (by decide +kernel)⟩
          ⟨le (by decide +kernel), le (by decide +kernel), le (by decide +kernel)⟩
      · exact tri_sub_box ⟨le (by decide +kernel), le (by decide +kernel), le (by decide +kernel)⟩
          ⟨le (by decide +kernel), le (by decide +kernel), le (by decide +kernel)⟩)
    t h _ (sphere_grows ball (within_of_grid (by decide +kernel)))
  refine ⟨t, tr, h, e1, e2 1 _ (BvhCases.box 5 0 0 7 2 1) rfl (inRange_of hk) (bounds_inHull _ _ _ _ ?_ ?_ ?_) hs⟩
  · exact ⟨(min_le_right _ _).trans (min_le_left _ _), le_max_left _ _⟩
  · exact ⟨min_le_left _ _, (le_max_left _ _).trans (le_max_right _ _)⟩
  · exact ⟨min_le_left _ _, (le_max_right _ _).trans (le_max_right _ _)⟩

end Verif
