import Verif.Spec.RayAxis
import Verif.Props.RayTargets

/-! # C106: axis-parallel rays, on every backend -/

namespace Verif
open Bvh Spec F32 BoxTest RayTargets

namespace RayTargets

theorem diff_ne {x o : F32} (hx : x.isFinite = true) (bx : |x.val| ≤ 2 ^ 60) (ho : o.isFinite = true) (bo : |o.val| ≤ 2 ^ 60)
    (h : x.val ≠ o.val) : (fsub x o).isFinite = true ∧ (fsub x o).mag ≠ 0 := by
  have b : |x.val - o.val| < 2 ^ 127 := by
    have := abs_sub x.val o.val
    calc |x.val - o.val| ≤ |x.val| + |o.val| := abs_sub _ _
      _ < 2 ^ 127 := by norm_num at bx bo ⊢; linarith
  obtain ⟨f, e⟩ := fsub_err' hx ho b
  refine ⟨f, fun hm => ?_⟩
  have u : (fsub x o).units = 0 := by unfold F32.units; rw [hm]; cases (fsub x o).signBit <;> decide
  rw [val_units, u] at e
  have p : 0 < |x.val - o.val| := abs_pos.2 (sub_ne_zero.2 h)
  rw [Int.cast_zero, zero_div, zero_sub, abs_neg] at e
  unfold uro at e
  norm_num at e
  linarith

theorem mul_inf {x d : F32} (hx : x.isFinite = true ∧ x.mag ≠ 0) (hn : d.isNaN = false) (hd : d.isFinite = false) :
    fmul x d = inf (x.signBit != d.signBit) := by
  have hi : d.isInf = true := by
    unfold isNaN at hn; unfold isFinite at hd; unfold isInf
    rw [decide_eq_false_iff_not] at hn hd
    rw [decide_eq_true_iff]; omega
  have h0 : d.mag ≠ 0 := by
    unfold isInf infMag at hi
    rw [decide_eq_true_iff] at hi; omega
  unfold fmul
  rw [finite_not_nan hx.1, hn, hi]
  simp [hx.2, h0]

theorem inf_facts : (inf true).isNaN = false ∧ (inf false).isNaN = false ∧ (inf true).key ≤ (inf false).key := by decide +kernel

theorem mul_inf_nan {x d : F32} (hx : x.isFinite = true ∧ x.mag ≠ 0) (hn : d.isNaN = false) (hd : d.isFinite = false) :
    (fmul x d).isNaN = false := by
  rw [mul_inf hx hn hd]
  cases x.signBit != d.signBit
  · exact inf_facts.2.1
  · exact inf_facts.1

theorem mul_inf_le {x y d : F32} (hx : x.isFinite = true ∧ x.mag ≠ 0) (hy : y.isFinite = true ∧ y.mag ≠ 0) (hn : d.isNaN = false)
    (hd : d.isFinite = false) (h : x.key ≤ y.key) :
    if d.signBit then (fmul y d).key ≤ (fmul x d).key else (fmul x d).key ≤ (fmul y d).key := by
  rw [mul_inf hx hn hd, mul_inf hy hn hd]
  have i := inf_facts.2.2
  have q : ¬ (x.signBit = false ∧ y.signBit = true) := by
    rintro ⟨a, b⟩
    unfold F32.key at h
    rw [a, b] at h
    have := hx.2; have := hy.2
    simp only [Bool.false_eq_true, if_false, if_true] at h
    omega
  cases hs : x.signBit <;> cases ht : y.signBit <;> cases d.signBit <;> first | exact le_refl _ | exact i | exact absurd ⟨hs, ht⟩ q

/-- One axis, also when the reciprocal is infinite. -/
theorem lane_clear {o d lo hi lo' hi' : F32} (ho : o.isFinite = true) (bo : |o.val| ≤ 2 ^ 60)
    (h : Lane (2 ^ 60) lo hi) (h' : Lane (2 ^ 60) lo' hi') (hin : Inside lo hi lo' hi') (c : ClearAxis d o lo hi) (c' : ClearAxis d o lo' hi') :
    (Le (Flt.mmMin (fmul (fsub lo' o) d) (fmul (fsub hi' o) d)) (Flt.mmMin (fmul (fsub lo o) d) (fmul (fsub hi o) d)) ∧
    Le (Flt.mmMax (fmul (fsub lo o) d) (fmul (fsub hi o) d)) (Flt.mmMax (fmul (fsub lo' o) d) (fmul (fsub hi' o) d))) ∧
    ((fmul (fsub lo o) d).isNaN = false ∧ (fmul (fsub hi o) d).isNaN = false) ∧
    ((fmul (fsub lo' o) d).isNaN = false ∧ (fmul (fsub hi' o) d).isNaN = false) := by
  by_cases hd : d.isFinite = true
  · have fin : ∀ {x : F32}, x.isFinite = true → |x.val| ≤ 2 ^ 60 → (fmul (fsub x o) d).isNaN = false := fun hx bx =>
      (fmul_finite (BoxTest.sub_bd hx ho bx bo (by norm_num) (by norm_num)).1 hd).1
    exact ⟨lane_slab ho bo hd h h' hin, ⟨fin h.flo h.blo, fin h.fhi h.bhi⟩, ⟨fin h'.flo h'.blo, fin h'.fhi h'.bhi⟩⟩
  · obtain ⟨hn, q1, q2⟩ := c.resolve_left hd
    obtain ⟨-, q3, q4⟩ := c'.resolve_left hd
    rw [Bool.not_eq_true] at hd
    have f1 := diff_ne h.flo h.blo ho bo q1
    have f2 := diff_ne h.fhi h.bhi ho bo q2
    have f3 := diff_ne h'.flo h'.blo ho bo q3
    have f4 := diff_ne h'.fhi h'.bhi ho bo q4
    have n1 := mul_inf_nan f1 hn hd
    have n2 := mul_inf_nan f2 hn hd
    have n3 := mul_inf_nan f3 hn hd
    have n4 := mul_inf_nan f4 hn hd
    refine ⟨?_, ⟨n1, n2⟩, n3, n4⟩
    have s : ∀ {x y : F32}, x.isFinite = true → y.isFinite = true → x.key ≤ y.key → (fsub x o).key ≤ (fsub y o).key := by
      intro x y hx hy hxy
      exact sub_le hx ho hy ho (by have := (units_le_iff _ _).2 hxy; omega)
    have w1 := mul_inf_le f3 f1 hn hd (s h'.flo h.flo hin.1)
    have w2 := mul_inf_le f1 f2 hn hd (s h.flo h.fhi h.ord)
    have w3 := mul_inf_le f2 f4 hn hd (s h.fhi h'.fhi hin.2)
    obtain ⟨a1, a2⟩ := mmMin_key n3 n4
    obtain ⟨a3, a4⟩ := mmMin_key n1 n2
    obtain ⟨a5, a6⟩ := mmMax_key n3 n4
    obtain ⟨a7, a8⟩ := mmMax_key n1 n2
    cases hs : d.signBit <;> rw [hs] at w1 w2 w3 <;> simp only [Bool.false_eq_true, if_false, if_true] at w1 w2 w3
    · exact ⟨⟨a1, a3, by omega⟩, ⟨a7, a5, by omega⟩⟩
    · exact ⟨⟨a1, a3, by omega⟩, ⟨a7, a5, by omega⟩⟩

end RayTargets

/-- C106: on every backend, a ray given by the reciprocals of its direction, infinite along the axes it is perpendicular to, that
meets a box meets every larger box, when no face of either box lies in a plane that holds the ray.
`ray_parallel_targets_counterexample` shows that the last condition is needed. -/
theorem rayI_grows_axis_partial (k : Backend) (r : Ray F32) (ho : Within (2 ^ 60) r.origin) (a c : Aabb F32) (ha : InRange (2 ^ 60) a)
    (hc : InRange (2 ^ 60) c) (h : boxOf a ⊆ boxOf c) (ca : ClearOf r a) (cc : ClearOf r c) (ht : a.raycastIOn k r = true) :
    c.raycastIOn k r = true := by
  obtain ⟨x, y, z⟩ := lanes ha
  obtain ⟨x', y', z'⟩ := lanes hc
  obtain ⟨ix, iy, iz⟩ := insides ha h
  obtain ⟨f, b1, b2, b3⟩ := ho
  simp only [AllFinite, List.mem_cons, List.not_mem_nil, or_false, forall_eq_or_imp, forall_eq] at f
  obtain ⟨f1, f2, f3⟩ := f
  obtain ⟨⟨X, X'⟩, nx, nx'⟩ := lane_clear f1 b1 x x' ix ca.1 cc.1
  obtain ⟨⟨Y, Y'⟩, ny, ny'⟩ := lane_clear f2 b2 y y' iy ca.2.1 cc.2.1
  obtain ⟨⟨Z, Z'⟩, nz, nz'⟩ := lane_clear f3 b3 z z' iz ca.2.2 cc.2.2
  rw [(raycastI_targets_agree k c r (Or.inr nx') (Or.inr ny') (Or.inr nz')).1, raycastI_answer]
  rw [(raycastI_targets_agree k a r (Or.inr nx) (Or.inr ny) (Or.inr nz)).1, raycastI_answer] at ht
  have nlo : (minusFltMax : F32).isNaN = false := okLimits_f32.2
  have nhi : (fltMax : F32).isNaN = false := okLimits_f32.1
  exact answer_mono (Le.ite (c := top r.isParallel.x) (Le.refl nlo) X) (Le.ite (c := top r.isParallel.y) (Le.refl nlo) Y)
    (Le.ite (c := top r.isParallel.z) (Le.refl nlo) Z) (Le.ite (c := top r.isParallel.x) (Le.refl nhi) X')
    (Le.ite (c := top r.isParallel.y) (Le.refl nhi) Y') (Le.ite (c := top r.isParallel.z) (Le.refl nhi) Z')
    (out_mono f1 x x' ix) (out_mono f2 y y' iy) (out_mono f3 z z' iz) ht

namespace RayTargets
/-- A ray along the first axis, with the reciprocals of its direction. -/
def along : Ray F32 := ⟨⟨ofRat 1, fdiv (ofRat 1) (ofRat 0), fdiv (ofRat 1) (ofRat 0), ofRat 0⟩, V4.splat 0, V4.splat (ofRat 0)⟩
end RayTargets

/-- The hypotheses hold of a ray along an axis and two boxes, of which the inner one is hit. -/
example (k : Backend) : (BvhCases.box 1 (-1) (-1) 2 1 1).raycastIOn k along = true ∧
    (BvhCases.box 0 (-2) (-1) 3 1 1).raycastIOn k along = true := by
  have ht : (BvhCases.box 1 (-1) (-1) 2 1 1).raycastIOn k along = true := by cases k <;> decide +kernel
  have n : ∀ {p q : F32}, p.units ≠ q.units → rv p ≠ rv q := by
    intro p q h e
    have e' : p.val = q.val := e
    rw [val_units, val_units, div_left_inj' (by positivity)] at e'
    exact h (by exact_mod_cast e')
  refine ⟨ht, rayI_grows_axis_partial k along (within_of_grid (by decide +kernel)) (BvhCases.box 1 (-1) (-1) 2 1 1)
    (BvhCases.box 0 (-2) (-1) 3 1 1) (inRange_of (by decide +kernel)) (inRange_of (by decide +kernel)) ?_ ?_ ?_ ht⟩
  · exact sub_of (by decide +kernel) (by decide +kernel)
  · exact ⟨Or.inl (by decide +kernel), Or.inr ⟨by decide +kernel, n (by decide +kernel), n (by decide +kernel)⟩,
      Or.inr ⟨by decide +kernel, n (by decide +kernel), n (by decide +kernel)⟩⟩
  · exact ⟨Or.inl (by decide +kernel), Or.inr ⟨by decide +kernel, n (by decide +kernel), n (by decide +kernel)⟩,
      Or.inr ⟨by decide +kernel, n (by decide +kernel), n (by decide +kernel)⟩⟩

end Verif
