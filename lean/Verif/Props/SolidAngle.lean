import Mathlib.Analysis.SpecialFunctions.Trigonometric.ArctanDeriv
import Mathlib.Analysis.SpecialFunctions.Complex.Arg
import Mathlib.Analysis.SpecialFunctions.Sqrt
import Verif.Model.Sh
import Verif.Props.Ibl
import Verif.Spec.SolidAngle

/-!
# Solid angles of cube map texels (C74)
-/

namespace Verif
open Sh Spec Ibl

namespace SolidAngle

theorem pos1 (x y : ℝ) : 0 < 1 + x ^ 2 + y ^ 2 := by positivity

/-- The closed form computed by `sphereQuadrantArea`. -/
theorem quadrant_eq (x y : ℝ) :
    sphereQuadrantArea x y = Real.arctan (x * y / Real.sqrt (1 + x ^ 2 + y ^ 2)) := by
  have hs : 0 < Real.sqrt (1 + x ^ 2 + y ^ 2) := Real.sqrt_pos.2 (pos1 x y)
  have e : V3.length (⟨x, y, 1⟩ : V3 ℝ) = Real.sqrt (1 + x ^ 2 + y ^ 2) := by
    simp only [vec]; congr 1; ring
  unfold sphereQuadrantArea
  simp only [Flt.real_lit, Flt.real_mul, FltT.real_atan2, Rat.cast_one, e]
  set z : ℂ := ⟨Real.sqrt (1 + x ^ 2 + y ^ 2), x * y⟩ with hz
  have h1 : |z.arg| < Real.pi / 2 := Complex.abs_arg_lt_pi_div_two_iff.2 (Or.inl hs)
  rw [abs_lt] at h1
  rw [← Real.arctan_tan h1.1 h1.2, Complex.tan_arg]

theorem sq_sqrt1 (x y : ℝ) : Real.sqrt (1 + x ^ 2 + y ^ 2) ^ 2 = 1 + x ^ 2 + y ^ 2 :=
  Real.sq_sqrt (pos1 x y).le

theorem deriv_y (x y : ℝ) :
    HasDerivAt (fun y => y / ((1 + x ^ 2) * Real.sqrt (1 + x ^ 2 + y ^ 2))) (angleDensity x y) y := by
  have hs : 0 < Real.sqrt (1 + x ^ 2 + y ^ 2) := Real.sqrt_pos.2 (pos1 x y)
  have hx : (0 : ℝ) < 1 + x ^ 2 := by positivity
  have d1 : HasDerivAt (fun y : ℝ => 1 + x ^ 2 + y ^ 2) (2 * y) y := by
    simpa using ((hasDerivAt_id y).pow 2).const_add (1 + x ^ 2)
  have d2 := d1.sqrt (pos1 x y).ne'
  have d3 := (hasDerivAt_id y).div (d2.const_mul (1 + x ^ 2)) (by positivity)
  refine d3.congr_deriv ?_
  unfold angleDensity
  have h2 := sq_sqrt1 x y
  simp only [id]
  generalize Real.sqrt (1 + x ^ 2 + y ^ 2) = s at *
  field_simp
  linear_combination h2

theorem deriv_x (x y : ℝ) :
    HasDerivAt (fun x => Real.arctan (x * y / Real.sqrt (1 + x ^ 2 + y ^ 2)))
      (y / ((1 + x ^ 2) * Real.sqrt (1 + x ^ 2 + y ^ 2))) x := by
  have hs : 0 < Real.sqrt (1 + x ^ 2 + y ^ 2) := Real.sqrt_pos.2 (pos1 x y)
  have hx : (0 : ℝ) < 1 + x ^ 2 := by positivity
  have d1 : HasDerivAt (fun x : ℝ => 1 + x ^ 2 + y ^ 2) (2 * x) x := by
    simpa using (((hasDerivAt_id x).pow 2).const_add 1).add_const (y ^ 2)
  have d2 := d1.sqrt (pos1 x y).ne'
  have d0 : HasDerivAt (fun x : ℝ => x * y / Real.sqrt (1 + x ^ 2 + y ^ 2)) _ x :=
    ((hasDerivAt_id x).mul_const y).div d2 hs.ne'
  have d3 := d0.arctan
  refine d3.congr_deriv ?_
  have h2 := sq_sqrt1 x y
  simp only [id]
  clear d0 d3
  generalize Real.sqrt (1 + x ^ 2 + y ^ 2) = s at *
  have hq : 0 < s ^ 2 + (x * y) ^ 2 := by positivity
  have e : 1 + (x * y / s) ^ 2 = (1 + x ^ 2) * (1 + y ^ 2) / s ^ 2 := by
    field_simp; linear_combination h2
  rw [e]
  have hy : (0 : ℝ) < 1 + y ^ 2 := by positivity
  field_simp
  linear_combination y * h2

theorem cont_sqrt : Continuous fun p : ℝ × ℝ => Real.sqrt (1 + p.1 ^ 2 + p.2 ^ 2) := by fun_prop

theorem inner_integral (x y0 y1 : ℝ) :
    ∫ y in y0..y1, angleDensity x y =
      y1 / ((1 + x ^ 2) * Real.sqrt (1 + x ^ 2 + y1 ^ 2)) - y0 / ((1 + x ^ 2) * Real.sqrt (1 + x ^ 2 + y0 ^ 2)) := by
  refine intervalIntegral.integral_eq_sub_of_hasDerivAt (fun y _ => deriv_y x y) ?_
  apply Continuous.intervalIntegrable
  unfold angleDensity
  refine continuous_const.div (by fun_prop) ?_
  intro y
  have hs : 0 < Real.sqrt (1 + x ^ 2 + y ^ 2) := Real.sqrt_pos.2 (pos1 x y)
  positivity

theorem outer_integrable (y x0 x1 : ℝ) :
    IntervalIntegrable (fun x => y / ((1 + x ^ 2) * Real.sqrt (1 + x ^ 2 + y ^ 2))) MeasureTheory.volume x0 x1 := by
  apply Continuous.intervalIntegrable
  refine continuous_const.div (by fun_prop) ?_
  intro x
  have hs : 0 < Real.sqrt (1 + x ^ 2 + y ^ 2) := Real.sqrt_pos.2 (pos1 x y)
  positivity

theorem rect_closed (x0 x1 y0 y1 : ℝ) :
    rectAngle x0 x1 y0 y1 =
      sphereQuadrantArea x0 y0 - sphereQuadrantArea x0 y1 - sphereQuadrantArea x1 y0 + sphereQuadrantArea x1 y1 := by
  unfold rectAngle
  simp only [inner_integral, quadrant_eq]
  rw [intervalIntegral.integral_sub (outer_integrable _ _ _) (outer_integrable _ _ _),
    intervalIntegral.integral_eq_sub_of_hasDerivAt (fun x _ => deriv_x x y1) (outer_integrable _ _ _),
    intervalIntegral.integral_eq_sub_of_hasDerivAt (fun x _ => deriv_x x y0) (outer_integrable _ _ _)]
  ring

end SolidAngle
open SolidAngle

/-- C74: for every point of a face and every half-size of a texel, `calcSolidAngle` is exactly the solid angle under
which the square around the point is seen. -/
theorem solidAngle_exact (st : V2 ℝ) (h : ℝ) :
    calcSolidAngle st h = rectAngle (st.x - h) (st.x + h) (st.y - h) (st.y + h) := by
  rw [rect_closed]
  simp only [calcSolidAngle, V2.sub, V2.add, V2.splat, V2.map2, Flt.real_sub, Flt.real_add]

/-- C74: the solid angle of a non-empty texel is positive. -/
theorem solidAngle_pos (st : V2 ℝ) (h : ℝ) (hh : 0 < h) : 0 < calcSolidAngle st h := by
  rw [solidAngle_exact]
  unfold rectAngle
  have dpos : ∀ x y, 0 < angleDensity x y := by
    intro x y
    have hs : 0 < Real.sqrt (1 + x ^ 2 + y ^ 2) := Real.sqrt_pos.2 (pos1 x y)
    unfold angleDensity
    positivity
  have ci : ∀ x : ℝ, Continuous fun y => angleDensity x y := by
    intro x
    unfold angleDensity
    refine continuous_const.div (by fun_prop) ?_
    intro y
    have hs : 0 < Real.sqrt (1 + x ^ 2 + y ^ 2) := Real.sqrt_pos.2 (pos1 x y)
    positivity
  have hi : ∀ x : ℝ, 0 < ∫ y in (st.y - h)..(st.y + h), angleDensity x y := fun x =>
    intervalIntegral.intervalIntegral_pos_of_pos ((ci x).intervalIntegrable _ _) (fun y => dpos x y) (by linarith)
  refine intervalIntegral.intervalIntegral_pos_of_pos ?_ hi (by linarith)
  simp only [inner_integral]
  exact (outer_integrable _ _ _).sub (outer_integrable _ _ _)

private theorem telescope (D : Nat → Nat → ℝ) (n : Nat) :
    ∑ i ∈ Finset.range n, ∑ j ∈ Finset.range n, (D (i+1) (j+1) - D (i+1) j - D i (j+1) + D i j) =
      D n n - D n 0 - D 0 n + D 0 0 := by
  have e : ∀ i, ∑ j ∈ Finset.range n, (D (i+1) (j+1) - D (i+1) j - D i (j+1) + D i j) =
      (D (i+1) n - D (i+1) 0) - (D i n - D i 0) := by
    intro i
    rw [← Finset.sum_range_sub (fun j => D (i+1) j), ← Finset.sum_range_sub (fun j => D i j),
      ← Finset.sum_sub_distrib]
    exact Finset.sum_congr rfl (fun j _ => by ring)
  simp only [e]
  rw [Finset.sum_range_sub (fun i => D i n - D i 0)]
  ring

/-- C74: for every texture size, the solid angles of the texels of one face, taken at the texel centers with the
half-size `1/n`, add up to a sixth of the sphere: `2 pi / 3`. -/
theorem solidAngle_face (n : Nat) (hn : 0 < n) (hn32 : n ≤ 2 ^ 32) :
    ∑ i ∈ Finset.range n, ∑ j ∈ Finset.range n,
      calcSolidAngle (coordsToST ⟨BitVec.ofNat 32 i, BitVec.ofNat 32 j⟩ (1 / (n : ℝ))) (1 / n) =
      4 * Real.pi / 6 := by
  have hn' : (n : ℝ) ≠ 0 := by exact_mod_cast hn.ne'
  have step : ∀ i ∈ Finset.range n, ∀ j ∈ Finset.range n,
      calcSolidAngle (coordsToST ⟨BitVec.ofNat 32 i, BitVec.ofNat 32 j⟩ (1 / (n : ℝ))) (1 / n) =
      (fun i j : Nat => sphereQuadrantArea (1 - 2 * (i : ℝ) / n) (1 - 2 * (j : ℝ) / n)) (i+1) (j+1) -
      (fun i j : Nat => sphereQuadrantArea (1 - 2 * (i : ℝ) / n) (1 - 2 * (j : ℝ) / n)) (i+1) j -
      (fun i j : Nat => sphereQuadrantArea (1 - 2 * (i : ℝ) / n) (1 - 2 * (j : ℝ) / n)) i (j+1) +
      (fun i j : Nat => sphereQuadrantArea (1 - 2 * (i : ℝ) / n) (1 - 2 * (j : ℝ) / n)) i j := by
    intro i hi j hj
    rw [Finset.mem_range] at hi hj
    have ti : (BitVec.ofNat 32 i).toNat = i := by rw [BitVec.toNat_ofNat]; exact Nat.mod_eq_of_lt (by omega)
    have tj : (BitVec.ofNat 32 j).toNat = j := by rw [BitVec.toNat_ofNat]; exact Nat.mod_eq_of_lt (by omega)
    have e := (coordsToST_inside ⟨BitVec.ofNat 32 i, BitVec.ofNat 32 j⟩ n (by simpa [ti] using hi)
      (by simpa [tj] using hj)).1
    rw [e]
    simp only [ti, tj, calcSolidAngle, V2.sub, V2.add, V2.splat, V2.map2, Flt.real_sub, Flt.real_add]
    have a : ∀ k : Nat, 1 - (2 * (k : ℝ) + 1) / n - 1 / n = 1 - 2 * ((k + 1 : Nat) : ℝ) / n := by
      intro k; push_cast; field_simp; ring
    have b : ∀ k : Nat, 1 - (2 * (k : ℝ) + 1) / n + 1 / n = 1 - 2 * (k : ℝ) / n := by
      intro k; field_simp; ring
    rw [a i, a j, b i, b j]
  rw [Finset.sum_congr rfl (fun i hi => Finset.sum_congr rfl (step i hi)),
    telescope (fun i j : Nat => sphereQuadrantArea (1 - 2 * (i : ℝ) / n) (1 - 2 * (j : ℝ) / n))]
  have s : Real.arctan (1 / Real.sqrt 3) = Real.pi / 6 := by
    rw [← Real.tan_pi_div_six]
    exact Real.arctan_tan (by linarith [Real.pi_pos]) (by linarith [Real.pi_pos])
  have e1 : (1 : ℝ) - 2 * n / n = -1 := by field_simp; norm_num
  have e0 : (1 : ℝ) - 2 * ((0 : Nat) : ℝ) / n = 1 := by simp
  simp only [e1, e0, quadrant_eq]
  norm_num
  have s' := s
  rw [one_div] at s'
  simp only [neg_div, Real.arctan_neg, one_div, s']
  ring

/-- C74: all texels of the six faces together cover the sphere exactly: `4 pi`. -/
theorem solidAngle_total (n : Nat) (hn : 0 < n) (hn32 : n ≤ 2 ^ 32) :
    ∑ _face ∈ Finset.range 6, ∑ i ∈ Finset.range n, ∑ j ∈ Finset.range n,
      calcSolidAngle (coordsToST ⟨BitVec.ofNat 32 i, BitVec.ofNat 32 j⟩ (1 / (n : ℝ))) (1 / n) = 4 * Real.pi := by
  rw [Finset.sum_const, solidAngle_face n hn hn32, Finset.card_range, nsmul_eq_mul]
  push_cast
  ring

/-- Concrete case: a face of a single texel is a sixth of the sphere. -/
example : calcSolidAngle (⟨0, 0⟩ : V2 ℝ) 1 = 4 * Real.pi / 6 := by
  have := solidAngle_face 1 one_pos (by norm_num)
  have e := (coordsToST_inside ⟨0, 0⟩ 1 (by simp) (by simp)).1
  simp only [Finset.range_one, Finset.sum_singleton] at this
  norm_num at this e
  exact e ▸ this

end Verif
