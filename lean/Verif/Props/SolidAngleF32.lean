import Verif.Spec.SolidAngleF32
import Verif.Props.SolidAngle
import Verif.Props.CubeMapF32
import Verif.Props.LengthAccuracy
import Verif.Props.BoxF32
import Mathlib.Analysis.Calculus.MeanValue
import Mathlib.Analysis.Real.Pi.Bounds

/-!
# C136: solid angles of cube map texels in binary32
-/

namespace Verif
open F32 Spec Sh Ibl

namespace SolidAngleF32
open SolidAngle

/-- The closed form of the quadrant area. -/
noncomputable def Q (x y : ℝ) : ℝ := Real.arctan (x * y / Real.sqrt (1 + x ^ 2 + y ^ 2))
/-- Its derivative in `x`. -/
noncomputable def g (x y : ℝ) : ℝ := y / ((1 + x ^ 2) * Real.sqrt (1 + x ^ 2 + y ^ 2))

theorem rect_Q (x0 x1 y0 y1 : ℝ) : rectAngle x0 x1 y0 y1 = Q x0 y0 - Q x0 y1 - Q x1 y0 + Q x1 y1 := by
  rw [rect_closed]; simp only [quadrant_eq]; rfl

theorem Q_symm (x y : ℝ) : Q x y = Q y x := by
  unfold Q; rw [mul_comm x y, add_right_comm]

theorem density_pos (x y : ℝ) : 0 < angleDensity x y := by
  have hs : 0 < Real.sqrt (1 + x ^ 2 + y ^ 2) := Real.sqrt_pos.2 (pos1 x y)
  unfold angleDensity; positivity

theorem density_le (x y : ℝ) : angleDensity x y ≤ 1 := by
  have hs : 1 ≤ Real.sqrt (1 + x ^ 2 + y ^ 2) := Real.one_le_sqrt.2 (by nlinarith [sq_nonneg x, sq_nonneg y])
  unfold angleDensity
  rw [div_le_one (by positivity)]
  exact one_le_pow₀ hs

theorem density_ge {x y : ℝ} (hx : |x| ≤ 1) (hy : |y| ≤ 1) : 0.19 ≤ angleDensity x y := by
  have h1 : x ^ 2 ≤ 1 := (sq_le_one_iff_abs_le_one x).2 hx
  have h2 : y ^ 2 ≤ 1 := (sq_le_one_iff_abs_le_one y).2 hy
  have hs : Real.sqrt (1 + x ^ 2 + y ^ 2) ≤ 1.733 := by
    rw [Real.sqrt_le_left (by norm_num)]; norm_num; linarith
  have h0 : 0 < Real.sqrt (1 + x ^ 2 + y ^ 2) := Real.sqrt_pos.2 (pos1 x y)
  unfold angleDensity
  rw [le_div_iff₀ (by positivity)]
  have := pow_le_pow_left₀ h0.le hs 3
  norm_num at *; linarith

/-- `g` grows no faster than its argument. -/
theorem g_lip (x a b : ℝ) : |g x b - g x a| ≤ |b - a| := by
  have := Convex.norm_image_sub_le_of_norm_hasDerivWithin_le (f := fun y => g x y) (f' := fun y => angleDensity x y) (s := Set.univ) (C := 1)
    (x := a) (y := b) (fun y _ => (deriv_y x y).hasDerivWithinAt)
    (fun y _ => by rw [Real.norm_eq_abs, abs_of_pos (density_pos x y)]; exact density_le x y) convex_univ trivial trivial
  simpa [Real.norm_eq_abs] using this

theorem g_ge {x a b : ℝ} (hx : |x| ≤ 1) (ha : -1 ≤ a) (hab : a ≤ b) (hb : b ≤ 1) : 0.19 * (b - a) ≤ g x b - g x a := by
  refine Convex.mul_sub_le_image_sub_of_le_deriv (D := Set.Icc a b) (convex_Icc a b)
    (fun y _ => (deriv_y x y).continuousAt.continuousWithinAt) (fun y _ => (deriv_y x y).differentiableAt.differentiableWithinAt)
    (fun y hy => ?_) a (Set.left_mem_Icc.2 hab) b (Set.right_mem_Icc.2 hab) hab
  rw [interior_Icc] at hy
  rw [(deriv_y x y).deriv]
  exact density_ge hx (abs_le.2 ⟨by linarith [hy.1], by linarith [hy.2]⟩)

theorem H_deriv (y0 y1 x : ℝ) : HasDerivAt (fun x => Q x y1 - Q x y0) (g x y1 - g x y0) x :=
  (deriv_x x y1).sub (deriv_x x y0)

theorem H_lip (y0 y1 a b : ℝ) : |(Q b y1 - Q b y0) - (Q a y1 - Q a y0)| ≤ |y1 - y0| * |b - a| := by
  have := Convex.norm_image_sub_le_of_norm_hasDerivWithin_le (f := fun x => Q x y1 - Q x y0) (f' := fun x => g x y1 - g x y0)
    (s := Set.univ) (C := |y1 - y0|) (x := a) (y := b) (fun x _ => (H_deriv y0 y1 x).hasDerivWithinAt)
    (fun x _ => by rw [Real.norm_eq_abs]; exact g_lip x y0 y1) convex_univ trivial trivial
  simpa [Real.norm_eq_abs] using this

theorem rect_ge {x0 x1 y0 y1 : ℝ} (h0 : -1 ≤ x0) (h1 : x0 ≤ x1) (h2 : x1 ≤ 1) (k0 : -1 ≤ y0) (k1 : y0 ≤ y1) (k2 : y1 ≤ 1) :
    0.19 * (y1 - y0) * (x1 - x0) ≤ rectAngle x0 x1 y0 y1 := by
  have hd : ∀ x, deriv (fun x => Q x y1 - Q x y0) x = g x y1 - g x y0 := fun x => (H_deriv y0 y1 x).deriv
  have := Convex.mul_sub_le_image_sub_of_le_deriv (f := fun x => Q x y1 - Q x y0) (D := Set.Icc x0 x1) (convex_Icc x0 x1)
    (fun x _ => (H_deriv y0 y1 x).continuousAt.continuousWithinAt) (fun x _ => (H_deriv y0 y1 x).differentiableAt.differentiableWithinAt)
    (C := 0.19 * (y1 - y0)) (fun x hx => by
      rw [interior_Icc] at hx
      rw [hd]
      exact g_ge (abs_le.2 ⟨by linarith [hx.1], by linarith [hx.2]⟩) k0 k1 k2) x0 (Set.left_mem_Icc.2 h1) x1 (Set.right_mem_Icc.2 h1) h1
  rw [rect_Q]
  linarith

/-- Moving the sides of a rectangle. -/
theorem rect_move {x0 x1 y0 y1 a0 a1 b0 b1 w d : ℝ} (hx0 : |a0 - x0| ≤ d) (hx1 : |a1 - x1| ≤ d) (hy0 : |b0 - y0| ≤ d)
    (hy1 : |b1 - y1| ≤ d) (hx : |x1 - x0| ≤ w) (hb : |b1 - b0| ≤ w) :
    |(Q a0 b0 - Q a0 b1 - Q a1 b0 + Q a1 b1) - rectAngle x0 x1 y0 y1| ≤ 4 * (w * d) := by
  have d0 : 0 ≤ d := (abs_nonneg _).trans hx0
  have w0 : 0 ≤ w := (abs_nonneg _).trans hx
  rw [rect_Q]
  have m1 := (H_lip b0 b1 x1 a1).trans (mul_le_mul hb hx1 (abs_nonneg _) w0)
  have m2 := (H_lip b0 b1 x0 a0).trans (mul_le_mul hb hx0 (abs_nonneg _) w0)
  have m3 := (H_lip x0 x1 y1 b1).trans (mul_le_mul hx hy1 (abs_nonneg _) w0)
  have m4 := (H_lip x0 x1 y0 b0).trans (mul_le_mul hx hy0 (abs_nonneg _) w0)
  rw [abs_le] at *
  simp only [Q_symm b0, Q_symm b1, Q_symm y0, Q_symm y1] at *
  constructor <;> linarith

/-! ## The computed quadrant area -/

theorem abs_arctan_sub_le (a b : ℝ) : |Real.arctan a - Real.arctan b| ≤ |a - b| := by
  have := Convex.norm_image_sub_le_of_norm_hasDerivWithin_le (f := Real.arctan) (f' := fun x => 1 / (1 + x ^ 2)) (s := Set.univ) (C := 1)
    (x := b) (y := a) (fun x _ => (Real.hasDerivAt_arctan x).hasDerivWithinAt)
    (fun x _ => by
      rw [Real.norm_eq_abs, abs_of_pos (by positivity), div_le_one (by positivity)]
      linarith [sq_nonneg x]) convex_univ trivial trivial
  simpa [Real.norm_eq_abs] using this

theorem ratio_le {x y : ℝ} (hx : |x| ≤ 1.0001) (hy : |y| ≤ 1.0001) : |x * y / Real.sqrt (1 + x ^ 2 + y ^ 2)| ≤ 0.578 := by
  have hs : 0 < Real.sqrt (1 + x ^ 2 + y ^ 2) := Real.sqrt_pos.2 (pos1 x y)
  rw [abs_div, abs_of_pos hs, div_le_iff₀ hs]
  refine abs_le_of_sq_le_sq ?_ (by positivity)
  rw [mul_pow, mul_pow, Real.sq_sqrt (pos1 x y).le]
  have h1 : x ^ 2 ≤ 1.0001 ^ 2 := sq_le_sq' (abs_le.1 hx).1 (abs_le.1 hx).2
  have h2 : y ^ 2 ≤ 1.0001 ^ 2 := sq_le_sq' (abs_le.1 hy).1 (abs_le.1 hy).2
  have p := sq_nonneg x
  have q := sq_nonneg y
  generalize x ^ 2 = X at *
  generalize y ^ 2 = Y at *
  norm_num at *
  nlinarith

theorem quad {f : F32 → F32 → F32} (hf : AtanOk f) {o x y : F32} (ho : o.isFinite = true ∧ o.val = 1) (fx : x.isFinite = true)
    (fy : y.isFinite = true) (hx : |x.val| ≤ 1.0001) (hy : |y.val| ≤ 1.0001) :
    Near (f (fmul x y) (V3.length ⟨x, y, o⟩)) (Q x.val y.val) (5.25 * uro) ∧ |Q x.val y.val| ≤ 0.578 := by
  have hu := uro_pos
  have R := ratio_le hx hy
  have ar : ∀ r : ℝ, |Real.arctan r| ≤ |r| := fun r => by
    have := abs_arctan_sub_le r 0
    simpa using this
  refine ⟨?_, (ar _).trans R⟩
  have hs : 0 < Real.sqrt (1 + x.val ^ 2 + y.val ^ 2) := Real.sqrt_pos.2 (pos1 _ _)
  have N : normSq (V3.toList ⟨x, y, o⟩) = 1 + x.val ^ 2 + y.val ^ 2 := by
    have ho2 : rv o = 1 := ho.2
    simp only [normSq, V3.toList, List.map_cons, List.map_nil, List.sum_cons, List.sum_nil, ho2]
    change x.val ^ 2 + (y.val ^ 2 + _) = _
    ring
  have h1 : x.val ^ 2 ≤ 1.0001 ^ 2 := sq_le_sq' (abs_le.1 hx).1 (abs_le.1 hx).2
  have h2 : y.val ^ 2 ≤ 1.0001 ^ 2 := sq_le_sq' (abs_le.1 hy).1 (abs_le.1 hy).2
  have L := (length_accuracy.2.1 ⟨x, y, o⟩ (by simp [AllFinite, V3.toList]; exact ⟨fx, fy, ho.1⟩)).2
    (by rw [N]; nlinarith [sq_nonneg x.val, sq_nonneg y.val]) (by rw [N]; norm_num at *; linarith)
  rw [N] at L
  obtain ⟨fL, eL⟩ := L
  change |(V3.length ⟨x, y, o⟩).val - _| ≤ _ at eL
  generalize V3.length (⟨x, y, o⟩ : V3 F32) = l at *
  have Λ1 : 1 ≤ Real.sqrt (1 + x.val ^ 2 + y.val ^ 2) := Real.one_le_sqrt.2 (by nlinarith [sq_nonneg x.val, sq_nonneg y.val])
  have Λ2 : Real.sqrt (1 + x.val ^ 2 + y.val ^ 2) ≤ 2 := by
    rw [Real.sqrt_le_left (by norm_num)]; norm_num at *; linarith
  have xy : |x.val * y.val| ≤ 1.01 := by
    rw [abs_mul]
    refine (mul_le_mul hx hy (abs_nonneg _) (by norm_num)).trans (by norm_num)
  obtain ⟨fp, ep⟩ := fmul_rel fx fy (by norm_num at *; linarith)
  unfold Q
  generalize Real.sqrt (1 + x.val ^ 2 + y.val ^ 2) = Λ at *
  generalize x.val * y.val = P at *
  generalize fmul x y = p at *
  obtain ⟨e1, e2⟩ := abs_le.1 eL
  have l1 : 0.9999 ≤ l.val := by norm_num at *; linarith
  have l2 : l.val ≤ 2.1 := by norm_num at *; linarith
  have lp : 0 < l.val := by norm_num at *; linarith
  have rr : |p.val / l.val - P / Λ| ≤ 2.91 * uro := by
    have e : p.val / l.val - P / Λ = ((p.val - P) - P / Λ * (l.val - Λ)) / l.val := by field_simp; ring
    rw [e, abs_div, abs_of_pos lp, div_le_iff₀ lp]
    refine (abs_sub _ _).trans ?_
    rw [abs_mul]
    have P2 : |P| = |P / Λ| * Λ := by rw [abs_div, abs_of_pos hs]; field_simp
    have m1 : |P / Λ| * |l.val - Λ| ≤ 0.578 * (4 / 2 ^ 24 * Λ) := mul_le_mul R eL (abs_nonneg _) (by norm_num)
    have m2 : |P| ≤ 0.578 * Λ := by rw [P2]; exact mul_le_mul_of_nonneg_right R hs.le
    rw [BoxF32.small_u] at *
    norm_num at *
    linarith
  have pb : |p.val| ≤ 4 := by
    have := abs_add_le (p.val - P) P
    rw [sub_add_cancel] at this
    rw [BoxF32.small_u] at ep
    norm_num at *; linarith
  obtain ⟨f1, f2⟩ := hf p l fp fL (by change 1 / 2 ≤ l.val; norm_num at *; linarith) (by change l.val ≤ 4; norm_num at *; linarith) pb
  change |(f p l).val - Real.arctan (p.val / l.val)| ≤ 1 / 2 ^ 22 * |Real.arctan (p.val / l.val)| + _ at f2
  refine ⟨f1, ?_⟩
  change |(f p l).val - _| ≤ _
  have r2 := ar (p.val / l.val)
  have r3 := abs_add_le (p.val / l.val - P / Λ) (P / Λ)
  rw [sub_add_cancel] at r3
  have lip := (abs_arctan_sub_le (p.val / l.val) (P / Λ)).trans rr
  have t := abs_add_le ((f p l).val - Real.arctan (p.val / l.val)) (Real.arctan (p.val / l.val) - Real.arctan (P / Λ))
  rw [sub_add_sub_cancel] at t
  rw [BoxF32.small_u] at *
  norm_num at *
  linarith

/-- The alternating sum of the four corners. -/
theorem corners {q00 q01 q10 q11 : F32} {Q00 Q01 Q10 Q11 : ℝ} (h00 : Near q00 Q00 (5.25 * uro) ∧ |Q00| ≤ 0.578)
    (h01 : Near q01 Q01 (5.25 * uro) ∧ |Q01| ≤ 0.578) (h10 : Near q10 Q10 (5.25 * uro) ∧ |Q10| ≤ 0.578)
    (h11 : Near q11 Q11 (5.25 * uro) ∧ |Q11| ≤ 0.578) :
    Near (fadd (fsub (fsub q00 q01) q10) q11) (Q00 - Q01 - Q10 + Q11) (26.3 * uro) := by
  obtain ⟨⟨f00, e00⟩, b00⟩ := h00
  obtain ⟨⟨f01, e01⟩, b01⟩ := h01
  obtain ⟨⟨f10, e10⟩, b10⟩ := h10
  obtain ⟨⟨f11, e11⟩, b11⟩ := h11
  change |q00.val - _| ≤ _ at e00
  change |q01.val - _| ≤ _ at e01
  change |q10.val - _| ≤ _ at e10
  change |q11.val - _| ≤ _ at e11
  rw [BoxF32.small_u, abs_le] at e00 e01 e10 e11
  rw [abs_le] at b00 b01 b10 b11
  rw [BoxF32.small_u]
  obtain ⟨e1, e2⟩ := e00
  obtain ⟨e3, e4⟩ := e01
  obtain ⟨e5, e6⟩ := e10
  obtain ⟨e7, e8⟩ := e11
  obtain ⟨b1, b2⟩ := b00
  obtain ⟨b3, b4⟩ := b01
  obtain ⟨b5, b6⟩ := b10
  obtain ⟨b7, b8⟩ := b11
  have k1 : |q00.val - q01.val| ≤ 1.1561 := by rw [abs_le]; constructor <;> norm_num at * <;> linarith
  obtain ⟨f1, g1⟩ := fsub_err' f00 f01 (k1.trans_lt (by norm_num))
  generalize fsub q00 q01 = s1 at *
  replace g1 := g1.trans (mul_le_mul_of_nonneg_left k1 uro_pos.le)
  rw [BoxF32.small_u, abs_le] at g1
  obtain ⟨g1, g2⟩ := g1
  have k2 : |s1.val - q10.val| ≤ 1.7342 := by rw [abs_le]; constructor <;> norm_num at * <;> linarith
  obtain ⟨f2, g3⟩ := fsub_err' f1 f10 (k2.trans_lt (by norm_num))
  generalize fsub s1 q10 = s2 at *
  replace g3 := g3.trans (mul_le_mul_of_nonneg_left k2 uro_pos.le)
  rw [BoxF32.small_u, abs_le] at g3
  obtain ⟨g3, g4⟩ := g3
  have k3 : |s2.val + q11.val| ≤ 2.3123 := by rw [abs_le]; constructor <;> norm_num at * <;> linarith
  obtain ⟨f3, g5⟩ := fadd_err' f2 f11 (k3.trans_lt (by norm_num))
  generalize fadd s2 q11 = s3 at *
  replace g5 := g5.trans (mul_le_mul_of_nonneg_left k3 uro_pos.le)
  rw [BoxF32.small_u, abs_le] at g5
  obtain ⟨g5, g6⟩ := g5
  refine ⟨f3, ?_⟩
  change |s3.val - _| ≤ _
  rw [abs_le]
  constructor <;> norm_num at * <;> linarith

/-! ## Texels -/

/-- The two sides of a texel in one direction. -/
theorem sides {s h : F32} {c n : ℕ} (hc : c < n) (hn : n ≤ 2 ^ 19) (fs : s.isFinite = true)
    (es : |s.val - (1 - 2 * ((c + 1 / 2) / n))| ≤ 8 / 2 ^ 24) (fh : h.isFinite = true) (eh : |h.val - 1 / n| ≤ 101 / 100 / 2 ^ 24 * (1 / n)) :
    ((fsub s h).isFinite = true ∧ |(fsub s h).val - (1 - 2 * ((c : ℝ) + 1) / n)| ≤ 10.02 * uro ∧ |(fsub s h).val| ≤ 1.0001) ∧
    ((fadd s h).isFinite = true ∧ |(fadd s h).val - (1 - 2 * (c : ℝ) / n)| ≤ 10.02 * uro ∧ |(fadd s h).val| ≤ 1.0001) := by
  have n0 : (0 : ℝ) < n := by exact_mod_cast (by omega : 0 < n)
  have hc' : (c : ℝ) + 1 ≤ n := by exact_mod_cast hc
  have c0 : (0 : ℝ) ≤ c := by positivity
  have i1 : 1 / (n : ℝ) ≤ 1 := by rw [div_le_one n0]; linarith
  have i0 : 0 < 1 / (n : ℝ) := by positivity
  have a0 : 0 ≤ (c : ℝ) / n := by positivity
  have a1 : (c : ℝ) / n + 1 / n ≤ 1 := by rw [← add_div, div_le_one n0]; exact hc'
  have x0 : 1 - 2 * ((c : ℝ) + 1) / n = 1 - 2 * (c / n) - 2 * (1 / n) := by ring
  have x1 : 1 - 2 * (c : ℝ) / n = 1 - 2 * (c / n) := by ring
  have xs : 1 - 2 * (((c : ℝ) + 1 / 2) / n) = 1 - 2 * (c / n) - 1 / n := by ring
  rw [x0, x1]
  rw [xs] at es
  generalize (c : ℝ) / n = a at *
  generalize 1 / (n : ℝ) = i at *
  obtain ⟨s1, s2⟩ := abs_le.1 es
  obtain ⟨h1, h2⟩ := abs_le.1 eh
  have hu := BoxF32.small_u
  have k0 : |s.val - h.val| ≤ 1.00001 := by rw [abs_le]; constructor <;> norm_num at * <;> linarith
  have k1 : |s.val + h.val| ≤ 1.00001 := by rw [abs_le]; constructor <;> norm_num at * <;> linarith
  obtain ⟨f0, g0⟩ := fsub_err' fs fh (k0.trans_lt (by norm_num))
  obtain ⟨f1, g1⟩ := fadd_err' fs fh (k1.trans_lt (by norm_num))
  replace g0 := g0.trans (mul_le_mul_of_nonneg_left k0 uro_pos.le)
  replace g1 := g1.trans (mul_le_mul_of_nonneg_left k1 uro_pos.le)
  rw [hu, abs_le] at g0 g1
  rw [hu]
  obtain ⟨p1, p2⟩ := g0
  obtain ⟨p3, p4⟩ := g1
  refine ⟨⟨f0, ?_, ?_⟩, f1, ?_, ?_⟩ <;> rw [abs_le] <;> constructor <;> norm_num at * <;> linarith

theorem st_form (c n : ℕ) (z : F32) : (Flt.fma (Flt.lit 1 -. (FltB.ofInt (c : ℤ) +. Flt.lit 0.5) *. z) (Flt.lit 2) (Flt.lit (-1)) : F32) =
    ffma (fsub (ofRat 1) (fmul (fadd (FltB.ofInt (c : ℤ)) (ofRat 0.5)) z)) (ofRat 2) (ofRat (-1)) := by exact rfl

end SolidAngleF32
open SolidAngleF32

/-- C136: with `atan2` right up to four rounding units, the solid angle computed in binary32 for a texel of a cube map
face of up to 2^19 texels a side is within `(27 + 81 / n) / 2^24` of the exact one. -/
theorem solidAngle_f32 (T : FltT F32) (hT : AtanOk T.atan2) (c : V2 (BitVec 32)) (n : ℕ) (hn : n ≤ 2 ^ 19) (hx : c.x.toNat < n)
    (hy : c.y.toNat < n) :
    let inv : F32 := fdiv (ofRat 1) (FltB.ofInt n)
    Near (calcSolidAngle (coordsToST c inv) inv) (texelAngle n c.x.toNat c.y.toNat) ((27 + 81 / n) / 2 ^ 24) := by
  intro inv
  obtain ⟨fi, ei⟩ := CubeF32.inv_val (by omega : 0 < n) hn
  have X := CubeF32.st_val hx hn rfl
  have Y := CubeF32.st_val hy hn rfl
  have form : ∀ s t h : F32, calcSolidAngle (⟨s, t⟩ : V2 F32) h =
      fadd (fsub (fsub (T.atan2 (fmul (fsub s h) (fsub t h)) (V3.length ⟨fsub s h, fsub t h, ofRat 1⟩))
        (T.atan2 (fmul (fsub s h) (fadd t h)) (V3.length ⟨fsub s h, fadd t h, ofRat 1⟩)))
        (T.atan2 (fmul (fadd s h) (fsub t h)) (V3.length ⟨fadd s h, fsub t h, ofRat 1⟩)))
        (T.atan2 (fmul (fadd s h) (fadd t h)) (V3.length ⟨fadd s h, fadd t h, ofRat 1⟩)) := fun s t h => by exact rfl
  have st : coordsToST c inv = ⟨ffma (fsub (ofRat 1) (fmul (fadd (FltB.ofInt (c.x.toNat : ℤ)) (ofRat 0.5)) inv)) (ofRat 2) (ofRat (-1)),
      ffma (fsub (ofRat 1) (fmul (fadd (FltB.ofInt (c.y.toNat : ℤ)) (ofRat 0.5)) inv)) (ofRat 2) (ofRat (-1))⟩ := by exact rfl
  have ie : inv = fdiv (ofRat 1) (ofInt n) := by rw [← CubeF32.ofInt_eq]
  rw [st, form, CubeF32.ofInt_eq, CubeF32.ofInt_eq]
  rw [ie]
  generalize ffma (fsub (ofRat 1) (fmul (fadd (ofInt (c.x.toNat : ℤ)) (ofRat 0.5)) (fdiv (ofRat 1) (ofInt n)))) (ofRat 2) (ofRat (-1)) = s at *
  generalize ffma (fsub (ofRat 1) (fmul (fadd (ofInt (c.y.toNat : ℤ)) (ofRat 0.5)) (fdiv (ofRat 1) (ofInt n)))) (ofRat 2) (ofRat (-1)) = t at *
  clear form st ie
  clear inv
  generalize fdiv (ofRat 1) (ofInt n) = h at *
  have ho := LenAcc.one_lit
  generalize ofRat 1 = o at *
  obtain ⟨⟨fa0, ea0, ba0⟩, fa1, ea1, ba1⟩ := sides hx hn X.1 X.2 fi ei
  obtain ⟨⟨fb0, eb0, bb0⟩, fb1, eb1, bb1⟩ := sides hy hn Y.1 Y.2 fi ei
  generalize fsub s h = a0 at *
  generalize fadd s h = a1 at *
  generalize fsub t h = b0 at *
  generalize fadd t h = b1 at *
  obtain ⟨r1, r2⟩ := corners (quad hT ho fa0 fb0 ba0 bb0) (quad hT ho fa0 fb1 ba0 bb1) (quad hT ho fa1 fb0 ba1 bb0)
    (quad hT ho fa1 fb1 ba1 bb1)
  refine ⟨r1, ?_⟩
  have n0 : (0 : ℝ) < n := by exact_mod_cast (by omega : 0 < n)
  have i0 : 0 < 1 / (n : ℝ) := by positivity
  have wx : ∀ c : ℝ, (1 - 2 * c / n) - (1 - 2 * (c + 1) / n) = 2 * (1 / n) := fun c => by ring
  have mv := rect_move (w := 2 * (1 / n) + 20.04 * uro) ea0 ea1 eb0 eb1
    (by rw [wx, abs_of_pos (by positivity)]; linarith [uro_pos]) (by
      have := wx (c.y.toNat)
      rw [abs_le] at eb0 eb1 ⊢
      obtain ⟨k1, k2⟩ := eb0
      obtain ⟨k3, k4⟩ := eb1
      generalize 1 / (n : ℝ) = i at *
      constructor <;> linarith)
  unfold texelAngle
  have t := abs_add_le (rv (fadd (fsub (fsub (T.atan2 (fmul a0 b0) (V3.length ⟨a0, b0, o⟩)) (T.atan2 (fmul a0 b1) (V3.length ⟨a0, b1, o⟩)))
    (T.atan2 (fmul a1 b0) (V3.length ⟨a1, b0, o⟩))) (T.atan2 (fmul a1 b1) (V3.length ⟨a1, b1, o⟩))) -
      (Q a0.val b0.val - Q a0.val b1.val - Q a1.val b0.val + Q a1.val b1.val))
    ((Q a0.val b0.val - Q a0.val b1.val - Q a1.val b0.val + Q a1.val b1.val) -
      rectAngle (1 - 2 * ((c.x.toNat : ℝ) + 1) / n) (1 - 2 * (c.x.toNat : ℝ) / n) (1 - 2 * ((c.y.toNat : ℝ) + 1) / n) (1 - 2 * (c.y.toNat : ℝ) / n))
  rw [sub_add_sub_cancel] at t
  refine t.trans ((add_le_add r2 mv).trans ?_)
  rw [BoxF32.small_u, show (81 : ℝ) / n = 81 * (1 / n) by ring]
  generalize 1 / (n : ℝ) = i at *
  norm_num
  linarith

/-- C136: for faces of up to 512 texels a side the computed solid angle is positive; its relative error is at most
`36 (n^2 + 3 n) / 2^24`. -/
theorem solidAngle_f32_pos (T : FltT F32) (hT : AtanOk T.atan2) (c : V2 (BitVec 32)) (n : ℕ) (hn : n ≤ 512) (hx : c.x.toNat < n)
    (hy : c.y.toNat < n) :
    let inv : F32 := fdiv (ofRat 1) (FltB.ofInt n)
    0 < rv (calcSolidAngle (coordsToST c inv) inv) ∧
      Near (calcSolidAngle (coordsToST c inv) inv) (texelAngle n c.x.toNat c.y.toNat)
        (36 * (n ^ 2 + 3 * n) / 2 ^ 24 * texelAngle n c.x.toNat c.y.toNat) := by
  intro inv
  obtain ⟨f, e⟩ := solidAngle_f32 T hT c n (by omega) hx hy
  change |rv (calcSolidAngle (coordsToST c inv) inv) - _| ≤ _ at e
  have n0 : (0 : ℝ) < n := by exact_mod_cast (by omega : 0 < n)
  have hn' : (n : ℝ) ≤ 512 := by exact_mod_cast hn
  have low : 0.76 / (n : ℝ) ^ 2 ≤ texelAngle n c.x.toNat c.y.toNat := by
    have b : ∀ {c : ℕ}, c < n → -1 ≤ 1 - 2 * ((c : ℝ) + 1) / n ∧ 1 - 2 * ((c : ℝ) + 1) / n ≤ 1 - 2 * (c : ℝ) / n ∧ 1 - 2 * (c : ℝ) / n ≤ 1 := by
      intro c hc
      have hc' : (c : ℝ) + 1 ≤ n := by exact_mod_cast hc
      have c0 : (0 : ℝ) ≤ c := by positivity
      have i0 : 0 < 1 / (n : ℝ) := by positivity
      have a0 : 0 ≤ (c : ℝ) / n := by positivity
      have a1 : (c : ℝ) / n + 1 / n ≤ 1 := by rw [← add_div, div_le_one n0]; exact hc'
      rw [show 1 - 2 * ((c : ℝ) + 1) / n = 1 - 2 * (c / n) - 2 * (1 / n) by ring, show 1 - 2 * (c : ℝ) / n = 1 - 2 * (c / n) by ring]
      refine ⟨by linarith, by linarith, by linarith⟩
    obtain ⟨x1, x2, x3⟩ := b hx
    obtain ⟨y1, y2, y3⟩ := b hy
    refine le_trans (le_of_eq ?_) (rect_ge x1 x2 x3 y1 y2 y3)
    field_simp
    ring
  have up : (27 + 81 / (n : ℝ)) / 2 ^ 24 ≤ 36 * ((n : ℝ) ^ 2 + 3 * n) / 2 ^ 24 * texelAngle n c.x.toNat c.y.toNat := by
    have m : 36 * ((n : ℝ) ^ 2 + 3 * n) / 2 ^ 24 * (0.76 / (n : ℝ) ^ 2) ≤ 36 * ((n : ℝ) ^ 2 + 3 * n) / 2 ^ 24 * texelAngle n c.x.toNat c.y.toNat := by
      gcongr
    refine le_trans ?_ m
    have i0 : 0 < 1 / (n : ℝ) := by positivity
    rw [show 36 * ((n : ℝ) ^ 2 + 3 * n) / 2 ^ 24 * (0.76 / (n : ℝ) ^ 2) = (27.36 + 82.08 * (1 / n)) / 2 ^ 24 by field_simp; ring,
      show (81 : ℝ) / n = 81 * (1 / n) by ring]
    gcongr
    · norm_num
    · norm_num
  have q : 36 * ((n : ℝ) ^ 2 + 3 * n) / 2 ^ 24 ≤ 0.6 := by
    rw [div_le_iff₀ (by norm_num)]
    nlinarith
  have tp : 0 < texelAngle n c.x.toNat c.y.toNat := lt_of_lt_of_le (by positivity) low
  have m := mul_le_mul_of_nonneg_right q tp.le
  refine ⟨?_, f, e.trans up⟩
  have := (abs_le.1 (e.trans up)).1
  linarith

/-- The exact solid angles of the texels of a face add up to a sixth of the sphere. -/
theorem texelAngle_face (n : ℕ) (hn : 0 < n) (hn32 : n ≤ 2 ^ 32) :
    ∑ i ∈ Finset.range n, ∑ j ∈ Finset.range n, texelAngle n i j = 4 * Real.pi / 6 := by
  rw [← solidAngle_face n hn hn32]
  have n0 : (n : ℝ) ≠ 0 := by exact_mod_cast hn.ne'
  refine Finset.sum_congr rfl fun i hi => Finset.sum_congr rfl fun j hj => ?_
  rw [Finset.mem_range] at hi hj
  have ti : (BitVec.ofNat 32 i).toNat = i := by rw [BitVec.toNat_ofNat]; exact Nat.mod_eq_of_lt (by omega)
  have tj : (BitVec.ofNat 32 j).toNat = j := by rw [BitVec.toNat_ofNat]; exact Nat.mod_eq_of_lt (by omega)
  have e := (coordsToST_inside ⟨BitVec.ofNat 32 i, BitVec.ofNat 32 j⟩ n (by simpa [ti] using hi)
    (by simpa [tj] using hj)).1
  rw [e, solidAngle_exact]
  simp only [ti, tj]
  unfold texelAngle
  congr 1 <;> field_simp <;> ring

/-- C136: the computed solid angles of the texels of a face add up to a sixth of the sphere, up to the sum of their
errors. -/
theorem solidAngle_f32_face (T : FltT F32) (hT : AtanOk T.atan2) (n : ℕ) (h0 : 0 < n) (hn : n ≤ 2 ^ 19) :
    let inv : F32 := fdiv (ofRat 1) (FltB.ofInt n)
    |∑ i ∈ Finset.range n, ∑ j ∈ Finset.range n, rv (calcSolidAngle (coordsToST ⟨BitVec.ofNat 32 i, BitVec.ofNat 32 j⟩ inv) inv) -
      4 * Real.pi / 6| ≤ (27 * n ^ 2 + 81 * n) / 2 ^ 24 := by
  intro inv
  rw [← texelAngle_face n h0 (by omega), ← Finset.sum_sub_distrib]
  simp only [← Finset.sum_sub_distrib]
  have one : ∀ i ∈ Finset.range n, ∀ j ∈ Finset.range n,
      |rv (calcSolidAngle (coordsToST ⟨BitVec.ofNat 32 i, BitVec.ofNat 32 j⟩ inv) inv) - texelAngle n i j| ≤ (27 + 81 / n) / 2 ^ 24 := by
    intro i hi j hj
    have hi' := Finset.mem_range.1 hi
    have hj' := Finset.mem_range.1 hj
    have ei : (BitVec.ofNat 32 i).toNat = i := by simp [BitVec.toNat_ofNat]; omega
    have ej : (BitVec.ofNat 32 j).toNat = j := by simp [BitVec.toNat_ofNat]; omega
    have := (solidAngle_f32 T hT ⟨BitVec.ofNat 32 i, BitVec.ofNat 32 j⟩ n hn (by simp only [ei]; exact hi') (by simp only [ej]; exact hj')).2
    simp only [ei, ej] at this
    exact this
  have n0 : (n : ℝ) ≠ 0 := by exact_mod_cast h0.ne'
  have row : ∀ i ∈ Finset.range n, |∑ j ∈ Finset.range n,
      (rv (calcSolidAngle (coordsToST ⟨BitVec.ofNat 32 i, BitVec.ofNat 32 j⟩ inv) inv) - texelAngle n i j)| ≤ n * ((27 + 81 / n) / 2 ^ 24) := by
    intro i hi
    refine (Finset.abs_sum_le_sum_abs _ _).trans ((Finset.sum_le_sum (one i hi)).trans (le_of_eq ?_))
    rw [Finset.sum_const, Finset.card_range, nsmul_eq_mul]
  refine (Finset.abs_sum_le_sum_abs _ _).trans ((Finset.sum_le_sum row).trans (le_of_eq ?_))
  rw [Finset.sum_const, Finset.card_range, nsmul_eq_mul]
  field_simp

/-! ## Non-vacuity -/

private theorem near_value {y : ℝ} (h2 : |y| ≤ 2 ^ 40) : ∃ r : F32, Near r y (1 / 2 ^ 22 * |y| + 1 / 2 ^ 149) := by
  by_cases hy : y = 0
  · subst hy
    refine ⟨ofRat 0, SatF32.lit0.1, ?_⟩
    change |(ofRat 0).val - 0| ≤ _
    rw [SatF32.lit0.2]; norm_num
  have hp : 0 < |y| := abs_pos.2 hy
  obtain ⟨q, q1, q2⟩ := exists_rat_btwn (show y < y + |y| / 2 ^ 24 by linarith [show 0 < |y| / 2 ^ 24 by positivity])
  have qa : |(q : ℝ)| ≤ 2 * |y| := by
    have := abs_add_le ((q : ℝ) - y) y
    rw [sub_add_cancel, abs_of_pos (show 0 < (q : ℝ) - y by linarith)] at this
    norm_num at *; linarith
  have a := lit_approx q (2 * |y|) qa (by norm_num at *; linarith)
  refine ⟨_, a.1, ?_⟩
  have a2 := abs_le.1 a.2
  change |F32.val _ - _| ≤ _
  have u : ulp (2 * |y|) ≤ |y| / 2 ^ 23 + 1 / 2 ^ 149 := by unfold ulp; norm_num at *; linarith
  obtain ⟨a3, a4⟩ := a2
  rw [abs_le]; norm_num at *; constructor <;> linarith

/-- A function that meets the assumption about `atan2`. -/
theorem atanOk_exists : ∃ T : FltT F32, AtanOk T.atan2 := by
  have k : ∀ y x : F32, ∃ r : F32, Near r (Real.arctan (rv y / rv x)) (1 / 2 ^ 22 * |Real.arctan (rv y / rv x)| + 1 / 2 ^ 149) := by
    intro y x
    refine near_value (abs_le.2 ⟨?_, ?_⟩)
    · have := Real.neg_pi_div_two_lt_arctan (rv y / rv x); have := Real.pi_le_four; norm_num; linarith
    · have := Real.arctan_lt_pi_div_two (rv y / rv x); have := Real.pi_le_four; norm_num; linarith
  choose f hf using k
  exact ⟨⟨fun x _ => x, id, id, id, id, id, id, id, f, fun x _ => x, id, fun _ => false⟩, fun y x _ _ _ _ _ => hf y x⟩

/-- Non-vacuity: the texel in column 3 and row 60 of a face with 64 texels a side. -/
example : ∃ T : FltT F32, 0 < rv (@calcSolidAngle _ _ T (coordsToST ⟨3#32, 60#32⟩ (fdiv (ofRat 1) (FltB.ofInt (64 : ℕ)))) (fdiv (ofRat 1) (FltB.ofInt (64 : ℕ)))) := by
  obtain ⟨T, hT⟩ := atanOk_exists
  exact ⟨T, (solidAngle_f32_pos T hT ⟨3#32, 60#32⟩ 64 (by norm_num) (by decide) (by decide)).1⟩

end Verif
