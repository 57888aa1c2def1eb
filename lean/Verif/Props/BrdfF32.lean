import Verif.Spec.BrdfF32
import Verif.Proofs.F32Rel
import Verif.Props.AnglesF32
import Verif.Props.LengthAccuracy
import Verif.Props.FloatOps
import Verif.Proofs.SatF32
import Verif.Model.Brdf
import Mathlib.Analysis.SpecialFunctions.Trigonometric.Bounds

/-!
# C130: reflectance helpers in binary32
-/

namespace Verif
open F32 Spec SatF32

namespace BrdfF32

theorem u_eq : uro = 1 / 2 ^ 24 := by unfold uro; norm_num

theorem one_val : (ofRat 1).isFinite = true ∧ (ofRat 1).val = 1 := by
  obtain ⟨a, b⟩ := lit_exact (q := 1) (U := 2 ^ 149) (by decide +kernel) (by decide +kernel)
  exact ⟨a, b.trans (by norm_num)⟩

/-- Rounding to nearest is monotone. -/
theorem nearest_lt {r s : F32} {p q : ℝ} (hr : IsNearest r p) (hs : IsNearest s q) (h : p < q) : r.val ≤ s.val := by
  by_contra hc
  have hc := not_le.1 hc
  have a := hr.2 s hs.1
  have b := hs.2 r hr.1
  change |r.val - p| ≤ |s.val - p| at a
  change |s.val - q| ≤ |r.val - q| at b
  rcases abs_cases (r.val - p) with ⟨e1, _⟩ | ⟨e1, _⟩ <;> rcases abs_cases (s.val - p) with ⟨e2, _⟩ | ⟨e2, _⟩ <;>
    rcases abs_cases (s.val - q) with ⟨e3, _⟩ | ⟨e3, _⟩ <;> rcases abs_cases (r.val - q) with ⟨e4, _⟩ | ⟨e4, _⟩ <;>
      rw [e1, e2] at a <;> rw [e3, e4] at b <;> linarith

theorem nearest_ge {r y : F32} {p : ℝ} (hr : IsNearest r p) (hy : y.isFinite = true) (h : y.val ≤ p) : y.val ≤ r.val := by
  by_contra hc
  have hc := not_le.1 hc
  have a := hr.2 y hy
  change |r.val - p| ≤ |y.val - p| at a
  rw [abs_of_nonpos (by linarith), abs_of_nonpos (by linarith)] at a
  linarith

theorem nearest_le {r y : F32} {p : ℝ} (hr : IsNearest r p) (hy : y.isFinite = true) (h : p ≤ y.val) : r.val ≤ y.val := by
  by_contra hc
  have hc := not_le.1 hc
  have a := hr.2 y hy
  change |r.val - p| ≤ |y.val - p| at a
  rw [abs_of_nonneg (by linarith), abs_of_nonneg (by linarith)] at a
  linarith

theorem sub_nearest {a b : F32} (ha : a.isFinite = true) (hb : b.isFinite = true) (h : |a.val - b.val| < 2 ^ 127) :
    IsNearest (fsub a b) (a.val - b.val) := by
  have e : a.val - b.val = ((a.toRat - b.toRat : Rat) : ℝ) := by unfold val; push_cast; rfl
  rw [e] at h ⊢
  exact fsub_nearest ha hb (rat_le_max le_rfl h)

theorem add_nearest {a b : F32} (ha : a.isFinite = true) (hb : b.isFinite = true) (h : |a.val + b.val| < 2 ^ 127) :
    IsNearest (fadd a b) (a.val + b.val) := by
  have e : a.val + b.val = ((a.toRat + b.toRat : Rat) : ℝ) := by unfold val; push_cast; rfl
  rw [e] at h ⊢
  exact fadd_nearest ha hb (rat_le_max le_rfl h)

theorem div_nearest {a b : F32} (ha : a.isFinite = true) (hb : b.isFinite = true) (h0 : b.val ≠ 0) (h : |a.val / b.val| < 2 ^ 127) :
    IsNearest (fdiv a b) (a.val / b.val) := by
  have e : a.val / b.val = ((a.toRat / b.toRat : Rat) : ℝ) := by unfold val; push_cast; rfl
  rw [e] at h ⊢
  exact fdiv_nearest ha hb (fun h => h0 (by unfold val; rw [h]; simp)) (rat_le_max le_rfl h)

/-- The quotient with a perturbed denominator. -/
theorem quot {n f D y a u : ℝ} (u0 : 0 ≤ u) (a0 : 0 < a) (a2 : a ^ 2 ≤ 1) (Y0 : 0 ≤ y) (y1 : y ≤ 1) (hD : D = 1 - (1 - a ^ 2) * y) (D0 : 0 < D)
    (hn : |n - (1 - y)| ≤ u * (1 - y)) (hf : |f - D| ≤ u * (4.106 * y + 0.005 + 1.1 * D)) (fl : 0.7 * D ≤ f) (hy : 1 - y ≤ D) :
    |n / f - (1 - y) / D| ≤ 4.7 * u / a ^ 2 := by
  have f0 : 0 < f := lt_of_lt_of_le (by linarith) fl
  have a20 : 0 < a ^ 2 := by positivity
  rw [div_sub_div _ _ f0.ne' D0.ne', abs_div, abs_of_pos (mul_pos f0 D0), div_le_div_iff₀ (mul_pos f0 D0) a20]
  have e : n * D - f * (1 - y) = (n - (1 - y)) * D - (1 - y) * (f - D) := by ring
  rw [e]
  have t1 := abs_sub ((n - (1 - y)) * D) ((1 - y) * (f - D))
  rw [abs_mul, abs_mul, abs_of_pos D0, abs_of_nonneg (show 0 ≤ 1 - y by linarith)] at t1
  have t2 := mul_le_mul_of_nonneg_right hn D0.le
  have t3 := mul_le_mul_of_nonneg_left hf (show 0 ≤ 1 - y by linarith)
  have am : 4 * a ^ 2 * (y * (1 - y)) ≤ D ^ 2 := by
    rw [hD]
    have := sq_nonneg (1 - y - a ^ 2 * y)
    linarith [show (1 - (1 - a ^ 2) * y) ^ 2 = (1 - y - a ^ 2 * y) ^ 2 + 4 * a ^ 2 * (y * (1 - y)) by ring]
  have s1 : a ^ 2 * ((1 - y) * D) ≤ 1 * (D * D) := mul_le_mul a2 (mul_le_mul_of_nonneg_right hy D0.le) (mul_nonneg (by linarith) D0.le) (by norm_num)
  have aD : a ^ 2 ≤ D := by
    rw [hD]
    have := mul_le_mul_of_nonneg_left y1 (show 0 ≤ 1 - a ^ 2 by linarith)
    linarith
  have s2 : a ^ 2 * (1 - y) ≤ D * D := mul_le_mul aD hy (by linarith) D0.le
  have big : |(n - (1 - y)) * D - (1 - y) * (f - D)| * a ^ 2 ≤ u * (2.1 * D * D + 1.0265 * D * D + 0.005 * D * D) := by
    have := mul_le_mul_of_nonneg_right (t1.trans (add_le_add t2 t3)) a20.le
    refine this.trans ?_
    have e2 : (u * (1 - y) * D + (1 - y) * (u * (4.106 * y + 0.005 + 1.1 * D))) * a ^ 2 =
        u * (2.1 * (a ^ 2 * ((1 - y) * D)) + 4.106 * (a ^ 2 * (y * (1 - y))) + 0.005 * (a ^ 2 * (1 - y))) := by ring
    rw [e2]
    refine mul_le_mul_of_nonneg_left ?_ u0
    linarith
  refine big.trans ?_
  have : u * (0.7 * D * D) ≤ u * (f * D) := by gcongr
  have : 0 ≤ u * (D * D) := by positivity
  linarith

/-- A product of three numbers, two of them known up to one rounding. -/
theorem triple {x1 x2 y : F32} {X1 X2 : ℝ} (f1 : x1.isFinite = true) (f2 : x2.isFinite = true) (fy : y.isFinite = true)
    (h1 : Rel x1.val X1 uro 0) (h2 : Rel x2.val X2 uro 0) (b1 : |X1| ≤ 2) (b2 : |X2| ≤ 2) (by1 : |y.val| ≤ 1) :
    (fmul x1 (fmul x2 y)).isFinite = true ∧ |(fmul x1 (fmul x2 y)).val - X1 * (X2 * y.val)| ≤ 4.1 / 2 ^ 24 * |X1 * (X2 * y.val)| + 1 / 2 ^ 140 := by
  rw [u_eq] at h1 h2
  have c1 := h1.abs_le
  have c2 := h2.abs_le
  have q0 : |x2.val * y.val| ≤ 3 := by
    rw [abs_mul]
    calc |x2.val| * |y.val| ≤ 3 * 1 := by gcongr; linarith
      _ = 3 := by norm_num
  obtain ⟨fq, eq⟩ := fmul_rel f2 fy (by linarith [show (3 : ℝ) < 2 ^ 127 by norm_num])
  rw [u_eq] at eq
  have rq : Rel (fmul x2 y).val (X2 * y.val) (2.01 / 2 ^ 24) (1 / 2 ^ 150) :=
    ((h2.mul (Rel.refl y.val)).round eq (by norm_num)).mono (by norm_num) (by norm_num)
  generalize fmul x2 y = q at fq rq
  have b3 : |X2 * y.val| ≤ 2 := by
    rw [abs_mul]
    calc |X2| * |y.val| ≤ 2 * 1 := by gcongr
      _ = 2 := by norm_num
  have c3 := rq.abs_le
  have r0 : |x1.val * q.val| ≤ 9 := by
    rw [abs_mul]
    calc |x1.val| * |q.val| ≤ 3 * 3 := by gcongr <;> linarith
      _ = 9 := by norm_num
  obtain ⟨fr, er⟩ := fmul_rel f1 fq (by linarith [show (9 : ℝ) < 2 ^ 127 by norm_num])
  rw [u_eq] at er
  refine ⟨fr, ?_⟩
  have := (h1.mul rq).round er (by norm_num)
  refine this.mono (by norm_num) ?_
  have : (1 + 1 / 2 ^ 24) * |X1| * (1 / 2 ^ 150) ≤ (1 + 1 / 2 ^ 24) * 2 * (1 / 2 ^ 150) := by gcongr
  norm_num at this ⊢
  linarith

/-- The denominator of the sampled cosine and of the distribution. -/
theorem den {a Y D : ℝ} {P f : F32} {k : ℝ} (a1 : 1 / 2 ^ 10 ≤ a) (a2 : a ≤ 1) (Y0 : 0 ≤ Y) (Y1 : Y ≤ 1) (hD : D = 1 - (1 - a ^ 2) * Y)
    (hP : |P.val + (1 - a ^ 2) * Y| ≤ k / 2 ^ 24 * Y + 1 / 2 ^ 130) (k0 : 0 ≤ k) (k1 : k ≤ 6) (hf : |f.val - (1 + P.val)| ≤ 1 / 2 ^ 24 * |1 + P.val|) :
    a ^ 2 ≤ D ∧ D ≤ 1 ∧ 1 - Y ≤ D ∧ |f.val - D| ≤ 1 / 2 ^ 24 * (k * Y + k / 2 ^ 10 + 1.1 * D) := by
  have q : (1 / 2 ^ 10) ^ 2 ≤ a ^ 2 := by gcongr
  have a0 : 0 ≤ a := le_trans (by norm_num) a1
  have q1 : a ^ 2 ≤ 1 := pow_le_one₀ a0 a2
  have m : (1 - a ^ 2) * Y ≤ (1 - a ^ 2) * 1 := mul_le_mul_of_nonneg_left Y1 (by linarith)
  have m0 : 0 ≤ (1 - a ^ 2) * Y := mul_nonneg (by linarith) Y0
  have m1 : (1 - a ^ 2) * Y ≤ 1 * Y := mul_le_mul_of_nonneg_right (by linarith [sq_nonneg a]) Y0
  have d1 : a ^ 2 ≤ D := by rw [hD]; linarith
  refine ⟨d1, by rw [hD]; linarith, by rw [hD]; linarith, ?_⟩
  have e1 : |1 + P.val - D| ≤ k / 2 ^ 24 * Y + 1 / 2 ^ 130 := by
    rw [hD, show 1 + P.val - (1 - (1 - a ^ 2) * Y) = P.val + (1 - a ^ 2) * Y by ring]; exact hP
  have e2 : |1 + P.val| ≤ D + (k / 2 ^ 24 * Y + 1 / 2 ^ 130) := by
    have := abs_add_le (1 + P.val - D) D
    rw [sub_add_cancel, abs_of_nonneg (show 0 ≤ D by linarith [sq_nonneg a])] at this
    linarith
  have e3 := abs_add_le (f.val - (1 + P.val)) (1 + P.val - D)
  rw [sub_add_sub_cancel] at e3
  have kY : k * Y ≤ k * 1 := mul_le_mul_of_nonneg_left Y1 k0
  norm_num at *
  linarith

/-- The computed squared cosine lies in the unit interval and is close to the exact one. -/
theorem cos_sq {a y : F32} (fa : a.isFinite = true) (fy : y.isFinite = true) (a1 : 1 / 2 ^ 10 ≤ a.val) (a2 : a.val ≤ 1) (y1 : y.val ≤ 1)
    (y0 : y.val = 0 ∨ 1 / 2 ^ 60 ≤ y.val) :
    let c := fdiv (fsub (ofRat 1) y) (fadd (ofRat 1) (fmul (fadd a (ofRat 1)) (fmul (fsub a (ofRat 1)) y)))
    c.isFinite = true ∧ 0 ≤ c.val ∧ c.val ≤ 1 ∧ |c.val - ggxCosSq y.val a.val| ≤ 6 / 2 ^ 24 / a.val ^ 2 := by
  intro c
  obtain ⟨o1, o2⟩ := one_val
  obtain ⟨z1, z2⟩ := lit0
  have Y0 : 0 ≤ y.val := by rcases y0 with h | h <;> [exact h.ge; exact le_trans (by norm_num) h]
  have a0 : 0 < a.val := lt_of_lt_of_le (by norm_num) a1
  have q1 : (1 / 2 ^ 10) ^ 2 ≤ a.val ^ 2 := by gcongr
  have q2 : a.val ^ 2 ≤ 1 := pow_le_one₀ a0.le a2
  -- the product
  have hp := fadd_err' fa o1 (by rw [o2, abs_of_pos (by linarith)]; linarith [show (2 : ℝ) < 2 ^ 127 by norm_num])
  have hm := fsub_err' fa o1 (by rw [o2, abs_of_nonpos (by linarith)]; linarith [show (2 : ℝ) < 2 ^ 127 by norm_num])
  rw [o2] at hp hm
  obtain ⟨fP, eP⟩ := triple hp.1 hm.1 fy (X1 := a.val + 1) (X2 := a.val - 1) (by unfold F32.Rel; linarith [hp.2]) (by unfold F32.Rel; linarith [hm.2])
    (by rw [abs_of_pos (by linarith)]; linarith) (by rw [abs_of_nonpos (by linarith)]; linarith) (by rw [abs_of_nonneg Y0]; exact y1)
  have ee : (a.val + 1) * ((a.val - 1) * y.val) = -((1 - a.val ^ 2) * y.val) := by ring
  have m0 : 0 ≤ (1 - a.val ^ 2) * y.val := mul_nonneg (by linarith) Y0
  have m1 : (1 - a.val ^ 2) * y.val ≤ 1 * y.val := mul_le_mul_of_nonneg_right (by linarith [sq_nonneg a.val]) Y0
  rw [ee, sub_neg_eq_add, abs_neg, abs_of_nonneg m0] at eP
  have P0 : y.val = 0 → (fmul (fadd a (ofRat 1)) (fmul (fsub a (ofRat 1)) y)).val = 0 := by
    intro h
    have h1 := fmul_exact hm.1 fy z1 (by rw [z2, h, mul_zero])
    have e1 := h1.eq
    rw [h, mul_zero] at e1
    have h2 := (fmul_exact hp.1 h1.1 z1 (by rw [z2, e1, mul_zero])).eq
    rw [e1, mul_zero] at h2
    exact h2
  have hc : c = fdiv (fsub (ofRat 1) y) (fadd (ofRat 1) (fmul (fadd a (ofRat 1)) (fmul (fsub a (ofRat 1)) y))) := rfl
  clear_value c
  generalize fmul (fadd a (ofRat 1)) (fmul (fsub a (ofRat 1)) y) = P at fP eP P0 hc
  clear hp hm ee
  have Pb : |P.val| ≤ 2 := by
    have := abs_add_le (P.val + (1 - a.val ^ 2) * y.val) (-((1 - a.val ^ 2) * y.val))
    rw [add_neg_cancel_right, abs_neg, abs_of_nonneg m0] at this
    norm_num at *
    linarith
  -- numerator and denominator
  have l127 : (100 : ℝ) < 2 ^ 127 := by norm_num
  have nn := sub_nearest o1 fy (by rw [o2, abs_of_nonneg (by linarith)]; linarith)
  have en := (fsub_err' o1 fy (by rw [o2, abs_of_nonneg (by linarith)]; linarith)).2
  have bP : |1 + P.val| ≤ 3 := (abs_add_le _ _).trans (by rw [abs_one]; linarith)
  have nd := add_nearest o1 fP (by rw [o2]; linarith)
  have ed := (fadd_err' o1 fP (by rw [o2]; linarith)).2
  rw [o2] at nn en nd ed
  generalize fsub (ofRat 1) y = n at nn en hc
  generalize fadd (ofRat 1) P = f at nd ed hc
  rw [u_eq] at en ed
  rw [abs_of_nonneg (show 0 ≤ 1 - y.val by linarith)] at en
  obtain ⟨d1, d2, d3, d4⟩ := den (k := 4.1) a1 a2 Y0 y1 rfl (by norm_num at *; linarith) (by norm_num) (by norm_num) ed
  have nle : n.val ≤ f.val := by
    rcases y0 with h | h
    · have p := P0 h
      rw [p, add_zero] at nd
      rw [h, sub_zero] at nn
      rw [nearest_exact nn o1 o2, nearest_exact nd o1 o2]
    · refine nearest_lt nn nd ?_
      have e := abs_le.1 eP
      have : (1 / 2 ^ 10) ^ 2 * y.val ≤ a.val ^ 2 * y.val := mul_le_mul_of_nonneg_right q1 Y0
      have e2 : (1 - a.val ^ 2) * y.val = y.val - a.val ^ 2 * y.val := by ring
      rw [e2] at e m1
      norm_num at *
      linarith
  have hD : 1 - (1 - a.val ^ 2) * y.val = 1 - (1 - a.val ^ 2) * y.val := rfl
  generalize hDD : 1 - (1 - a.val ^ 2) * y.val = D at d1 d2 d3 d4 hD
  have fl : 0.7 * D ≤ f.val := by
    have := abs_le.1 d4
    norm_num at *
    linarith
  have D0 : 0 < D := by norm_num at *; linarith
  have f0 : 0 < f.val := by linarith
  have n0 : 0 ≤ n.val := by
    have := nearest_ge nn z1 (by rw [z2]; linarith); rwa [z2] at this
  have hq1 : n.val / f.val ≤ 1 := (div_le_one f0).2 nle
  have hq0 : 0 ≤ n.val / f.val := div_nonneg n0 f0.le
  have nc := div_nearest nn.1 nd.1 f0.ne' (by rw [abs_of_nonneg hq0]; linarith)
  have ec := (fdiv_rel nn.1 nd.1 f0.ne' (by rw [abs_of_nonneg hq0]; linarith)).2
  rw [← hc] at nc ec
  rw [u_eq, abs_of_nonneg hq0] at ec
  refine ⟨nc.1, ?_, ?_, ?_⟩
  · have := nearest_ge nc z1 (by rw [z2]; exact hq0); rwa [z2] at this
  · have := nearest_le nc o1 (by rw [o2]; exact hq1); rwa [o2] at this
  · have k := quot (u := 1 / 2 ^ 24) (by norm_num) a0 q2 Y0 y1 hDD.symm D0 en (d4.trans (by norm_num; linarith)) fl d3
    have t := abs_add_le (c.val - n.val / f.val) (n.val / f.val - (1 - y.val) / D)
    rw [sub_add_sub_cancel] at t
    rw [ggxCosSq, hDD]
    refine t.trans ?_
    have i1 : 1 ≤ 1 / a.val ^ 2 := by rw [le_div_iff₀ (by positivity)]; linarith
    rw [show 4.7 * (1 / 2 ^ 24) / a.val ^ 2 = 4.7 / 2 ^ 24 * (1 / a.val ^ 2) by ring] at k
    rw [show 6 / 2 ^ 24 / a.val ^ 2 = 6 / 2 ^ 24 * (1 / a.val ^ 2) by ring]
    norm_num at *
    linarith

/-- The square root of a number in the unit interval. -/
theorem root {r : F32} {C : ℝ} (fr : r.isFinite = true) (r0 : 0 ≤ r.val) (r1 : r.val ≤ 1) (C0 : 0 ≤ C) (h : |r.val - C| ≤ 1 / 2 ^ 24 * C) :
    (fsqrt r).isFinite = true ∧ |(fsqrt r).val - Real.sqrt C| ≤ 2.1 / 2 ^ 24 * 1 := by
  have hn := fsqrt_nearest fr (by unfold val at r0; exact_mod_cast r0)
  change IsNearest _ (Real.sqrt r.val) at hn
  have s0 := Real.sqrt_nonneg r.val
  have s1 : Real.sqrt r.val ≤ 1 := Real.sqrt_le_one.2 r1
  have a := nearest_approx hn (M := 1) (by rw [abs_of_nonneg s0]; exact s1) (by norm_num)
  refine ⟨a.1, ?_⟩
  have C2 : C ≤ 1.001 := by have := abs_le.1 h; norm_num at *; linarith
  have t : |Real.sqrt r.val - Real.sqrt C| ≤ 1 / 2 ^ 24 * 1.001 := by
    rcases C0.eq_or_lt with e | e
    · rw [← e, mul_zero, sub_zero] at h
      rw [abs_nonpos_iff.1 h, ← e]; norm_num
    · have p := Real.sqrt_pos.2 e
      have q := Real.mul_self_sqrt e.le
      have q' := Real.mul_self_sqrt r0
      have c1 : Real.sqrt C ≤ 1.001 := by
        rw [Real.sqrt_le_left (by norm_num)]; exact C2.trans (by norm_num)
      generalize Real.sqrt C = S at *
      generalize Real.sqrt r.val = R at *
      have k : |R - S| * S ≤ |r.val - C| := by
        rw [← q, ← q', show R * R - S * S = (R - S) * (R + S) by ring, abs_mul, abs_of_nonneg (show 0 ≤ R + S by linarith)]
        exact mul_le_mul_of_nonneg_left (by linarith) (abs_nonneg _)
      have k2 : |R - S| * S ≤ 1 / 2 ^ 24 * S * S := by linarith
      have k3 := le_of_mul_le_mul_right k2 p
      linarith
  have b := abs_add_le ((fsqrt r).val - Real.sqrt r.val) (Real.sqrt r.val - Real.sqrt C)
  rw [sub_add_sub_cancel] at b
  have c := a.2
  unfold ulp at c
  norm_num at *
  linarith

/-- One lane of the sampled direction. -/
theorem lane {s t : F32} {S T : ℝ} (fs : s.isFinite = true) (hs : |s.val - S| ≤ 2.1 / 2 ^ 24 * 1) (S0 : 0 ≤ S) (S1 : S ≤ 1)
    (ft : t.isFinite = true) (ht : |t.val - T| ≤ 12 / 2 ^ 24) (T1 : |T| ≤ 1) : Near (fmul s t) (S * T) (1 / 2 ^ 20) := by
  have m := mul_close hs ht (X := 1) (Y := 1) (by rw [abs_of_nonneg S0]; exact S1) T1
  have b : |s.val * t.val| ≤ 1.001 := by
    have := abs_add_le (s.val * t.val - S * T) (S * T)
    rw [sub_add_cancel] at this
    have : |S * T| ≤ 1 * 1 := by rw [abs_mul, abs_of_nonneg S0]; exact mul_le_mul S1 T1 (abs_nonneg _) (by norm_num)
    norm_num at *
    linarith
  have a := fmul_approx fs ft b (by norm_num)
  refine ⟨a.1, ?_⟩
  have c := a.2
  unfold ulp at c
  have t := abs_add_le ((fmul s t).val - s.val * t.val) (s.val * t.val - S * T)
  rw [sub_add_sub_cancel] at t
  change |(fmul s _).val - _| ≤ _
  norm_num at *
  linarith

/-- The azimuth. -/
theorem azimuth {x : F32} (fx : x.isFinite = true) (x0 : 0 ≤ x.val) (x1 : x.val ≤ 1) :
    (fmul (fmul (ofRat 2) FltC.pi) x).isFinite = true ∧ |(fmul (fmul (ofRat 2) FltC.pi) x).val - 2 * Real.pi * x.val| ≤ 10 / 2 ^ 24 := by
  obtain ⟨ta, tb⟩ : (fmul (ofRat 2) FltC.pi).isFinite = true ∧ (fmul (ofRat 2) FltC.pi).val = 2 * (13176795 / 2 ^ 22 : ℝ) := by
    refine ⟨by decide +kernel, ?_⟩
    rw [val_units, show (fmul (ofRat 2) FltC.pi).units = 13176795 * 2 ^ 128 by decide +kernel]
    push_cast; norm_num
  generalize fmul (ofRat 2) FltC.pi = t at ta tb
  have p := AngleP.pi_rel
  unfold F32.Rel at p
  have pp := Real.pi_pos
  have pl := Real.pi_lt_d2
  rw [abs_of_pos pp] at p
  generalize Real.pi = π at *
  have m : |t.val * x.val - 2 * π * x.val| ≤ 3 / 2 ^ 24 := by
    rw [tb, show 2 * (13176795 / 2 ^ 22) * x.val - 2 * π * x.val = 2 * x.val * (13176795 / 2 ^ 22 - π) by ring, abs_mul, abs_of_nonneg (by linarith)]
    have := mul_le_mul (show 2 * x.val ≤ 2 by linarith) p (abs_nonneg _) (by norm_num)
    refine this.trans ?_
    norm_num at *
    linarith
  have b0 : 0 ≤ 2 * π * x.val := by positivity
  have b1 : 2 * π * x.val ≤ 2 * π * 1 := by gcongr
  have b : |t.val * x.val| ≤ 6.31 := by
    have := abs_add_le (t.val * x.val - 2 * π * x.val) (2 * π * x.val)
    rw [sub_add_cancel, abs_of_nonneg b0] at this
    norm_num at *
    linarith
  have a := fmul_approx ta fx b (by norm_num)
  have c := a.2
  unfold ulp at c
  refine ⟨a.1, ?_⟩
  have t' := abs_add_le ((fmul t x).val - t.val * x.val) (t.val * x.val - 2 * π * x.val)
  rw [sub_add_sub_cancel] at t'
  norm_num at *
  linarith

theorem mul_rel' {a b : F32} {x y e d E : ℝ} (ha : a.isFinite = true) (hb : b.isFinite = true) (h : F32.Rel a.val x e 0) (h' : F32.Rel b.val y d 0)
    (e0 : 0 ≤ e) (d0 : 0 ≤ d) (hE : e + d + e * d + (1 + e) * (1 + d) * (1.0001 / 2 ^ 24) ≤ E) (s1 : (1 + e) * (1 + d) ≤ 2)
    (b1 : 1 / 2 ^ 100 ≤ |x * y|) (b2 : |x * y| ≤ 2 ^ 125) : (fmul a b).isFinite = true ∧ F32.Rel (fmul a b).val (x * y) E 0 := by
  have m := h.mul h'
  simp only [mul_zero, add_zero] at m
  have am := m.abs_le
  have p : |a.val * b.val| ≤ 2 * |x * y| := by
    have := mul_le_mul_of_nonneg_right s1 (abs_nonneg (x * y))
    linarith [show (1 + (e + d + e * d)) * |x * y| = (1 + e) * (1 + d) * |x * y| by ring]
  obtain ⟨f, g⟩ := fmul_rel ha hb (lt_of_le_of_lt p (by linarith [show (2 : ℝ) * 2 ^ 125 < 2 ^ 127 by norm_num]))
  rw [u_eq] at g
  refine ⟨f, ?_⟩
  have t := abs_add_le ((fmul a b).val - a.val * b.val) (a.val * b.val - x * y)
  rw [sub_add_sub_cancel] at t
  unfold F32.Rel at m ⊢
  have hE' := mul_le_mul_of_nonneg_right hE (abs_nonneg (x * y))
  have ed : 0 ≤ (e + d + e * d) * |x * y| := by positivity
  generalize |x * y| = z at *
  norm_num at *
  linarith

theorem div_rel' {a b : F32} {x y e d E : ℝ} (ha : a.isFinite = true) (hb : b.isFinite = true) (h : F32.Rel a.val x e 0) (h' : F32.Rel b.val y d 0)
    (e0 : 0 ≤ e) (d0 : 0 ≤ d) (d1 : d ≤ 1 / 4) (e1 : e ≤ 1 / 4) (hE : (e + d) / (1 - d) + (1 + (e + d) / (1 - d)) * (1.0001 / 2 ^ 24) ≤ E)
    (b1 : 1 / 2 ^ 100 ≤ |x / y|) (b2 : |x / y| ≤ 2 ^ 125) : (fdiv a b).isFinite = true ∧ F32.Rel (fdiv a b).val (x / y) E 0 := by
  have y0 : y ≠ 0 := by
    rintro rfl
    rw [div_zero, abs_zero] at b1
    norm_num at b1
  have bne : b.val ≠ 0 := by
    intro hb0
    have := h'.le_abs
    rw [hb0, abs_zero] at this
    have : 0 < (1 - d) * |y| := mul_pos (by linarith) (abs_pos.2 y0)
    linarith
  have m := h.div h' (by linarith) y0
  rw [zero_div] at m
  have q0 : 0 ≤ (e + d) / (1 - d) := div_nonneg (by linarith) (by linarith)
  have q1 : (e + d) / (1 - d) ≤ 1 := by rw [div_le_one (by linarith)]; linarith
  have am := m.abs_le
  generalize (e + d) / (1 - d) = q at *
  have p : |a.val / b.val| ≤ 2 * |x / y| := by
    have := mul_le_mul_of_nonneg_right (show 1 + q ≤ 2 by linarith) (abs_nonneg (x / y))
    linarith
  obtain ⟨f, g⟩ := fdiv_rel ha hb bne (lt_of_le_of_lt p (by linarith [show (2 : ℝ) * 2 ^ 125 < 2 ^ 127 by norm_num]))
  rw [u_eq] at g
  refine ⟨f, ?_⟩
  have t := abs_add_le ((fdiv a b).val - a.val / b.val) (a.val / b.val - x / y)
  rw [sub_add_sub_cancel] at t
  unfold F32.Rel at m ⊢
  have hE' := mul_le_mul_of_nonneg_right hE (abs_nonneg (x / y))
  have qz := mul_nonneg q0 (abs_nonneg (x / y))
  generalize |x / y| = z at *
  norm_num at *
  linarith

/-- The binary32 numbers above one keep a distance from it. -/
theorem gap {x : F32} (h : 1 < x.val) : 1 / 2 ^ 23 ≤ x.val - 1 := by
  rw [val_units, lt_div_iff₀ (by positivity), one_mul] at h
  have h' : (2 ^ 149 : ℤ) < x.units := by exact_mod_cast h
  have key : ∃ k : ℤ, x.units = k * 2 ^ 126 := by
    unfold units at h' ⊢
    by_cases sb : x.signBit
    · rw [if_pos sb] at h'
      have : (0 : ℤ) ≤ magUnits x.mag := Int.natCast_nonneg _
      norm_num at h'; omega
    · rw [if_neg sb] at h' ⊢
      unfold magUnits at h' ⊢
      have ml : x.mag % 2 ^ 23 < 2 ^ 23 := Nat.mod_lt _ (by norm_num)
      by_cases e0 : x.mag / 2 ^ 23 = 0
      · rw [if_pos e0] at h'
        norm_num at h' ml; omega
      · rw [if_neg e0] at h' ⊢
        generalize x.mag % 2 ^ 23 = m at *
        generalize x.mag / 2 ^ 23 - 1 = n at *
        have h2 : 2 ^ 149 < (2 ^ 23 + m) * 2 ^ n := by exact_mod_cast h'
        have n1 : 126 ≤ n := by
          by_contra hc
          have : 2 ^ n ≤ 2 ^ 125 := Nat.pow_le_pow_right (by norm_num) (by omega)
          have : (2 ^ 23 + m) * 2 ^ n ≤ (2 ^ 23 + 2 ^ 23) * 2 ^ 125 := Nat.mul_le_mul (by omega) this
          norm_num at this h2; omega
        refine ⟨(2 ^ 23 + m : ℕ) * 2 ^ (n - 126), ?_⟩
        obtain ⟨j, rfl⟩ := Nat.exists_eq_add_of_le n1
        rw [Nat.add_sub_cancel_left, Nat.pow_add]
        push_cast; ring
  obtain ⟨k, hk⟩ := key
  rw [hk] at h'
  have k1 : 2 ^ 23 + 1 ≤ k := by
    by_contra hc
    have : k * 2 ^ 126 ≤ 2 ^ 23 * 2 ^ 126 := by gcongr; omega
    norm_num at this h'; omega
  have k2 : ((2 ^ 23 + 1 : ℤ) : ℝ) ≤ k := by exact_mod_cast k1
  rw [val_units, hk]
  push_cast at k2 ⊢
  norm_num at k2 ⊢
  linarith

/-- The square root of a positive number known up to a relative error. -/
theorem sqrt_rel' {r : F32} {X d : ℝ} (fr : r.isFinite = true) (h : F32.Rel r.val X d 0) (d0 : 0 ≤ d) (d1 : d ≤ 1 / 2 ^ 18) (X0 : 1 / 2 ^ 100 ≤ X)
    (X1 : X ≤ 2 ^ 100) : (fsqrt r).isFinite = true ∧ |(fsqrt r).val - Real.sqrt X| ≤ (0.501 * d + 1.001 / 2 ^ 24) * Real.sqrt X := by
  have Xp : 0 < X := lt_of_lt_of_le (by positivity) X0
  unfold F32.Rel at h
  rw [add_zero, abs_of_pos Xp] at h
  have dX : d * X ≤ 1 / 2 ^ 18 * X := mul_le_mul_of_nonneg_right d1 Xp.le
  have r0 : 0 ≤ r.val := by have := (abs_le.1 h).1; linarith
  have hn := fsqrt_nearest fr (by unfold val at r0; exact_mod_cast r0)
  change IsNearest _ (Real.sqrt r.val) at hn
  have p := Real.sqrt_pos.2 Xp
  have q := Real.mul_self_sqrt Xp.le
  have q' := Real.mul_self_sqrt r0
  have R0 := Real.sqrt_nonneg r.val
  have lo : 1 / 2 ^ 50 ≤ Real.sqrt X := Real.le_sqrt_of_sq_le (le_trans (by norm_num) X0)
  have hi : Real.sqrt X ≤ 2 ^ 50 := by rw [Real.sqrt_le_left (by norm_num)]; exact X1.trans (by norm_num)
  generalize Real.sqrt X = S at *
  generalize Real.sqrt r.val = R at *
  have RS : 0.999 * S ≤ R := by
    by_contra hc
    have := mul_lt_mul'' (not_le.1 hc) (not_le.1 hc) R0 R0
    have := (abs_le.1 h).1
    rw [← q, ← q'] at this
    rw [← q] at dX
    linarith [show 0 < S * S by positivity]
  have k : |R - S| * (1.999 * S) ≤ d * (S * S) := by
    have : |R - S| * (1.999 * S) ≤ |R - S| * (R + S) := mul_le_mul_of_nonneg_left (by linarith) (abs_nonneg _)
    refine this.trans ?_
    rw [q]
    refine le_trans (le_of_eq ?_) h
    rw [← q', ← q, show R * R - S * S = (R - S) * (R + S) by ring, abs_mul, abs_of_nonneg (show 0 ≤ R + S by linarith)]
  have k2 : |R - S| ≤ 0.5003 * d * S := by
    have : |R - S| * S ≤ 0.5003 * d * S * S := by
      have : 0 ≤ d * (S * S) := by positivity
      linarith
    exact le_of_mul_le_mul_right this p
  have dS : d * S ≤ 1 / 2 ^ 18 * S := mul_le_mul_of_nonneg_right d1 p.le
  have Rb : R ≤ 1.0001 * S := by
    have := (abs_le.1 k2).2
    norm_num at *
    linarith
  have a := nearest_approx hn (M := 1.0001 * S) (by rw [abs_of_nonneg R0]; exact Rb) (by linarith [show (1.0001 : ℝ) * 2 ^ 50 < 2 ^ 127 by norm_num])
  refine ⟨a.1, ?_⟩
  have c := a.2
  unfold ulp at c
  have t := abs_add_le ((fsqrt r).val - R) (R - S)
  rw [sub_add_sub_cancel] at t
  have : 0 ≤ d * S := by positivity
  norm_num at *
  linarith

/-- The sampled vector in terms of the arithmetic. -/
theorem sample_form [T : FltT F32] (u : V2 F32) (a : F32) : Brdf.importanceSamplingNdfDggx u a =
      (let c := fdiv (fsub (ofRat 1) u.y) (fadd (ofRat 1) (fmul (fadd a (ofRat 1)) (fmul (fsub a (ofRat 1)) u.y)))
       let p := fmul (fmul (ofRat 2) FltC.pi) u.x
       let s := fsqrt (fsub (ofRat 1) c)
       ⟨fmul s (T.cos p), fmul s (T.sin p), fsqrt c, fsqrt c⟩) := by
  exact rfl

/-- The reflectance in terms of the arithmetic. -/
theorem ior_form (n : F32) : Brdf.iorToReflectance n = fsqrt (fmul (fdiv (fmul (fsub n (ofRat 1)) (fsub n (ofRat 1)))
      (fmul (fadd n (ofRat 1)) (fadd n (ofRat 1)))) (Flt.lit 1 /. Flt.lit 0.16 : F32)) := by
  unfold Brdf.iorToReflectance
  generalize (Flt.lit 1 /. Flt.lit 0.16 : F32) = k
  exact rfl

/-- The distribution in terms of the arithmetic. -/
theorem ggx_form (h r : F32) : Brdf.ggx h r =
    (let f := fadd (fmul (fsub r (ofRat 1)) (fmul (fadd r (ofRat 1)) (fmul h h))) (ofRat 1)
     fdiv (fmul r r) (fmul (fmul FltC.pi f) f)) := by
  exact rfl

/-- The quotient of the distribution. -/
theorem ggx_quot {f r : F32} {D η : ℝ} (ff : f.isFinite = true) (fr : r.isFinite = true) (r0 : 1 / 2 ^ 8 ≤ r.val) (r1 : r.val ≤ 1)
    (D0 : 1 / 2 ^ 16 ≤ D) (D1 : D ≤ 1) (hη : F32.Rel f.val D η 0) (η0 : 6.3 / 2 ^ 24 ≤ η) (η1 : η ≤ 0.025) :
    Near (fdiv (fmul r r) (fmul (fmul FltC.pi f) f)) (r.val ^ 2 / (Real.pi * D ^ 2)) (3 * η * (r.val ^ 2 / (Real.pi * D ^ 2))) := by
  have pp := Real.pi_pos
  have pg := Real.pi_gt_three
  have pl := Real.pi_lt_d2
  obtain ⟨fp, ep⟩ := AngleP.pi_factor
  have rp := AngleP.pi_rel
  rw [← ep] at rp
  generalize (FltC.pi : F32) = p at *
  generalize Real.pi = π at *
  have e0 : 0 ≤ η := le_trans (by norm_num) η0
  have Dp : 0 < D := lt_of_lt_of_le (by norm_num) D0
  have pD : 0 < π * D := by positivity
  have pD1 : π * D ≤ 3.15 * 1 := mul_le_mul pl.le D1 Dp.le (by norm_num)
  have pD0 : 3 * (1 / 2 ^ 16) ≤ π * D := mul_le_mul pg.le D0 (by norm_num) pp.le
  have ee : η * η ≤ 0.025 * η := mul_le_mul_of_nonneg_right η1 e0
  obtain ⟨f1, q1⟩ := mul_rel' (E := 1.25 * η) fp ff rp hη (by norm_num) e0 (by norm_num at *; linarith) (by norm_num at *; linarith)
    (by rw [abs_of_pos pD]; norm_num at *; linarith) (by rw [abs_of_pos pD]; norm_num at *; linarith)
  have pDD : 0 < π * D * D := by positivity
  have pDD1 : π * D * D ≤ 3.15 * 1 := mul_le_mul (by linarith) D1 Dp.le (by norm_num)
  have pDD0 : 3 * (1 / 2 ^ 16) * (1 / 2 ^ 16) ≤ π * D * D := mul_le_mul pD0 D0 (by norm_num) pD.le
  obtain ⟨f2, q2⟩ := mul_rel' (E := 2.45 * η) f1 ff q1 hη (by linarith) e0 (by norm_num at *; linarith) (by norm_num at *; linarith)
    (by rw [abs_of_pos pDD]; norm_num at *; linarith) (by rw [abs_of_pos pDD]; norm_num at *; linarith)
  have rr1 : r.val * r.val ≤ 1 * 1 := mul_le_mul r1 r1 (le_trans (by norm_num) r0) (by norm_num)
  have rr0 : 1 / 2 ^ 8 * (1 / 2 ^ 8) ≤ r.val * r.val := mul_le_mul r0 r0 (by norm_num) (le_trans (by norm_num) r0)
  have rrp : 0 < r.val * r.val := lt_of_lt_of_le (by norm_num) rr0
  obtain ⟨f3, q3⟩ := mul_rel' (E := 1.001 / 2 ^ 24) fr fr (F32.Rel.refl r.val) (F32.Rel.refl r.val) le_rfl le_rfl (by norm_num) (by norm_num)
    (by rw [abs_of_pos rrp]; norm_num at *; linarith) (by rw [abs_of_pos rrp]; norm_num at *; linarith)
  have xe : r.val ^ 2 / (π * D ^ 2) = r.val * r.val / (π * D * D) := by rw [pow_two, pow_two, mul_assoc π]
  rw [xe]
  have xp : 0 < r.val * r.val / (π * D * D) := div_pos rrp pDD
  have x0 : 1 / 2 ^ 18 ≤ r.val * r.val / (π * D * D) := by
    rw [le_div_iff₀ pDD]; norm_num at *; linarith
  have x1 : r.val * r.val / (π * D * D) ≤ 2 ^ 40 := by
    rw [div_le_iff₀ pDD]; norm_num at *; linarith
  have hd : (1.001 / 2 ^ 24 + 2.45 * η) / (1 - 2.45 * η) ≤ 2.8 * η := by
    rw [div_le_iff₀ (by linarith)]
    norm_num at *; linarith
  obtain ⟨f4, q4⟩ := div_rel' (E := 3 * η) f3 f2 q3 q2 (by norm_num) (by linarith) (by linarith) (by norm_num)
    (by norm_num at *; linarith) (by rw [abs_of_pos xp]; norm_num at *; linarith) (by rw [abs_of_pos xp]; norm_num at *; linarith)
  refine ⟨f4, ?_⟩
  unfold F32.Rel at q4
  rw [abs_of_pos xp, add_zero] at q4
  exact q4

end BrdfF32
open BrdfF32

/-- C130, proved part: importance sampling in binary32 for roughness at least `2^-10`. For every random pair in the unit square
(the second number zero or at least `2^-60`) and every implementation of `std::sin` and `std::cos` accurate to `2^-23`, the sampled
vector is finite and within `2^-20` of the unit vector with azimuth `2 π u.x` whose squared cosine is within `6 / (2^24 a²)` of the
right one. Missing: smaller roughness, where the result can be NaN (`importance_sample_nan`). -/
theorem importance_sample_f32_partial [T : FltT F32] (hT : SinCosOk T.sin T.cos) (u : V2 F32) (a : F32) (fx : u.x.isFinite = true)
    (fy : u.y.isFinite = true) (fa : a.isFinite = true) (x0 : 0 ≤ rv u.x) (x1 : rv u.x ≤ 1) (y0 : rv u.y = 0 ∨ 1 / 2 ^ 60 ≤ rv u.y)
    (y1 : rv u.y ≤ 1) (a1 : 1 / 2 ^ 10 ≤ rv a) (a2 : rv a ≤ 1) :
    ∃ C, 0 ≤ C ∧ C ≤ 1 ∧ |C - ggxCosSq (rv u.y) (rv a)| ≤ 6 / 2 ^ 24 / rv a ^ 2 ∧
      NearPt (Brdf.importanceSamplingNdfDggx u a) (tilted C (2 * Real.pi * rv u.x)) (1 / 2 ^ 20) := by
  obtain ⟨fc, c0, c1, ec⟩ := cos_sq fa fy a1 a2 y1 y0
  obtain ⟨fp, ep⟩ := azimuth fx x0 x1
  rw [sample_form]
  dsimp only
  generalize fdiv (fsub (ofRat 1) u.y) (fadd (ofRat 1) (fmul (fadd a (ofRat 1)) (fmul (fsub a (ofRat 1)) u.y))) = c at *
  generalize fmul (fmul (ofRat 2) FltC.pi) u.x = p at *
  obtain ⟨o1, o2⟩ := one_val
  obtain ⟨z1, z2⟩ := lit0
  refine ⟨c.val, c0, c1, ec, ?_⟩
  have l127 : (100 : ℝ) < 2 ^ 127 := by norm_num
  have sn := sub_nearest o1 fc (by rw [o2, abs_of_nonneg (by linarith)]; linarith)
  have es := (fsub_err' o1 fc (by rw [o2, abs_of_nonneg (by linarith)]; linarith)).2
  rw [o2] at sn es
  generalize fsub (ofRat 1) c = s2 at sn es
  rw [u_eq, abs_of_nonneg (show 0 ≤ 1 - c.val by linarith)] at es
  have s0 : 0 ≤ s2.val := by have := nearest_ge sn z1 (by rw [z2]; linarith); rwa [z2] at this
  have s1 : s2.val ≤ 1 := by have := nearest_le sn o1 (by rw [o2]; linarith); rwa [o2] at this
  obtain ⟨f1, e1⟩ := root sn.1 s0 s1 (show 0 ≤ 1 - c.val by linarith) es
  obtain ⟨f2, e2⟩ := root fc c0 c1 c0 (by rw [sub_self, abs_zero]; exact mul_nonneg (by norm_num) c0)
  have pb : |rv p| ≤ 7 := by
    change |p.val| ≤ 7
    have := abs_add_le (p.val - 2 * Real.pi * u.x.val) (2 * Real.pi * u.x.val)
    have pp := Real.pi_pos
    have pl := Real.pi_lt_d2
    have b1 : 2 * Real.pi * u.x.val ≤ 2 * Real.pi * 1 := mul_le_mul_of_nonneg_left x1 (by positivity)
    have b0 : 0 ≤ 2 * Real.pi * u.x.val := mul_nonneg (by positivity) x0
    rw [sub_add_cancel, abs_of_nonneg b0] at this
    norm_num at *
    linarith
  obtain ⟨⟨g1, k1⟩, g2, k2⟩ := hT p fp pb
  have S0 := Real.sqrt_nonneg (1 - c.val)
  have S1 : Real.sqrt (1 - c.val) ≤ 1 := Real.sqrt_le_one.2 (by linarith)
  refine ⟨lane f1 e1 S0 S1 g2 ?_ (Real.abs_cos_le_one _), lane f1 e1 S0 S1 g1 ?_ (Real.abs_sin_le_one _), f2, e2.trans (by norm_num)⟩
  · have t := abs_add_le ((T.cos p).val - Real.cos p.val) (Real.cos p.val - Real.cos (2 * Real.pi * u.x.val))
    rw [sub_add_sub_cancel] at t
    have q := (Real.abs_cos_sub_cos_le p.val (2 * Real.pi * u.x.val)).trans ep
    change |(T.cos p).val - Real.cos p.val| ≤ _ at k2
    norm_num at *
    exact t.trans (by linarith)
  · have t := abs_add_le ((T.sin p).val - Real.sin p.val) (Real.sin p.val - Real.sin (2 * Real.pi * u.x.val))
    rw [sub_add_sub_cancel] at t
    have q := (Real.abs_sin_sub_sin_le p.val (2 * Real.pi * u.x.val)).trans ep
    change |(T.sin p).val - Real.sin p.val| ≤ _ at k1
    norm_num at *
    exact t.trans (by linarith)

/-- C130 fails below: with roughness `0x397EB235` (about 0.00024) and the random number `0x3F6230D1` (about 0.88) the computed
squared cosine is above one, and the sampled vector is NaN in its first two components, whatever `std::sin` and `std::cos` return. -/
theorem importance_sample_nan [T : FltT F32] (x : F32) :
    (Brdf.importanceSamplingNdfDggx ⟨x, ⟨0x3F6230D1⟩⟩ (⟨0x397EB235⟩ : F32)).x.isNaN = true ∧
    (Brdf.importanceSamplingNdfDggx ⟨x, ⟨0x3F6230D1⟩⟩ (⟨0x397EB235⟩ : F32)).y.isNaN = true := by
  have h : (fsqrt (fsub (ofRat 1) (fdiv (fsub (ofRat 1) ⟨0x3F6230D1⟩) (fadd (ofRat 1)
      (fmul (fadd ⟨0x397EB235⟩ (ofRat 1)) (fmul (fsub ⟨0x397EB235⟩ (ofRat 1)) ⟨0x3F6230D1⟩)))))).isNaN = true := by decide +kernel
  rw [sample_form]
  exact ⟨fmul_nan (Or.inl h), fmul_nan (Or.inl h)⟩

/-- C130: `iorToReflectance` in binary32: for every index of refraction from one to `2^60` the result is within `8 · 2^-24` of
`|n - 1| / (n + 1) / 0.4`, relatively, which is the square root of the reflectance at normal incidence divided by 0.16. -/
theorem ior_reflectance_f32 (n : F32) (fn : n.isFinite = true) (n1 : 1 ≤ rv n) (n2 : rv n ≤ 2 ^ 60) :
    Near (Brdf.iorToReflectance n) (Real.sqrt (((rv n - 1) / (rv n + 1)) ^ 2 / 0.16)) (8 / 2 ^ 24 * Real.sqrt (((rv n - 1) / (rv n + 1)) ^ 2 / 0.16)) := by
  have l127 : (2 : ℝ) ^ 61 < 2 ^ 127 := by norm_num
  obtain ⟨o1, o2⟩ := one_val
  obtain ⟨z1, z2⟩ := lit0
  change 1 ≤ n.val at n1
  change n.val ≤ 2 ^ 60 at n2
  change Near _ (Real.sqrt (((n.val - 1) / (n.val + 1)) ^ 2 / 0.16)) (_ * Real.sqrt (((n.val - 1) / (n.val + 1)) ^ 2 / 0.16))
  have mb : |n.val - (ofRat 1).val| < 2 ^ 127 := by rw [o2, abs_of_nonneg (by linarith)]; linarith
  have pb : |n.val + (ofRat 1).val| < 2 ^ 127 := by rw [o2, abs_of_nonneg (by linarith)]; linarith
  have mn := sub_nearest fn o1 mb
  have me := (fsub_err' fn o1 mb).2
  obtain ⟨fp, pe⟩ := fadd_err' fn o1 pb
  obtain ⟨fk, ek⟩ : (Flt.lit 1 /. Flt.lit 0.16 : F32).isFinite = true ∧ (Flt.lit 1 /. Flt.lit 0.16 : F32).val = 6.25 := by
    refine ⟨by decide +kernel, ?_⟩
    rw [val_units, show (Flt.lit 1 /. Flt.lit 0.16 : F32).units = 25 * 2 ^ 147 by decide +kernel]
    push_cast; norm_num
  rw [o2] at mn me pe
  rw [u_eq] at me pe
  rw [ior_form]
  generalize fsub n (ofRat 1) = m at *
  generalize fadd n (ofRat 1) = p at *
  generalize (Flt.lit 1 /. Flt.lit 0.16 : F32) = k at *
  have rp : F32.Rel p.val (n.val + 1) (1 / 2 ^ 24) 0 := by unfold F32.Rel; linarith
  have n12 : (n.val + 1) * (n.val + 1) ≤ (2 ^ 60 + 1) * (2 ^ 60 + 1) := mul_le_mul (by linarith) (by linarith) (by linarith) (by norm_num)
  have n13 : 2 * 2 ≤ (n.val + 1) * (n.val + 1) := mul_le_mul (by linarith) (by linarith) (by norm_num) (by linarith)
  have p0 : 0 < (n.val + 1) * (n.val + 1) := by linarith
  obtain ⟨fpp, rpp⟩ := mul_rel' (E := 3.001 / 2 ^ 24) fp fp rp rp (by norm_num) (by norm_num) (by norm_num) (by norm_num)
    (by rw [abs_of_pos p0]; exact le_trans (by norm_num) n13) (by rw [abs_of_pos p0]; exact n12.trans (by norm_num))
  generalize fmul p p = pp at *
  rcases n1.eq_or_lt with e | e
  · -- the result is zero
    rw [← e] at mn ⊢
    rw [sub_self] at mn
    have m0 := nearest_exact mn z1 z2
    have mm := fmul_exact mn.1 mn.1 z1 (by rw [z2, m0, mul_zero])
    have mm0 := mm.eq
    rw [m0, mul_zero] at mm0
    have ppn : pp.val ≠ 0 := by
      intro h
      have := rpp.le_abs
      rw [h, abs_zero, abs_of_pos p0] at this
      norm_num at this
      linarith
    have f0 := div_nearest mm.1 fpp ppn (by rw [mm0, zero_div, abs_zero]; norm_num)
    rw [mm0, zero_div] at f0
    have f00 := nearest_exact f0 z1 z2
    have v := fmul_exact f0.1 fk z1 (by rw [z2, f00, zero_mul])
    have v0 := v.eq
    rw [f00, zero_mul] at v0
    have w := fsqrt_nearest v.1 (by unfold val at v0; exact_mod_cast v0.ge)
    change IsNearest _ (Real.sqrt (fmul _ k).val) at w
    rw [v0, Real.sqrt_zero] at w
    refine ⟨w.1, ?_⟩
    change |(fsqrt _).val - _| ≤ _
    rw [nearest_exact w z1 z2]
    norm_num
  · have g := gap e
    have rm : F32.Rel m.val (n.val - 1) (1 / 2 ^ 24) 0 := by unfold F32.Rel; linarith
    have n14 : (n.val - 1) * (n.val - 1) ≤ 2 ^ 60 * 2 ^ 60 := mul_le_mul (by linarith) (by linarith) (by linarith) (by norm_num)
    have n15 : 1 / 2 ^ 23 * (1 / 2 ^ 23) ≤ (n.val - 1) * (n.val - 1) := mul_le_mul g g (by norm_num) (by linarith)
    have m0 : 0 < (n.val - 1) * (n.val - 1) := lt_of_lt_of_le (by norm_num) n15
    obtain ⟨fmm, rmm⟩ := mul_rel' (E := 3.001 / 2 ^ 24) mn.1 mn.1 rm rm (by norm_num) (by norm_num) (by norm_num) (by norm_num)
      (by rw [abs_of_pos m0]; exact le_trans (by norm_num) n15) (by rw [abs_of_pos m0]; exact n14.trans (by norm_num))
    -- the quotient is between 2^-50 and 1
    have qe : (n.val - 1) * (n.val - 1) / ((n.val + 1) * (n.val + 1)) = ((n.val - 1) / (n.val + 1)) ^ 2 := by rw [div_pow, pow_two, pow_two]
    have ql : 1 / 2 ^ 25 ≤ (n.val - 1) / (n.val + 1) := by
      rw [le_div_iff₀ (by linarith)]
      norm_num at *
      linarith
    have qu : (n.val - 1) / (n.val + 1) ≤ 1 := by rw [div_le_one (by linarith)]; linarith
    have q2l : (1 / 2 ^ 25) ^ 2 ≤ ((n.val - 1) / (n.val + 1)) ^ 2 := by gcongr
    have q2u : ((n.val - 1) / (n.val + 1)) ^ 2 ≤ 1 := pow_le_one₀ (le_trans (by norm_num) ql) qu
    have q0 := sq_nonneg ((n.val - 1) / (n.val + 1))
    obtain ⟨ff, rf⟩ := div_rel' (E := 7.01 / 2 ^ 24) fmm fpp rmm rpp (by norm_num) (by norm_num) (by norm_num) (by norm_num) (by norm_num)
      (by rw [qe, abs_of_nonneg q0]; exact le_trans (by norm_num) q2l) (by rw [qe, abs_of_nonneg q0]; exact q2u.trans (by norm_num))
    rw [qe] at rf
    clear qe ql qu
    generalize ((n.val - 1) / (n.val + 1)) ^ 2 = Q at *
    have Q1 : |Q * 6.25| = Q * 6.25 := abs_of_nonneg (by linarith)
    obtain ⟨fv, rv'⟩ := mul_rel' (E := 8.02 / 2 ^ 24) ff fk rf (F32.Rel.refl k.val) (by norm_num) (by norm_num) (by norm_num) (by norm_num)
      (by rw [ek, Q1]; norm_num at q2l ⊢; linarith) (by rw [ek, Q1]; norm_num at q2u ⊢; linarith)
    rw [ek] at rv'
    have xe : Q / 0.16 = Q * 6.25 := by ring
    rw [xe]
    obtain ⟨fs, es⟩ := sqrt_rel' fv rv' (by norm_num) (by norm_num) (by norm_num at q2l ⊢; linarith) (by norm_num at q2u ⊢; linarith)
    refine ⟨fs, es.trans ?_⟩
    refine mul_le_mul_of_nonneg_right ?_ (Real.sqrt_nonneg _)
    norm_num

/-- C130, proved part: the distribution term in binary32 for roughness at least `2^-8`. For every cosine in the unit interval the
result is finite and, relatively, within `20 / (2^24 D)` of `r² / (π D²)` with `D = 1 - (1 - r²) h²`. Missing: smaller roughness,
where the result can be infinite (`ggx_infinite`). -/
theorem ggx_f32_partial (h r : F32) (fh : h.isFinite = true) (fr : r.isFinite = true) (h0 : 0 ≤ rv h) (h1 : rv h ≤ 1) (r0 : 1 / 2 ^ 8 ≤ rv r)
    (r1 : rv r ≤ 1) :
    Near (Brdf.ggx h r) (rv r ^ 2 / (Real.pi * ggxDen (rv h) (rv r) ^ 2))
      (20 / 2 ^ 24 / ggxDen (rv h) (rv r) * (rv r ^ 2 / (Real.pi * ggxDen (rv h) (rv r) ^ 2))) := by
  have l127 : (100 : ℝ) < 2 ^ 127 := by norm_num
  obtain ⟨o1, o2⟩ := one_val
  obtain ⟨z1, z2⟩ := lit0
  change 0 ≤ h.val at h0
  change h.val ≤ 1 at h1
  change 1 / 2 ^ 8 ≤ r.val at r0
  change r.val ≤ 1 at r1
  change Near _ (r.val ^ 2 / (Real.pi * ggxDen h.val r.val ^ 2)) (20 / 2 ^ 24 / ggxDen h.val r.val * (r.val ^ 2 / (Real.pi * ggxDen h.val r.val ^ 2)))
  rw [ggx_form]
  dsimp only
  have rp : 0 < r.val := lt_of_lt_of_le (by norm_num) r0
  have hh : h.val * h.val ≤ 1 * 1 := mul_le_mul h1 h1 h0 (by norm_num)
  have hh0 : 0 ≤ h.val * h.val := mul_self_nonneg _
  obtain ⟨fy, ey⟩ := fmul_rel fh fh (by rw [abs_of_nonneg hh0]; linarith)
  have yn := fmul_nearest fh fh (by
    have : |((h.toRat * h.toRat : Rat) : ℝ)| < 2 ^ 127 := by
      have e : ((h.toRat * h.toRat : Rat) : ℝ) = h.val * h.val := by unfold val; push_cast; rfl
      rw [e, abs_of_nonneg hh0]; linarith
    exact rat_le_max le_rfl this)
  have e : ((h.toRat * h.toRat : Rat) : ℝ) = h.val * h.val := by unfold val; push_cast; rfl
  rw [e] at yn
  have y0 : 0 ≤ (fmul h h).val := by have := nearest_ge yn z1 (by rw [z2]; exact hh0); rwa [z2] at this
  have y1 : (fmul h h).val ≤ 1 := by have := nearest_le yn o1 (by rw [o2]; linarith); rwa [o2] at this
  generalize fmul h h = y at *
  rw [u_eq, abs_of_nonneg hh0] at ey
  have hp := fadd_err' fr o1 (by rw [o2, abs_of_pos (by linarith)]; linarith)
  have hm := fsub_err' fr o1 (by rw [o2, abs_of_nonpos (by linarith)]; linarith)
  rw [o2] at hp hm
  obtain ⟨fP, eP⟩ := triple hm.1 hp.1 fy (X1 := r.val - 1) (X2 := r.val + 1) (by unfold F32.Rel; linarith [hm.2]) (by unfold F32.Rel; linarith [hp.2])
    (by rw [abs_of_nonpos (by linarith)]; linarith) (by rw [abs_of_pos (by linarith)]; linarith) (by rw [abs_of_nonneg y0]; exact y1)
  generalize fmul (fsub r (ofRat 1)) (fmul (fadd r (ofRat 1)) y) = P at *
  have q2 : r.val ^ 2 ≤ 1 := pow_le_one₀ rp.le r1
  have q1 : (1 / 2 ^ 8) ^ 2 ≤ r.val ^ 2 := pow_le_pow_left₀ (by norm_num) r0 2
  have ee : (r.val - 1) * ((r.val + 1) * y.val) = -((1 - r.val ^ 2) * y.val) := by ring
  have m0 : 0 ≤ (1 - r.val ^ 2) * y.val := mul_nonneg (by linarith) y0
  have m1 : (1 - r.val ^ 2) * y.val ≤ 1 * y.val := mul_le_mul_of_nonneg_right (by linarith [sq_nonneg r.val]) y0
  rw [ee, sub_neg_eq_add, abs_neg, abs_of_nonneg m0] at eP
  have eP' : |P.val + (1 - r.val ^ 2) * (h.val * h.val)| ≤ 5.2 / 2 ^ 24 * (h.val * h.val) + 1 / 2 ^ 130 := by
    have t := abs_add_le (P.val + (1 - r.val ^ 2) * y.val) (-((1 - r.val ^ 2) * (y.val - h.val * h.val)))
    rw [abs_neg, abs_mul, abs_of_nonneg (show 0 ≤ 1 - r.val ^ 2 by linarith)] at t
    rw [show P.val + (1 - r.val ^ 2) * y.val + -((1 - r.val ^ 2) * (y.val - h.val * h.val)) = P.val + (1 - r.val ^ 2) * (h.val * h.val) by ring] at t
    have t2 : (1 - r.val ^ 2) * |y.val - h.val * h.val| ≤ 1 * |y.val - h.val * h.val| :=
      mul_le_mul_of_nonneg_right (by linarith [sq_nonneg r.val]) (abs_nonneg _)
    have t3 := (abs_le.1 ey).2
    generalize h.val * h.val = H at *
    generalize (1 - r.val ^ 2) * y.val = Z at *
    generalize |y.val - H| = Y at *
    norm_num at *
    linarith
  have bP : |P.val + 1| ≤ 3 := by
    have t := abs_add_le (P.val + (1 - r.val ^ 2) * y.val) (1 - (1 - r.val ^ 2) * y.val)
    rw [show P.val + (1 - r.val ^ 2) * y.val + (1 - (1 - r.val ^ 2) * y.val) = P.val + 1 by ring, abs_of_nonneg (show 0 ≤ 1 - (1 - r.val ^ 2) * y.val by linarith)] at t
    norm_num at *
    linarith
  obtain ⟨ff, ef⟩ := fadd_err' fP o1 (by rw [o2]; linarith)
  rw [o2, u_eq, add_comm P.val] at ef
  obtain ⟨d1, d2, d3, d4⟩ := den (k := 5.2) (f := fadd P (ofRat 1)) (le_trans (by norm_num) r0) r1 hh0 (by linarith) rfl eP' (by norm_num) (by norm_num) ef
  have dd : 1 - (1 - r.val ^ 2) * (h.val * h.val) = ggxDen h.val r.val := by unfold ggxDen; ring
  rw [dd] at d1 d2 d3 d4
  generalize ggxDen h.val r.val = D at *
  generalize fadd P (ofRat 1) = f at *
  have D0 : 0 < D := by norm_num at *; linarith
  have i1 : 1 ≤ 1 / D := by rw [le_div_iff₀ D0]; linarith
  have i2 : 1 / D ≤ 2 ^ 16 := by rw [div_le_iff₀ D0]; norm_num at *; linarith
  have k := ggx_quot (η := 6.31 / 2 ^ 24 * (1 / D)) ff fr r0 r1 (le_trans (by norm_num) (q1.trans d1)) d2 (by
    unfold F32.Rel
    rw [add_zero, abs_of_pos D0, mul_assoc, one_div_mul_cancel D0.ne', mul_one]
    refine d4.trans ?_
    norm_num at *
    linarith) (by norm_num at *; linarith) (by norm_num at *; linarith)
  refine ⟨k.1, k.2.trans (mul_le_mul_of_nonneg_right ?_ ?_)⟩
  · rw [show 20 / 2 ^ 24 / D = 20 / 2 ^ 24 * (1 / D) by ring]
    norm_num at *
    linarith
  · exact div_nonneg (sq_nonneg _) (mul_nonneg Real.pi_pos.le (sq_nonneg _))

/-- C130 fails below: at roughness `0x399CBA9E` (about 0.0003) and normal incidence the computed distribution is infinite. -/
theorem ggx_infinite : Brdf.ggx (⟨0x3F800000⟩ : F32) ⟨0x399CBA9E⟩ = ⟨0x7F800000⟩ := by decide +kernel

/-! ## The hypotheses are met -/

private theorem near_unit {y : ℝ} (h : |y| ≤ 1) : ∃ r : F32, Near r y (1 / 2 ^ 23) := by
  have h' := abs_le.1 h
  obtain ⟨q, q1, q2⟩ := exists_rat_btwn (show y < y + 1 / 2 ^ 26 by norm_num)
  have a := lit_approx q 1.5 (by rw [abs_le]; norm_num at *; constructor <;> linarith) (by norm_num)
  refine ⟨_, a.1, ?_⟩
  have a2 := abs_le.1 a.2
  change |F32.val _ - _| ≤ _
  have u : ulp 1.5 ≤ 1.6 / 2 ^ 24 := by unfold ulp; norm_num
  rw [abs_le]; norm_num at *; constructor <;> linarith

theorem sinCosOk_exists : ∃ sin cos, SinCosOk sin cos := by
  choose s hs using fun x : F32 => near_unit (Real.abs_sin_le_one (rv x))
  choose c hc using fun x : F32 => near_unit (Real.abs_cos_le_one (rv x))
  exact ⟨s, c, fun x _ _ => ⟨hs x, hc x⟩⟩

private theorem half_val : (ofRat (1 / 2)).isFinite = true ∧ rv (ofRat (1 / 2)) = 1 / 2 := by
  obtain ⟨f, v⟩ := lit_exact (q := 1 / 2) (U := 2 ^ 148) (by decide +kernel) (by decide +kernel)
  refine ⟨f, ?_⟩
  change F32.val _ = _
  rw [v]; norm_num

/-- Non-vacuity: a platform with accurate `sin` and `cos`, the random pair (1/2, 1/2) and roughness 1/2. -/
example : ∃ T : FltT F32, ∃ a : F32, rv a = 1 / 2 ∧ ∃ C, |C - ggxCosSq (1 / 2) (1 / 2)| ≤ 24 / 2 ^ 24 ∧
    NearPt (@Brdf.importanceSamplingNdfDggx F32 _ T _ ⟨a, a⟩ a) (tilted C Real.pi) (1 / 2 ^ 20) := by
  obtain ⟨s, c, h⟩ := sinCosOk_exists
  let inst : FltT F32 := ⟨fun x _ => x, id, id, s, c, id, id, id, fun x _ => x, fun x _ => x, id, fun _ => false⟩
  obtain ⟨f, v⟩ := half_val
  generalize ofRat (1 / 2) = a at *
  obtain ⟨C, _, _, c1, c2⟩ := importance_sample_f32_partial (T := inst) h ⟨a, a⟩ a f f f
    (by rw [v]; norm_num) (by rw [v]; norm_num) (Or.inr (by rw [v]; norm_num)) (by rw [v]; norm_num) (by rw [v]; norm_num) (by rw [v]; norm_num)
  refine ⟨inst, a, v, C, ?_, ?_⟩
  · rw [v] at c1; refine c1.trans ?_; norm_num
  · rw [v, show 2 * Real.pi * (1 / 2) = Real.pi by ring] at c2; exact c2

/-- Non-vacuity: glass of index 3/2. -/
example : Near (Brdf.iorToReflectance (ofRat (3 / 2))) (1 / 2) (4 / 2 ^ 24) := by
  obtain ⟨f, v⟩ := lit_exact (q := 3 / 2) (U := 3 * 2 ^ 148) (by decide +kernel) (by decide +kernel)
  have v' : rv (ofRat (3 / 2)) = 3 / 2 := by change F32.val _ = _; rw [v]; norm_num
  have := ior_reflectance_f32 (ofRat (3 / 2)) f (by rw [v']; norm_num) (by rw [v']; norm_num)
  rw [v', show (((3 : ℝ) / 2 - 1) / (3 / 2 + 1)) ^ 2 / 0.16 = (1 / 2) ^ 2 by norm_num, Real.sqrt_sq (by norm_num)] at this
  exact ⟨this.1, this.2.trans (by norm_num)⟩

/-- Non-vacuity: cosine 1/2 and roughness 1/2. -/
example : Near (Brdf.ggx (ofRat (1 / 2)) (ofRat (1 / 2))) ((1 / 2) ^ 2 / (Real.pi * (13 / 16) ^ 2))
    (20 / 2 ^ 24 / (13 / 16) * ((1 / 2) ^ 2 / (Real.pi * (13 / 16) ^ 2))) := by
  obtain ⟨f, v⟩ := half_val
  have := ggx_f32_partial (ofRat (1 / 2)) (ofRat (1 / 2)) f f (by rw [v]; norm_num) (by rw [v]; norm_num) (by rw [v]; norm_num) (by rw [v]; norm_num)
  rwa [v, show ggxDen (1 / 2) (1 / 2) = 13 / 16 by unfold ggxDen; norm_num] at this

end Verif
