import Verif.Model.Angles
import Verif.Spec.Accuracy
import Verif.Props.GeomOps
import Verif.Props.VecAccuracy
import Verif.Proofs.F32Rel
import Verif.Proofs.BoxTest
import Mathlib.Analysis.Real.Pi.Bounds

/-!
# Angle conversion in binary32 (C116)
-/

namespace Verif
open Spec F32

namespace Spec
/-- `r` is `x` up to `c` half units in the last place and the smallest positive value. -/
def HalfUlps (c : ℝ) (r : F32) (x : ℝ) : Prop := Near r x (c / 2 ^ 24 * |x| + 1 / 2 ^ 149)
end Spec

namespace AngleP

private theorem factor {C : F32} {U : Int} (hf : C.isFinite = true) (hu : C.units = U) :
    C.isFinite = true ∧ C.val = (U : ℝ) / 2 ^ 149 := by
  refine ⟨hf, ?_⟩
  rw [val_units, hu]

theorem rad_factor : (FltC.pi /. Flt.lit 180 : F32).isFinite = true ∧
    (FltC.pi /. Flt.lit 180 : F32).val = ((9370165 / 2 ^ 29 : ℝ)) := by
  obtain ⟨h, e⟩ := factor (C := (FltC.pi /. Flt.lit 180 : F32)) (U := 9370165 * 2 ^ 120) (by decide +kernel) (by decide +kernel)
  refine ⟨h, e.trans ?_⟩
  push_cast; norm_num

theorem deg_factor : (Flt.lit 180 /. FltC.pi : F32).isFinite = true ∧
    (Flt.lit 180 /. FltC.pi : F32).val = ((469367 / 2 ^ 13 : ℝ)) := by
  obtain ⟨h, e⟩ := factor (C := (Flt.lit 180 /. FltC.pi : F32)) (U := 469367 * 2 ^ 136) (by decide +kernel) (by decide +kernel)
  refine ⟨h, e.trans ?_⟩
  push_cast; norm_num

theorem pi_factor : (FltC.pi : F32).isFinite = true ∧ (FltC.pi : F32).val = ((13176795 / 2 ^ 22 : ℝ)) := by
  obtain ⟨h, e⟩ := factor (C := (FltC.pi : F32)) (U := 13176795 * 2 ^ 127) (by decide +kernel) (by decide +kernel)
  refine ⟨h, e.trans ?_⟩
  push_cast; norm_num

theorem half_factor : (Flt.lit 180 : F32).isFinite = true ∧ (Flt.lit 180 : F32).val = (180 : ℝ) := by
  obtain ⟨h, e⟩ := factor (C := (Flt.lit 180 : F32)) (U := 180 * 2 ^ 149) (by decide +kernel) (by decide +kernel)
  refine ⟨h, e.trans ?_⟩
  push_cast; norm_num

/-- Multiplication by a rounded constant. -/
theorem scale {d C : F32} {k e c : ℝ} (hd : d.isFinite = true) (hC : C.isFinite = true) (hk : Rel C.val k e 0)
    (hb : |d.val * C.val| < 2 ^ 127) (hc : e + uro + e * uro ≤ c / 2 ^ 24) : HalfUlps c (fmul d C) (d.val * k) := by
  obtain ⟨h1, h2⟩ := fmul_rel hd hC hb
  have h3 := ((Rel.refl d.val).mul hk).round h2 uro_pos.le
  refine ⟨h1, (h3.mono (e' := c / 2 ^ 24) (a' := 1 / 2 ^ 149) ?_ ?_ : _)⟩
  · linarith
  · norm_num

theorem rad_rel : Rel ((9370165 / 2 ^ 29 : ℝ)) (Real.pi / 180) (3 / 16 / 2 ^ 24) 0 := by
  have h1 := Real.pi_gt_d20
  have h2 := Real.pi_lt_d20
  unfold F32.Rel
  rw [abs_of_pos (a := Real.pi / 180) (by positivity), abs_le]
  constructor <;> linarith

theorem deg_rel : Rel ((469367 / 2 ^ 13 : ℝ)) (180 / Real.pi) (15 / 16 / 2 ^ 24) 0 := by
  have h1 := Real.pi_gt_d20
  have h2 := Real.pi_lt_d20
  have hp := Real.pi_pos
  unfold F32.Rel
  rw [abs_of_pos (a := 180 / Real.pi) (by positivity), abs_le, add_zero, neg_le_sub_iff_le_add, sub_le_iff_le_add]
  constructor
  · rw [← sub_le_iff_le_add, ← one_sub_mul, mul_div_assoc', div_le_iff₀ hp]; linarith
  · rw [← add_one_mul, mul_div_assoc', le_div_iff₀ hp]; linarith

theorem pi_rel : Rel ((13176795 / 2 ^ 22 : ℝ)) Real.pi (15 / 32 / 2 ^ 24) 0 := by
  have h1 := Real.pi_gt_d20
  have h2 := Real.pi_lt_d20
  unfold F32.Rel
  rw [abs_of_pos Real.pi_pos, abs_le]
  constructor <;> linarith

theorem fin_lt {d : F32} (h : d.isFinite = true) : |d.val| < 2 ^ 128 := by
  have h1 := val_le_max h
  have h2 : |d.val| ≤ ((maxRat : Rat) : ℝ) := by
    unfold val; rw [← Rat.cast_abs]; exact_mod_cast h1
  refine h2.trans_lt ?_
  rw [maxRat_eq]
  have h : magUnits (infMag - 1) = (2 ^ 24 - 1) * 2 ^ 253 := by decide +kernel
  rw [h]; push_cast; norm_num

end AngleP
open AngleP

/-- C116: `radians` in binary32. For every finite number of degrees the result is finite and the exact number of radians
up to 1.25 half units in the last place; a larger angle never gives a smaller result. -/
theorem radians_f32 (d : F32) (hd : d.isFinite = true) :
    HalfUlps (5 / 4) (radians d) (rv d * (Real.pi / 180)) ∧
    ∀ e : F32, e.isFinite = true → rv d ≤ rv e → rv (radians d) ≤ rv (radians e) := by
  obtain ⟨f, e⟩ := rad_factor
  constructor
  · refine scale hd f (e ▸ rad_rel) ?_ (by unfold uro; norm_num)
    rw [e, abs_mul]
    have := fin_lt hd
    rw [abs_of_pos (a := ((9370165 / 2 ^ 29 : ℝ))) (by norm_num)]
    linarith
  · intro x hx h
    rw [BoxTest.rv_le_key] at h ⊢
    refine F32.fmul_mono hd hx f ?_ h
    decide +kernel

/-- C116: `degrees` in binary32, for angles up to `2^120`: the exact number of degrees up to two half units in the last
place; a larger angle never gives a smaller result. -/
theorem degrees_f32 (r : F32) (hr : r.isFinite = true) (hb : |rv r| ≤ 2 ^ 120) :
    HalfUlps 2 (degrees r) (rv r * (180 / Real.pi)) ∧
    ∀ e : F32, e.isFinite = true → rv r ≤ rv e → rv (degrees r) ≤ rv (degrees e) := by
  obtain ⟨f, e⟩ := deg_factor
  constructor
  · refine scale hr f (e ▸ deg_rel) ?_ (by unfold uro; norm_num)
    rw [e, abs_mul]
    have : |r.val| ≤ 2 ^ 120 := hb
    rw [abs_of_pos (a := ((469367 / 2 ^ 13 : ℝ))) (by norm_num)]
    linarith
  · intro x hx h
    rw [BoxTest.rv_le_key] at h ⊢
    refine F32.fmul_mono hr hx f ?_ h
    decide +kernel

/-- Multiplication, then division by a constant. -/
theorem AngleP.scale2 {d A B : F32} {a b ea eb c : ℝ} (hd : d.isFinite = true) (hA : A.isFinite = true) (hB : B.isFinite = true)
    (ka : Rel A.val a ea 0) (kb : Rel B.val b eb 0) (heb : 0 ≤ eb ∧ eb < 1 / 4) (hb2 : 2 < |b|) (hB1 : 1 ≤ |B.val|)
    (hb : |d.val * A.val| ≤ 2 ^ 126)
    (hc : (ea + uro + ea * uro + eb) / (1 - eb) + uro + (ea + uro + ea * uro + eb) / (1 - eb) * uro ≤ c / 2 ^ 24) :
    HalfUlps c (fdiv (fmul d A) B) (d.val * a / b) := by
  obtain ⟨h1, h2⟩ := fmul_rel hd hA (hb.trans_lt (by norm_num))
  have h3 := ((Rel.refl d.val).mul ka).round h2 uro_pos.le
  have hB0 : B.val ≠ 0 := by intro h; rw [h] at hB1; norm_num at hB1
  have hm : |(fmul d A).val| ≤ (1 + uro) * 2 ^ 126 + 1 / 2 ^ 150 := by
    have := (show Rel (fmul d A).val (d.val * A.val) uro (1 / 2 ^ 150) from h2).abs_le
    have h4 : (1 + uro) * |d.val * A.val| ≤ (1 + uro) * 2 ^ 126 := by
      have := uro_pos; gcongr
    linarith
  have hq : |(fmul d A).val / B.val| < 2 ^ 127 := by
    rw [abs_div]
    refine (div_le_self (abs_nonneg _) hB1).trans_lt (hm.trans_lt ?_)
    unfold uro; norm_num
  obtain ⟨h5, h6⟩ := fdiv_rel h1 hB hB0 hq
  have hb0 : b ≠ 0 := by intro h; rw [h] at hb2; norm_num at hb2
  have h7 := (h3.div kb (by linarith) hb0).round h6 uro_pos.le
  refine ⟨h5, (h7.mono (e' := c / 2 ^ 24) (a' := 1 / 2 ^ 149) ?_ ?_ : _)⟩
  · refine le_trans (le_of_eq ?_) hc
    ring
  · simp only [mul_zero, zero_add, add_zero]
    have h8 : (3 / 2 : ℝ) ≤ (1 - eb) * |b| := by nlinarith [heb.1, heb.2]
    have h9 : (1 / 2 ^ 150 : ℝ) / ((1 - eb) * |b|) ≤ 1 / 2 ^ 150 / (3 / 2) := by gcongr
    have h10 : (1 + uro) * ((1 / 2 ^ 150 : ℝ) / ((1 - eb) * |b|)) ≤ (1 + uro) * (1 / 2 ^ 150 / (3 / 2)) := by
      have := uro_pos; gcongr
    refine (add_le_add_left h10 _).trans ?_
    unfold uro; norm_num

/-- C116: the SIMD overloads in binary32: in every lane the exact conversion up to 2.5 half units in the last place, and
never decreasing. -/
theorem angles_simd_f32 (v : V4 F32) (hv : AllFinite v.toList) (hb : ∀ x ∈ v.toList, |rv x| ≤ 2 ^ 118) :
    List.Forall₂ (fun x r => HalfUlps (5 / 2) r (rv x * (Real.pi / 180))) v.toList (radiansSimd v).toList ∧
    List.Forall₂ (fun x r => HalfUlps (5 / 2) r (rv x * (180 / Real.pi))) v.toList (degreesSimd v).toList := by
  obtain ⟨fp, ep⟩ := pi_factor
  obtain ⟨f1, e1⟩ := half_factor
  have p1 := Real.pi_gt_three
  have r1 : ∀ x ∈ v.toList, HalfUlps (5 / 2) (fdiv (fmul x FltC.pi) (Flt.lit 180)) (rv x * (Real.pi / 180)) := by
    intro x hx
    have hbx : |x.val| ≤ 2 ^ 118 := hb x hx
    have h := scale2 (c := 5 / 2) (eb := 0) (hv x hx) fp f1 (ep ▸ pi_rel) (b := 180) (by rw [e1]; exact Rel.refl 180) (by norm_num) (by norm_num) (by rw [e1]; norm_num)
      (by rw [ep, abs_mul, abs_of_pos (a := ((13176795 / 2 ^ 22 : ℝ))) (by norm_num)]; linarith) (by unfold uro; norm_num)
    rwa [mul_div_assoc] at h
  have r2 : ∀ x ∈ v.toList, HalfUlps (5 / 2) (fdiv (fmul x (Flt.lit 180)) FltC.pi) (rv x * (180 / Real.pi)) := by
    intro x hx
    have hbx : |x.val| ≤ 2 ^ 118 := hb x hx
    have h := scale2 (c := 5 / 2) (ea := 0) (hv x hx) f1 fp (a := 180) (by rw [e1]; exact Rel.refl 180) (ep ▸ pi_rel) (by norm_num)
      (by rw [abs_of_pos Real.pi_pos]; linarith) (by rw [ep]; norm_num)
      (by rw [e1, abs_mul, abs_of_pos (a := (180 : ℝ)) (by norm_num)]; linarith) (by unfold uro; norm_num)
    rwa [mul_div_assoc] at h
  simp only [V4.toList, List.mem_cons, List.not_mem_nil, or_false, forall_eq_or_imp, forall_eq] at r1 r2
  exact ⟨.cons r1.1 (.cons r1.2.1 (.cons r1.2.2.1 (.cons r1.2.2.2 .nil))),
    .cons r2.1 (.cons r2.2.1 (.cons r2.2.2.1 (.cons r2.2.2.2 .nil)))⟩

/-- C116: the vector overloads convert every component as the scalar overload does. -/
theorem angles_vec_f32 (a : V2 F32) (b : V3 F32) (c : V4 F32) :
    (radians2 a).toList = a.toList.map radians ∧ (radians3 b).toList = b.toList.map radians ∧
    (radians4 c).toList = c.toList.map radians ∧ (degrees2 a).toList = a.toList.map degrees ∧
    (degrees3 b).toList = b.toList.map degrees ∧ (degrees4 c).toList = c.toList.map degrees := by
  refine ⟨rfl, rfl, rfl, rfl, rfl, rfl⟩

/-- C116: converting to radians and back returns the angle up to four half units in the last place. -/
theorem angles_roundtrip_f32 (d : F32) (hd : d.isFinite = true) (hb : |rv d| ≤ 2 ^ 120) :
    Near (degrees (radians d)) (rv d) (4 / 2 ^ 24 * |rv d| + 1 / 2 ^ 142) ∧
    Near (radians (degrees d)) (rv d) (4 / 2 ^ 24 * |rv d| + 1 / 2 ^ 142) := by
  have hp := Real.pi_pos
  have p3 := Real.pi_gt_three
  have p4 := Real.pi_lt_four
  have a1 : |Real.pi / 180| = Real.pi / 180 := abs_of_pos (by positivity)
  have a2 : |180 / Real.pi| = 180 / Real.pi := abs_of_pos (by positivity)
  have b2 : 180 / Real.pi ≤ 60 := by rw [div_le_iff₀ hp]; linarith
  have hd0 := abs_nonneg (rv d)
  obtain ⟨f1, h1⟩ := (radians_f32 d hd).1
  obtain ⟨f2, h2⟩ := (degrees_f32 d hd hb).1
  change F32.Rel _ _ _ _ at h1
  change F32.Rel _ _ _ _ at h2
  have s1 : |rv (radians d)| ≤ 2 ^ 120 := by
    have := h1.abs_le
    rw [abs_mul, a1] at this
    nlinarith
  obtain ⟨f3, h3⟩ := (degrees_f32 _ f1 s1).1
  obtain ⟨f4, h4⟩ := (radians_f32 _ f2).1
  refine ⟨⟨f3, ?_⟩, ⟨f4, ?_⟩⟩
  · have h5 := (h1.mul (Rel.refl (180 / Real.pi))).round h3 (by norm_num)
    have h6 := h5.of_eq (y := rv d) (by field_simp)
    refine (h6.mono (e' := 4 / 2 ^ 24) (a' := 1 / 2 ^ 142) (by norm_num) ?_ : F32.Rel _ _ _ _)
    rw [a2]; nlinarith
  · have h5 := (h2.mul (Rel.refl (Real.pi / 180))).round h4 (by norm_num)
    have h6 := h5.of_eq (y := rv d) (by field_simp)
    refine (h6.mono (e' := 4 / 2 ^ 24) (a' := 1 / 2 ^ 142) (by norm_num) ?_ : F32.Rel _ _ _ _)
    rw [a1]; nlinarith

/-- Concrete case: a right angle. -/
example : HalfUlps (5 / 4) (radians (ofRat 90)) (Real.pi / 2) := by
  have h := (radians_f32 (ofRat 90) (by decide +kernel)).1
  have e : rv (ofRat 90) = 90 := by
    have := (lit_exact (q := 90) (U := 90 * 2 ^ 149) (by decide +kernel) (by decide +kernel)).2
    change F32.val _ = _; rw [this]; push_cast; norm_num
  rw [e] at h
  rwa [show (90 : ℝ) * (Real.pi / 180) = Real.pi / 2 by ring] at h

end Verif
