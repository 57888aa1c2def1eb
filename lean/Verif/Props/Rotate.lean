import Verif.Props.Products
import Verif.Model.QuatTargets
import Verif.Spec.Rotate

/-!
# C110: rotating vectors by quaternions in binary32
-/

namespace Verif
open F32 Spec Quaternion VecAcc ProductsP

namespace RotateP

private theorem u2 : ((1 : ℝ) + 1 / 2 ^ 24) ^ 2 - 1 ≤ 201 / 100 / 2 ^ 24 := by norm_num

/-- A difference of two products, as a rounded result. -/
theorem pair {r : F32} {a b c d W : ℝ} (hs : SumOk r [(a, b), (-c, d)]) (hW : |a| * |b| + |c| * |d| ≤ W) (hb : W ≤ 2 ^ 126) :
    Approx r (a * b - c * d) (201 / 100 / 2 ^ 24 * W + 2 / 2 ^ 149) := by
  have e1 : absProd [(a, b), (-c, d)] = |a| * |b| + |c| * |d| := by simp [absProd, abs_mul]
  have e2 : sumProd [(a, b), (-c, d)] = a * b - c * d := by simp [sumProd]; ring
  have h := hs (by rw [e1]; exact hW.trans hb)
  rw [e1, e2] at h
  refine ⟨h.1, h.2.trans ?_⟩
  have l : (List.length [(a, b), (-c, d)]) = 2 := rfl
  rw [l]
  have p0 : 0 ≤ |a| * |b| + |c| * |d| := by positivity
  have := mul_le_mul u2 hW p0 (by norm_num)
  push_cast
  linarith

/-- Twice the multiply-add of the rotation, plus the vector. `c`, `cc` are the exact cross products. -/
theorem outer (t : FTarget) {C CC w v two : F32} {c cc V : ℝ} (hV : V ≤ 2 ^ 100) (V0 : 0 ≤ V)
    (hC : Approx C c (203 / 100 / 2 ^ 24 * V + 2 / 2 ^ 149)) (hCC : Approx CC cc (575 / 100 / 2 ^ 24 * V + 5 / 2 ^ 149))
    (hc : |c| ≤ 1001 / 1000 * V) (hcc : |cc| ≤ 1003 / 1000 * V) (hw : |w.val| ≤ 1001 / 1000) (fw : w.isFinite = true)
    (fv : v.isFinite = true) (hv : |v.val| ≤ V) (h2 : Approx two 2 0) :
    Approx (F32x4.fma1 t (F32x4.fma1 t C w CC) two v) (v.val + 2 * (w.val * c + cc)) (32 / 2 ^ 24 * V + 1 / 2 ^ 140) := by
  have c0 := abs_nonneg c
  have wc : |c * w.val| ≤ 1003 / 1000 * V := by
    rw [abs_mul]
    calc |c| * |w.val| ≤ (1001 / 1000 * V) * (1001 / 1000) := mul_le_mul hc hw (abs_nonneg _) (by positivity)
      _ ≤ _ := by nlinarith
  have in0 : |c * w.val + cc| ≤ 2006 / 1000 * V := by
    have := abs_add_le (c * w.val) cc
    linarith
  have i := Approx.fma t hC (Approx.self fw) hCC (1001 / 1000 * V) (1001 / 1000) (1003 / 1000 * V + 1 / 2 ^ 140) (2008 / 1000 * V + 1 / 2 ^ 140) hc hw
    (by nlinarith) (by unfold ulp; nlinarith) (by norm_num; nlinarith) (by norm_num; nlinarith)
  have i' : Approx (F32x4.fma1 t C w CC) (c * w.val + cc) (108 / 10 / 2 ^ 24 * V + 1 / 2 ^ 145) := by
    refine i.mono ?_
    unfold ulp
    nlinarith
  have o := Approx.fma t i' h2 (Approx.self fv) (2006 / 1000 * V) 2 (4014 / 1000 * V + 1 / 2 ^ 140) (5020 / 1000 * V + 1 / 2 ^ 140) in0 (by norm_num)
    (by nlinarith) (by
      have := abs_add_le ((c * w.val + cc) * 2) v.val
      rw [abs_mul, abs_two] at this
      unfold ulp; nlinarith) (by norm_num; nlinarith) (by norm_num; nlinarith)
  refine (o.of_eq (by ring)).mono ?_
  unfold ulp
  nlinarith

theorem cauchy2 {a b c d A B : ℝ} (hA : 0 ≤ A) (hB : 0 ≤ B) (h1 : a ^ 2 + c ^ 2 ≤ A ^ 2) (h2 : b ^ 2 + d ^ 2 ≤ B ^ 2) :
    |a| * |b| + |c| * |d| ≤ A * B := by
  refine le_of_sq_le_sq ?_ (mul_nonneg hA hB)
  rw [← sq_abs a, ← sq_abs c] at h1
  rw [← sq_abs b, ← sq_abs d] at h2
  have := mul_le_mul h1 h2 (by positivity) (by positivity)
  rw [mul_pow]
  nlinarith [sq_nonneg (|a| * |d| - |c| * |b|)]

theorem diff_le {a b c d W : ℝ} (h : |a| * |b| + |c| * |d| ≤ W) : |a * b - c * d| ≤ W := by
  refine le_trans (abs_sub _ _) ?_
  rw [abs_mul, abs_mul]; exact h

/-- One coordinate of the rotation, along the axis with coordinates `a`, followed by `b` and `c` in cyclic order. -/
theorem axis (t : FTarget) {qa qb qc w va vb vc Ca Cb Cc CC two : F32} {V : ℝ} (hV : V ≤ 2 ^ 100) (V0 : 0 ≤ V)
    (fw : w.isFinite = true) (fv : va.isFinite = true)
    (hq : qa.val ^ 2 + qb.val ^ 2 + qc.val ^ 2 + w.val ^ 2 ≤ 1001 / 1000) (hv : va.val ^ 2 + vb.val ^ 2 + vc.val ^ 2 = V ^ 2)
    (hCa : SumOk Ca [(rv qb, rv vc), (-rv qc, rv vb)]) (hCb : SumOk Cb [(rv qc, rv va), (-rv qa, rv vc)])
    (hCc : SumOk Cc [(rv qa, rv vb), (-rv qb, rv va)]) (hCC : SumOk CC [(rv qb, rv Cc), (-rv qc, rv Cb)]) (h2 : Approx two 2 0) :
    Approx (F32x4.fma1 t (F32x4.fma1 t Ca w CC) two va)
      (va.val + 2 * (w.val * (qb.val * vc.val - qc.val * vb.val) +
        (qb.val * (qa.val * vb.val - qb.val * va.val) - qc.val * (qc.val * va.val - qa.val * vc.val))))
      (32 / 2 ^ 24 * V + 1 / 2 ^ 140) := by
  have s1 := sq_nonneg qa.val; have s2 := sq_nonneg qb.val; have s3 := sq_nonneg qc.val; have s4 := sq_nonneg w.val
  have r1 := sq_nonneg va.val; have r2 := sq_nonneg vb.val; have r3 := sq_nonneg vc.val
  have big : (1001 / 1000 : ℝ) * V ≤ 2 ^ 126 := by norm_num; nlinarith
  have wa := cauchy2 (a := qb.val) (b := vc.val) (c := qc.val) (d := vb.val) (A := 1001 / 1000) (by norm_num) V0 (by linarith) (by linarith)
  have wb := cauchy2 (a := qc.val) (b := va.val) (c := qa.val) (d := vc.val) (A := 1001 / 1000) (by norm_num) V0 (by linarith) (by linarith)
  have wc := cauchy2 (a := qa.val) (b := vb.val) (c := qb.val) (d := va.val) (A := 1001 / 1000) (by norm_num) V0 (by linarith) (by linarith)
  simp only [rv_eq] at hCa hCb hCc hCC
  have err : (201 / 100 / 2 ^ 24 * (1001 / 1000 * V) + 2 / 2 ^ 149 : ℝ) ≤ 203 / 100 / 2 ^ 24 * V + 2 / 2 ^ 149 := by nlinarith
  have ca := (pair hCa wa big).mono err
  have cb := (pair hCb wb big).mono err
  have cc := (pair hCc wc big).mono err
  -- the exact cross product
  set ea := qb.val * vc.val - qc.val * vb.val with hea
  set eb := qc.val * va.val - qa.val * vc.val with heb
  set ec := qa.val * vb.val - qb.val * va.val with hec
  have la : |ea| ≤ 1001 / 1000 * V := diff_le wa
  have lb : |eb| ≤ 1001 / 1000 * V := diff_le wb
  have lc : |ec| ≤ 1001 / 1000 * V := diff_le wc
  have lbc : ec ^ 2 + eb ^ 2 ≤ (1001 / 1000 * V) ^ 2 := by
    have lag : ea ^ 2 + eb ^ 2 + ec ^ 2 = (qa.val ^ 2 + qb.val ^ 2 + qc.val ^ 2) * (va.val ^ 2 + vb.val ^ 2 + vc.val ^ 2) -
        (qa.val * va.val + qb.val * vb.val + qc.val * vc.val) ^ 2 := by rw [hea, heb, hec]; ring
    rw [hv] at lag
    have : (qa.val ^ 2 + qb.val ^ 2 + qc.val ^ 2) * V ^ 2 ≤ 1001 / 1000 * V ^ 2 :=
      mul_le_mul_of_nonneg_right (by linarith) (sq_nonneg V)
    have e : (1001 / 1000 * V) ^ 2 = 1002001 / 1000000 * V ^ 2 := by ring
    rw [e]
    linarith [sq_nonneg ea, sq_nonneg (qa.val * va.val + qb.val * vb.val + qc.val * vc.val), sq_nonneg V]
  have wcc := cauchy2 (a := qb.val) (b := ec) (c := qc.val) (d := eb) (A := 1001 / 1000) (B := 1001 / 1000 * V) (by norm_num)
    (by positivity) (by linarith) lbc
  -- the rounded second cross product
  have qsum : |qb.val| + |qc.val| ≤ 1416 / 1000 := by
    refine le_of_sq_le_sq ?_ (by norm_num)
    have e : (|qb.val| + |qc.val|) ^ 2 = 2 * (qb.val ^ 2 + qc.val ^ 2) - (|qb.val| - |qc.val|) ^ 2 := by
      rw [← sq_abs qb.val, ← sq_abs qc.val]; ring
    rw [e]
    linarith [sq_nonneg (|qb.val| - |qc.val|)]
  have q0 := abs_nonneg qb.val; have q1 := abs_nonneg qc.val
  have lCb : |Cb.val| ≤ 1002 / 1000 * V + 1 / 2 ^ 140 := by have := cb.abs_le; linarith
  have lCc : |Cc.val| ≤ 1002 / 1000 * V + 1 / 2 ^ 140 := by have := cc.abs_le; linarith
  have dd := pair hCC (W := 1420 / 1000 * V + 1 / 2 ^ 139) (by
    have h1 := mul_le_mul_of_nonneg_left lCc q0
    have h2 := mul_le_mul_of_nonneg_left lCb q1
    have e0 : (0:ℝ) ≤ 1002 / 1000 * V + 1 / 2 ^ 140 := by positivity
    have h3 := mul_le_mul_of_nonneg_right qsum e0
    linarith) (by norm_num; linarith)
  have dd' : Approx CC (qb.val * ec - qc.val * eb) (575 / 100 / 2 ^ 24 * V + 5 / 2 ^ 149) := by
    refine (dd.trans (y := qb.val * ec - qc.val * eb) (d := 1416 / 1000 * (203 / 100 / 2 ^ 24 * V + 2 / 2 ^ 149)) ?_).mono ?_
    · have e : qb.val * Cc.val - qc.val * Cb.val - (qb.val * ec - qc.val * eb) = qb.val * (Cc.val - ec) - qc.val * (Cb.val - eb) := by ring
      rw [e]
      refine (abs_sub _ _).trans ?_
      rw [abs_mul, abs_mul]
      have h1 := mul_le_mul_of_nonneg_left cc.2 q0
      have h2 := mul_le_mul_of_nonneg_left cb.2 q1
      have e0 : (0:ℝ) ≤ 203 / 100 / 2 ^ 24 * V + 2 / 2 ^ 149 := by positivity
      have h3 := mul_le_mul_of_nonneg_right qsum e0
      linarith
    · linarith
  exact outer t hV V0 ca dd' la (by have := diff_le wcc; linarith) (by
    refine le_of_sq_le_sq ?_ (by norm_num)
    rw [sq_abs]; linarith) fw fv (by
    refine le_of_sq_le_sq ?_ V0
    rw [sq_abs]; linarith) h2

theorem two_exact : Approx (ofRat 2) 2 0 := by
  have h : (ofRat 2).isFinite = true ∧ (ofRat 2).units = 2 ^ 150 := by decide +kernel
  refine ⟨h.1, ?_⟩
  rw [val_units, h.2]
  norm_num

/-- The formula of the code against conjugation by the quaternion. -/
theorem conj_formula (x y z w a b c : ℝ) (h : x ^ 2 + y ^ 2 + z ^ 2 + w ^ 2 ≠ 0) :
    let q : ℍ[ℝ] := ⟨w, x, y, z⟩
    let v : ℍ[ℝ] := ⟨0, a, b, c⟩
    let d := x ^ 2 + y ^ 2 + z ^ 2 + w ^ 2 - 1
    a + 2 * (w * (y * c - z * b) + (y * (x * b - y * a) - z * (z * a - x * c))) - (q * v * q⁻¹).imI = d * ((q * v * q⁻¹).imI - a) ∧
    b + 2 * (w * (z * a - x * c) + (z * (y * c - z * b) - x * (x * b - y * a))) - (q * v * q⁻¹).imJ = d * ((q * v * q⁻¹).imJ - b) ∧
    c + 2 * (w * (x * b - y * a) + (x * (z * a - x * c) - y * (y * c - z * b))) - (q * v * q⁻¹).imK = d * ((q * v * q⁻¹).imK - c) := by
  intro q v d
  have ns : normSq q = x ^ 2 + y ^ 2 + z ^ 2 + w ^ 2 := by rw [normSq_def']; simp only [q]; ring
  have qi : q⁻¹ = (x ^ 2 + y ^ 2 + z ^ 2 + w ^ 2)⁻¹ • star q := by rw [← ns]; rfl
  have h' : (x ^ 2 + y ^ 2 + z ^ 2 + w ^ 2) * (x ^ 2 + y ^ 2 + z ^ 2 + w ^ 2)⁻¹ = 1 := mul_inv_cancel₀ h
  rw [qi]
  simp only [Quaternion.imI_mul, Quaternion.imJ_mul, Quaternion.imK_mul, Quaternion.re_mul, Quaternion.re_smul,
    Quaternion.imI_smul, Quaternion.imJ_smul, Quaternion.imK_smul, Quaternion.re_star, Quaternion.imI_star, Quaternion.imJ_star,
    Quaternion.imK_star, smul_eq_mul]
  simp only [q, v, d]
  generalize (x ^ 2 + y ^ 2 + z ^ 2 + w ^ 2)⁻¹ = n at *
  refine ⟨?_, ?_, ?_⟩
  · linear_combination ((w^2 + x^2 - y^2 - z^2) * a + 2 * (x * y - w * z) * b + 2 * (x * z + w * y) * c) * (-1 : ℝ) * h'
  · linear_combination ((w^2 - x^2 + y^2 - z^2) * b + 2 * (x * y + w * z) * a + 2 * (y * z - w * x) * c) * (-1 : ℝ) * h'
  · linear_combination ((w^2 - x^2 - y^2 + z^2) * c + 2 * (x * z - w * y) * a + 2 * (y * z + w * x) * b) * (-1 : ℝ) * h'

theorem im_le (q : ℍ[ℝ]) : |q.imI| ≤ ‖q‖ ∧ |q.imJ| ≤ ‖q‖ ∧ |q.imK| ≤ ‖q‖ := by
  have h := norm_sq q
  refine ⟨?_, ?_, ?_⟩ <;> refine le_of_sq_le_sq ?_ (norm_nonneg _) <;> rw [sq_abs, h] <;>
    linarith [sq_nonneg q.re, sq_nonneg q.imI, sq_nonneg q.imJ, sq_nonneg q.imK]

theorem pure_sq (v : V4 F32) : ‖pureOf v‖ ^ 2 = rv v.x ^ 2 + rv v.y ^ 2 + rv v.z ^ 2 := by
  rw [norm_sq]; simp [pureOf]

theorem quat_sq (q : V4 F32) : ‖quatOf q‖ ^ 2 = rv q.x ^ 2 + rv q.y ^ 2 + rv q.z ^ 2 + rv q.w ^ 2 := by
  rw [norm_sq]; simp only [quatOf, toQ]; ring

end RotateP
open RotateP

/-- C110: rotating a vector by a finite quaternion whose length is one up to a thousandth, on every backend and with every
kind of multiply-add: each coordinate is within `2^-19` of the length of the vector, plus twice the deviation of the squared
length of the quaternion from one, of the exact rotation `q v q⁻¹`. -/
theorem rotate_accuracy (k : Backend) (t : FTarget) (q v : V4 F32) (fq : AllFinite q.toList) (fv : AllFinite v.xyz.toList)
    (hq : |‖quatOf q‖ ^ 2 - 1| ≤ 1 / 1000) (hv : ‖pureOf v‖ ≤ 2 ^ 100) :
    NearIm (F32x4.rotate k t q v) (quatOf q * pureOf v * (quatOf q)⁻¹)
      ((1 / 2 ^ 19 + 2 * |‖quatOf q‖ ^ 2 - 1|) * ‖pureOf v‖ + 1 / 2 ^ 140) := by
  have V0 := norm_nonneg (pureOf v)
  have hV := pure_sq v
  have hQ := quat_sq q
  obtain ⟨fx, fy, fz, fw⟩ := fin4 fq
  obtain ⟨gx, gy, gz⟩ := fin3 fv
  simp only [V4.xyz] at gx gy gz
  have hq1 : rv q.x ^ 2 + rv q.y ^ 2 + rv q.z ^ 2 + rv q.w ^ 2 ≤ 1001 / 1000 := by
    rw [← hQ]; linarith [(abs_le.1 hq).2]
  have hq0 : rv q.x ^ 2 + rv q.y ^ 2 + rv q.z ^ 2 + rv q.w ^ 2 ≠ 0 := by
    rw [← hQ]; linarith [(abs_le.1 hq).1]
  have fq3 : AllFinite q.xyz.toList := by
    intro x hx; simp only [V4.xyz, V3.toList, List.mem_cons, List.not_mem_nil, or_false] at hx
    rcases hx with rfl | rfl | rfl <;> assumption
  obtain ⟨cx, cy, cz⟩ := cross_accuracy.2 k q v fq3 fv
  have s1 := sq_nonneg (rv q.x); have s2 := sq_nonneg (rv q.y); have s3 := sq_nonneg (rv q.z); have s4 := sq_nonneg (rv q.w)
  have r1 := sq_nonneg (rv v.x); have r2 := sq_nonneg (rv v.y); have r3 := sq_nonneg (rv v.z)
  have big : (1001 / 1000 : ℝ) * ‖pureOf v‖ ≤ 2 ^ 126 := by norm_num; linarith
  have fc : AllFinite (k.cross3 q v).xyz.toList := by
    have h1 := (pair cx (cauchy2 (A := 1001 / 1000) (by norm_num) V0 (by linarith) (by linarith)) big).1
    have h2 := (pair cy (cauchy2 (A := 1001 / 1000) (by norm_num) V0 (by linarith) (by linarith)) big).1
    have h3 := (pair cz (cauchy2 (A := 1001 / 1000) (by norm_num) V0 (by linarith) (by linarith)) big).1
    intro x hx; simp only [V4.xyz, V3.toList, List.mem_cons, List.not_mem_nil, or_false] at hx
    rcases hx with rfl | rfl | rfl <;> assumption
  obtain ⟨dx, dy, dz⟩ := cross_accuracy.2 k q (k.cross3 q v) fq3 fc
  simp only [rv_eq] at hq1 hV
  have ax := axis t hv V0 fw gx (qa := q.x) (by linarith) (by rw [hV]) cx cy cz dx two_exact
  have ay := axis t hv V0 fw gy (qa := q.y) (by linarith) (by rw [hV]; ring) cy cz cx dy two_exact
  have az := axis t hv V0 fw gz (qa := q.z) (by linarith) (by rw [hV]; ring) cz cx cy dz two_exact
  obtain ⟨kx, ky, kz⟩ := conj_formula (rv q.x) (rv q.y) (rv q.z) (rv q.w) (rv v.x) (rv v.y) (rv v.z) hq0
  rw [← hQ] at kx ky kz
  have R : ‖quatOf q * pureOf v * (quatOf q)⁻¹‖ = ‖pureOf v‖ := by
    have : quatOf q ≠ 0 := by
      intro h0
      rw [h0] at hQ
      simp only [norm_zero] at hQ
      exact hq0 (by rw [← hQ]; norm_num)
    rw [norm_mul, norm_mul, norm_inv]
    have n0 : ‖quatOf q‖ ≠ 0 := norm_ne_zero_iff.2 this
    field_simp
  obtain ⟨i1, i2, i3⟩ := im_le (quatOf q * pureOf v * (quatOf q)⁻¹)
  rw [R] at i1 i2 i3
  obtain ⟨j1, j2, j3⟩ := im_le (pureOf v)
  have fin : ∀ {r : F32} {F X p : ℝ}, Approx r F (32 / 2 ^ 24 * ‖pureOf v‖ + 1 / 2 ^ 140) →
      F - X = (‖quatOf q‖ ^ 2 - 1) * (X - p) → |X| ≤ ‖pureOf v‖ → |p| ≤ ‖pureOf v‖ →
      Near r X ((1 / 2 ^ 19 + 2 * |‖quatOf q‖ ^ 2 - 1|) * ‖pureOf v‖ + 1 / 2 ^ 140) := by
    intro r F X p h e hX hp
    have b : |F - X| ≤ |‖quatOf q‖ ^ 2 - 1| * (2 * ‖pureOf v‖) := by
      rw [e, abs_mul]
      exact mul_le_mul_of_nonneg_left ((abs_sub _ _).trans (by linarith)) (abs_nonneg _)
    have := (h.trans b)
    refine ⟨this.1, this.2.trans ?_⟩
    linarith
  exact ⟨fin ax kx i1 j1, fin ay ky i2 j2, fin az kz i3 j3⟩

namespace RotateP

/-- Conjugation of an imaginary quaternion is imaginary. -/
theorem conj_re (q v : ℍ[ℝ]) (hv : v.re = 0) : (q * v * q⁻¹).re = 0 := by
  have qi : q⁻¹ = (normSq q)⁻¹ • star q := rfl
  rw [qi]
  simp only [Quaternion.imI_mul, Quaternion.imJ_mul, Quaternion.imK_mul, Quaternion.re_mul, Quaternion.re_smul,
    Quaternion.imI_smul, Quaternion.imJ_smul, Quaternion.imK_smul, Quaternion.re_star, Quaternion.imI_star, Quaternion.imJ_star,
    Quaternion.imK_star, smul_eq_mul, hv]
  ring

theorem fneg_val (a : F32) : (fneg a).val = - a.val := by
  unfold F32.val; rw [F32.fneg_toRat]; push_cast; rfl

/-- One lane of the inverse. -/
theorem inv_lane {x n : F32} {N : ℝ} (fx : x.isFinite = true) (hx : |x.val| ≤ 1001 / 1000) (h1 : 999 / 1000 ≤ N) (h2 : N ≤ 1001 / 1000)
    (hn : Approx n N (403 / 100 / 2 ^ 24)) : Approx (fdiv x n) (x.val / N) (6 / 2 ^ 24) := by
  have hn' := abs_le.1 hn.2
  have n0 : 998 / 1000 ≤ n.val := by linarith
  have hq : |x.val / n.val| ≤ 101 / 100 := by
    rw [abs_div, abs_of_pos (by linarith : 0 < n.val), div_le_iff₀ (by linarith)]
    linarith
  have d := fdiv_approx fx hn.1 (by linarith) hq (by norm_num)
  have e : |x.val / n.val - x.val / N| ≤ 405 / 100 / 2 ^ 24 := by
    have : x.val / n.val - x.val / N = x.val * (N - n.val) / (n.val * N) := by
      have : n.val ≠ 0 := by linarith
      have : N ≠ 0 := by linarith
      field_simp
    rw [this, abs_div, abs_mul, abs_of_pos (by nlinarith : 0 < n.val * N), div_le_iff₀ (by nlinarith), abs_sub_comm]
    have h3 := mul_le_mul hx hn.2 (abs_nonneg _) (by norm_num)
    have h4 : 997002 / 1000000 ≤ n.val * N := by nlinarith
    linarith
  refine (d.trans e).mono ?_
  unfold ulp
  norm_num

end RotateP

/-- C110: every lane of the inverse of a quaternion whose squared length is one up to a thousandth is within `6 / 2^24` of
the exact inverse. -/
theorem quat_inverse_accuracy (k : Backend) (q : V4 F32) (fq : AllFinite q.toList) (hq : |‖quatOf q‖ ^ 2 - 1| ≤ 1 / 1000) :
    NearIm (F32x4.inverse k q) (quatOf q)⁻¹ (6 / 2 ^ 24) ∧ Near (F32x4.inverse k q).w (quatOf q)⁻¹.re (6 / 2 ^ 24) := by
  have hQ := quat_sq q
  obtain ⟨fx, fy, fz, fw⟩ := fin4 fq
  have h12 := abs_le.1 hq
  have d4 := dot_accuracy.2.2.2.2 k q q fq fq
  have e1 : absProd [(rv q.x, rv q.x), (rv q.y, rv q.y), (rv q.z, rv q.z), (rv q.w, rv q.w)] = ‖quatOf q‖ ^ 2 := by
    rw [hQ]; simp [absProd, abs_mul_abs_self]; ring
  have e2 : sumProd [(rv q.x, rv q.x), (rv q.y, rv q.y), (rv q.z, rv q.z), (rv q.w, rv q.w)] = ‖quatOf q‖ ^ 2 := by
    rw [hQ]; simp [sumProd]; ring
  have d := d4 (by rw [e1]; norm_num; linarith)
  rw [e1, e2] at d
  have dn : Approx (k.dot4 q q) (‖quatOf q‖ ^ 2) (403 / 100 / 2 ^ 24) := by
    refine ⟨d.1, d.2.trans ?_⟩
    have l : (List.length [(rv q.x, rv q.x), (rv q.y, rv q.y), (rv q.z, rv q.z), (rv q.w, rv q.w)]) = 4 := rfl
    rw [l]
    have u : ((1 : ℝ) + 1 / 2 ^ 24) ^ 4 - 1 ≤ 401 / 100 / 2 ^ 24 := by norm_num
    have := mul_le_mul u (by linarith : ‖quatOf q‖ ^ 2 ≤ 1001 / 1000) (by positivity) (by norm_num)
    push_cast
    linarith
  have s1 := sq_nonneg (rv q.x); have s2 := sq_nonneg (rv q.y); have s3 := sq_nonneg (rv q.z); have s4 := sq_nonneg (rv q.w)
  have cl : ∀ x : F32, (rv x) ^ 2 ≤ ‖quatOf q‖ ^ 2 → |x.val| ≤ 1001 / 1000 := by
    intro x h
    refine le_of_sq_le_sq ?_ (by norm_num)
    rw [sq_abs]
    refine h.trans ?_
    linarith
  have neg : ∀ x : F32, x.isFinite = true → (rv x) ^ 2 ≤ ‖quatOf q‖ ^ 2 →
      Approx (fdiv (fneg x) (k.dot4 q q)) ((‖quatOf q‖ ^ 2)⁻¹ * -rv x) (6 / 2 ^ 24) := by
    intro x f h
    refine (inv_lane (by rw [F32.fneg_finite]; exact f) (by rw [fneg_val, abs_neg]; exact cl x h) (by linarith) (by linarith) dn).of_eq ?_
    rw [fneg_val, div_eq_mul_inv, mul_comm]; rfl
  have pos : Approx (fdiv q.w (k.dot4 q q)) ((‖quatOf q‖ ^ 2)⁻¹ * rv q.w) (6 / 2 ^ 24) := by
    refine (inv_lane fw (cl _ (by rw [hQ]; linarith)) (by linarith) (by linarith) dn).of_eq ?_
    rw [div_eq_mul_inv, mul_comm]; rfl
  have qi : (quatOf q)⁻¹ = (‖quatOf q‖ ^ 2)⁻¹ • star (quatOf q) := by
    rw [sq, ← Quaternion.normSq_eq_norm_mul_self]; rfl
  rw [qi]
  refine ⟨⟨neg _ fx (by rw [hQ]; linarith), neg _ fy (by rw [hQ]; linarith), neg _ fz (by rw [hQ]; linarith)⟩, ?_⟩
  rw [Quaternion.re_smul, Quaternion.re_star]
  exact pos

namespace RotateP

theorem inv_sub {a b : ℍ[ℝ]} (ha : a ≠ 0) (hb : b ≠ 0) : a⁻¹ - b⁻¹ = a⁻¹ * (b - a) * b⁻¹ := by
  rw [mul_sub, sub_mul, inv_mul_cancel₀ ha, mul_assoc, mul_inv_cancel₀ hb, mul_one, one_mul]

/-- Conjugating by nearby quaternions gives nearby results. -/
theorem conj_close {a b v : ℍ[ℝ]} (ha : a ≠ 0) (hb : b ≠ 0) : ‖a * v * a⁻¹ - b * v * b⁻¹‖ ≤ 2 * ‖a - b‖ * ‖v‖ / ‖a‖ := by
  have e : a * v * a⁻¹ - b * v * b⁻¹ = (a - b) * v * a⁻¹ + b * v * (a⁻¹ - b⁻¹) := by
    rw [mul_sub, sub_mul, sub_mul]; abel
  have na : 0 < ‖a‖ := norm_pos_iff.2 ha
  have nb : 0 < ‖b‖ := norm_pos_iff.2 hb
  rw [e]
  refine (norm_add_le _ _).trans (le_of_eq ?_)
  rw [inv_sub ha hb, norm_mul, norm_mul, norm_mul, norm_mul, norm_mul, norm_mul, norm_inv, norm_inv, norm_sub_rev b a]
  field_simp
  ring

/-- The computed inverse as a quaternion. -/
theorem inv_close (k : Backend) (q : V4 F32) (fq : AllFinite q.toList) (hq : |‖quatOf q‖ ^ 2 - 1| ≤ 1 / 1000) :
    AllFinite (F32x4.inverse k q).toList ∧ ‖quatOf (F32x4.inverse k q) - (quatOf q)⁻¹‖ ≤ 12 / 2 ^ 24 := by
  obtain ⟨⟨x, y, z⟩, w⟩ := quat_inverse_accuracy k q fq hq
  refine ⟨fin_list x.1 y.1 z.1 w.1, ?_⟩
  have : (12 / 2 ^ 24 : ℝ) = 2 * (6 / 2 ^ 24) := by norm_num
  rw [this]
  refine norm_le_comp ?_ ?_ ?_ ?_
  · rw [Quaternion.re_sub]; exact w.2
  · rw [Quaternion.imI_sub]; exact x.2
  · rw [Quaternion.imJ_sub]; exact y.2
  · rw [Quaternion.imK_sub]; exact z.2

theorem nonzero_of {q : ℍ[ℝ]} (h : 0 < ‖q‖) : q ≠ 0 := norm_pos_iff.1 h

end RotateP

/-- C110: rotating a vector by the inverse of a quaternion (`v * q`): each coordinate is within `2^-17` of the length of the
vector, plus three times the deviation of the squared length of the quaternion from one, of the exact `q⁻¹ v q`. -/
theorem rotateInv_accuracy (k : Backend) (t : FTarget) (q v : V4 F32) (fq : AllFinite q.toList) (fv : AllFinite v.xyz.toList)
    (hq : |‖quatOf q‖ ^ 2 - 1| ≤ 1 / 2000) (hv : ‖pureOf v‖ ≤ 2 ^ 100) :
    NearIm (F32x4.rotateInv k t v q) ((quatOf q)⁻¹ * pureOf v * quatOf q)
      ((1 / 2 ^ 17 + 3 * |‖quatOf q‖ ^ 2 - 1|) * ‖pureOf v‖ + 1 / 2 ^ 140) := by
  obtain ⟨fp, cp⟩ := inv_close k q fq (hq.trans (by norm_num))
  set p := F32x4.inverse k q with hp
  set d := ‖quatOf q‖ ^ 2 - 1 with hd
  have V0 := norm_nonneg (pureOf v)
  have h12 := abs_le.1 hq
  have n0 := norm_nonneg (quatOf q)
  have nq : 999 / 1000 ≤ ‖quatOf q‖ := by nlinarith
  have nq' : ‖quatOf q‖ ≤ 1001 / 1000 := by nlinarith
  have q0 : quatOf q ≠ 0 := nonzero_of (by linarith)
  have m1 : ‖quatOf q‖ * ‖(quatOf q)⁻¹‖ = 1 := by rw [norm_inv, mul_inv_cancel₀ (by linarith)]
  set m := ‖(quatOf q)⁻¹‖ with hm
  have m0 : 0 ≤ m := norm_nonneg _
  have mlo : 998 / 1000 ≤ m := by nlinarith
  have mhi : m ≤ 1002 / 1000 := by nlinarith
  have tri := abs_le.1 ((abs_norm_sub_norm_le (quatOf p) (quatOf q)⁻¹).trans cp)
  rw [← hm] at tri
  have plo : 997 / 1000 ≤ ‖quatOf p‖ := by linarith
  have p0 : quatOf p ≠ 0 := nonzero_of (by linarith)
  -- the deviation of the computed inverse from unit length
  have dm : |m ^ 2 - 1| ≤ 1001 / 1000 * |d| := by
    have e : m ^ 2 - 1 = -(m ^ 2 * d) := by
      have : ‖quatOf q‖ ^ 2 * m ^ 2 = 1 := by rw [← mul_pow, m1, one_pow]
      rw [hd]; linear_combination this
    rw [e, abs_neg, abs_mul, abs_of_nonneg (sq_nonneg m)]
    refine mul_le_mul_of_nonneg_right ?_ (abs_nonneg _)
    have : ‖quatOf q‖ ^ 2 * m ^ 2 = 1 := by rw [← mul_pow, m1, one_pow]
    nlinarith
  have dp : |‖quatOf p‖ ^ 2 - 1| ≤ 1001 / 1000 * |d| + 25 / 2 ^ 24 := by
    have e : ‖quatOf p‖ ^ 2 - 1 = (m ^ 2 - 1) + (‖quatOf p‖ - m) * (‖quatOf p‖ + m) := by ring
    rw [e]
    refine (abs_add_le _ _).trans ?_
    have : |(‖quatOf p‖ - m) * (‖quatOf p‖ + m)| ≤ 12 / 2 ^ 24 * (2006 / 1000) := by
      rw [abs_mul]
      refine mul_le_mul (abs_le.2 tri) ?_ (abs_nonneg _) (by norm_num)
      rw [abs_of_nonneg (by linarith)]
      linarith
    linarith
  have r := rotate_accuracy k t p v fp fv (dp.trans (by linarith)) hv
  have close := conj_close (v := pureOf v) p0 (inv_ne_zero q0)
  rw [inv_inv] at close
  have close' : ‖quatOf p * pureOf v * (quatOf p)⁻¹ - (quatOf q)⁻¹ * pureOf v * quatOf q‖ ≤ 25 / 2 ^ 24 * ‖pureOf v‖ := by
    refine close.trans ?_
    rw [div_le_iff₀ (by linarith)]
    have h1 : 2 * ‖quatOf p - (quatOf q)⁻¹‖ * ‖pureOf v‖ ≤ 2 * (12 / 2 ^ 24) * ‖pureOf v‖ := by gcongr
    nlinarith
  obtain ⟨i1, i2, i3⟩ := im_le (quatOf p * pureOf v * (quatOf p)⁻¹ - (quatOf q)⁻¹ * pureOf v * quatOf q)
  have fin : ∀ {a : F32} {X Y : ℝ}, Near a X ((1 / 2 ^ 19 + 2 * |‖quatOf p‖ ^ 2 - 1|) * ‖pureOf v‖ + 1 / 2 ^ 140) →
      |X - Y| ≤ ‖quatOf p * pureOf v * (quatOf p)⁻¹ - (quatOf q)⁻¹ * pureOf v * quatOf q‖ →
      Near a Y ((1 / 2 ^ 17 + 3 * |d|) * ‖pureOf v‖ + 1 / 2 ^ 140) := by
    intro a X Y h1 h2
    have := Approx.trans (r := a) h1 (h2.trans close')
    refine ⟨this.1, this.2.trans ?_⟩
    have h3 := mul_le_mul_of_nonneg_right dp V0
    have h4 := mul_nonneg (abs_nonneg d) V0
    linarith
  exact ⟨fin r.1 i1, fin r.2.1 i2, fin r.2.2 i3⟩

/-- C110: rotating a vector and rotating it back returns it, up to `2^-16` of its length plus eight times the deviation of
the squared length of the quaternion from one. -/
theorem rotate_round_trip (k : Backend) (t : FTarget) (q v : V4 F32) (fq : AllFinite q.toList) (fv : AllFinite v.xyz.toList)
    (hq : |‖quatOf q‖ ^ 2 - 1| ≤ 1 / 2000) (hv : ‖pureOf v‖ ≤ 2 ^ 99) :
    NearIm (F32x4.rotateInv k t (F32x4.rotate k t q v) q) (pureOf v)
      ((1 / 2 ^ 16 + 8 * |‖quatOf q‖ ^ 2 - 1|) * ‖pureOf v‖ + 1 / 2 ^ 138) := by
  have r := rotate_accuracy k t q v fq fv (hq.trans (by norm_num)) (hv.trans (by norm_num))
  have V0 := norm_nonneg (pureOf v)
  have n0 := norm_nonneg (quatOf q)
  have h12 := abs_le.1 hq
  have nq : 999 / 1000 ≤ ‖quatOf q‖ := by nlinarith
  have q0 : quatOf q ≠ 0 := nonzero_of (by linarith)
  set w := F32x4.rotate k t q v with hw
  set d := |‖quatOf q‖ ^ 2 - 1| with hd
  have d0 : 0 ≤ d := abs_nonneg _
  set E := (1 / 2 ^ 19 + 2 * d) * ‖pureOf v‖ + 1 / 2 ^ 140 with hE
  have fw : AllFinite w.xyz.toList := by
    intro x hx; simp only [V4.xyz, V3.toList, List.mem_cons, List.not_mem_nil, or_false] at hx
    rcases hx with rfl | rfl | rfl
    exacts [r.1.1, r.2.1.1, r.2.2.1]
  have E0 : 0 ≤ E := by positivity
  have dist : ‖pureOf w - quatOf q * pureOf v * (quatOf q)⁻¹‖ ≤ 2 * E := by
    refine norm_le_comp ?_ ?_ ?_ ?_
    · rw [Quaternion.re_sub, conj_re _ _ (by simp [pureOf])]
      simp [pureOf]; exact E0
    · rw [Quaternion.imI_sub]; exact r.1.2
    · rw [Quaternion.imJ_sub]; exact r.2.1.2
    · rw [Quaternion.imK_sub]; exact r.2.2.2
  have R : ‖quatOf q * pureOf v * (quatOf q)⁻¹‖ = ‖pureOf v‖ := by
    rw [norm_mul, norm_mul, norm_inv]
    have n0 : ‖quatOf q‖ ≠ 0 := by linarith
    field_simp
  have nw : ‖pureOf w‖ ≤ ‖pureOf v‖ + 2 * E := by
    have := norm_add_le (pureOf w - quatOf q * pureOf v * (quatOf q)⁻¹) (quatOf q * pureOf v * (quatOf q)⁻¹)
    rw [sub_add_cancel, R] at this
    linarith
  have Ele : E ≤ 1002 / 1000000 * ‖pureOf v‖ + 1 / 2 ^ 140 := by
    rw [hE]
    have : (1 / 2 ^ 19 + 2 * d) ≤ 1002 / 1000000 := by linarith
    have := mul_le_mul_of_nonneg_right this V0
    linarith
  have b := rotateInv_accuracy k t q w fq fw hq (nw.trans (by
    have : (2 : ℝ) ^ 100 = 2 * 2 ^ 99 := by norm_num
    have e : (1 : ℝ) / 2 ^ 140 ≤ 1 := by norm_num
    have e' : (1 : ℝ) * 1000 ≤ 2 ^ 99 := by norm_num
    linarith))
  have back : ‖(quatOf q)⁻¹ * pureOf w * quatOf q - pureOf v‖ ≤ 2 * E := by
    have e : (quatOf q)⁻¹ * pureOf w * quatOf q - pureOf v =
        (quatOf q)⁻¹ * (pureOf w - quatOf q * pureOf v * (quatOf q)⁻¹) * quatOf q := by
      have h1 : (quatOf q)⁻¹ * (quatOf q * pureOf v * (quatOf q)⁻¹) * quatOf q = pureOf v := by
        rw [mul_assoc (quatOf q), ← mul_assoc, inv_mul_cancel₀ q0, one_mul, mul_assoc, inv_mul_cancel₀ q0, mul_one]
      rw [mul_sub, sub_mul, h1]
    rw [e, norm_mul, norm_mul, norm_inv]
    have n0 : ‖quatOf q‖ ≠ 0 := by linarith
    have : ‖quatOf q‖⁻¹ * ‖pureOf w - quatOf q * pureOf v * (quatOf q)⁻¹‖ * ‖quatOf q‖ =
        ‖pureOf w - quatOf q * pureOf v * (quatOf q)⁻¹‖ := by field_simp
    rw [this]
    exact dist
  obtain ⟨i1, i2, i3⟩ := im_le ((quatOf q)⁻¹ * pureOf w * quatOf q - pureOf v)
  have fin : ∀ {a : F32} {X Y : ℝ}, Near a X ((1 / 2 ^ 17 + 3 * d) * ‖pureOf w‖ + 1 / 2 ^ 140) →
      |X - Y| ≤ ‖(quatOf q)⁻¹ * pureOf w * quatOf q - pureOf v‖ →
      Near a Y ((1 / 2 ^ 16 + 8 * d) * ‖pureOf v‖ + 1 / 2 ^ 138) := by
    intro a X Y h1 h2
    have := Approx.trans (r := a) h1 (h2.trans back)
    refine ⟨this.1, this.2.trans ?_⟩
    have h3 : (1 / 2 ^ 17 + 3 * d) * ‖pureOf w‖ ≤ (1 / 2 ^ 17 + 3 * d) * (1003 / 1000 * ‖pureOf v‖ + 2 / 2 ^ 140) := by
      refine mul_le_mul_of_nonneg_left ?_ (by positivity)
      linarith
    have h4 := mul_nonneg d0 V0
    have h5 : d * (2 / 2 ^ 140) ≤ 1 / 2000 * (2 / 2 ^ 140) := mul_le_mul_of_nonneg_right hq (by positivity)
    rw [hE]
    nlinarith
  exact ⟨fin b.1 i1, fin b.2.1 i2, fin b.2.2 i3⟩

/-- The hypotheses are met: turning the vector (1/2, 1/2, 1/2) by a third turn and back, where the quaternion has length
exactly one. -/
example (k : Backend) (t : FTarget) :
    NearIm (F32x4.rotateInv k t (F32x4.rotate k t thirdTurn thirdTurn) thirdTurn) (pureOf thirdTurn)
      (1 / 2 ^ 16 * ‖pureOf thirdTurn‖ + 1 / 2 ^ 138) := by
  obtain ⟨f, n⟩ := thirdTurn_ok
  have f3 : AllFinite thirdTurn.xyz.toList := by
    obtain ⟨x, y, z, -⟩ := fin4 f
    intro a ha; simp only [V4.xyz, V3.toList, List.mem_cons, List.not_mem_nil, or_false] at ha
    rcases ha with rfl | rfl | rfl <;> assumption
  have hn : ‖pureOf thirdTurn‖ ≤ 2 ^ 99 := by
    have h1 := pure_sq thirdTurn
    have h2 := quat_sq thirdTurn
    rw [n] at h2
    have : ‖pureOf thirdTurn‖ ≤ 1 := by
      refine le_of_sq_le_sq ?_ (by norm_num)
      rw [h1]; linarith [sq_nonneg (rv thirdTurn.w)]
    exact this.trans (by norm_num)
  have := rotate_round_trip k t thirdTurn thirdTurn f f3 (by rw [n]; norm_num) hn
  rw [n] at this
  norm_num at this ⊢
  exact this

end Verif
