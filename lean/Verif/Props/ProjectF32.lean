import Verif.Model.Projection
import Verif.Spec.Project
import Verif.Props.Place
import Verif.Proofs.F32Rel
import Mathlib.Analysis.Real.Pi.Bounds
import Mathlib.Analysis.SpecialFunctions.Trigonometric.Bounds

/-!
# Projections in binary32 (C117)
-/

namespace Verif
open Spec F32

namespace ProjP

theorem _root_.Verif.F32.Rel.absorb {r x e a d : ℝ} (h : F32.Rel r x e a) (ha : a ≤ d * |x|) : F32.Rel r x (e + d) 0 := by
  unfold F32.Rel at *
  linarith

/-- A division of nearly exact numbers. -/
theorem div_step {a b : F32} {x y e d c : ℝ} (ha : a.isFinite = true) (hb : b.isFinite = true) (hx : F32.Rel a.val x e 0)
    (hy : F32.Rel b.val y d 0) (he : 0 ≤ e ∧ e ≤ 1 / 2 ^ 10) (hd : 0 ≤ d ∧ d ≤ 1 / 2 ^ 10) (hy0 : y ≠ 0)
    (hb1 : |x / y| ≤ 2 ^ 126) (hb2 : 1 / 2 ^ 110 ≤ |x / y|)
    (hc : (e + d) / (1 - d) + uro + (e + d) / (1 - d) * uro + 1 / 2 ^ 40 ≤ c) :
    (fdiv a b).isFinite = true ∧ F32.Rel (fdiv a b).val (x / y) c 0 := by
  have h1 := hx.div hy (by linarith) hy0
  have hy' : 0 < |y| := abs_pos.2 hy0
  have hbv : b.val ≠ 0 := by
    intro h
    have := hy.le_abs
    rw [h, abs_zero] at this
    nlinarith
  have q1 : (e + d) / (1 - d) ≤ 1 / 2 ^ 8 := by
    rw [div_le_iff₀ (by linarith)]; linarith
  have q0 : 0 ≤ (e + d) / (1 - d) := by
    apply div_nonneg <;> linarith
  have h2 : |a.val / b.val| < 2 ^ 127 := by
    have := h1.abs_le
    rw [zero_div, add_zero] at this
    have h3 : (1 + (e + d) / (1 - d)) * |x / y| ≤ (1 + 1 / 2 ^ 8) * 2 ^ 126 := by gcongr
    refine this.trans_lt (h3.trans_lt (by norm_num))
  obtain ⟨f, h3⟩ := fdiv_rel ha hb hbv h2
  refine ⟨f, ?_⟩
  have h4 := (h1.round h3 uro_pos.le).absorb (d := 1 / 2 ^ 40) (by
    rw [zero_div, mul_zero, zero_add]
    calc (1 / 2 ^ 150 : ℝ) ≤ 1 / 2 ^ 40 * (1 / 2 ^ 110) := by norm_num
      _ ≤ _ := by gcongr)
  exact h4.mono hc le_rfl

theorem mul_step {a b : F32} {x y e d c : ℝ} (ha : a.isFinite = true) (hb : b.isFinite = true) (hx : F32.Rel a.val x e 0)
    (hy : F32.Rel b.val y d 0) (he : 0 ≤ e ∧ e ≤ 1 / 2 ^ 10) (hd : 0 ≤ d ∧ d ≤ 1 / 2 ^ 10)
    (hb1 : |x * y| ≤ 2 ^ 126) (hb2 : 1 / 2 ^ 110 ≤ |x * y|)
    (hc : e + d + e * d + uro + (e + d + e * d) * uro + 1 / 2 ^ 40 ≤ c) :
    (fmul a b).isFinite = true ∧ F32.Rel (fmul a b).val (x * y) c 0 := by
  have h1 := hx.mul hy
  have q0 : 0 ≤ e * d := mul_nonneg he.1 hd.1
  have q1 : e * d ≤ 1 / 2 ^ 10 * (1 / 2 ^ 10) := mul_le_mul he.2 hd.2 hd.1 (by norm_num)
  simp only [mul_zero, zero_add, add_zero] at h1
  have h2 : |a.val * b.val| < 2 ^ 127 := by
    have := h1.abs_le
    rw [add_zero] at this
    have h3 : (1 + (e + d + e * d)) * |x * y| ≤ (1 + 1 / 2 ^ 8) * 2 ^ 126 := by
      gcongr; linarith
    refine this.trans_lt (h3.trans_lt (by norm_num))
  obtain ⟨f, h3⟩ := fmul_rel ha hb h2
  refine ⟨f, ?_⟩
  have h4 := (h1.round h3 uro_pos.le).absorb (d := 1 / 2 ^ 40) (by
    rw [mul_zero, zero_add]
    calc (1 / 2 ^ 150 : ℝ) ≤ 1 / 2 ^ 40 * (1 / 2 ^ 110) := by norm_num
      _ ≤ _ := by gcongr)
  exact h4.mono hc le_rfl

theorem sub_rel {a b : F32} (ha : a.isFinite = true) (hb : b.isFinite = true) (h : |a.val - b.val| < 2 ^ 127) :
    (fsub a b).isFinite = true ∧ F32.Rel (fsub a b).val (a.val - b.val) uro 0 := by
  obtain ⟨h1, h2⟩ := fsub_err' ha hb h
  exact ⟨h1, by unfold F32.Rel; linarith⟩

/-- The tangent of half the field of view. -/
theorem tan_range {f : ℝ} (h1 : 1 / 2 ^ 30 ≤ f) (h2 : f ≤ 3.1415) :
    f / 2 < Real.pi / 2 ∧ 1 / 2 ^ 31 ≤ Real.tan (f / 2) ∧ Real.tan (f / 2) ≤ 2 ^ 15 := by
  have hp := Real.pi_gt_d6
  have hlt : f / 2 < Real.pi / 2 := by linarith
  refine ⟨hlt, ?_, ?_⟩
  · have := Real.lt_tan (x := f / 2) (by linarith) hlt
    linarith
  · have e : f / 2 = Real.pi / 2 - (Real.pi / 2 - f / 2) := by ring
    rw [e, Real.tan_pi_div_two_sub]
    have h3 := Real.lt_tan (x := Real.pi / 2 - f / 2) (by linarith) (by linarith)
    have h4 : (1 / 2 ^ 15 : ℝ) ≤ Real.tan (Real.pi / 2 - f / 2) := by
      refine le_trans ?_ h3.le
      linarith
    refine (inv_anti₀ (by norm_num) h4).trans ?_
    norm_num

theorem half_step {f : F32} (hf : f.isFinite = true) (h1 : 1 / 2 ^ 30 ≤ f.val) (h2 : f.val ≤ 3.1415) :
    (Flt.mul f (Flt.lit (1 / 2)) : F32).isFinite = true ∧ (Flt.mul f (Flt.lit (1 / 2)) : F32).val = f.val / 2 := by
  obtain ⟨l1, l2⟩ := lit_exact (q := 1 / 2) (U := 2 ^ 148) (by decide +kernel) (by decide +kernel)
  have l3 : (ofRat (1 / 2)).val = (1 / 2 : ℝ) := by rw [l2]; push_cast; norm_num
  obtain ⟨y, hy, hyv⟩ := scale_representable hf (-30) (by norm_num) (le_trans (by norm_num [zpow_neg]) h1) (-1) (by norm_num) (by
    refine lt_of_le_of_lt (b := 3.1415) ?_ ?_
    · have : (2 : ℝ) ^ (-1 : ℤ) = 1 / 2 := by norm_num
      rw [this]; linarith
    · norm_num [zpow_ofNat])
  have h : Approx (fmul f (ofRat (1 / 2))) (f.val * (ofRat (1 / 2)).val) 0 := fmul_exact hf l1 hy (by
    rw [hyv, l3]; norm_num)
  refine ⟨h.1, h.eq.trans ?_⟩
  rw [l3]; ring

/-- One row of a product. -/
theorem row {r : F32} {l : List (ℝ × ℝ)} (h : SumOk r l) (hl : l.length = 4) {X S x s e c : ℝ} (hX : sumProd l = X) (hS : absProd l = S)
    (hb : S ≤ 2 ^ 126) (he : 0 ≤ e ∧ e ≤ 8) (hx : |X - x| ≤ e / 2 ^ 24 * s + 1 / 2 ^ 149) (hs : S ≤ (1 + e / 2 ^ 24) * s + 1 / 2 ^ 149) (h0 : 0 ≤ s)
    (hc : e + 9 / 2 ≤ c) : UpTo c r x s := by
  obtain ⟨f, h1⟩ := h (hS ▸ hb)
  rw [hX, hS, hl] at h1
  refine ⟨f, ?_⟩
  have h2 := abs_add_le (rv r - X) (X - x)
  rw [sub_add_sub_cancel] at h2
  have h3 : ((1 + 1 / 2 ^ 24) ^ 4 - 1 : ℝ) ≤ (4 + 1 / 16) / 2 ^ 24 := by norm_num
  have h4 : ((1 + 1 / 2 ^ 24) ^ 4 - 1 : ℝ) * S ≤ (4 + 1 / 16) / 2 ^ 24 * ((1 + 8 / 2 ^ 24) * s + 1 / 2 ^ 149) := by
    refine mul_le_mul h3 (hs.trans ?_) ?_ (by norm_num)
    · gcongr; exact he.2
    · rw [← hS]; unfold absProd
      apply List.sum_nonneg
      intro x hx
      obtain ⟨t, _, rfl⟩ := List.mem_map.1 hx
      exact abs_nonneg _
  have h5 : c / 2 ^ 24 * s ≥ (e + 9 / 2) / 2 ^ 24 * s := by gcongr
  have h6 : ((4 : ℕ) : ℝ) / 2 ^ 149 + 1 / 2 ^ 148 ≤ 1 / 2 ^ 146 := by norm_num
  nlinarith

theorem product_ok {m : M4 F32} {p : V3 F32} {r : V4 F32} (hm : FinM m) (hp : PointOk p) (h : ProductOf m p r) :
    MulVOk m ⟨p.x, p.y, p.z, Flt.lit 1⟩ r := by
  have hv : AllFinite (⟨p.x, p.y, p.z, Flt.lit 1⟩ : V4 F32).toList := by
    intro x hx
    simp only [V4.toList, List.mem_cons, List.not_mem_nil, or_false] at hx
    rcases hx with rfl | rfl | rfl | rfl
    · exact (hp _ (by simp [V3.toList])).1
    · exact (hp _ (by simp [V3.toList])).1
    · exact (hp _ (by simp [V3.toList])).1
    · exact PlaceP.one_lit.1
  rcases h with rfl | ⟨k, t, rfl⟩
  · exact mulV_accuracy.2.2.1 m _ hm hv
  · exact PlaceP.entry_ok k t hm hv

/-- The matrix of a perspective projection, given its five entries. -/
def shape (Z O A B C D : F32) : M4 F32 := ⟨⟨A, Z, Z, Z⟩, ⟨Z, B, Z, Z⟩, ⟨Z, Z, C, O⟩, ⟨Z, Z, D, Z⟩⟩

theorem one_entry {A α x e : ℝ} (hA : F32.Rel A α (e / 2 ^ 24) 0) : |A * x - α * x| ≤ e / 2 ^ 24 * |α * x| ∧ |A * x| ≤ (1 + e / 2 ^ 24) * |α * x| := by
  have h := hA.mul (Rel.refl x)
  simp only [mul_zero, add_zero] at h
  have h1 := h.abs_le
  unfold F32.Rel at h
  rw [add_zero] at h h1
  exact ⟨h, h1⟩

theorem persp_rows {Z O A B C D : F32} {α β γ δ : ℝ} {p : V3 F32} {r : V4 F32} (hp : PointOk p)
    (hZ : Z.isFinite = true ∧ Z.val = 0) (hO : O.isFinite = true ∧ O.val = 1)
    (fA : A.isFinite = true) (fB : B.isFinite = true) (fC : C.isFinite = true) (fD : D.isFinite = true)
    (hA : F32.Rel A.val α (5 / 2 ^ 24) 0) (hB : F32.Rel B.val β (5 / 2 ^ 24) 0) (hC : F32.Rel C.val γ (5 / 2 ^ 24) 0)
    (hD : F32.Rel D.val δ (5 / 2 ^ 24) 0) (bA : |α| ≤ 2 ^ 62) (bB : |β| ≤ 2 ^ 62) (bC : |γ| ≤ 2 ^ 84) (bD : |δ| ≤ 2 ^ 120)
    (hr : ProductOf (shape Z O A B C D) p r) :
    UpTo 10 r.x (α * rv p.x) |α * rv p.x| ∧ UpTo 10 r.y (β * rv p.y) |β * rv p.y| ∧
    UpTo 10 r.z (γ * rv p.z + δ) (|γ * rv p.z| + |δ|) ∧ UpTo 5 r.w (rv p.z) |rv p.z| := by
  have hm : FinM (shape Z O A B C D) := by
    obtain ⟨hZ, -⟩ := hZ; obtain ⟨hO, -⟩ := hO
    refine ⟨?_, ?_, ?_, ?_⟩ <;> intro x hx <;>
      simp only [shape, V4.toList, List.mem_cons, List.not_mem_nil, or_false] at hx <;>
      rcases hx with rfl | rfl | rfl | rfl <;> assumption
  obtain ⟨h1, h2, h3, h4⟩ := product_ok hm hp hr
  have one : rv (Flt.lit 1 : F32) = 1 := PlaceP.one_lit.2
  have zero : rv Z = 0 := hZ.2
  have one' : rv O = 1 := hO.2
  have px := (hp p.x (by simp [V3.toList])).2
  have py := (hp p.y (by simp [V3.toList])).2
  have pz := (hp p.z (by simp [V3.toList])).2
  have big : ∀ {a x : ℝ}, |a| ≤ 2 ^ 84 → |x| ≤ 2 ^ 40 → |a * x| ≤ 2 ^ 124 := by
    intro a x h1 h2
    rw [abs_mul]
    calc |a| * |x| ≤ 2 ^ 84 * 2 ^ 40 := by gcongr
      _ = 2 ^ 124 := by norm_num
  obtain ⟨a1, a2⟩ := one_entry (x := rv p.x) hA
  obtain ⟨b1, b2⟩ := one_entry (x := rv p.y) hB
  obtain ⟨c1, c2⟩ := one_entry (x := rv p.z) hC
  obtain ⟨d1, d2⟩ := one_entry (x := 1) hD
  have A' := big (bA.trans (by norm_num)) px
  have B' := big (bB.trans (by norm_num)) py
  have C' := big bC pz
  simp only [mul_one] at d1 d2
  refine ⟨?_, ?_, ?_, ?_⟩
  · refine row (e := 5) h1 rfl (X := rv A * rv p.x) (S := |rv A * rv p.x|) ?_ ?_ ?_ (by norm_num) (a1.trans (by linarith)) (a2.trans (by linarith)) (abs_nonneg _) (by norm_num)
    · simp [sumProd, row4, shape, zero]
    · simp [absProd, row4, shape, zero]
    · refine a2.trans ?_
      linarith
  · refine row (e := 5) h2 rfl (X := rv B * rv p.y) (S := |rv B * rv p.y|) ?_ ?_ ?_ (by norm_num) (b1.trans (by linarith)) (b2.trans (by linarith)) (abs_nonneg _) (by norm_num)
    · simp [sumProd, row4, shape, zero]
    · simp [absProd, row4, shape, zero]
    · refine b2.trans ?_
      linarith
  · refine row (e := 5) h3 rfl (X := rv C * rv p.z + rv D) (S := |rv C * rv p.z| + |rv D|) ?_ ?_ ?_ (by norm_num) ?_ ?_ (by positivity) (by norm_num)
    · simp [sumProd, row4, shape, zero, one]
    · simp [absProd, row4, shape, zero, one]
    · change |C.val * rv p.z| + |D.val| ≤ _
      linarith
    · rw [show rv C * rv p.z + rv D - (γ * rv p.z + δ) = (rv C * rv p.z - γ * rv p.z) + (rv D - δ) by ring, mul_add]
      exact ((abs_add_le _ _).trans (add_le_add c1 d1)).trans (by linarith)
    · rw [mul_add]; exact (add_le_add c2 d2).trans (by linarith)
  · refine row (e := 0) h4 rfl (X := rv p.z) (S := |rv p.z|) ?_ ?_ ?_ (by norm_num) ?_ ?_ (abs_nonneg _) (by norm_num)
    · simp [sumProd, row4, shape, zero, one']
    · simp [absProd, row4, shape, zero, one']
    · refine pz.trans (by norm_num)
    · simp
    · simp

theorem neg_one_lit : (Flt.lit (-1) : F32).isFinite = true ∧ (Flt.lit (-1) : F32).val = -1 := by
  have h : (Flt.lit (-1) : F32).isFinite = true ∧ (Flt.lit (-1) : F32).units = -2 ^ 149 := by decide +kernel
  refine ⟨h.1, ?_⟩
  rw [val_units, h.2]; push_cast; norm_num

/-- The two entries for the sides. -/
theorem sides {tan : F32 → F32} (ht : TanOk tan) {fov aspect near : F32} (h : LensOk fov aspect near) :
    let T := tan (fov *. Flt.lit (1 / 2))
    let A : F32 := Flt.lit 1 /. (aspect *. T)
    let B : F32 := Flt.lit (-1) /. T
    A.isFinite = true ∧ B.isFinite = true ∧ F32.Rel A.val (1 / (rv aspect * Real.tan (rv fov / 2))) (5 / 2 ^ 24) 0 ∧
      F32.Rel B.val (-1 / Real.tan (rv fov / 2)) (5 / 2 ^ 24) 0 ∧
      |1 / (rv aspect * Real.tan (rv fov / 2))| ≤ 2 ^ 62 ∧ |-1 / Real.tan (rv fov / 2)| ≤ 2 ^ 62 := by
  obtain ⟨hf, ⟨f1, f2⟩, ⟨a1, a2⟩, -⟩ := h
  have ff : fov.isFinite = true := hf _ (by simp)
  have fa : aspect.isFinite = true := hf _ (by simp)
  obtain ⟨p1, p2, p3⟩ := tan_range f1 f2
  obtain ⟨g1, g2⟩ := half_step ff f1 f2
  obtain ⟨t1, t2⟩ := ht _ g1 (by change _ ≤ F32.val _; rw [g2]; change 1 / 2 ^ 30 ≤ fov.val at f1; linarith) (by change F32.val _ ≤ _; rw [g2]; change fov.val ≤ 3.1415 at f2; linarith)
  rw [show rv (fov *. Flt.lit (1 / 2)) = rv fov / 2 from g2] at t2
  generalize fov *. Flt.lit (1 / 2) = H at *
  intro T A B
  have o := PlaceP.one_lit
  have n := neg_one_lit
  generalize hTr : Real.tan (rv fov / 2) = τ at *
  have hτ : 0 < τ := lt_of_lt_of_le (by norm_num) p2
  have hτr : F32.Rel (tan H).val τ (2 / 2 ^ 24) 0 := by unfold F32.Rel; rw [add_zero]; exact t2
  have ha : 0 < rv aspect := lt_of_lt_of_le (by norm_num) a1
  have m1 : rv aspect * τ ≤ 2 ^ 30 * 2 ^ 15 := by gcongr
  have m2 : 1 / 2 ^ 30 * (1 / 2 ^ 31) ≤ rv aspect * τ := by gcongr
  obtain ⟨k1, k2⟩ := mul_step (x := rv aspect) (y := τ) (e := 0) (c := 25 / 8 / 2 ^ 24) fa t1 (Rel.refl _) hτr (by norm_num) (by norm_num)
    (by rw [abs_of_pos (by positivity)]; refine m1.trans (by norm_num))
    (by rw [abs_of_pos (by positivity)]; refine le_trans (by norm_num) m2) (by unfold uro; norm_num)
  have q1 : |1 / (rv aspect * τ)| ≤ 2 ^ 61 := by
    rw [abs_of_pos (by positivity), div_le_iff₀ (by positivity)]
    calc (1 : ℝ) = 2 ^ 61 * (1 / 2 ^ 30 * (1 / 2 ^ 31)) := by norm_num
      _ ≤ _ := by gcongr
  have q2 : 1 / 2 ^ 45 ≤ |1 / (rv aspect * τ)| := by
    rw [abs_of_pos (by positivity)]
    gcongr; exact m1.trans (by norm_num)
  have q3 : |-1 / τ| ≤ 2 ^ 31 := by
    rw [abs_div, abs_neg, abs_one, abs_of_pos hτ, div_le_iff₀ hτ]
    calc (1 : ℝ) = 2 ^ 31 * (1 / 2 ^ 31) := by norm_num
      _ ≤ _ := by gcongr
  have q4 : 1 / 2 ^ 15 ≤ |-1 / τ| := by
    rw [abs_div, abs_neg, abs_one, abs_of_pos hτ]
    gcongr
  have o' : F32.Rel (Flt.lit 1 : F32).val 1 0 0 := by rw [show (Flt.lit 1 : F32).val = 1 from o.2]; exact Rel.refl 1
  have n' : F32.Rel (Flt.lit (-1) : F32).val (-1) 0 0 := by rw [n.2]; exact Rel.refl (-1)
  obtain ⟨A1, A2⟩ := div_step (c := 5 / 2 ^ 24) (show (Flt.lit 1 : F32).isFinite = true from o.1) k1 o' k2 (by norm_num) (by norm_num) (by positivity)
    (q1.trans (by norm_num)) (le_trans (by norm_num) q2) (by unfold uro; norm_num)
  obtain ⟨B1, B2⟩ := div_step (c := 5 / 2 ^ 24) n.1 t1 n' hτr (by norm_num) (by norm_num) hτ.ne'
    (q3.trans (by norm_num)) (le_trans (by norm_num) q4) (by unfold uro; norm_num)
  exact ⟨A1, B1, A2, B2, q1.trans (by norm_num), q3.trans (by norm_num)⟩

/-- Floats from `2^-30` up are multiples of `2^-53`. -/
theorem grid {a : F32} (ha : 1 / 2 ^ 30 ≤ a.val) : ∃ n : ℤ, a.units = n * 2 ^ 96 := by
  obtain ⟨s, k, hm, hk, hs⟩ := mag_decomp a.mag
  have hmu : magUnits a.mag = k * 2 ^ s := by rw [hm]; exact magUnits_eq s k hk.le hs
  have hu : (2 : ℝ) ^ 119 ≤ (a.units : ℝ) := by
    rw [units_val]
    calc (2 : ℝ) ^ 119 = 1 / 2 ^ 30 * 2 ^ 149 := by norm_num
      _ ≤ _ := by gcongr
  have hu' : (2 : ℤ) ^ 119 ≤ a.units := by exact_mod_cast hu
  have hab : a.units.natAbs = k * 2 ^ s := by
    rw [← hmu]; unfold units; split <;> simp
  have hs96 : 96 ≤ s := by
    by_contra hc
    have h1 : 2 ^ s ≤ 2 ^ 95 := Nat.pow_le_pow_right (by norm_num) (by omega)
    have h2 : k * 2 ^ s < 2 ^ 24 * 2 ^ 95 := by
      calc k * 2 ^ s ≤ k * 2 ^ 95 := Nat.mul_le_mul_left _ h1
        _ < 2 ^ 24 * 2 ^ 95 := by gcongr
    rw [← hab] at h2
    omega
  refine ⟨k * 2 ^ (s - 96), ?_⟩
  have h3 : a.units = (k * 2 ^ s : ℕ) := by rw [← hab]; omega
  rw [h3, Nat.cast_mul, Nat.cast_pow, Nat.cast_ofNat, mul_assoc, ← pow_add]
  congr 2; omega

theorem gap {a b : F32} (ha : 1 / 2 ^ 30 ≤ a.val) (hb : 1 / 2 ^ 30 ≤ b.val) (h : a.val ≠ b.val) : 1 / 2 ^ 53 ≤ |a.val - b.val| := by
  obtain ⟨n, hn⟩ := grid ha
  obtain ⟨m, hm⟩ := grid hb
  have e : a.val - b.val = (n - m : ℤ) / 2 ^ 53 := by
    rw [val_units, val_units, hn, hm]; push_cast; ring
  have h0 : n - m ≠ 0 := by
    intro h1
    apply h
    rw [h1] at e
    simp at e
    linarith
  have h1 : (1 : ℝ) ≤ |((n - m : ℤ) : ℝ)| := by
    rw [← Int.cast_abs]
    exact_mod_cast Int.one_le_abs h0
  rw [e, abs_div, abs_of_pos (a := (2 : ℝ) ^ 53) (by positivity)]
  gcongr

/-- The two entries for the depth: `a / (a - b)` and `-(a * b) / (a - b)`. -/
theorem depths {a b : F32} (fa : a.isFinite = true) (fb : b.isFinite = true) (ha : 1 / 2 ^ 30 ≤ a.val) (ha' : a.val ≤ 2 ^ 40)
    (hb : 1 / 2 ^ 30 ≤ b.val) (hb' : b.val ≤ 2 ^ 40) (hne : a.val ≠ b.val) (hs : a.val ≤ 2 ^ 30 ∨ b.val ≤ 2 ^ 30) :
    let C : F32 := a /. (a -. b)
    let D : F32 := (-. (a *. b)) /. (a -. b)
    C.isFinite = true ∧ D.isFinite = true ∧ F32.Rel C.val (a.val / (a.val - b.val)) (5 / 2 ^ 24) 0 ∧
      F32.Rel D.val (-(a.val * b.val) / (a.val - b.val)) (5 / 2 ^ 24) 0 ∧
      |a.val / (a.val - b.val)| ≤ 2 ^ 84 ∧ |-(a.val * b.val) / (a.val - b.val)| ≤ 2 ^ 120 := by
  intro C D
  have g := gap ha hb hne
  have a0 : 0 < a.val := lt_of_lt_of_le (by norm_num) ha
  have b0 : 0 < b.val := lt_of_lt_of_le (by norm_num) hb
  have gp : 0 < |a.val - b.val| := lt_of_lt_of_le (by norm_num) g
  have g1 : |a.val - b.val| ≤ 2 ^ 40 := abs_le.2 ⟨by linarith, by linarith⟩
  have g2 : a.val ≤ 2 ^ 84 * |a.val - b.val| ∧ a.val * b.val ≤ 2 ^ 120 * |a.val - b.val| := by
    have lo : 2 ^ 31 ≤ 2 ^ 84 * |a.val - b.val| := by
      calc (2 : ℝ) ^ 31 = 2 ^ 84 * (1 / 2 ^ 53) := by norm_num
        _ ≤ _ := by gcongr
    rcases hs with hs | hs
    · refine ⟨by linarith, ?_⟩
      rcases le_total b.val (2 * a.val) with h | h
      · have : a.val * b.val ≤ 2 ^ 30 * 2 ^ 31 := by gcongr; linarith
        calc _ ≤ _ := this
          _ ≤ 2 ^ 120 * (1 / 2 ^ 53) := by norm_num
          _ ≤ _ := by gcongr
      · have h1 : b.val ≤ 2 * |a.val - b.val| := by rw [abs_of_neg (by linarith)]; linarith
        have : a.val * b.val ≤ 2 ^ 30 * (2 * |a.val - b.val|) := by gcongr
        linarith
    · rcases le_total a.val (2 * b.val) with h | h
      · refine ⟨by linarith, ?_⟩
        have : a.val * b.val ≤ 2 ^ 31 * 2 ^ 30 := by gcongr; linarith
        calc _ ≤ _ := this
          _ ≤ 2 ^ 120 * (1 / 2 ^ 53) := by norm_num
          _ ≤ _ := by gcongr
      · have h1 : a.val ≤ 2 * |a.val - b.val| := by rw [abs_of_pos (by linarith)]; linarith
        refine ⟨by linarith, ?_⟩
        have : a.val * b.val ≤ 2 * |a.val - b.val| * 2 ^ 30 := by gcongr
        linarith
  have q1 : |a.val / (a.val - b.val)| ≤ 2 ^ 84 := by
    rw [abs_div, abs_of_pos a0, div_le_iff₀ gp]; exact g2.1
  have q2 : |-(a.val * b.val) / (a.val - b.val)| ≤ 2 ^ 120 := by
    rw [abs_div, abs_neg, abs_of_pos (mul_pos a0 b0), div_le_iff₀ gp]; exact g2.2
  have q3 : 1 / 2 ^ 110 ≤ |a.val / (a.val - b.val)| := by
    rw [abs_div, abs_of_pos a0, le_div_iff₀ gp]
    calc 1 / 2 ^ 110 * |a.val - b.val| ≤ 1 / 2 ^ 110 * 2 ^ 40 := by gcongr
      _ ≤ 1 / 2 ^ 30 := by norm_num
      _ ≤ _ := ha
  have m1 : 1 / 2 ^ 60 ≤ a.val * b.val := by
    calc (1 / 2 ^ 60 : ℝ) = 1 / 2 ^ 30 * (1 / 2 ^ 30) := by norm_num
      _ ≤ _ := by gcongr
  have m2 : a.val * b.val ≤ 2 ^ 80 := by
    calc a.val * b.val ≤ 2 ^ 40 * 2 ^ 40 := by gcongr
      _ ≤ _ := by norm_num
  have q4 : 1 / 2 ^ 110 ≤ |-(a.val * b.val) / (a.val - b.val)| := by
    rw [abs_div, abs_neg, abs_of_pos (mul_pos a0 b0), le_div_iff₀ gp]
    calc 1 / 2 ^ 110 * |a.val - b.val| ≤ 1 / 2 ^ 110 * 2 ^ 40 := by gcongr
      _ ≤ 1 / 2 ^ 60 := by norm_num
      _ ≤ _ := m1
  obtain ⟨s1, s2⟩ := sub_rel fa fb (g1.trans_lt (by norm_num))
  obtain ⟨t1, t2⟩ := mul_step (c := 17 / 16 / 2 ^ 24) fa fb (Rel.refl a.val) (Rel.refl b.val) (by norm_num) (by norm_num)
    (by rw [abs_of_pos (mul_pos a0 b0)]; exact m2.trans (by norm_num))
    (by rw [abs_of_pos (mul_pos a0 b0)]; exact le_trans (by norm_num) m1) (by unfold uro; norm_num)
  have hne' : a.val - b.val ≠ 0 := sub_ne_zero.2 hne
  have n1 : (-. (a *. b) : F32).isFinite = true := by rw [← t1]; exact F32.fneg_finite _
  have n2 : (-. (a *. b) : F32).val = -(fmul a b).val := RotateP.fneg_val _
  obtain ⟨C1, C2⟩ := div_step (c := 5 / 2 ^ 24) fa s1 (Rel.refl a.val) s2 (by norm_num) (by unfold uro; norm_num) hne'
    (q1.trans (by norm_num)) q3 (by unfold uro; norm_num)
  obtain ⟨D1, D2⟩ := div_step (c := 5 / 2 ^ 24) n1 s1 (by rw [n2]; exact t2.neg) s2 (by norm_num) (by unfold uro; norm_num) hne'
    (q2.trans (by norm_num)) q4 (by unfold uro; norm_num)
  exact ⟨C1, D1, C2, D2, q1, q2⟩

/-- A side of the view. -/
theorem side_in {rx rw X z : ℝ} (h1 : |rx - X| ≤ 10 / 2 ^ 24 * |X| + 1 / 2 ^ 146) (h2 : |rw - z| ≤ 5 / 2 ^ 24 * |z| + 1 / 2 ^ 146)
    (hz : 1 / 2 ^ 30 ≤ z) (h : |X| ≤ (1 - 16 / 2 ^ 24) * z) : |rx| ≤ rw := by
  have h3 := abs_add_le (rx - X) X
  rw [sub_add_cancel] at h3
  rw [abs_of_pos (a := z) (by linarith)] at h2
  have h4 := (abs_le.1 h2).1
  have : 1 / 2 ^ 146 ≤ 1 / 2 ^ 100 * z := by
    calc (1 / 2 ^ 146 : ℝ) ≤ 1 / 2 ^ 100 * (1 / 2 ^ 30) := by norm_num
      _ ≤ _ := by gcongr
  linarith

theorem side_out {rx rw X z : ℝ} (h1 : |rx - X| ≤ 10 / 2 ^ 24 * |X| + 1 / 2 ^ 146) (h2 : |rw - z| ≤ 5 / 2 ^ 24 * |z| + 1 / 2 ^ 146)
    (hz : 1 / 2 ^ 30 ≤ z) (h : (1 + 16 / 2 ^ 24) * z ≤ |X|) : ¬ |rx| ≤ rw := by
  have h3 := abs_add_le (X - rx) rx
  rw [sub_add_cancel, abs_sub_comm] at h3
  rw [abs_of_pos (a := z) (by linarith)] at h2
  have h4 := (abs_le.1 h2).2
  have : 1 / 2 ^ 146 ≤ 1 / 2 ^ 100 * z := by
    calc (1 / 2 ^ 146 : ℝ) ≤ 1 / 2 ^ 100 * (1 / 2 ^ 30) := by norm_num
      _ ≤ _ := by gcongr
  intro h5
  linarith

theorem lens_sides {rx ry rw x y z a t : ℝ} (h1 : |rx - x / (a * t)| ≤ 10 / 2 ^ 24 * |x / (a * t)| + 1 / 2 ^ 146)
    (h2 : |ry - -y / t| ≤ 10 / 2 ^ 24 * |-y / t| + 1 / 2 ^ 146) (h3 : |rw - z| ≤ 5 / 2 ^ 24 * |z| + 1 / 2 ^ 146)
    (ha : 0 < a) (ht : 0 < t) (hz : 1 / 2 ^ 30 ≤ z) :
    (|x| ≤ (1 - 16 / 2 ^ 24) * (a * t * z) ∧ |y| ≤ (1 - 16 / 2 ^ 24) * (t * z) → |rx| ≤ rw ∧ |ry| ≤ rw) ∧
    ((1 + 16 / 2 ^ 24) * (a * t * z) ≤ |x| ∨ (1 + 16 / 2 ^ 24) * (t * z) ≤ |y| → ¬ (|rx| ≤ rw ∧ |ry| ≤ rw)) := by
  have e1 : |x / (a * t)| = |x| / (a * t) := by rw [abs_div, abs_of_pos (mul_pos ha ht)]
  have e2 : |-y / t| = |y| / t := by rw [abs_div, abs_neg, abs_of_pos ht]
  have m := mul_pos ha ht
  constructor
  · rintro ⟨h4, h5⟩
    refine ⟨side_in h1 h3 hz ?_, side_in h2 h3 hz ?_⟩
    · rw [e1, div_le_iff₀ m]; linarith
    · rw [e2, div_le_iff₀ ht]; linarith
  · rintro (h | h)
    · exact fun hc => side_out h1 h3 hz (by rw [e1, le_div_iff₀ m]; linarith) hc.1
    · exact fun hc => side_out h2 h3 hz (by rw [e2, le_div_iff₀ ht]; linarith) hc.2

/-- The sign of the depth `P / d` and of what is left to the clip `w`. -/
theorem depth_core {r w z P Q d : ℝ} (hd : 0 < d) (hd' : d ≤ 2 ^ 40) (hQ : 1 / 2 ^ 60 ≤ Q)
    (h : |r - P / d| ≤ 10 / 2 ^ 24 * (Q / d) + 1 / 2 ^ 146) (hw : |w - z| ≤ 5 / 2 ^ 24 * |z| + 1 / 2 ^ 146) :
    (16 / 2 ^ 24 * Q ≤ P → 0 ≤ r) ∧ (16 / 2 ^ 24 * Q ≤ -P → ¬ 0 ≤ r) ∧
    (16 / 2 ^ 24 * (Q + |z| * d) ≤ z * d - P → r ≤ w) ∧ (16 / 2 ^ 24 * (Q + |z| * d) ≤ -(z * d - P) → ¬ r ≤ w) := by
  have h1 : |r * d - P| ≤ 10 / 2 ^ 24 * Q + 1 / 2 ^ 146 * d := by
    have e : r * d - P = (r - P / d) * d := by field_simp
    rw [e, abs_mul, abs_of_pos hd]
    calc _ ≤ (10 / 2 ^ 24 * (Q / d) + 1 / 2 ^ 146) * d := by gcongr
      _ = _ := by field_simp
  have h2 : |w * d - z * d| ≤ 5 / 2 ^ 24 * (|z| * d) + 1 / 2 ^ 146 * d := by
    rw [← sub_mul, abs_mul, abs_of_pos hd]
    calc _ ≤ (5 / 2 ^ 24 * |z| + 1 / 2 ^ 146) * d := by gcongr
      _ = _ := by ring
  have h3 : 1 / 2 ^ 146 * d ≤ 1 / 2 ^ 40 * Q := by
    calc 1 / 2 ^ 146 * d ≤ 1 / 2 ^ 146 * 2 ^ 40 := by gcongr
      _ ≤ 1 / 2 ^ 40 * (1 / 2 ^ 60) := by norm_num
      _ ≤ _ := by gcongr
  have h4 : 0 ≤ |z| * d := by positivity
  have hQ0 : 0 < Q := lt_of_lt_of_le (by norm_num) hQ
  obtain ⟨l1, u1⟩ := abs_le.1 h1
  obtain ⟨l2, u2⟩ := abs_le.1 h2
  refine ⟨fun h => ?_, fun h hc => ?_, fun h => ?_, fun h hc => ?_⟩
  · by_contra hc
    have := mul_neg_of_neg_of_pos (not_le.1 hc) hd
    linarith
  · have := mul_nonneg hc hd.le
    linarith
  · by_contra hc
    have := mul_lt_mul_of_pos_right (not_le.1 hc) hd
    linarith
  · have := mul_le_mul_of_nonneg_right hc hd.le
    linarith

/-- Sides and depth together. -/
theorem assemble {r : V4 F32} {p : V3 F32} {a t n P Q d : ℝ} (ha : 0 < a) (ht : 0 < t) (hn : 1 / 2 ^ 30 ≤ n)
    (h1 : UpTo 10 r.x (rv p.x / (a * t)) |rv p.x / (a * t)|) (h2 : UpTo 10 r.y (-rv p.y / t) |-rv p.y / t|)
    (h3 : UpTo 10 r.z (P / d) (Q / d)) (h4 : UpTo 5 r.w (rv p.z) |rv p.z|)
    (hd : 0 < d) (hd' : d ≤ 2 ^ 40) (hQ : 1 / 2 ^ 60 ≤ Q) :
    (InSides (16 / 2 ^ 24) t a p → n ≤ rv p.z → 16 / 2 ^ 24 * Q ≤ P → 16 / 2 ^ 24 * (Q + |rv p.z| * d) ≤ rv p.z * d - P → Clipped r) ∧
    (n ≤ rv p.z ∧ OutSides (16 / 2 ^ 24) t a p ∨ 16 / 2 ^ 24 * Q ≤ -P ∨ 16 / 2 ^ 24 * (Q + |rv p.z| * d) ≤ -(rv p.z * d - P) → ¬ Clipped r) := by
  obtain ⟨d1, d2, d3, d4⟩ := depth_core hd hd' hQ h3.2 h4.2
  constructor
  · intro hs hz hp hq
    obtain ⟨s1, s2⟩ := (lens_sides h1.2 h2.2 h4.2 ha ht (hn.trans hz)).1 hs
    exact ⟨s1, s2, d1 hp, d3 hq⟩
  · rintro (⟨hz, hs⟩ | h | h) hc
    · exact (lens_sides h1.2 h2.2 h4.2 ha ht (hn.trans hz)).2 hs ⟨hc.1, hc.2.1⟩
    · exact d2 h hc.2.2.1
    · exact d4 h hc.2.2.2

/-- The two ways to order the planes. -/
theorem forward {n F z : ℝ} (hn : 0 < n) (hF : n < F) :
    (BelowBy (16 / 2 ^ 24) n z → 16 / 2 ^ 24 * (F * (|z| + n)) ≤ F * (z - n)) ∧
    (BelowBy (16 / 2 ^ 24) z n → 16 / 2 ^ 24 * (F * (|z| + n)) ≤ -(F * (z - n))) ∧
    (BelowBy (32 / 2 ^ 24 * (F / n)) z F → 16 / 2 ^ 24 * (F * (|z| + n) + |z| * (F - n)) ≤ z * (F - n) - F * (z - n)) ∧
    (BelowBy (32 / 2 ^ 24 * (F / n)) F z → 16 / 2 ^ 24 * (F * (|z| + n) + |z| * (F - n)) ≤ -(z * (F - n) - F * (z - n))) := by
  have Fp : 0 < F := hn.trans hF
  have z0 := abs_nonneg z
  have e : z * (F - n) - F * (z - n) = n * (F - z) := by ring
  have key : 16 / 2 ^ 24 * (F * (|z| + n) + |z| * (F - n)) ≤ 32 / 2 ^ 24 * (F * (|z| + F)) := by
    have h1 : F * n ≤ F * F := by gcongr
    have h2 : 0 ≤ |z| * n := by positivity
    nlinarith
  have m : ∀ {a b : ℝ}, 32 / 2 ^ 24 * (F / n) * (a + b) ≤ z - F → 32 / 2 ^ 24 * (F * (a + b)) ≤ n * (z - F) := by
    intro a b h
    calc 32 / 2 ^ 24 * (F * (a + b)) = n * (32 / 2 ^ 24 * (F / n) * (a + b)) := by field_simp
      _ ≤ _ := by gcongr
  have m' : ∀ {a b : ℝ}, 32 / 2 ^ 24 * (F / n) * (a + b) ≤ F - z → 32 / 2 ^ 24 * (F * (a + b)) ≤ n * (F - z) := by
    intro a b h
    calc 32 / 2 ^ 24 * (F * (a + b)) = n * (32 / 2 ^ 24 * (F / n) * (a + b)) := by field_simp
      _ ≤ _ := by gcongr
  unfold BelowBy
  rw [abs_of_pos hn, abs_of_pos Fp, e]
  refine ⟨fun h => ?_, fun h => ?_, fun h => ?_, fun h => ?_⟩
  · calc _ = F * (16 / 2 ^ 24 * (n + |z|)) := by ring
      _ ≤ _ := by gcongr
  · calc _ = F * (16 / 2 ^ 24 * (|z| + n)) := by ring
      _ ≤ F * (n - z) := by gcongr
      _ = _ := by ring
  · exact key.trans (m' h)
  · have := m h
    rw [add_comm F |z|] at this
    linarith

theorem backward {n F z : ℝ} (hn : 0 < n) (hF : n < F) :
    (BelowBy (16 / 2 ^ 24) z F → 16 / 2 ^ 24 * (n * (|z| + F)) ≤ n * (F - z)) ∧
    (BelowBy (16 / 2 ^ 24) F z → 16 / 2 ^ 24 * (n * (|z| + F)) ≤ -(n * (F - z))) ∧
    (BelowBy (16 / 2 ^ 24) n z → 16 / 2 ^ 24 * (n * (|z| + F) + |z| * (F - n)) ≤ z * (F - n) - n * (F - z)) ∧
    (BelowBy (16 / 2 ^ 24) z n → 16 / 2 ^ 24 * (n * (|z| + F) + |z| * (F - n)) ≤ -(z * (F - n) - n * (F - z))) := by
  have Fp : 0 < F := hn.trans hF
  have z0 := abs_nonneg z
  have e : z * (F - n) - n * (F - z) = F * (z - n) := by ring
  have e' : n * (|z| + F) + |z| * (F - n) = F * (|z| + n) := by ring
  unfold BelowBy
  rw [abs_of_pos hn, abs_of_pos Fp, e, e']
  refine ⟨fun h => ?_, fun h => ?_, fun h => ?_, fun h => ?_⟩
  · calc _ = n * (16 / 2 ^ 24 * (|z| + F)) := by ring
      _ ≤ _ := by gcongr
  · calc _ = n * (16 / 2 ^ 24 * (F + |z|)) := by ring
      _ ≤ n * (z - F) := by gcongr
      _ = _ := by ring
  · calc _ = F * (16 / 2 ^ 24 * (n + |z|)) := by ring
      _ ≤ _ := by gcongr
  · calc _ = F * (16 / 2 ^ 24 * (|z| + n)) := by ring
      _ ≤ F * (n - z) := by gcongr
      _ = _ := by ring

theorem below_le {e a b : ℝ} (he : 0 ≤ e) (h : BelowBy e a b) : a ≤ b := by
  unfold BelowBy at h
  have : 0 ≤ e * (|a| + |b|) := by positivity
  linarith

/-- What the three perspective projections share. -/
theorem common {tan : F32 → F32} (hT : TanOk tan) {fov aspect near : F32} (h : LensOk fov aspect near) {p : V3 F32} (hp : PointOk p)
    {r : V4 F32} {C D : F32} {γ δ : ℝ} (C1 : C.isFinite = true) (D1 : D.isFinite = true) (C2 : F32.Rel C.val γ (5 / 2 ^ 24) 0)
    (D2 : F32.Rel D.val δ (5 / 2 ^ 24) 0) (C3 : |γ| ≤ 2 ^ 84) (D3 : |δ| ≤ 2 ^ 120)
    (hr : ProductOf (shape (Flt.lit 0) (Flt.lit 1) (Flt.lit 1 /. (aspect *. tan (fov *. Flt.lit (1 / 2))))
      (Flt.lit (-1) /. tan (fov *. Flt.lit (1 / 2))) C D) p r) :
    let t := Real.tan (rv fov / 2)
    let X := rv p.x / (rv aspect * t)
    let Y := -rv p.y / t
    0 < t ∧ 0 < rv aspect ∧ UpTo 10 r.x X |X| ∧ UpTo 10 r.y Y |Y| ∧ UpTo 10 r.z (γ * rv p.z + δ) (|γ * rv p.z| + |δ|) ∧
      UpTo 5 r.w (rv p.z) |rv p.z| := by
  intro t X Y
  obtain ⟨A1, B1, A2, B2, A3, B3⟩ := sides hT h
  obtain ⟨hl, ⟨f1, f2⟩, ⟨a1, a2⟩, ⟨n1, n2⟩⟩ := h
  obtain ⟨u1, u2, u3, u4⟩ := persp_rows hp PlaceP.zero_lit PlaceP.one_lit A1 B1 C1 D1 A2 B2 C2 D2 A3 B3 C3 D3 hr
  refine ⟨lt_of_lt_of_le (by norm_num) (tan_range f1 f2).2.1, lt_of_lt_of_le (by norm_num) a1, ?_, ?_, u3, u4⟩
  · have e : 1 / (rv aspect * Real.tan (rv fov / 2)) * rv p.x = X := by simp only [X, t]; ring
    rw [e] at u1; exact u1
  · have e : -1 / Real.tan (rv fov / 2) * rv p.y = Y := by simp only [Y, t]; ring
    rw [e] at u2; exact u2

theorem two_lit : (Flt.lit 2 : F32).isFinite = true ∧ (Flt.lit 2 : F32).val = 2 := by
  have h : (Flt.lit 2 : F32).isFinite = true ∧ (Flt.lit 2 : F32).units = 2 ^ 150 := by decide +kernel
  refine ⟨h.1, ?_⟩
  rw [val_units, h.2]; push_cast; norm_num
theorem neg_two_lit : (Flt.lit (-2) : F32).isFinite = true ∧ (Flt.lit (-2) : F32).val = -2 := by
  have h : (Flt.lit (-2) : F32).isFinite = true ∧ (Flt.lit (-2) : F32).units = -2 ^ 150 := by decide +kernel
  refine ⟨h.1, ?_⟩
  rw [val_units, h.2]; push_cast; norm_num

/-- A quotient that may underflow. -/
theorem div_step' {a b : F32} {x y e d c : ℝ} (ha : a.isFinite = true) (hb : b.isFinite = true) (hx : F32.Rel a.val x e 0)
    (hy : F32.Rel b.val y d 0) (he : 0 ≤ e ∧ e ≤ 1 / 2 ^ 10) (hd : 0 ≤ d ∧ d ≤ 1 / 2 ^ 10) (hy0 : y ≠ 0)
    (hb1 : |x / y| ≤ 2 ^ 126) (hc : (e + d) / (1 - d) + uro + (e + d) / (1 - d) * uro ≤ c) :
    (fdiv a b).isFinite = true ∧ F32.Rel (fdiv a b).val (x / y) c (1 / 2 ^ 149) := by
  have h1 := hx.div hy (by linarith) hy0
  have hy' : 0 < |y| := abs_pos.2 hy0
  have hbv : b.val ≠ 0 := by
    intro h
    have := hy.le_abs
    rw [h, abs_zero] at this
    nlinarith
  have q1 : (e + d) / (1 - d) ≤ 1 / 2 ^ 8 := by
    rw [div_le_iff₀ (by linarith)]; linarith
  have h2 : |a.val / b.val| < 2 ^ 127 := by
    have := h1.abs_le
    rw [zero_div, add_zero] at this
    have h3 : (1 + (e + d) / (1 - d)) * |x / y| ≤ (1 + 1 / 2 ^ 8) * 2 ^ 126 := by gcongr
    refine this.trans_lt (h3.trans_lt (by norm_num))
  obtain ⟨f, h3⟩ := fdiv_rel ha hb hbv h2
  refine ⟨f, (h1.round h3 uro_pos.le).mono hc ?_⟩
  rw [zero_div, mul_zero, zero_add]; norm_num

/-- The matrix of an orthographic projection, given its entries. -/
def oshape (Z O A B C D E G : F32) : M4 F32 := ⟨⟨A, Z, Z, Z⟩, ⟨Z, B, Z, Z⟩, ⟨Z, Z, C, Z⟩, ⟨D, E, G, O⟩⟩

/-- One axis: a factor and an offset. -/
def Axis (A D : F32) (α δ : ℝ) : Prop :=
  A.isFinite = true ∧ D.isFinite = true ∧ F32.Rel A.val α (5 / 2 ^ 24) 0 ∧ F32.Rel D.val δ (5 / 2 ^ 24) (1 / 2 ^ 149) ∧
    |α| ≤ 2 ^ 62 ∧ |δ| ≤ 2 ^ 120

theorem axis_row {A D x r : F32} {α δ : ℝ} {l : List (ℝ × ℝ)} (h : SumOk r l) (hl : l.length = 4) (hA : Axis A D α δ) (hx : |rv x| ≤ 2 ^ 40)
    (hX : sumProd l = rv A * rv x + rv D) (hS : absProd l = |rv A * rv x| + |rv D|) : UpTo 10 r (α * rv x + δ) (|α * rv x| + |δ|) := by
  obtain ⟨fA, fD, rA, rD, bA, bD⟩ := hA
  obtain ⟨a1, a2⟩ := one_entry (x := rv x) rA
  have big : |α * rv x| ≤ 2 ^ 102 := by
    rw [abs_mul]
    calc |α| * |rv x| ≤ 2 ^ 62 * 2 ^ 40 := by gcongr
      _ = 2 ^ 102 := by norm_num
  have d2 := rD.abs_le
  have d1 := rD
  unfold F32.Rel at d1
  refine row (e := 5) h hl hX hS ?_ (by norm_num) ?_ ?_ (by positivity) (by norm_num)
  · change |A.val * rv x| + |D.val| ≤ _
    have : (1 / 2 ^ 149 : ℝ) ≤ 1 := by norm_num
    linarith
  · rw [show rv A * rv x + rv D - (α * rv x + δ) = (rv A * rv x - α * rv x) + (rv D - δ) by ring, mul_add, add_assoc]
    exact (abs_add_le _ _).trans (add_le_add a1 d1)
  · rw [mul_add, add_assoc]; exact add_le_add a2 d2

theorem ortho_rows {Z O A B C D E G : F32} {α β γ δ ε ζ : ℝ} {p : V3 F32} {r : V4 F32} (hp : PointOk p)
    (hZ : Z.isFinite = true ∧ Z.val = 0) (hO : O.isFinite = true ∧ O.val = 1)
    (hA : Axis A D α δ) (hB : Axis B E β ε) (hC : Axis C G γ ζ)
    (hr : ProductOf (oshape Z O A B C D E G) p r) :
    UpTo 10 r.x (α * rv p.x + δ) (|α * rv p.x| + |δ|) ∧ UpTo 10 r.y (β * rv p.y + ε) (|β * rv p.y| + |ε|) ∧
    UpTo 10 r.z (γ * rv p.z + ζ) (|γ * rv p.z| + |ζ|) ∧ UpTo 5 r.w 1 1 := by
  have hm : FinM (oshape Z O A B C D E G) := by
    obtain ⟨hZ, -⟩ := hZ; obtain ⟨hO, -⟩ := hO
    obtain ⟨A1, A2, -⟩ := hA; obtain ⟨B1, B2, -⟩ := hB; obtain ⟨C1, C2, -⟩ := hC
    refine ⟨?_, ?_, ?_, ?_⟩ <;> intro x hx <;>
      simp only [oshape, V4.toList, List.mem_cons, List.not_mem_nil, or_false] at hx <;>
      rcases hx with rfl | rfl | rfl | rfl <;> assumption
  obtain ⟨h1, h2, h3, h4⟩ := product_ok hm hp hr
  have one : rv (Flt.lit 1 : F32) = 1 := PlaceP.one_lit.2
  have zero : rv Z = 0 := hZ.2
  have one' : rv O = 1 := hO.2
  refine ⟨axis_row h1 rfl hA (hp p.x (by simp [V3.toList])).2 ?_ ?_, axis_row h2 rfl hB (hp p.y (by simp [V3.toList])).2 ?_ ?_,
    axis_row h3 rfl hC (hp p.z (by simp [V3.toList])).2 ?_ ?_, ?_⟩
  · simp [sumProd, row4, oshape, zero, one]
  · simp [absProd, row4, oshape, zero, one]
  · simp [sumProd, row4, oshape, zero, one]
  · simp [absProd, row4, oshape, zero, one]
  · simp [sumProd, row4, oshape, zero, one]
  · simp [absProd, row4, oshape, zero, one]
  · refine row (e := 0) h4 rfl (X := 1) (S := 1) ?_ ?_ (by norm_num) (by norm_num) (by norm_num) (by norm_num) (by norm_num) (by norm_num)
    · simp [sumProd, row4, oshape, zero, one, one']
    · simp [absProd, row4, oshape, zero, one, one']

/-- One axis of an orthographic projection: `k / W` and `S / W`. -/
theorem axis_step {K S W : F32} {κ σ ω : ℝ} (fK : K.isFinite = true) (fS : S.isFinite = true) (fW : W.isFinite = true)
    (hK : K.val = κ) (hS : F32.Rel S.val σ uro 0) (hW : F32.Rel W.val ω uro 0) (k1 : 1 ≤ |κ|) (k2 : |κ| ≤ 2)
    (s : |σ| ≤ 2 ^ 41) (w1 : 1 / 2 ^ 30 ≤ |ω|) (w2 : |ω| ≤ 2 ^ 41) : Axis (fdiv K W) (fdiv S W) (κ / ω) (σ / ω) := by
  have wp : 0 < |ω| := lt_of_lt_of_le (by norm_num) w1
  have w0 : ω ≠ 0 := abs_pos.1 wp
  have q1 : |κ / ω| ≤ 2 ^ 31 := by
    rw [abs_div, div_le_iff₀ wp]
    calc |κ| ≤ 2 ^ 31 * (1 / 2 ^ 30) := by linarith
      _ ≤ _ := by gcongr
  have q2 : 1 / 2 ^ 110 ≤ |κ / ω| := by
    rw [abs_div, le_div_iff₀ wp]
    calc 1 / 2 ^ 110 * |ω| ≤ 1 / 2 ^ 110 * 2 ^ 41 := by gcongr
      _ ≤ 1 := by norm_num
      _ ≤ _ := k1
  have q3 : |σ / ω| ≤ 2 ^ 71 := by
    rw [abs_div, div_le_iff₀ wp]
    calc |σ| ≤ 2 ^ 71 * (1 / 2 ^ 30) := by linarith
      _ ≤ _ := by gcongr
  obtain ⟨a1, a2⟩ := div_step (c := 5 / 2 ^ 24) fK fW (e := 0) (by rw [hK]; exact Rel.refl κ) hW (by norm_num) (by unfold uro; norm_num) w0
    (q1.trans (by norm_num)) q2 (by unfold uro; norm_num)
  obtain ⟨b1, b2⟩ := div_step' (c := 5 / 2 ^ 24) fS fW hS hW (by unfold uro; norm_num) (by unfold uro; norm_num) w0
    (q3.trans (by norm_num)) (by unfold uro; norm_num)
  exact ⟨a1, b1, a2, b2, q1.trans (by norm_num), q3.trans (by norm_num)⟩

/-- Widths and sums of an extent. -/
theorem extent {w : V2 F32} (h : ExtentOk w) :
    w.x.isFinite = true ∧ w.y.isFinite = true ∧ |rv w.x| ≤ 2 ^ 40 ∧ |rv w.y| ≤ 2 ^ 40 ∧ 1 / 2 ^ 30 ≤ rv w.y - rv w.x ∧ rv w.y - rv w.x ≤ 2 ^ 41 ∧
    rv w.y - rv w.x ≤ |rv w.x| + |rv w.y| := by
  obtain ⟨h1, h2⟩ := h
  obtain ⟨a, b⟩ := h1 w.x (by simp [V2.toList])
  obtain ⟨c, d⟩ := h1 w.y (by simp [V2.toList])
  refine ⟨a, c, b, d, h2, ?_, ?_⟩
  · have := (abs_le.1 b).1; have := (abs_le.1 d).2; linarith
  · have := neg_abs_le (rv w.x); have := le_abs_self (rv w.y); linarith

/-- The axes of an orthographic projection: `2 / W`, `-(y + x) / W`. -/
theorem wide {w : V2 F32} (h : ExtentOk w) : Axis (Flt.lit 2 /. (w.y -. w.x)) ((-. (w.y +. w.x)) /. (w.y -. w.x))
    (2 / (rv w.y - rv w.x)) (-(rv w.y + rv w.x) / (rv w.y - rv w.x)) := by
  obtain ⟨fx, fy, bx, b, l, u, -⟩ := extent h
  have s0 : |rv w.y + rv w.x| ≤ 2 ^ 41 := (abs_add_le _ _).trans (by linarith)
  have d0 : |rv w.y - rv w.x| ≤ 2 ^ 41 := by rw [abs_of_pos (lt_of_lt_of_le (by norm_num) l)]; exact u
  obtain ⟨d1, d2⟩ := sub_rel fy fx (lt_of_le_of_lt d0 (by norm_num))
  obtain ⟨s1, s2⟩ := fadd_err' fy fx (lt_of_le_of_lt s0 (by norm_num))
  have s3 : F32.Rel (fadd w.y w.x).val (rv w.y + rv w.x) uro 0 := by unfold F32.Rel; rw [add_zero]; exact s2
  have n1 : (-. (w.y +. w.x) : F32).isFinite = true := by rw [← s1]; exact F32.fneg_finite _
  have n2 : (-. (w.y +. w.x) : F32).val = -(fadd w.y w.x).val := RotateP.fneg_val _
  exact axis_step two_lit.1 n1 d1 two_lit.2 (by rw [n2]; exact s3.neg) d2 (by norm_num) (by norm_num) (by rw [abs_neg]; exact s0)
    (by rw [abs_of_pos (lt_of_lt_of_le (by norm_num) l)]; exact l) d0

theorem high {w : V2 F32} (h : ExtentOk w) : Axis (Flt.lit (-2) /. (w.y -. w.x)) ((w.y +. w.x) /. (w.y -. w.x))
    (-2 / (rv w.y - rv w.x)) ((rv w.y + rv w.x) / (rv w.y - rv w.x)) := by
  obtain ⟨fx, fy, bx, b, l, u, -⟩ := extent h
  have s0 : |rv w.y + rv w.x| ≤ 2 ^ 41 := (abs_add_le _ _).trans (by linarith)
  have d0 : |rv w.y - rv w.x| ≤ 2 ^ 41 := by rw [abs_of_pos (lt_of_lt_of_le (by norm_num) l)]; exact u
  obtain ⟨d1, d2⟩ := sub_rel fy fx (lt_of_le_of_lt d0 (by norm_num))
  obtain ⟨s1, s2⟩ := fadd_err' fy fx (lt_of_le_of_lt s0 (by norm_num))
  have s3 : F32.Rel (fadd w.y w.x).val (rv w.y + rv w.x) uro 0 := by unfold F32.Rel; rw [add_zero]; exact s2
  exact axis_step neg_two_lit.1 s1 d1 neg_two_lit.2 s3 d2 (by norm_num) (by norm_num) s0
    (by rw [abs_of_pos (lt_of_lt_of_le (by norm_num) l)]; exact l) d0

theorem deep {w : V2 F32} (h : ExtentOk w) : Axis (Flt.lit 1 /. (w.y -. w.x)) ((-. w.x) /. (w.y -. w.x))
    (1 / (rv w.y - rv w.x)) (-rv w.x / (rv w.y - rv w.x)) ∧
    Axis (Flt.lit 1 /. (w.x -. w.y)) ((-. w.y) /. (w.x -. w.y)) (1 / (rv w.x - rv w.y)) (-rv w.y / (rv w.x - rv w.y)) := by
  obtain ⟨fx, fy, bx, b, l, u, -⟩ := extent h
  have d0 : |rv w.y - rv w.x| ≤ 2 ^ 41 := by rw [abs_of_pos (lt_of_lt_of_le (by norm_num) l)]; exact u
  have l0 : 1 / 2 ^ 30 ≤ |rv w.y - rv w.x| := by rw [abs_of_pos (lt_of_lt_of_le (by norm_num) l)]; exact l
  obtain ⟨d1, d2⟩ := sub_rel fy fx (lt_of_le_of_lt d0 (by norm_num))
  obtain ⟨e1, e2⟩ := sub_rel fx fy (by change |rv w.x - rv w.y| < _; rw [abs_sub_comm]; exact lt_of_le_of_lt d0 (by norm_num))
  have nx : F32.Rel (-. w.x : F32).val (-rv w.x) uro 0 := by
    rw [show (-. w.x : F32).val = -rv w.x from RotateP.fneg_val _]; exact (Rel.refl _).mono uro_pos.le le_rfl
  have ny : F32.Rel (-. w.y : F32).val (-rv w.y) uro 0 := by
    rw [show (-. w.y : F32).val = -rv w.y from RotateP.fneg_val _]; exact (Rel.refl _).mono uro_pos.le le_rfl
  have o1 : (Flt.lit 1 : F32).isFinite = true := PlaceP.one_lit.1
  have o2 : (Flt.lit 1 : F32).val = 1 := PlaceP.one_lit.2
  have fnx : (-. w.x : F32).isFinite = true := by rw [← fx]; exact F32.fneg_finite _
  have fny : (-. w.y : F32).isFinite = true := by rw [← fy]; exact F32.fneg_finite _
  constructor
  · exact axis_step o1 fnx d1 o2 nx d2 (by norm_num) (by norm_num) (by rw [abs_neg]; linarith) l0 d0
  · refine axis_step o1 fny e1 o2 ny e2 (by norm_num) (by norm_num) (by rw [abs_neg]; linarith) ?_ ?_
    · change _ ≤ |rv w.x - rv w.y|; rw [abs_sub_comm]; exact l0
    · change |rv w.x - rv w.y| ≤ _; rw [abs_sub_comm]; exact d0

/-- Signs of the computed distances to the ends of an axis. -/
theorem faces {r v P Q W M c : ℝ} (hW : 1 / 2 ^ 30 ≤ W) (hM : W ≤ M) (hc : 1 ≤ c) (hQ : Q ≤ c * M) (hv : |v - 1| ≤ 5 / 2 ^ 24 * 1 + 1 / 2 ^ 146)
    (h : |r - P / W| ≤ 10 / 2 ^ 24 * (Q / W) + 1 / 2 ^ 146) :
    (16 / 2 ^ 24 * (c * M) ≤ W - P → r ≤ v) ∧ (16 / 2 ^ 24 * (c * M) ≤ -(W - P) → ¬ r ≤ v) ∧
    (16 / 2 ^ 24 * (c * M) ≤ W + P → -v ≤ r) ∧ (16 / 2 ^ 24 * (c * M) ≤ -(W + P) → ¬ -v ≤ r) ∧
    (16 / 2 ^ 24 * (c * M) ≤ P → 0 ≤ r) ∧ (16 / 2 ^ 24 * (c * M) ≤ -P → ¬ 0 ≤ r) := by
  have W0 : 0 < W := lt_of_lt_of_le (by norm_num) hW
  have h1 : |r * W - P| ≤ 10 / 2 ^ 24 * (c * M) + 1 / 2 ^ 146 * W := by
    have e : r * W - P = (r - P / W) * W := by field_simp
    rw [e, abs_mul, abs_of_pos W0]
    calc _ ≤ (10 / 2 ^ 24 * (Q / W) + 1 / 2 ^ 146) * W := by gcongr
      _ = 10 / 2 ^ 24 * Q + 1 / 2 ^ 146 * W := by field_simp
      _ ≤ _ := by gcongr
  have h2 : |v * W - W| ≤ 5 / 2 ^ 24 * W + 1 / 2 ^ 146 * W := by
    rw [← sub_one_mul, abs_mul, abs_of_pos W0]
    calc _ ≤ (5 / 2 ^ 24 * 1 + 1 / 2 ^ 146) * W := by gcongr
      _ = _ := by ring
  have hcM : W ≤ c * M := by nlinarith
  obtain ⟨l1, u1⟩ := abs_le.1 h1
  obtain ⟨l2, u2⟩ := abs_le.1 h2
  refine ⟨fun h => ?_, fun h hk => ?_, fun h => ?_, fun h hk => ?_, fun h => ?_, fun h hk => ?_⟩
  · by_contra hk
    have := mul_lt_mul_of_pos_right (not_le.1 hk) W0
    linarith
  · have := mul_le_mul_of_nonneg_right hk W0.le
    linarith
  · by_contra hk
    have := mul_lt_mul_of_pos_right (not_le.1 hk) W0
    linarith
  · have := mul_le_mul_of_nonneg_right hk W0.le
    linarith
  · by_contra hk
    have := mul_neg_of_neg_of_pos (not_le.1 hk) W0
    linarith
  · have := mul_nonneg hk W0.le
    linarith

/-- The two ends of the width or the height. -/
theorem ends {w : V2 F32} (h : ExtentOk w) {t r v : F32} (s : ℝ) (hs : s = 1 ∨ s = -1)
    (hr : UpTo 10 r (s * (2 * rv t - (rv w.x + rv w.y)) / (rv w.y - rv w.x)) ((2 * |rv t| + |rv w.x + rv w.y|) / (rv w.y - rv w.x)))
    (hv : UpTo 5 v 1 1) : (BetweenBy (16 / 2 ^ 24) w t → |rv r| ≤ rv v) ∧ (OutsideBy (16 / 2 ^ 24) w t → ¬ |rv r| ≤ rv v) := by
  obtain ⟨-, -, -, -, l, -, m⟩ := extent h
  have t0 := abs_nonneg (rv t)
  have hQ : 2 * |rv t| + |rv w.x + rv w.y| ≤ 2 * (|rv t| + |rv w.x| + |rv w.y|) := by
    have := abs_add_le (rv w.x) (rv w.y)
    have := abs_nonneg (rv w.x); have := abs_nonneg (rv w.y)
    linarith
  obtain ⟨f1, f2, f3, f4, -, -⟩ := faces l (M := |rv t| + |rv w.x| + |rv w.y|) (by linarith) (c := 2) (by norm_num) hQ hv.2 hr.2
  unfold BetweenBy OutsideBy
  rw [abs_le]
  rcases hs with rfl | rfl
  · refine ⟨fun ⟨a, b⟩ => ⟨f3 (by linarith), f1 (by linarith)⟩, ?_⟩
    rintro (a | a) ⟨b, c⟩
    · exact f4 (by linarith) b
    · exact f2 (by linarith) c
  · refine ⟨fun ⟨a, b⟩ => ⟨f3 (by linarith), f1 (by linarith)⟩, ?_⟩
    rintro (a | a) ⟨b, c⟩
    · exact f2 (by linarith) c
    · exact f4 (by linarith) b

/-- What both orthographic projections share. -/
theorem ortho_common {width height : V2 F32} (hw : ExtentOk width) (hh : ExtentOk height) {C G : F32} {γ ζ : ℝ} (hC : Axis C G γ ζ)
    {p : V3 F32} (hp : PointOk p) {r : V4 F32}
    (hr : ProductOf (oshape (Flt.lit 0) (Flt.lit 1) (Flt.lit 2 /. (width.y -. width.x)) (Flt.lit (-2) /. (height.y -. height.x)) C
      ((-. (width.y +. width.x)) /. (width.y -. width.x)) ((height.y +. height.x) /. (height.y -. height.x)) G) p r) :
    let W := rv width.y - rv width.x
    let H := rv height.y - rv height.x
    UpTo 10 r.x ((2 * rv p.x - (rv width.x + rv width.y)) / W) ((2 * |rv p.x| + |rv width.x + rv width.y|) / W) ∧
    UpTo 10 r.y ((rv height.x + rv height.y - 2 * rv p.y) / H) ((2 * |rv p.y| + |rv height.x + rv height.y|) / H) ∧
    UpTo 10 r.z (γ * rv p.z + ζ) (|γ * rv p.z| + |ζ|) ∧ UpTo 5 r.w 1 1 ∧
    (BetweenBy (16 / 2 ^ 24) width p.x → |rv r.x| ≤ rv r.w) ∧ (OutsideBy (16 / 2 ^ 24) width p.x → ¬ |rv r.x| ≤ rv r.w) ∧
    (BetweenBy (16 / 2 ^ 24) height p.y → |rv r.y| ≤ rv r.w) ∧ (OutsideBy (16 / 2 ^ 24) height p.y → ¬ |rv r.y| ≤ rv r.w) := by
  intro W H
  obtain ⟨u1, u2, u3, u4⟩ := ortho_rows hp PlaceP.zero_lit PlaceP.one_lit (wide hw) (high hh) hC hr
  have W0 : 0 < W := lt_of_lt_of_le (by norm_num) hw.2
  have H0 : 0 < H := lt_of_lt_of_le (by norm_num) hh.2
  have v1 : UpTo 10 r.x ((2 * rv p.x - (rv width.x + rv width.y)) / W) ((2 * |rv p.x| + |rv width.x + rv width.y|) / W) := by
    have e1 : 2 / (rv width.y - rv width.x) * rv p.x + -(rv width.y + rv width.x) / (rv width.y - rv width.x) =
      (2 * rv p.x - (rv width.x + rv width.y)) / W := by simp only [W]; ring
    have e2 : |2 / (rv width.y - rv width.x) * rv p.x| + |-(rv width.y + rv width.x) / (rv width.y - rv width.x)| =
      (2 * |rv p.x| + |rv width.x + rv width.y|) / W := by
      rw [abs_mul, abs_div, abs_div, abs_neg, abs_of_pos W0, abs_two, add_comm (rv width.y)]; ring
    rw [e1, e2] at u1; exact u1
  have v2 : UpTo 10 r.y ((rv height.x + rv height.y - 2 * rv p.y) / H) ((2 * |rv p.y| + |rv height.x + rv height.y|) / H) := by
    have e1 : -2 / (rv height.y - rv height.x) * rv p.y + (rv height.y + rv height.x) / (rv height.y - rv height.x) =
      (rv height.x + rv height.y - 2 * rv p.y) / H := by simp only [H]; ring
    have e2 : |-2 / (rv height.y - rv height.x) * rv p.y| + |(rv height.y + rv height.x) / (rv height.y - rv height.x)| =
      (2 * |rv p.y| + |rv height.x + rv height.y|) / H := by
      rw [abs_mul, abs_div, abs_div, abs_neg, abs_of_pos H0, abs_two, add_comm (rv height.y)]; ring
    rw [e1, e2] at u2; exact u2
  obtain ⟨a1, a2⟩ := ends hw 1 (.inl rfl) (t := p.x) (by rw [one_mul]; exact v1) u4
  obtain ⟨b1, b2⟩ := ends hh (-1) (.inr rfl) (t := p.y)
    (by rw [show -1 * (2 * rv p.y - (rv height.x + rv height.y)) = rv height.x + rv height.y - 2 * rv p.y by ring]; exact v2) u4
  exact ⟨v1, v2, u3, u4, a1, a2, b1, b2⟩

end ProjP
open ProjP


/-- C117: `calcPerspProj` in binary32, with a library tangent accurate to one unit in the last place: the clip coordinates
of every point are accurate, a point inside the view by a small fraction comes out inside the clip volume, and one outside
by a small fraction comes out outside. The fraction needed at the far plane grows with far / near. -/
theorem persp_f32 (T : FltT F32) (hT : TanOk T.tan) (fov aspect near far : F32) (h : LensOk fov aspect near) (hf : FarOk near far)
    (p : V3 F32) (hp : PointOk p) (r : V4 F32) (hr : ProductOf (Projection.persp fov aspect near far) p r) :
    let t := Real.tan (rv fov / 2)
    let X := rv p.x / (rv aspect * t)
    let Y := -rv p.y / t
    UpTo 10 r.x X |X| ∧ UpTo 10 r.y Y |Y| ∧
    UpTo 10 r.z (rv far * (rv p.z - rv near) / (rv far - rv near)) (rv far * (|rv p.z| + rv near) / (rv far - rv near)) ∧
    UpTo 5 r.w (rv p.z) |rv p.z| ∧
    (InSides (16 / 2 ^ 24) t (rv aspect) p → BelowBy (16 / 2 ^ 24) (rv near) (rv p.z) →
      BelowBy (32 / 2 ^ 24 * (rv far / rv near)) (rv p.z) (rv far) → Clipped r) ∧
    (rv near ≤ rv p.z ∧ OutSides (16 / 2 ^ 24) t (rv aspect) p ∨ BelowBy (16 / 2 ^ 24) (rv p.z) (rv near) ∨
      BelowBy (32 / 2 ^ 24 * (rv far / rv near)) (rv far) (rv p.z) → ¬ Clipped r) := by
  intro t X Y
  have h' := h
  obtain ⟨hf1, hf2, hf3⟩ := hf
  obtain ⟨hl, -, -, n1, n2⟩ := h'
  have fn : near.isFinite = true := hl _ (by simp)
  have np : 0 < rv near := lt_of_lt_of_le (by norm_num) n1
  have dp : 0 < rv far - rv near := by linarith
  have fp : 0 < rv far := np.trans hf2
  obtain ⟨C1, D1, C2, D2, C3, D3⟩ := depths hf1 fn (n1.trans hf2.le) hf3 n1 (n2.trans (by norm_num)) hf2.ne' (.inr n2)
  have em : Projection.persp fov aspect near far = shape (Flt.lit 0) (Flt.lit 1) (Flt.lit 1 /. (aspect *. T.tan (fov *. Flt.lit (1 / 2))))
    (Flt.lit (-1) /. T.tan (fov *. Flt.lit (1 / 2))) (far /. (far -. near)) ((-. (far *. near)) /. (far -. near)) := rfl
  rw [em] at hr
  obtain ⟨tp, ap, v1, v2, u3, v4⟩ := common hT h hp C1 D1 C2 D2 C3 D3 hr
  have v3 : UpTo 10 r.z (rv far * (rv p.z - rv near) / (rv far - rv near)) (rv far * (|rv p.z| + rv near) / (rv far - rv near)) := by
    have e1 : far.val / (far.val - near.val) * rv p.z + -(far.val * near.val) / (far.val - near.val) =
        rv far * (rv p.z - rv near) / (rv far - rv near) := by
      change rv far / (rv far - rv near) * rv p.z + -(rv far * rv near) / (rv far - rv near) = _
      ring
    have e2 : |far.val / (far.val - near.val) * rv p.z| + |-(far.val * near.val) / (far.val - near.val)| =
        rv far * (|rv p.z| + rv near) / (rv far - rv near) := by
      change |rv far / (rv far - rv near) * rv p.z| + |-(rv far * rv near) / (rv far - rv near)| = _
      rw [abs_mul, abs_div, abs_div, abs_neg, abs_of_pos dp, abs_of_pos fp, abs_of_pos (mul_pos fp np)]
      ring
    rw [e1, e2] at u3; exact u3
  have hQ : 1 / 2 ^ 60 ≤ rv far * (|rv p.z| + rv near) := by
    calc (1 / 2 ^ 60 : ℝ) = 1 / 2 ^ 30 * (0 + 1 / 2 ^ 30) := by norm_num
      _ ≤ _ := by gcongr; exact n1.trans hf2.le; exact abs_nonneg _
  obtain ⟨w1, w2⟩ := assemble ap tp n1 v1 v2 v3 v4 dp (by linarith) hQ
  obtain ⟨g1, g2, g3, g4⟩ := forward (z := rv p.z) np hf2
  refine ⟨v1, v2, v3, v4, fun a b c => w1 a (below_le (by norm_num) b) (g1 b) (g3 c), fun hc => w2 ?_⟩
  exact hc.imp_right fun hc => hc.imp g2 g4

/-- C117: `calcPerspProjRevZ` in binary32: the same with depth running from 1 to 0, and with the same small fraction at
both planes. -/
theorem perspRevZ_f32 (T : FltT F32) (hT : TanOk T.tan) (fov aspect near far : F32) (h : LensOk fov aspect near) (hf : FarOk near far)
    (p : V3 F32) (hp : PointOk p) (r : V4 F32) (hr : ProductOf (Projection.perspRevZ fov aspect near far) p r) :
    let t := Real.tan (rv fov / 2)
    let X := rv p.x / (rv aspect * t)
    let Y := -rv p.y / t
    UpTo 10 r.x X |X| ∧ UpTo 10 r.y Y |Y| ∧
    UpTo 10 r.z (rv near * (rv far - rv p.z) / (rv far - rv near)) (rv near * (|rv p.z| + rv far) / (rv far - rv near)) ∧
    UpTo 5 r.w (rv p.z) |rv p.z| ∧
    (InSides (16 / 2 ^ 24) t (rv aspect) p → BelowBy (16 / 2 ^ 24) (rv near) (rv p.z) →
      BelowBy (16 / 2 ^ 24) (rv p.z) (rv far) → Clipped r) ∧
    (rv near ≤ rv p.z ∧ OutSides (16 / 2 ^ 24) t (rv aspect) p ∨ BelowBy (16 / 2 ^ 24) (rv p.z) (rv near) ∨
      BelowBy (16 / 2 ^ 24) (rv far) (rv p.z) → ¬ Clipped r) := by
  intro t X Y
  have h' := h
  obtain ⟨hf1, hf2, hf3⟩ := hf
  obtain ⟨hl, -, -, n1, n2⟩ := h'
  have fn : near.isFinite = true := hl _ (by simp)
  have np : 0 < rv near := lt_of_lt_of_le (by norm_num) n1
  have dp : 0 < rv far - rv near := by linarith
  have fp : 0 < rv far := np.trans hf2
  obtain ⟨C1, D1, C2, D2, C3, D3⟩ := depths fn hf1 n1 (n2.trans (by norm_num)) (n1.trans hf2.le) hf3 hf2.ne (.inl n2)
  have em : Projection.perspRevZ fov aspect near far = shape (Flt.lit 0) (Flt.lit 1) (Flt.lit 1 /. (aspect *. T.tan (fov *. Flt.lit (1 / 2))))
    (Flt.lit (-1) /. T.tan (fov *. Flt.lit (1 / 2))) (near /. (near -. far)) ((-. (near *. far)) /. (near -. far)) := rfl
  rw [em] at hr
  obtain ⟨tp, ap, v1, v2, u3, v4⟩ := common hT h hp C1 D1 C2 D2 C3 D3 hr
  have v3 : UpTo 10 r.z (rv near * (rv far - rv p.z) / (rv far - rv near)) (rv near * (|rv p.z| + rv far) / (rv far - rv near)) := by
    have e0 : rv near - rv far = -(rv far - rv near) := by ring
    have e1 : near.val / (near.val - far.val) * rv p.z + -(near.val * far.val) / (near.val - far.val) =
        rv near * (rv far - rv p.z) / (rv far - rv near) := by
      change rv near / (rv near - rv far) * rv p.z + -(rv near * rv far) / (rv near - rv far) = _
      rw [e0]; field_simp; ring
    have e2 : |near.val / (near.val - far.val) * rv p.z| + |-(near.val * far.val) / (near.val - far.val)| =
        rv near * (|rv p.z| + rv far) / (rv far - rv near) := by
      change |rv near / (rv near - rv far) * rv p.z| + |-(rv near * rv far) / (rv near - rv far)| = _
      rw [e0, abs_mul, abs_div, abs_div, abs_neg, abs_neg, abs_of_pos dp, abs_of_pos np, abs_of_pos (mul_pos np fp)]
      ring
    rw [e1, e2] at u3; exact u3
  have hQ : 1 / 2 ^ 60 ≤ rv near * (|rv p.z| + rv far) := by
    calc (1 / 2 ^ 60 : ℝ) = 1 / 2 ^ 30 * (0 + 1 / 2 ^ 30) := by norm_num
      _ ≤ _ := by gcongr; exact abs_nonneg _; exact n1.trans hf2.le
  obtain ⟨w1, w2⟩ := assemble ap tp n1 v1 v2 v3 v4 dp (by linarith) hQ
  obtain ⟨g1, g2, g3, g4⟩ := backward (z := rv p.z) np hf2
  refine ⟨v1, v2, v3, v4, fun a b c => w1 a (below_le (by norm_num) b) (g1 c) (g3 b), fun hc => w2 ?_⟩
  exact hc.imp_right fun hc => hc.symm.imp g2 g4

/-- C117: `calcPerspProjInfRevZ` in binary32: the same without a far plane; the computed depth is the near distance up to
rounding. -/
theorem perspInfRevZ_f32 (T : FltT F32) (hT : TanOk T.tan) (fov aspect near : F32) (h : LensOk fov aspect near)
    (p : V3 F32) (hp : PointOk p) (r : V4 F32) (hr : ProductOf (Projection.perspInfRevZ fov aspect near) p r) :
    let t := Real.tan (rv fov / 2)
    let X := rv p.x / (rv aspect * t)
    let Y := -rv p.y / t
    UpTo 10 r.x X |X| ∧ UpTo 10 r.y Y |Y| ∧ UpTo 10 r.z (rv near) (rv near) ∧ UpTo 5 r.w (rv p.z) |rv p.z| ∧
    (InSides (16 / 2 ^ 24) t (rv aspect) p → BelowBy (16 / 2 ^ 24) (rv near) (rv p.z) → Clipped r) ∧
    (rv near ≤ rv p.z ∧ OutSides (16 / 2 ^ 24) t (rv aspect) p ∨ BelowBy (16 / 2 ^ 24) (rv p.z) (rv near) → ¬ Clipped r) := by
  intro t X Y
  have h' := h
  obtain ⟨hl, -, -, n1, n2⟩ := h'
  have fn : near.isFinite = true := hl _ (by simp)
  have np : 0 < rv near := lt_of_lt_of_le (by norm_num) n1
  have em : Projection.perspInfRevZ fov aspect near = shape (Flt.lit 0) (Flt.lit 1) (Flt.lit 1 /. (aspect *. T.tan (fov *. Flt.lit (1 / 2))))
    (Flt.lit (-1) /. T.tan (fov *. Flt.lit (1 / 2))) (Flt.lit 0) near := rfl
  rw [em] at hr
  have z0 : F32.Rel (Flt.lit 0 : F32).val 0 (5 / 2 ^ 24) 0 := by
    rw [show (Flt.lit 0 : F32).val = 0 from PlaceP.zero_lit.2]; exact (Rel.refl 0).mono (by norm_num) le_rfl
  obtain ⟨tp, ap, v1, v2, u3, v4⟩ := common hT h hp PlaceP.zero_lit.1 fn z0 ((Rel.refl near.val).mono (by norm_num) le_rfl) (by norm_num)
    (by change |rv near| ≤ _; rw [abs_of_pos np]; exact n2.trans (by norm_num)) hr
  have v3 : UpTo 10 r.z (rv near) (rv near) := by
    have e1 : 0 * rv p.z + near.val = rv near := by rw [zero_mul, zero_add]; rfl
    have e2 : |0 * rv p.z| + |near.val| = rv near := by
      rw [zero_mul, abs_zero, zero_add]; exact abs_of_pos np
    rw [e1, e2] at u3; exact u3
  have v3' : UpTo 10 r.z (rv near / 1) (rv near / 1) := by rwa [div_one]
  obtain ⟨w1, w2⟩ := assemble ap tp n1 v1 v2 v3' v4 one_pos (by norm_num) (le_trans (by norm_num) n1)
  refine ⟨v1, v2, v3, v4, fun a b => w1 a (below_le (by norm_num) b) (by linarith) ?_, fun hc => w2 ?_⟩
  · unfold BelowBy at b; rw [abs_of_pos np] at b; linarith
  · refine hc.imp_right fun hc => .inr ?_
    unfold BelowBy at hc; rw [abs_of_pos np] at hc; linarith

/-- C117: `calcOrthoProj` in binary32: the clip coordinates of every point are accurate, a point inside the camera's box by a
small fraction of the sizes involved comes out inside the clip volume, and one outside by that fraction comes out outside. -/
theorem ortho_f32 (width height depth : V2 F32) (hw : ExtentOk width) (hh : ExtentOk height) (hd : ExtentOk depth)
    (p : V3 F32) (hp : PointOk p) (r : V4 F32) (hr : ProductOf (Projection.ortho width height depth) p r) :
    let W := rv width.y - rv width.x
    let H := rv height.y - rv height.x
    let D := rv depth.y - rv depth.x
    UpTo 10 r.x ((2 * rv p.x - (rv width.x + rv width.y)) / W) ((2 * |rv p.x| + |rv width.x + rv width.y|) / W) ∧
    UpTo 10 r.y ((rv height.x + rv height.y - 2 * rv p.y) / H) ((2 * |rv p.y| + |rv height.x + rv height.y|) / H) ∧
    UpTo 10 r.z ((rv p.z - rv depth.x) / D) ((|rv p.z| + |rv depth.x|) / D) ∧ UpTo 5 r.w 1 1 ∧
    (BetweenBy (16 / 2 ^ 24) width p.x → BetweenBy (16 / 2 ^ 24) height p.y → BetweenBy (16 / 2 ^ 24) depth p.z → Clipped r) ∧
    (OutsideBy (16 / 2 ^ 24) width p.x ∨ OutsideBy (16 / 2 ^ 24) height p.y ∨ OutsideBy (16 / 2 ^ 24) depth p.z → ¬ Clipped r) := by
  intro W H D
  have em : Projection.ortho width height depth = oshape (Flt.lit 0) (Flt.lit 1) (Flt.lit 2 /. (width.y -. width.x))
      (Flt.lit (-2) /. (height.y -. height.x)) (Flt.lit 1 /. (depth.y -. depth.x)) ((-. (width.y +. width.x)) /. (width.y -. width.x))
      ((height.y +. height.x) /. (height.y -. height.x)) ((-. depth.x) /. (depth.y -. depth.x)) := rfl
  rw [em] at hr
  obtain ⟨v1, v2, u3, v4, a1, a2, b1, b2⟩ := ortho_common hw hh (deep hd).1 hp hr
  obtain ⟨-, -, -, -, l, -, m⟩ := extent hd
  have D0 : 0 < D := lt_of_lt_of_le (by norm_num) hd.2
  have v3 : UpTo 10 r.z ((rv p.z - rv depth.x) / D) ((|rv p.z| + |rv depth.x|) / D) := by
    have e1 : 1 / (rv depth.y - rv depth.x) * rv p.z + -rv depth.x / (rv depth.y - rv depth.x) = (rv p.z - rv depth.x) / D := by
      simp only [D]; ring
    have e2 : |1 / (rv depth.y - rv depth.x) * rv p.z| + |-rv depth.x / (rv depth.y - rv depth.x)| = (|rv p.z| + |rv depth.x|) / D := by
      rw [abs_mul, abs_div, abs_div, abs_neg, abs_of_pos D0, abs_one]; ring
    rw [e1, e2] at u3; exact u3
  have t0 := abs_nonneg (rv p.z)
  have y0 := abs_nonneg (rv depth.y)
  obtain ⟨f1, f2, -, -, f5, f6⟩ := faces l (M := |rv p.z| + |rv depth.x| + |rv depth.y|) (by linarith) (c := 1) le_rfl (by linarith) v4.2 v3.2
  refine ⟨v1, v2, v3, v4, fun x y ⟨z1, z2⟩ => ⟨a1 x, b1 y, f5 (by linarith), f1 (by linarith)⟩, ?_⟩
  rintro (h | h | h | h) hc
  · exact a2 h hc.1
  · exact b2 h hc.2.1
  · exact f6 (by linarith) hc.2.2.1
  · exact f2 (by linarith) hc.2.2.2

/-- C117: `calcOrthoProjRevZ` in binary32: the same with depth running from 1 to 0. -/
theorem orthoRevZ_f32 (width height depth : V2 F32) (hw : ExtentOk width) (hh : ExtentOk height) (hd : ExtentOk depth)
    (p : V3 F32) (hp : PointOk p) (r : V4 F32) (hr : ProductOf (Projection.orthoRevZ width height depth) p r) :
    let W := rv width.y - rv width.x
    let H := rv height.y - rv height.x
    let D := rv depth.y - rv depth.x
    UpTo 10 r.x ((2 * rv p.x - (rv width.x + rv width.y)) / W) ((2 * |rv p.x| + |rv width.x + rv width.y|) / W) ∧
    UpTo 10 r.y ((rv height.x + rv height.y - 2 * rv p.y) / H) ((2 * |rv p.y| + |rv height.x + rv height.y|) / H) ∧
    UpTo 10 r.z ((rv depth.y - rv p.z) / D) ((|rv p.z| + |rv depth.y|) / D) ∧ UpTo 5 r.w 1 1 ∧
    (BetweenBy (16 / 2 ^ 24) width p.x → BetweenBy (16 / 2 ^ 24) height p.y → BetweenBy (16 / 2 ^ 24) depth p.z → Clipped r) ∧
    (OutsideBy (16 / 2 ^ 24) width p.x ∨ OutsideBy (16 / 2 ^ 24) height p.y ∨ OutsideBy (16 / 2 ^ 24) depth p.z → ¬ Clipped r) := by
  intro W H D
  have em : Projection.orthoRevZ width height depth = oshape (Flt.lit 0) (Flt.lit 1) (Flt.lit 2 /. (width.y -. width.x))
      (Flt.lit (-2) /. (height.y -. height.x)) (Flt.lit 1 /. (depth.x -. depth.y)) ((-. (width.y +. width.x)) /. (width.y -. width.x))
      ((height.y +. height.x) /. (height.y -. height.x)) ((-. depth.y) /. (depth.x -. depth.y)) := rfl
  rw [em] at hr
  obtain ⟨v1, v2, u3, v4, a1, a2, b1, b2⟩ := ortho_common hw hh (deep hd).2 hp hr
  obtain ⟨-, -, -, -, l, -, m⟩ := extent hd
  have D0 : 0 < D := lt_of_lt_of_le (by norm_num) hd.2
  have D1 : rv depth.x - rv depth.y = -D := by simp only [D]; ring
  have v3 : UpTo 10 r.z ((rv depth.y - rv p.z) / D) ((|rv p.z| + |rv depth.y|) / D) := by
    have e1 : 1 / (rv depth.x - rv depth.y) * rv p.z + -rv depth.y / (rv depth.x - rv depth.y) = (rv depth.y - rv p.z) / D := by
      rw [D1]; field_simp; ring
    have e2 : |1 / (rv depth.x - rv depth.y) * rv p.z| + |-rv depth.y / (rv depth.x - rv depth.y)| = (|rv p.z| + |rv depth.y|) / D := by
      rw [D1, abs_mul, abs_div, abs_div, abs_neg, abs_neg, abs_of_pos D0, abs_one]; ring
    rw [e1, e2] at u3; exact u3
  have t0 := abs_nonneg (rv p.z)
  have y0 := abs_nonneg (rv depth.x)
  obtain ⟨f1, f2, -, -, f5, f6⟩ := faces l (M := |rv p.z| + |rv depth.x| + |rv depth.y|) (by linarith) (c := 1) le_rfl (by linarith) v4.2 v3.2
  refine ⟨v1, v2, v3, v4, fun x y ⟨z1, z2⟩ => ⟨a1 x, b1 y, f5 (by linarith), f1 (by linarith)⟩, ?_⟩
  rintro (h | h | h | h) hc
  · exact a2 h hc.1
  · exact b2 h hc.2.1
  · exact f2 (by linarith) hc.2.2.2
  · exact f6 (by linarith) hc.2.2.1

/-! ### Concrete cases -/

/-- There is a tangent as accurate as required: round a rational close to the exact value. -/
theorem tanOk_exists : ∃ tan : F32 → F32, TanOk tan := by
  have hq : ∀ y : ℝ, 0 < y → ∃ q : ℚ, |(q : ℝ) - y| ≤ 1 / 2 ^ 30 * y := by
    intro y hy
    obtain ⟨q, h1, h2⟩ := exists_rat_btwn (show y < y + 1 / 2 ^ 30 * y by linarith)
    exact ⟨q, abs_le.2 ⟨by linarith, by linarith⟩⟩
  refine ⟨fun x => ofRat (if h : 0 < Real.tan (rv x) then Classical.choose (hq _ h) else 0), ?_⟩
  intro x fx h1 h2
  obtain ⟨p1, p2, p3⟩ := tan_range (f := 2 * rv x) (by linarith) (by linarith)
  rw [show 2 * rv x / 2 = rv x by ring] at p1 p2 p3
  have hp : 0 < Real.tan (rv x) := lt_of_lt_of_le (by norm_num) p2
  simp only [dif_pos hp]
  have hs := Classical.choose_spec (hq _ hp)
  generalize Classical.choose (hq _ hp) = q at hs
  generalize Real.tan (rv x) = y at *
  have hq1 : |(q : ℝ)| ≤ (1 + 1 / 2 ^ 30) * y := by
    have := abs_add_le ((q : ℝ) - y) y
    rw [sub_add_cancel, abs_of_pos hp] at this
    linarith
  obtain ⟨f, e⟩ := lit_approx q _ hq1 (by linarith)
  refine ⟨f, ?_⟩
  have h3 := abs_add_le ((ofRat q).val - (q : ℝ)) ((q : ℝ) - y)
  rw [sub_add_sub_cancel] at h3
  unfold ulp at e
  rw [abs_of_pos hp]
  change |(ofRat q).val - y| ≤ _
  have : (1 / 2 ^ 150 : ℝ) ≤ 1 / 2 ^ 100 * y := by
    calc (1 / 2 ^ 150 : ℝ) ≤ 1 / 2 ^ 100 * (1 / 2 ^ 31) := by norm_num
      _ ≤ _ := by gcongr
  linarith

private theorem lit_v {q : Rat} {U : Int} {x : ℝ} (hf : (ofRat q).isFinite = true) (hu : (ofRat q).units = U) (hx : (U : ℝ) / 2 ^ 149 = x) :
    (ofRat q).isFinite = true ∧ rv (ofRat q) = x := by
  obtain ⟨a, b⟩ := lit_exact hf hu
  exact ⟨a, b.trans hx⟩

/-- Concrete case: a camera with a field of view of one radian sees the point (1/4, 1/4, 2), and computes so. -/
example (T : FltT F32) (hT : TanOk T.tan) :
    Clipped (M4.mulV (Projection.perspRevZ (ofRat 1) (ofRat 1) (ofRat (1 / 8)) (ofRat 100)) ⟨ofRat (1 / 4), ofRat (1 / 4), ofRat 2, Flt.lit 1⟩) := by
  obtain ⟨a1, a2⟩ := lit_v (q := 1) (U := 2 ^ 149) (x := 1) (by decide +kernel) (by decide +kernel) (by push_cast; norm_num)
  obtain ⟨b1, b2⟩ := lit_v (q := 1 / 8) (U := 2 ^ 146) (x := 1 / 8) (by decide +kernel) (by decide +kernel) (by push_cast; norm_num)
  obtain ⟨c1, c2⟩ := lit_v (q := 100) (U := 100 * 2 ^ 149) (x := 100) (by decide +kernel) (by decide +kernel) (by push_cast; norm_num)
  obtain ⟨d1, d2⟩ := lit_v (q := 1 / 4) (U := 2 ^ 147) (x := 1 / 4) (by decide +kernel) (by decide +kernel) (by push_cast; norm_num)
  obtain ⟨e1, e2⟩ := lit_v (q := 2) (U := 2 ^ 150) (x := 2) (by decide +kernel) (by decide +kernel) (by push_cast; norm_num)
  have ht := Real.lt_tan (x := 1 / 2) (by norm_num) (by have := Real.pi_gt_three; linarith)
  have hl : LensOk (ofRat 1) (ofRat 1) (ofRat (1 / 8)) := by
    refine ⟨?_, by rw [a2]; norm_num, by rw [a2]; norm_num, by rw [b2]; norm_num⟩
    intro x hx
    rw [List.mem_cons, List.mem_cons, List.mem_singleton] at hx
    obtain hx | hx | hx := hx
    · rw [hx]; exact a1
    · rw [hx]; exact a1
    · rw [hx]; exact b1
  have hf : FarOk (ofRat (1 / 8)) (ofRat 100) := ⟨c1, by rw [b2, c2]; norm_num, by rw [c2]; norm_num⟩
  have hp : PointOk ⟨ofRat (1 / 4), ofRat (1 / 4), ofRat 2⟩ := by
    intro x hx
    simp only [V3.toList, List.mem_cons, List.not_mem_nil, or_false] at hx
    rcases hx with rfl | rfl | rfl
    · exact ⟨d1, by rw [d2]; norm_num [abs_of_pos]⟩
    · exact ⟨d1, by rw [d2]; norm_num [abs_of_pos]⟩
    · exact ⟨e1, by rw [e2]; norm_num⟩
  refine (perspRevZ_f32 T hT _ _ _ _ hl hf _ hp _ (.inl rfl)).2.2.2.2.1 ?_ ?_ ?_
  · unfold InSides
    simp only [a2, d2, e2]
    rw [abs_of_pos (by norm_num)]
    constructor <;> nlinarith
  · unfold BelowBy
    simp only [b2, e2]
    norm_num [abs_of_pos]
  · unfold BelowBy
    simp only [c2, e2]
    norm_num

/-- Concrete case: an orthographic camera over the box from (-1, -1, 0) to (1, 1, 4) sees the point (1/4, 1/4, 2) and not the
point (2, 2, 2). -/
example : Clipped (M4.mulV (Projection.ortho ⟨ofRat (-1), ofRat 1⟩ ⟨ofRat (-1), ofRat 1⟩ ⟨ofRat 0, ofRat 4⟩) ⟨ofRat (1 / 4), ofRat (1 / 4), ofRat 2, Flt.lit 1⟩) ∧
    ¬ Clipped (M4.mulV (Projection.ortho ⟨ofRat (-1), ofRat 1⟩ ⟨ofRat (-1), ofRat 1⟩ ⟨ofRat 0, ofRat 4⟩) ⟨ofRat 2, ofRat 2, ofRat 2, Flt.lit 1⟩) := by
  obtain ⟨a1, a2⟩ := lit_v (q := 1) (U := 2 ^ 149) (x := 1) (by decide +kernel) (by decide +kernel) (by push_cast; norm_num)
  obtain ⟨b1, b2⟩ := lit_v (q := -1) (U := -2 ^ 149) (x := -1) (by decide +kernel) (by decide +kernel) (by push_cast; norm_num)
  obtain ⟨c1, c2⟩ := lit_v (q := 4) (U := 4 * 2 ^ 149) (x := 4) (by decide +kernel) (by decide +kernel) (by push_cast; norm_num)
  obtain ⟨d1, d2⟩ := lit_v (q := 1 / 4) (U := 2 ^ 147) (x := 1 / 4) (by decide +kernel) (by decide +kernel) (by push_cast; norm_num)
  obtain ⟨e1, e2⟩ := lit_v (q := 2) (U := 2 ^ 150) (x := 2) (by decide +kernel) (by decide +kernel) (by push_cast; norm_num)
  obtain ⟨z1, z2⟩ := lit_v (q := 0) (U := 0) (x := 0) (by decide +kernel) (by decide +kernel) (by push_cast; norm_num)
  have hw : ExtentOk ⟨ofRat (-1), ofRat 1⟩ := by
    refine ⟨?_, by simp only [a2, b2]; norm_num⟩
    intro x hx
    simp only [V2.toList, List.mem_cons, List.not_mem_nil, or_false] at hx
    rcases hx with rfl | rfl
    · exact ⟨b1, by rw [b2]; norm_num⟩
    · exact ⟨a1, by rw [a2]; norm_num⟩
  have hd : ExtentOk ⟨ofRat 0, ofRat 4⟩ := by
    refine ⟨?_, by simp only [z2, c2]; norm_num⟩
    intro x hx
    simp only [V2.toList, List.mem_cons, List.not_mem_nil, or_false] at hx
    rcases hx with rfl | rfl
    · exact ⟨z1, by rw [z2]; norm_num⟩
    · exact ⟨c1, by rw [c2]; norm_num⟩
  have hp : PointOk ⟨ofRat (1 / 4), ofRat (1 / 4), ofRat 2⟩ := by
    intro x hx
    simp only [V3.toList, List.mem_cons, List.not_mem_nil, or_false] at hx
    rcases hx with rfl | rfl | rfl
    · exact ⟨d1, by rw [d2]; norm_num [abs_of_pos]⟩
    · exact ⟨d1, by rw [d2]; norm_num [abs_of_pos]⟩
    · exact ⟨e1, by rw [e2]; norm_num⟩
  have hp' : PointOk ⟨ofRat 2, ofRat 2, ofRat 2⟩ := by
    intro x hx
    simp only [V3.toList, List.mem_cons, List.not_mem_nil, or_false, or_self] at hx
    rw [hx]
    exact ⟨e1, by rw [e2]; norm_num⟩
  constructor
  · refine (ortho_f32 _ _ _ hw hw hd _ hp _ (.inl rfl)).2.2.2.2.1 ?_ ?_ ?_
    · simp only [BetweenBy, a2, b2, d2]; norm_num [abs_of_pos]
    · simp only [BetweenBy, a2, b2, d2]; norm_num [abs_of_pos]
    · simp only [BetweenBy, z2, c2, e2]; norm_num
  · refine (ortho_f32 _ _ _ hw hw hd _ hp' _ (.inl rfl)).2.2.2.2.2 (.inl ?_)
    simp only [OutsideBy, a2, b2, e2]; norm_num

end Verif
