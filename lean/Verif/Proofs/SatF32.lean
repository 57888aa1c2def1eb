import Verif.Proofs.Sat
import Verif.Proofs.F32Poly
import Verif.Props.SimdSinCos
import Verif.Props.Reliable
import Verif.Spec.Sat

/-!
# The triangle-box test in binary32

The vertices relative to the center of the box are rounded; from there on, every axis test is carried out on the rounded
triangle with errors proportional to the axis.
-/

namespace Verif
open F32 Spec
namespace SatF32

/-! ## Values on the grid of `2^-48` -/

/-- Multiples of `2^-48`. -/
def OnGrid (x : F32) : Prop := ∃ k : ℤ, x.val = k / 2 ^ 48

theorem grid_of_big {x : F32} (h : 1 / 2 ^ 25 ≤ |x.val|) : OnGrid x := by
  obtain ⟨s, k, hm, hk, hs⟩ := mag_decomp x.mag
  have hmu : magUnits x.mag = k * 2 ^ s := by rw [hm]; exact magUnits_eq s k hk.le hs
  have hv : |x.val| = (k : ℝ) * 2 ^ s / 2 ^ 149 := by
    rw [val_units, abs_div, abs_of_pos (by positivity : (0 : ℝ) < 2 ^ 149)]
    congr 1
    unfold units
    split <;> rw [hmu] <;> push_cast
    · rw [abs_neg, abs_of_nonneg (by positivity)]
    · rw [abs_of_nonneg (by positivity)]
  have hs2 : 101 ≤ s := by
    by_contra hc
    have h1 : (2 : ℝ) ^ s ≤ 2 ^ 100 := pow_le_pow_right₀ (by norm_num) (by omega)
    have h2 : (k : ℝ) < 2 ^ 24 := by exact_mod_cast hk
    have h3 : (k : ℝ) * 2 ^ s < 2 ^ 24 * 2 ^ 100 := by
      calc (k : ℝ) * 2 ^ s ≤ k * 2 ^ 100 := by gcongr
        _ < _ := by gcongr
    rw [hv, div_le_div_iff₀ (by norm_num) (by norm_num)] at h
    norm_num at h h3; linarith
  obtain ⟨j, rfl⟩ := Nat.exists_eq_add_of_le hs2
  have hu : x.val = (x.units : ℝ) / 2 ^ 149 := val_units x
  have e : ∀ z : ℝ, z * 2 ^ (101 + j) / 2 ^ 149 = z * 2 ^ j / 2 ^ 48 := by
    intro z; rw [pow_add, show (2 : ℝ) ^ 149 = 2 ^ 101 * 2 ^ 48 by norm_num]; field_simp
  unfold units at hu
  rw [hmu] at hu
  split at hu
  · exact ⟨-(k * 2 ^ j : ℕ), by rw [hu]; push_cast; rw [← neg_mul, e, neg_mul]⟩
  · exact ⟨(k * 2 ^ j : ℕ), by rw [hu]; push_cast; rw [e]⟩

theorem grid_sub {a b : F32} (ha : a.isFinite = true) (hb : b.isFinite = true) (ga : OnGrid a) (gb : OnGrid b)
    (h : |a.val - b.val| < 2 ^ 127) : OnGrid (fsub a b) := by
  obtain ⟨i, hi⟩ := ga
  obtain ⟨j, hj⟩ := gb
  have hd : a.val - b.val = ((i - j : ℤ) : ℝ) / 2 ^ 48 := by rw [hi, hj]; push_cast; ring
  by_cases hs : |a.val - b.val| ≤ 1 / 2 ^ 24
  · obtain ⟨y, hy, e⟩ := F32x4.rep_of_bound (r := a.val - b.val) (i - j) 101 (by rw [hd]; norm_num; ring) (by
      refine hs.trans (by norm_num)) (by norm_num)
    exact ⟨i - j, by rw [(fsub_exact ha hb hy e).eq, hd]⟩
  · push Not at hs
    have h1 := (fsub_err' ha hb h).2
    apply grid_of_big
    have h2 := abs_sub_abs_le_abs_sub (a.val - b.val) (fsub a b).val
    rw [abs_sub_comm (a.val - b.val) (fsub a b).val] at h2
    unfold uro at h1
    norm_num at h1 hs ⊢
    linarith

theorem grid_sized {L : ℝ} {x : F32} (h : Sized L x) : OnGrid x := by
  rcases h.2.2 with h0 | h0
  · exact ⟨0, by change rv x = _; rw [h0]; simp⟩
  · exact grid_of_big h0

theorem grid_lower {x : F32} (h : OnGrid x) (h0 : x.val ≠ 0) : 1 / 2 ^ 48 ≤ |x.val| := by
  obtain ⟨k, hk⟩ := h
  have : k ≠ 0 := by rintro rfl; simp at hk; exact h0 hk
  have h1 : (1 : ℝ) ≤ |(k : ℝ)| := by exact_mod_cast Int.one_le_abs this
  rw [hk, abs_div, abs_of_pos (by positivity : (0 : ℝ) < 2 ^ 48)]
  gcongr

/-! ## Comparisons -/

theorem mmMax_val {a b : F32} (ha : a.isFinite = true) (hb : b.isFinite = true) :
    (Flt.mmMax a b).isFinite = true ∧ (Flt.mmMax a b).val = max a.val b.val := by
  unfold Flt.mmMax
  change (if ltb b a = true then a else b).isFinite = true ∧ (if ltb b a = true then a else b).val = _
  by_cases h : ltb b a = true
  · rw [if_pos h]; exact ⟨ha, (max_eq_left ((Reliable.flt_iff hb ha).1 h).le).symm⟩
  · rw [if_neg h]
    rw [Reliable.flt_iff hb ha, not_lt] at h
    exact ⟨hb, (max_eq_right h).symm⟩

theorem mmMin_val {a b : F32} (ha : a.isFinite = true) (hb : b.isFinite = true) :
    (Flt.mmMin a b).isFinite = true ∧ (Flt.mmMin a b).val = min a.val b.val := by
  unfold Flt.mmMin
  change (if ltb a b = true then a else b).isFinite = true ∧ (if ltb a b = true then a else b).val = _
  by_cases h : ltb a b = true
  · rw [if_pos h]; exact ⟨ha, (min_eq_left ((Reliable.flt_iff ha hb).1 h).le).symm⟩
  · rw [if_neg h]
    rw [Reliable.flt_iff ha hb, not_lt] at h
    exact ⟨hb, (min_eq_right h).symm⟩

theorem max3_val {v : V4 F32} (hx : v.x.isFinite = true) (hy : v.y.isFinite = true) (hz : v.z.isFinite = true) :
    (Simd.max3 v).isFinite = true ∧ (Simd.max3 v).val = max (max v.x.val v.y.val) v.z.val := by
  obtain ⟨f1, e1⟩ := mmMax_val hx hy
  obtain ⟨f2, e2⟩ := mmMax_val hz hz
  obtain ⟨f3, e3⟩ := mmMax_val f1 f2
  refine ⟨f3, ?_⟩
  change (Flt.mmMax (Flt.mmMax v.x v.y) (Flt.mmMax v.z v.z)).val = _
  rw [e3, e1, e2, max_self]

theorem min3_val {v : V4 F32} (hx : v.x.isFinite = true) (hy : v.y.isFinite = true) (hz : v.z.isFinite = true) :
    (Simd.min3 v).isFinite = true ∧ (Simd.min3 v).val = min (min v.x.val v.y.val) v.z.val := by
  obtain ⟨f1, e1⟩ := mmMin_val hx hy
  obtain ⟨f2, e2⟩ := mmMin_val hz hz
  obtain ⟨f3, e3⟩ := mmMin_val f1 f2
  refine ⟨f3, ?_⟩
  change (Flt.mmMin (Flt.mmMin v.x v.y) (Flt.mmMin v.z v.z)).val = _
  rw [e3, e1, e2, min_self]

theorem neg_val (a : F32) : (fneg a).val = -a.val := by unfold val; rw [fneg_toRat]; push_cast; rfl

/-- One axis test, as comparisons of the three projections. -/
theorem axisSep_val {c0 c1 c2 a : V4 F32} {r : F32} (h0 : (Simd.dot3 c0 a).isFinite = true) (h1 : (Simd.dot3 c1 a).isFinite = true)
    (h2 : (Simd.dot3 c2 a).isFinite = true) (hr : r.isFinite = true) :
    Sat.axisSep c0 c1 c2 a r = true ↔
      (r.val < (Simd.dot3 c0 a).val ∧ r.val < (Simd.dot3 c1 a).val ∧ r.val < (Simd.dot3 c2 a).val) ∨
      ((Simd.dot3 c0 a).val < -r.val ∧ (Simd.dot3 c1 a).val < -r.val ∧ (Simd.dot3 c2 a).val < -r.val) := by
  unfold Sat.axisSep
  generalize Simd.dot3 c0 a = s0 at *
  generalize Simd.dot3 c1 a = s1 at *
  generalize Simd.dot3 c2 a = s2 at *
  obtain ⟨fM, eM⟩ := max3_val (v := V4.ofV3 ⟨s0, s1, s2⟩) h0 h1 h2
  obtain ⟨fm, em⟩ := min3_val (v := V4.ofV3 ⟨s0, s1, s2⟩) h0 h1 h2
  change _ = max (max s0.val s1.val) s2.val at eM
  change _ = min (min s0.val s1.val) s2.val at em
  change ltb r (Flt.stdMax (fneg (Simd.max3 (V4.ofV3 ⟨s0, s1, s2⟩))) (Simd.min3 (V4.ofV3 ⟨s0, s1, s2⟩))) = true ↔ _
  generalize Simd.max3 (V4.ofV3 ⟨s0, s1, s2⟩) = M at *
  generalize Simd.min3 (V4.ofV3 ⟨s0, s1, s2⟩) = m at *
  have fM' : (fneg M).isFinite = true := by rw [fneg_finite]; exact fM
  have key : ltb r (Flt.stdMax (fneg M) m) = true ↔ r.val < -M.val ∨ r.val < m.val := by
    unfold Flt.stdMax
    change ltb r (if ltb (fneg M) m = true then m else fneg M) = true ↔ _
    by_cases h : ltb (fneg M) m = true
    · rw [if_pos h, Reliable.flt_iff hr fm]
      rw [Reliable.flt_iff fM' fm, neg_val] at h
      constructor
      · exact Or.inr
      · rintro (h' | h') <;> linarith
    · rw [if_neg h, Reliable.flt_iff hr fM', neg_val]
      rw [Reliable.flt_iff fM' fm, neg_val, not_lt] at h
      constructor
      · exact Or.inl
      · rintro (h' | h') <;> linarith
  rw [key, eM, em, lt_neg, max_lt_iff, max_lt_iff, lt_min_iff, lt_min_iff]
  tauto

/-! ## Edge axes -/

/-- Three finite lanes of at most `C`. -/
def Small (C : ℝ) (v : V4 F32) : Prop :=
  (v.x.isFinite = true ∧ |v.x.val| ≤ C) ∧ (v.y.isFinite = true ∧ |v.y.val| ≤ C) ∧ (v.z.isFinite = true ∧ |v.z.val| ≤ C)

/-- Lanes with a relative error of one half unit in the last place. -/
def Close (v : V4 F32) (α : V3 ℝ) : Prop :=
  |v.x.val - α.x| ≤ uro * |α.x| ∧ |v.y.val - α.y| ≤ uro * |α.y| ∧ |v.z.val - α.z| ≤ uro * |α.z|

/-- The half size `e` plus `d`. -/
def shift (e : V3 ℝ) (d : ℝ) : V3 ℝ := ⟨e.x + d, e.y + d, e.z + d⟩

theorem radius_shift (e a : V3 ℝ) (d : ℝ) : projRadius (shift e d) a = projRadius e a + d * sumAbs a := by
  simp only [projRadius, shift, sumAbs]; ring

theorem sumAbs_nonneg (a : V3 ℝ) : 0 ≤ sumAbs a := by unfold sumAbs; positivity

theorem pol_zero {r : F32} (h : r.isFinite = true) (h0 : r.val = 0) (d : ℕ) : Pol r 0 0 0 0 d 0 := by
  refine ⟨h, by simp, by simp, by rw [h0]; simp⟩

theorem lit0 : (ofRat 0).isFinite = true ∧ (ofRat 0).val = 0 := by
  obtain ⟨a, b⟩ := lit_exact (q := 0) (U := 0) (by decide +kernel) (by decide +kernel)
  exact ⟨a, b.trans (by simp)⟩

theorem zero_mul_val {a b : F32} (ha : a.isFinite = true) (hb : b.isFinite = true) (h : b.val = 0) :
    (fmul a b).isFinite = true ∧ (fmul a b).val = 0 := by
  have := fmul_exact ha hb lit0.1 (by rw [lit0.2, h, mul_zero])
  exact ⟨this.1, by rw [this.eq, h, mul_zero]⟩

theorem zero_add_val {a b : F32} (ha : a.isFinite = true) (hb : b.isFinite = true) (h : a.val = 0) (h' : b.val = 0) :
    (fadd a b).isFinite = true ∧ (fadd a b).val = 0 := by
  have := fadd_exact ha hb lit0.1 (by rw [lit0.2, h, h', add_zero])
  exact ⟨this.1, by rw [this.eq, h, h', add_zero]⟩

theorem dot3_eq (c a : V4 F32) : Simd.dot3 c a = fadd (fadd (fmul c.x a.x) (fmul c.y a.y)) (fadd (fmul c.z a.z) (ofRat 0)) := rfl

theorem dot_pol {c a : V4 F32} (hc : Small polT c) (ha : Small polT a) :
    Pol (Simd.dot3 c a) (c.x.val * a.x.val + c.y.val * a.y.val + c.z.val * a.z.val)
      (|c.x.val| * |a.x.val| + |c.y.val| * |a.y.val| + |c.z.val| * |a.z.val|) 3 3 1 3 := by
  obtain ⟨⟨c1, c2⟩, ⟨c3, c4⟩, c5, c6⟩ := hc
  obtain ⟨⟨a1, a2⟩, ⟨a3, a4⟩, a5, a6⟩ := ha
  rw [dot3_eq]
  have p1 := (Pol.var a1 a2).mul c1 c2 (by norm_num) (by norm_num) (by norm_num) (by norm_num)
  have p2 := (Pol.var a3 a4).mul c3 c4 (by norm_num) (by norm_num) (by norm_num) (by norm_num)
  have p3 := (Pol.var a5 a6).mul c5 c6 (by norm_num) (by norm_num) (by norm_num) (by norm_num)
  have p4 := p1.add p2 (by norm_num) (by norm_num) (by norm_num) (by norm_num)
  have p5 := p3.add (pol_zero lit0.1 lit0.2 1) (by norm_num) (by norm_num) (by norm_num) (by norm_num)
  have p6 := p4.add p5 (by norm_num) (by norm_num) (by norm_num) (by norm_num)
  exact p6.conv (by ring) (by ring) (by norm_num) (by norm_num) (by norm_num)

theorem close_abs {v α : ℝ} (h : |v - α| ≤ uro * |α|) : |v| ≤ (1 + uro) * |α| := by
  have := abs_add_le (v - α) α
  rw [sub_add_cancel] at this
  linarith

theorem dot_axis {c a : V4 F32} {C : ℝ} {α : V3 ℝ} (hC0 : 0 ≤ C) (hC : C ≤ polT) (hc : Small C c) (ha : Small polT a) (hα : Close a α) :
    (Simd.dot3 c a).isFinite = true ∧ |(Simd.dot3 c a).val - dot α (pos c)| ≤ 4.1 / 2 ^ 24 * C * sumAbs α + 1 / 2 ^ 128 := by
  have hp := dot_pol (c := c) ⟨⟨hc.1.1, hc.1.2.trans hC⟩, ⟨hc.2.1.1, hc.2.1.2.trans hC⟩, hc.2.2.1, hc.2.2.2.trans hC⟩ ha
  refine ⟨hp.fin, ?_⟩
  obtain ⟨⟨-, c2⟩, ⟨-, c4⟩, -, c6⟩ := hc
  obtain ⟨r1, r2, r3⟩ := hα
  have k1 := close_abs r1
  have k2 := close_abs r2
  have k3 := close_abs r3
  have hs := sumAbs_nonneg α
  have hu := uro_pos
  have S : |c.x.val| * |a.x.val| + |c.y.val| * |a.y.val| + |c.z.val| * |a.z.val| ≤ C * ((1 + uro) * sumAbs α) := by
    have m1 := mul_le_mul c2 k1 (abs_nonneg _) hC0
    have m2 := mul_le_mul c4 k2 (abs_nonneg _) hC0
    have m3 := mul_le_mul c6 k3 (abs_nonneg _) hC0
    unfold sumAbs; linarith
  have D : |c.x.val * a.x.val + c.y.val * a.y.val + c.z.val * a.z.val - dot α (pos c)| ≤ C * (uro * sumAbs α) := by
    have e : c.x.val * a.x.val + c.y.val * a.y.val + c.z.val * a.z.val - dot α (pos c) =
        c.x.val * (a.x.val - α.x) + c.y.val * (a.y.val - α.y) + c.z.val * (a.z.val - α.z) := by
      change _ - (α.x * c.x.val + α.y * c.y.val + α.z * c.z.val) = _; ring
    rw [e]
    refine ((abs_add_le _ _).trans (add_le_add_left (abs_add_le _ _) _)).trans ?_
    rw [abs_mul, abs_mul, abs_mul]
    have m1 := mul_le_mul c2 r1 (abs_nonneg _) hC0
    have m2 := mul_le_mul c4 r2 (abs_nonneg _) hC0
    have m3 := mul_le_mul c6 r3 (abs_nonneg _) hC0
    unfold sumAbs; linarith
  have h1 := hp.err
  have t := abs_sub_le (Simd.dot3 c a).val (c.x.val * a.x.val + c.y.val * a.y.val + c.z.val * a.z.val) (dot α (pos c))
  have g1 : ((1 : ℝ) + uro) ^ 3 - 1 ≤ 3.01 / 2 ^ 24 := by unfold uro; norm_num
  have g2 : ((3 : ℕ) : ℝ) * polT ^ 1 * (1 + uro) ^ 3 / 2 ^ 150 ≤ 1 / 2 ^ 128 := by unfold uro polT; norm_num
  have hCs : 0 ≤ C * sumAbs α := mul_nonneg hC0 hs
  have g3 := mul_le_mul g1 S (by positivity) (by norm_num)
  have g4 : 3.01 / 2 ^ 24 * (C * ((1 + uro) * sumAbs α)) + C * (uro * sumAbs α) ≤ 4.1 / 2 ^ 24 * C * sumAbs α := by
    have : 3.01 / 2 ^ 24 * (1 + uro) + uro ≤ (4.1 / 2 ^ 24 : ℝ) := by unfold uro; norm_num
    have := mul_le_mul_of_nonneg_right this hCs
    linarith
  linarith

theorem dot_zero {c a : V4 F32} (hc : c.x.isFinite = true ∧ c.y.isFinite = true ∧ c.z.isFinite = true)
    (ha : a.x.isFinite = true ∧ a.y.isFinite = true ∧ a.z.isFinite = true) (h : a.x.val = 0 ∧ a.y.val = 0 ∧ a.z.val = 0) :
    (Simd.dot3 c a).val = 0 := by
  rw [dot3_eq]
  obtain ⟨f1, v1⟩ := zero_mul_val hc.1 ha.1 h.1
  obtain ⟨f2, v2⟩ := zero_mul_val hc.2.1 ha.2.1 h.2.1
  obtain ⟨f3, v3⟩ := zero_mul_val hc.2.2 ha.2.2 h.2.2
  obtain ⟨f4, v4⟩ := zero_add_val f1 f2 v1 v2
  obtain ⟨f5, v5⟩ := zero_add_val f3 lit0.1 v3 lit0.2
  exact (zero_add_val f4 f5 v4 v5).2

/-- The half length of the projected box, for an axis orthogonal to one of the sides. -/
theorem radius_two {e1 e2 g1 g2 : F32} {L β1 β2 : ℝ} (hL : L ≤ polT) (h1 : e1.isFinite = true) (h2 : e2.isFinite = true)
    (b1 : |e1.val| ≤ L) (b2 : |e2.val| ≤ L) (f1 : g1.isFinite = true) (f2 : g2.isFinite = true)
    (t1 : |g1.val| ≤ polT) (t2 : |g2.val| ≤ polT) (r1 : |g1.val - β1| ≤ uro * |β1|) (r2 : |g2.val - β2| ≤ uro * |β2|) :
    (fadd (fmul e1 (fabs g1)) (fmul e2 (fabs g2))).isFinite = true ∧
    |(fadd (fmul e1 (fabs g1)) (fmul e2 (fabs g2))).val - (e1.val * |β1| + e2.val * |β2|)| ≤
      4.1 / 2 ^ 24 * L * (|β1| + |β2|) + 1 / 2 ^ 128 ∧
    (β1 = 0 → β2 = 0 → (fadd (fmul e1 (fabs g1)) (fmul e2 (fabs g2))).val = 0) := by
  obtain ⟨a1, v1⟩ := F32x4.fabs_val g1 f1
  obtain ⟨a2, v2⟩ := F32x4.fabs_val g2 f2
  have hL0 : 0 ≤ L := (abs_nonneg _).trans b1
  have q1 := (Pol.var a1 (by rw [v1, abs_abs]; exact t1)).mul h1 (b1.trans hL) (by norm_num) (by norm_num) (by norm_num) (by norm_num)
  have q2 := (Pol.var a2 (by rw [v2, abs_abs]; exact t2)).mul h2 (b2.trans hL) (by norm_num) (by norm_num) (by norm_num) (by norm_num)
  have q := q1.add q2 (by norm_num) (by norm_num) (by norm_num) (by norm_num)
  refine ⟨q.fin, ?_, ?_⟩
  · have h := q.err
    rw [v1, v2, abs_abs, abs_abs] at h
    have k1 := close_abs r1
    have k2 := close_abs r2
    have hs : 0 ≤ |β1| + |β2| := by positivity
    have S : |e1.val| * |g1.val| + |e2.val| * |g2.val| ≤ L * ((1 + uro) * (|β1| + |β2|)) := by
      have m1 := mul_le_mul b1 k1 (abs_nonneg _) hL0
      have m2 := mul_le_mul b2 k2 (abs_nonneg _) hL0
      linarith
    have D : |e1.val * |g1.val| + e2.val * |g2.val| - (e1.val * |β1| + e2.val * |β2|)| ≤ L * (uro * (|β1| + |β2|)) := by
      rw [show e1.val * |g1.val| + e2.val * |g2.val| - (e1.val * |β1| + e2.val * |β2|) =
        e1.val * (|g1.val| - |β1|) + e2.val * (|g2.val| - |β2|) by ring]
      refine (abs_add_le _ _).trans ?_
      rw [abs_mul, abs_mul]
      have m1 := mul_le_mul b1 ((abs_abs_sub_abs_le g1.val β1).trans r1) (abs_nonneg _) hL0
      have m2 := mul_le_mul b2 ((abs_abs_sub_abs_le g2.val β2).trans r2) (abs_nonneg _) hL0
      linarith
    generalize fadd (fmul e1 (fabs g1)) (fmul e2 (fabs g2)) = R at *
    have t := abs_sub_le R.val (e1.val * |g1.val| + e2.val * |g2.val|) (e1.val * |β1| + e2.val * |β2|)
    have G1 : ((1 : ℝ) + uro) ^ (max (0 + 1) (0 + 1) + 1) - 1 ≤ 2.01 / 2 ^ 24 := by unfold uro; norm_num
    have G2 : ((0 + 1 + (0 + 1) : ℕ) : ℝ) * polT ^ (0 + 1) * (1 + uro) ^ (max (0 + 1) (0 + 1) + 1) / 2 ^ 150 ≤ 1 / 2 ^ 128 := by
      unfold uro polT; norm_num
    have g3 := mul_le_mul G1 S (by positivity) (by norm_num)
    have g4 : 2.01 / 2 ^ 24 * (L * ((1 + uro) * (|β1| + |β2|))) + L * (uro * (|β1| + |β2|)) ≤ 4.1 / 2 ^ 24 * L * (|β1| + |β2|) := by
      have : 2.01 / 2 ^ 24 * (1 + uro) + uro ≤ (4.1 / 2 ^ 24 : ℝ) := by unfold uro; norm_num
      have := mul_le_mul_of_nonneg_right this (mul_nonneg hL0 hs)
      linarith
    linarith
  · intro z1 z2
    rw [z1, abs_zero, mul_zero, sub_zero] at r1
    rw [z2, abs_zero, mul_zero, sub_zero] at r2
    have w1 : (fabs g1).val = 0 := by rw [v1]; exact le_antisymm r1 (abs_nonneg _)
    have w2 : (fabs g2).val = 0 := by rw [v2]; exact le_antisymm r2 (abs_nonneg _)
    obtain ⟨f1, v1⟩ := zero_mul_val h1 a1 w1
    obtain ⟨f2, v2⟩ := zero_mul_val h2 a2 w2
    exact (zero_add_val f1 f2 v1 v2).2

/-- One edge axis: the test decides for the box grown or shrunk by a few units in the last place. -/
theorem edge_test {c0 c1 c2 a : V4 F32} {r : F32} {α e : V3 ℝ} {L : ℝ} (hL : 1 / 2 ^ 10 ≤ L) (hL2 : L ≤ 2 ^ 18)
    (h0 : Small (2.001 * L) c0) (h1 : Small (2.001 * L) c1) (h2 : Small (2.001 * L) c2) (ha : Small polT a) (hα : Close a α)
    (hf : r.isFinite = true) (hr : |r.val - projRadius e α| ≤ 4.1 / 2 ^ 24 * L * sumAbs α + 1 / 2 ^ 128)
    (hlow : sumAbs α = 0 ∨ 1 / 2 ^ 49 ≤ sumAbs α) (hz : sumAbs α = 0 → r.val = 0) :
    (Sat.axisSep c0 c1 c2 a r = true → Beyond ⟨0, 0, 0⟩ (shift e (-(13 / 2 ^ 24 * L))) (pos c0) (pos c1) (pos c2) α) ∧
    (Sat.axisSep c0 c1 c2 a r = false → ¬ Beyond ⟨0, 0, 0⟩ (shift e (13 / 2 ^ 24 * L)) (pos c0) (pos c1) (pos c2) α) := by
  have hT : 2.001 * L ≤ polT := by unfold polT; norm_num at *; linarith
  obtain ⟨f0, d0⟩ := dot_axis (by linarith) hT h0 ha hα
  obtain ⟨f1, d1⟩ := dot_axis (by linarith) hT h1 ha hα
  obtain ⟨f2, d2⟩ := dot_axis (by linarith) hT h2 ha hα
  have hd : ∀ p : V3 ℝ, diff p ⟨0, 0, 0⟩ = p := by intro p; simp [diff]
  have hv := axisSep_val f0 f1 f2 hf
  rcases hlow with hs | hs
  · -- a vanishing axis never separates
    have hx : α.x = 0 ∧ α.y = 0 ∧ α.z = 0 := by
      unfold sumAbs at hs
      have n1 := abs_nonneg α.x
      have n2 := abs_nonneg α.y
      have n3 := abs_nonneg α.z
      exact ⟨abs_eq_zero.1 (by linarith), abs_eq_zero.1 (by linarith), abs_eq_zero.1 (by linarith)⟩
    obtain ⟨x1, x2, x3⟩ := hx
    obtain ⟨k1, k2, k3⟩ := hα
    rw [x1, abs_zero, mul_zero, sub_zero] at k1
    rw [x2, abs_zero, mul_zero, sub_zero] at k2
    rw [x3, abs_zero, mul_zero, sub_zero] at k3
    have z0 := dot_zero (c := c0) ⟨h0.1.1, h0.2.1.1, h0.2.2.1⟩ ⟨ha.1.1, ha.2.1.1, ha.2.2.1⟩
      ⟨abs_nonpos_iff.1 k1, abs_nonpos_iff.1 k2, abs_nonpos_iff.1 k3⟩
    refine ⟨fun h => ?_, fun _ h => ?_⟩
    · rw [hv, z0, hz hs] at h
      rcases h with ⟨h, -⟩ | ⟨h, -⟩ <;> norm_num at h
    · unfold Beyond at h
      simp only [projRadius, dot, x1, x2, x3, abs_zero, mul_zero, zero_mul, add_zero, neg_zero] at h
      rcases h with ⟨h, -⟩ | ⟨h, -⟩ <;> exact lt_irrefl _ h
  · obtain ⟨s, hs'⟩ : ∃ s, s = sumAbs α := ⟨_, rfl⟩
    have tiny : (1 : ℝ) / 2 ^ 127 ≤ 0.6 / 2 ^ 24 * (L * s) := by
      have : (1 : ℝ) / 2 ^ 10 * (1 / 2 ^ 49) ≤ L * s := mul_le_mul hL (hs' ▸ hs) (by norm_num) (by linarith)
      norm_num at this ⊢; linarith
    have hLs : 0 ≤ L * s := mul_nonneg (by linarith) (hs' ▸ sumAbs_nonneg α)
    rw [← hs'] at d0 d1 d2 hr
    rw [abs_le] at d0 d1 d2 hr
    have tot : 4.1 / 2 ^ 24 * (2.001 * L) * s + 1 / 2 ^ 128 + (4.1 / 2 ^ 24 * L * s + 1 / 2 ^ 128) ≤ 13 / 2 ^ 24 * L * s := by
      norm_num at tiny ⊢; linarith
    unfold Beyond
    simp only [hd, radius_shift, ← hs']
    constructor
    · intro h
      rw [hv] at h
      rcases h with ⟨g0, g1, g2⟩ | ⟨g0, g1, g2⟩
      · left; refine ⟨?_, ?_, ?_⟩ <;> linarith
      · right; refine ⟨?_, ?_, ?_⟩ <;> linarith
    · intro h hb
      have h' : ¬ Sat.axisSep c0 c1 c2 a r = true := by rw [h]; decide
      apply h'
      rw [hv]
      rcases hb with ⟨g0, g1, g2⟩ | ⟨g0, g1, g2⟩
      · left; refine ⟨?_, ?_, ?_⟩ <;> linarith
      · right; refine ⟨?_, ?_, ?_⟩ <;> linarith

end SatF32
end Verif
