import Verif.Proofs.SatF32
import Verif.Props.FloatOps

/-!
# The triangle-box test in binary32: all thirteen axes
-/

namespace Verif
open F32 Spec
namespace SatF32

/-- What a test must decide about an axis: true only if it separates the box shrunk by `d`, and true if it separates the
box grown by `d`. -/
def Decides (b : Bool) (u v w e : V3 ℝ) (d : ℝ) (α : V3 ℝ) : Prop :=
  (b = true → Beyond ⟨0, 0, 0⟩ (shift e (-d)) u v w α) ∧ (b = false → ¬ Beyond ⟨0, 0, 0⟩ (shift e d) u v w α)

theorem beyond_anti {u v w e a : V3 ℝ} {d d' : ℝ} (h : d' ≤ d) (hb : Beyond ⟨0, 0, 0⟩ (shift e d) u v w a) :
    Beyond ⟨0, 0, 0⟩ (shift e d') u v w a := by
  have := mul_le_mul_of_nonneg_right h (sumAbs_nonneg a)
  unfold Beyond at *
  simp only [radius_shift] at *
  rcases hb with ⟨g0, g1, g2⟩ | ⟨g0, g1, g2⟩
  · left; refine ⟨?_, ?_, ?_⟩ <;> linarith
  · right; refine ⟨?_, ?_, ?_⟩ <;> linarith

theorem Decides.mono {b : Bool} {u v w e α : V3 ℝ} {d d' : ℝ} (h : Decides b u v w e d α) (hd : d ≤ d') : Decides b u v w e d' α :=
  ⟨fun hb => beyond_anti (by linarith) (h.1 hb), fun hb hc => h.2 hb (beyond_anti hd hc)⟩

/-! ## The nine edge axes -/

theorem low_of {f : F32} {F : ℝ} (hr : |f.val - F| ≤ uro * |F|) (hg : OnGrid f) : F = 0 ∨ 1 / 2 ^ 49 ≤ |F| := by
  by_cases h : f.val = 0
  · left
    rw [h, zero_sub, abs_neg] at hr
    unfold uro at hr
    have := abs_nonneg F
    exact abs_eq_zero.1 (by linarith)
  · right
    have h1 := grid_lower hg h
    have h2 := close_abs hr
    unfold uro at h2
    norm_num at h1 h2 ⊢
    linarith

theorem low_sum {a b : ℝ} (ha : a = 0 ∨ 1 / 2 ^ 49 ≤ |a|) (hb : b = 0 ∨ 1 / 2 ^ 49 ≤ |b|) : |a| + |b| = 0 ∨ 1 / 2 ^ 49 ≤ |a| + |b| := by
  have h1 := abs_nonneg a
  have h2 := abs_nonneg b
  rcases ha with rfl | ha
  · rcases hb with rfl | hb
    · left; simp
    · right; linarith
  · right; linarith

theorem neg_fin {a : F32} (h : a.isFinite = true) : (fneg a).isFinite = true := by rw [fneg_finite]; exact h

theorem close_neg {a : F32} {α : ℝ} (h : |a.val - α| ≤ uro * |α|) : |(fneg a).val - (-α)| ≤ uro * |(-α)| := by
  rw [neg_val, abs_neg, show -a.val - -α = -(a.val - α) by ring, abs_neg]; exact h

theorem zero_close : |(ofRat 0).val - 0| ≤ uro * |(0 : ℝ)| := by rw [lit0.2]; simp

theorem edge_three {c0 c1 c2 f e : V4 F32} {F : V3 ℝ} {L : ℝ} (hL : 1 / 2 ^ 10 ≤ L) (hL2 : L ≤ 2 ^ 18)
    (h0 : Small (2.001 * L) c0) (h1 : Small (2.001 * L) c1) (h2 : Small (2.001 * L) c2) (he : Small L e)
    (hf : Small polT f) (hF : Close f F) (hg : OnGrid f.x ∧ OnGrid f.y ∧ OnGrid f.z) :
    Decides (Sat.axisSep c0 c1 c2 (V4.ofV3 ⟨ofRat 0, fneg f.z, f.y⟩) (fadd (fmul e.y (fabs f.z)) (fmul e.z (fabs f.y))))
      (pos c0) (pos c1) (pos c2) (pos e) (13 / 2 ^ 24 * L) (crossP ⟨1, 0, 0⟩ F) ∧
    Decides (Sat.axisSep c0 c1 c2 (V4.ofV3 ⟨f.z, ofRat 0, fneg f.x⟩) (fadd (fmul e.x (fabs f.z)) (fmul e.z (fabs f.x))))
      (pos c0) (pos c1) (pos c2) (pos e) (13 / 2 ^ 24 * L) (crossP ⟨0, 1, 0⟩ F) ∧
    Decides (Sat.axisSep c0 c1 c2 (V4.ofV3 ⟨fneg f.y, f.x, ofRat 0⟩) (fadd (fmul e.x (fabs f.y)) (fmul e.y (fabs f.x))))
      (pos c0) (pos c1) (pos c2) (pos e) (13 / 2 ^ 24 * L) (crossP ⟨0, 0, 1⟩ F) := by
  obtain ⟨⟨fx, bx⟩, ⟨fy, by'⟩, fz, bz⟩ := hf
  obtain ⟨kx, ky, kz⟩ := hF
  obtain ⟨gx, gy, gz⟩ := hg
  obtain ⟨⟨ex, Ex⟩, ⟨ey, Ey⟩, ez, Ez⟩ := he
  have hT : L ≤ polT := by unfold polT; norm_num at *; linarith
  have lx := low_of kx gx
  have ly := low_of ky gy
  have lz := low_of kz gz
  have nb : ∀ {a : F32}, |a.val| ≤ polT → |(fneg a).val| ≤ polT := by intro a h; rw [neg_val, abs_neg]; exact h
  have zb : |(ofRat 0).val| ≤ polT := by rw [lit0.2]; unfold polT; norm_num
  have cx : crossP ⟨1, 0, 0⟩ F = ⟨0, -F.z, F.y⟩ := by simp [crossP]
  have cy : crossP ⟨0, 1, 0⟩ F = ⟨F.z, 0, -F.x⟩ := by simp [crossP]
  have cz : crossP ⟨0, 0, 1⟩ F = ⟨-F.y, F.x, 0⟩ := by simp [crossP]
  have zz : ∀ {a b : ℝ}, |a| + |b| = 0 → a = 0 ∧ b = 0 := by
    intro a b h
    have h1 := abs_nonneg a
    have h2 := abs_nonneg b
    exact ⟨abs_eq_zero.1 (by linarith), abs_eq_zero.1 (by linarith)⟩
  refine ⟨?_, ?_, ?_⟩
  · obtain ⟨rf, re, rz⟩ := radius_two hT ey ez Ey Ez fz fy bz by' kz ky
    rw [cx]
    have s : sumAbs ⟨0, -F.z, F.y⟩ = |F.z| + |F.y| := by simp [sumAbs]
    have p : projRadius (pos e) ⟨0, -F.z, F.y⟩ = e.y.val * |F.z| + e.z.val * |F.y| := by simp [projRadius, pos, rv, val]
    refine edge_test hL hL2 h0 h1 h2 ⟨⟨lit0.1, zb⟩, ⟨neg_fin fz, nb bz⟩, fy, by'⟩ ⟨zero_close, close_neg kz, ky⟩ rf ?_ ?_ ?_
    · rw [s, p]; exact re
    · rw [s]; exact low_sum lz ly
    · rw [s]; intro h; exact rz (zz h).1 (zz h).2
  · obtain ⟨rf, re, rz⟩ := radius_two hT ex ez Ex Ez fz fx bz bx kz kx
    rw [cy]
    have s : sumAbs ⟨F.z, 0, -F.x⟩ = |F.z| + |F.x| := by simp [sumAbs]
    have p : projRadius (pos e) ⟨F.z, 0, -F.x⟩ = e.x.val * |F.z| + e.z.val * |F.x| := by simp [projRadius, pos, rv, val]
    refine edge_test hL hL2 h0 h1 h2 ⟨⟨fz, bz⟩, ⟨lit0.1, zb⟩, neg_fin fx, nb bx⟩ ⟨kz, zero_close, close_neg kx⟩ rf ?_ ?_ ?_
    · rw [s, p]; exact re
    · rw [s]; exact low_sum lz lx
    · rw [s]; intro h; exact rz (zz h).1 (zz h).2
  · obtain ⟨rf, re, rz⟩ := radius_two hT ex ey Ex Ey fy fx by' bx ky kx
    rw [cz]
    have s : sumAbs ⟨-F.y, F.x, 0⟩ = |F.y| + |F.x| := by simp [sumAbs]
    have p : projRadius (pos e) ⟨-F.y, F.x, 0⟩ = e.x.val * |F.y| + e.y.val * |F.x| := by simp [projRadius, pos, rv, val]
    refine edge_test hL hL2 h0 h1 h2 ⟨⟨neg_fin fy, nb by'⟩, ⟨fx, bx⟩, lit0.1, zb⟩ ⟨close_neg ky, kx, zero_close⟩ rf ?_ ?_ ?_
    · rw [s, p]; exact re
    · rw [s]; exact low_sum ly lx
    · rw [s]; intro h; exact rz (zz h).1 (zz h).2

/-! ## The three box axes -/

theorem transpose_rows {F : Type} [Flt F] (a b c d : V4 F) :
    (Simd.transpose3x3 ⟨a, b, c, d⟩).c0 = ⟨a.x, b.x, c.x, Flt.lit 0⟩ ∧ (Simd.transpose3x3 ⟨a, b, c, d⟩).c1 = ⟨a.y, b.y, c.y, Flt.lit 0⟩ ∧
    (Simd.transpose3x3 ⟨a, b, c, d⟩).c2 = ⟨a.z, b.z, c.z, Flt.lit 0⟩ := ⟨rfl, rfl, rfl⟩

theorem box_three {c0 c1 c2 e : V4 F32} {C : ℝ} (h0 : Small C c0) (h1 : Small C c1) (h2 : Small C c2) (he : Small C e) (z : F32) :
    let m := Simd.transpose3x3 ⟨c0, c1, c2, V4.splat z⟩
    (Simd.max3 m.c0 <. -. e.x || gt (Simd.min3 m.c0) e.x || Simd.max3 m.c1 <. -. e.y ||
        gt (Simd.min3 m.c1) e.y || Simd.max3 m.c2 <. -. e.z || gt (Simd.min3 m.c2) e.z) = true ↔
      Beyond ⟨0, 0, 0⟩ (pos e) (pos c0) (pos c1) (pos c2) ⟨1, 0, 0⟩ ∨ Beyond ⟨0, 0, 0⟩ (pos e) (pos c0) (pos c1) (pos c2) ⟨0, 1, 0⟩ ∨
      Beyond ⟨0, 0, 0⟩ (pos e) (pos c0) (pos c1) (pos c2) ⟨0, 0, 1⟩ := by
  intro m
  obtain ⟨b1, b2, b3⟩ := box_match ⟨0, 0, 0⟩ (pos e) (pos c0) (pos c1) (pos c2)
  rw [b1, b2, b3]
  obtain ⟨⟨x0, -⟩, ⟨y0, -⟩, z0, -⟩ := h0
  obtain ⟨⟨x1, -⟩, ⟨y1, -⟩, z1, -⟩ := h1
  obtain ⟨⟨x2, -⟩, ⟨y2, -⟩, z2, -⟩ := h2
  obtain ⟨⟨ex, -⟩, ⟨ey, -⟩, ez, -⟩ := he
  have lane : ∀ (a b c x w : F32), a.isFinite = true → b.isFinite = true → c.isFinite = true → x.isFinite = true →
      ((Simd.max3 (⟨a, b, c, w⟩ : V4 F32) <. -. x || gt (Simd.min3 (⟨a, b, c, w⟩ : V4 F32)) x) = true ↔
      (x.val < a.val - 0 ∧ x.val < b.val - 0 ∧ x.val < c.val - 0) ∨ (a.val - 0 < -x.val ∧ b.val - 0 < -x.val ∧ c.val - 0 < -x.val)) := by
    intro a b c x w ha hb hc hx
    obtain ⟨fM, eM⟩ := max3_val (v := ⟨a, b, c, w⟩) ha hb hc
    obtain ⟨fm, em⟩ := min3_val (v := ⟨a, b, c, w⟩) ha hb hc
    rw [Bool.or_eq_true]
    change ltb (Simd.max3 (⟨a, b, c, w⟩ : V4 F32)) (fneg x) = true ∨ ltb x (Simd.min3 (⟨a, b, c, w⟩ : V4 F32)) = true ↔ _
    rw [Reliable.flt_iff fM (neg_fin hx), Reliable.flt_iff hx fm, eM, em, neg_val, max_lt_iff, max_lt_iff, lt_min_iff, lt_min_iff]
    simp only [sub_zero, and_assoc]
    exact or_comm
  obtain ⟨m0, m1, m2⟩ := transpose_rows c0 c1 c2 (V4.splat z)
  have l1 := lane c0.x c1.x c2.x e.x (Flt.lit 0) x0 x1 x2 ex
  have l2 := lane c0.y c1.y c2.y e.y (Flt.lit 0) y0 y1 y2 ey
  have l3 := lane c0.z c1.z c2.z e.z (Flt.lit 0) z0 z1 z2 ez
  rw [← m0] at l1
  rw [← m1] at l2
  rw [← m2] at l3
  refine Iff.trans ?_ (or_congr l1 (or_congr l2 l3))
  simp only [Bool.or_eq_true, or_assoc, m]

/-! ## The normal -/

/-- The sum of the absolute values of the products in a cross product. -/
def prodSum (a b : V3 ℝ) : ℝ :=
  (|a.y| * |b.z| + |a.z| * |b.y|) + (|a.z| * |b.x| + |a.x| * |b.z|) + (|a.x| * |b.y| + |a.y| * |b.x|)

theorem prodSum_le (a b : V3 ℝ) : prodSum a b ≤ sumAbs a * sumAbs b := by
  have h1 := mul_nonneg (abs_nonneg a.x) (abs_nonneg b.x)
  have h2 := mul_nonneg (abs_nonneg a.y) (abs_nonneg b.y)
  have h3 := mul_nonneg (abs_nonneg a.z) (abs_nonneg b.z)
  unfold prodSum sumAbs; linarith

theorem cross_le_prod (a b : V3 ℝ) : sumAbs (crossP a b) ≤ prodSum a b := by
  unfold prodSum sumAbs crossP
  have t : ∀ p q r s : ℝ, |p * q - r * s| ≤ |p| * |q| + |r| * |s| := by
    intro p q r s; rw [← abs_mul, ← abs_mul]; exact abs_sub _ _
  have h1 := t a.y b.z a.z b.y
  have h2 := t a.z b.x a.x b.z
  have h3 := t a.x b.y a.y b.x
  dsimp only
  linarith

theorem prodSum_nonneg (a b : V3 ℝ) : 0 ≤ prodSum a b := by unfold prodSum; positivity

theorem pol_abs {r : F32} {x s : ℝ} {k m d n : ℕ} (h : Pol r x s k m d n) : Pol (fabs r) |x| s k m d n := by
  obtain ⟨f, v⟩ := F32x4.fabs_val r h.fin
  refine ⟨f, by rw [abs_abs]; exact h.abs_le, h.big, ?_⟩
  rw [v]
  exact (abs_abs_sub_abs_le _ _).trans h.err

/-- The error of one product of nearly exact factors. -/
theorem prod_close {a b x y : ℝ} (h1 : |a - x| ≤ uro * |x|) (h2 : |b - y| ≤ uro * |y|) :
    |a * b - x * y| ≤ 2.01 / 2 ^ 24 * (|x| * |y|) ∧ |a| * |b| ≤ (1 + uro) ^ 2 * (|x| * |y|) := by
  have k1 := close_abs h1
  have k2 := close_abs h2
  have hx := abs_nonneg x
  have hy := abs_nonneg y
  have hu := uro_pos
  refine ⟨?_, ?_⟩
  · rw [show a * b - x * y = (a - x) * b + x * (b - y) by ring]
    refine (abs_add_le _ _).trans ?_
    rw [abs_mul, abs_mul]
    have m1 := mul_le_mul h1 k2 (abs_nonneg _) (by positivity)
    have m2 := mul_le_mul_of_nonneg_left h2 hx
    have : (uro * (1 + uro) + uro) * (|x| * |y|) ≤ 2.01 / 2 ^ 24 * (|x| * |y|) :=
      mul_le_mul_of_nonneg_right (by unfold uro; norm_num) (by positivity)
    linarith
  · have := mul_le_mul k1 k2 (abs_nonneg _) (by positivity)
    linarith

theorem comp_close {a b c d x y z w : ℝ} (h1 : |a - x| ≤ uro * |x|) (h2 : |b - y| ≤ uro * |y|) (h3 : |c - z| ≤ uro * |z|)
    (h4 : |d - w| ≤ uro * |w|) : |(a * b - c * d) - (x * y - z * w)| ≤ 2.01 / 2 ^ 24 * (|x| * |y| + |z| * |w|) ∧
      |a| * |b| + |c| * |d| ≤ (1 + uro) ^ 2 * (|x| * |y| + |z| * |w|) := by
  obtain ⟨p1, q1⟩ := prod_close h1 h2
  obtain ⟨p2, q2⟩ := prod_close h3 h4
  refine ⟨?_, by linarith⟩
  rw [show (a * b - c * d) - (x * y - z * w) = (a * b - x * y) - (c * d - z * w) by ring]
  exact (abs_sub _ _).trans (by linarith)

theorem normal_pol {f0 f1 : V4 F32} (h0 : Small polT f0) (h1 : Small polT f1) :
    Pol (Simd.cross3 f0 f1).x (f0.y.val * f1.z.val - f0.z.val * f1.y.val) (|f0.y.val| * |f1.z.val| + |f0.z.val| * |f1.y.val|) 2 2 1 2 ∧
    Pol (Simd.cross3 f0 f1).y (f0.z.val * f1.x.val - f0.x.val * f1.z.val) (|f0.z.val| * |f1.x.val| + |f0.x.val| * |f1.z.val|) 2 2 1 2 ∧
    Pol (Simd.cross3 f0 f1).z (f0.x.val * f1.y.val - f0.y.val * f1.x.val) (|f0.x.val| * |f1.y.val| + |f0.y.val| * |f1.x.val|) 2 2 1 2 := by
  obtain ⟨⟨a1, a2⟩, ⟨a3, a4⟩, a5, a6⟩ := h0
  obtain ⟨⟨b1, b2⟩, ⟨b3, b4⟩, b5, b6⟩ := h1
  have comp : ∀ p q r s : F32, p.isFinite = true → |p.val| ≤ polT → q.isFinite = true → |q.val| ≤ polT → r.isFinite = true →
      |r.val| ≤ polT → s.isFinite = true → |s.val| ≤ polT →
      Pol (fsub (fmul q p) (fmul r s)) (p.val * q.val - r.val * s.val) (|p.val| * |q.val| + |r.val| * |s.val|) 2 2 1 2 := by
    intro p q r s p1 p2 q1 q2 r1 r2 s1 s2
    have m1 := (Pol.var p1 p2).mul q1 q2 (by norm_num) (by norm_num) (by norm_num) (by norm_num)
    have m2 := (Pol.var s1 s2).mul r1 r2 (by norm_num) (by norm_num) (by norm_num) (by norm_num)
    have m3 := m1.sub m2 (by norm_num) (by norm_num) (by norm_num) (by norm_num)
    exact m3.conv (by ring) (by ring) (by norm_num) (by norm_num) (by norm_num)
  exact ⟨comp f0.y f1.z f0.z f1.y a3 a4 b5 b6 a5 a6 b3 b4, comp f0.z f1.x f0.x f1.z a5 a6 b1 b2 a1 a2 b5 b6,
    comp f0.x f1.y f0.y f1.x a1 a2 b3 b4 a3 a4 b1 b2⟩

theorem normal_dot {f0 f1 c : V4 F32} {F0 F1 : V3 ℝ} {C : ℝ} (hC : C ≤ polT) (hc : Small C c) (h0 : Small polT f0) (h1 : Small polT f1)
    (k0 : Close f0 F0) (k1 : Close f1 F1) :
    (fabs (Simd.dot3 (Simd.cross3 f0 f1) c)).isFinite = true ∧
    |(fabs (Simd.dot3 (Simd.cross3 f0 f1) c)).val - abs (dot (crossP F0 F1) (pos c))| ≤ 7.03 / 2 ^ 24 * C * prodSum F0 F1 + 1 / 2 ^ 100 := by
  obtain ⟨⟨c1, c2⟩, ⟨c3, c4⟩, c5, c6⟩ := hc
  obtain ⟨p1, p2, p3⟩ := normal_pol h0 h1
  obtain ⟨kx0, ky0, kz0⟩ := k0
  obtain ⟨kx1, ky1, kz1⟩ := k1
  obtain ⟨e1, s1⟩ := comp_close ky0 kz1 kz0 ky1
  obtain ⟨e2, s2⟩ := comp_close kz0 kx1 kx0 kz1
  obtain ⟨e3, s3⟩ := comp_close kx0 ky1 ky0 kx1
  rw [dot3_eq, fmul_comm _ c.x, fmul_comm _ c.y, fmul_comm _ c.z]
  generalize Simd.cross3 f0 f1 = n at *
  have q1 := p1.mul c1 (c2.trans hC) (by norm_num) (by norm_num) (by norm_num) (by norm_num)
  have q2 := p2.mul c3 (c4.trans hC) (by norm_num) (by norm_num) (by norm_num) (by norm_num)
  have q3 := p3.mul c5 (c6.trans hC) (by norm_num) (by norm_num) (by norm_num) (by norm_num)
  have q4 := q1.add q2 (by norm_num) (by norm_num) (by norm_num) (by norm_num)
  have q5 := q3.add (pol_zero lit0.1 lit0.2 2) (by norm_num) (by norm_num) (by norm_num) (by norm_num)
  have q6 := q4.add q5 (by norm_num) (by norm_num) (by norm_num) (by norm_num)
  have q := pol_abs (q6.conv rfl rfl (K := 5) (M := 9) (N := 6) (by norm_num) (by norm_num) (by norm_num))
  refine ⟨q.fin, ?_⟩
  have h := q.err
  generalize fabs (fadd (fadd (fmul c.x n.x) (fmul c.y n.y)) (fadd (fmul c.z n.z) (ofRat 0))) = R at *
  have hC0 : 0 ≤ C := (abs_nonneg _).trans c2
  generalize f0.y.val * f1.z.val - f0.z.val * f1.y.val = nx at *
  generalize f0.z.val * f1.x.val - f0.x.val * f1.z.val = ny at *
  generalize f0.x.val * f1.y.val - f0.y.val * f1.x.val = nz at *
  generalize |f0.y.val| * |f1.z.val| + |f0.z.val| * |f1.y.val| = sx at *
  generalize |f0.z.val| * |f1.x.val| + |f0.x.val| * |f1.z.val| = sy at *
  generalize |f0.x.val| * |f1.y.val| + |f0.y.val| * |f1.x.val| = sz at *
  have u1 := p1.s_nonneg
  have u2 := p2.s_nonneg
  have u3 := p3.s_nonneg
  have hP := prodSum_nonneg F0 F1
  have S : |c.x.val| * sx + |c.y.val| * sy + (|c.z.val| * sz + 0) ≤ C * ((1 + uro) ^ 2 * prodSum F0 F1) := by
    have m1 := mul_le_mul c2 s1 u1 hC0
    have m2 := mul_le_mul c4 s2 u2 hC0
    have m3 := mul_le_mul c6 s3 u3 hC0
    unfold prodSum; linarith
  have D : |c.x.val * nx + c.y.val * ny + (c.z.val * nz + 0) - dot (crossP F0 F1) (pos c)| ≤ C * (2.01 / 2 ^ 24 * prodSum F0 F1) := by
    have e : c.x.val * nx + c.y.val * ny + (c.z.val * nz + 0) - dot (crossP F0 F1) (pos c) =
        c.x.val * (nx - (F0.y * F1.z - F0.z * F1.y)) + c.y.val * (ny - (F0.z * F1.x - F0.x * F1.z)) + c.z.val * (nz - (F0.x * F1.y - F0.y * F1.x)) := by
      change _ - ((F0.y * F1.z - F0.z * F1.y) * c.x.val + (F0.z * F1.x - F0.x * F1.z) * c.y.val + (F0.x * F1.y - F0.y * F1.x) * c.z.val) = _
      ring
    rw [e]
    refine ((abs_add_le _ _).trans (add_le_add_left (abs_add_le _ _) _)).trans ?_
    rw [abs_mul, abs_mul, abs_mul]
    have m1 := mul_le_mul c2 e1 (abs_nonneg _) hC0
    have m2 := mul_le_mul c4 e2 (abs_nonneg _) hC0
    have m3 := mul_le_mul c6 e3 (abs_nonneg _) hC0
    unfold prodSum; linarith
  have D' := (abs_abs_sub_abs_le (c.x.val * nx + c.y.val * ny + (c.z.val * nz + 0)) (dot (crossP F0 F1) (pos c))).trans D
  have t := abs_sub_le R.val |c.x.val * nx + c.y.val * ny + (c.z.val * nz + 0)| |dot (crossP F0 F1) (pos c)|
  have g1 : ((1 : ℝ) + uro) ^ 5 - 1 ≤ 5.01 / 2 ^ 24 := by unfold uro; norm_num
  have g2 : ((9 : ℕ) : ℝ) * polT ^ (1 + 1) * (1 + uro) ^ 5 / 2 ^ 150 ≤ 1 / 2 ^ 100 := by unfold uro polT; norm_num
  have g3 := mul_le_mul g1 S (by positivity) (by norm_num)
  have g4 : 5.01 / 2 ^ 24 * (C * ((1 + uro) ^ 2 * prodSum F0 F1)) + C * (2.01 / 2 ^ 24 * prodSum F0 F1) ≤ 7.03 / 2 ^ 24 * C * prodSum F0 F1 := by
    have : 5.01 / 2 ^ 24 * (1 + uro) ^ 2 + 2.01 / 2 ^ 24 ≤ (7.03 / 2 ^ 24 : ℝ) := by unfold uro; norm_num
    have := mul_le_mul_of_nonneg_right this (mul_nonneg hC0 hP)
    linarith
  linarith

theorem normal_radius {f0 f1 e : V4 F32} {F0 F1 : V3 ℝ} {C : ℝ} (hC : C ≤ polT) (he : Small C e)
    (h0 : Small polT f0) (h1 : Small polT f1) (k0 : Close f0 F0) (k1 : Close f1 F1) (n : V4 F32) (hn : n = Simd.cross3 f0 f1) :
    (fadd (fadd (fmul e.x (fabs n.x)) (fmul e.y (fabs n.y))) (fmul e.z (fabs n.z))).isFinite = true ∧
    |(fadd (fadd (fmul e.x (fabs n.x)) (fmul e.y (fabs n.y))) (fmul e.z (fabs n.z))).val - projRadius (pos e) (crossP F0 F1)| ≤
      7.03 / 2 ^ 24 * C * prodSum F0 F1 + 1 / 2 ^ 100 := by
  obtain ⟨⟨c1, c2⟩, ⟨c3, c4⟩, c5, c6⟩ := he
  obtain ⟨p1, p2, p3⟩ := normal_pol h0 h1
  obtain ⟨kx0, ky0, kz0⟩ := k0
  obtain ⟨kx1, ky1, kz1⟩ := k1
  obtain ⟨e1, s1⟩ := comp_close ky0 kz1 kz0 ky1
  obtain ⟨e2, s2⟩ := comp_close kz0 kx1 kx0 kz1
  obtain ⟨e3, s3⟩ := comp_close kx0 ky1 ky0 kx1
  rw [← hn] at p1 p2 p3
  have q1 := (pol_abs p1).mul c1 (c2.trans hC) (by norm_num) (by norm_num) (by norm_num) (by norm_num)
  have q2 := (pol_abs p2).mul c3 (c4.trans hC) (by norm_num) (by norm_num) (by norm_num) (by norm_num)
  have q3 := (pol_abs p3).mul c5 (c6.trans hC) (by norm_num) (by norm_num) (by norm_num) (by norm_num)
  have q4 := q1.add q2 (by norm_num) (by norm_num) (by norm_num) (by norm_num)
  have q6 := q4.add q3 (by norm_num) (by norm_num) (by norm_num) (by norm_num)
  have q := q6.conv rfl rfl (K := 5) (M := 9) (N := 6) (by norm_num) (by norm_num) (by norm_num)
  refine ⟨q.fin, ?_⟩
  have h := q.err
  generalize fadd (fadd (fmul e.x (fabs n.x)) (fmul e.y (fabs n.y))) (fmul e.z (fabs n.z)) = R at *
  have hC0 : 0 ≤ C := (abs_nonneg _).trans c2
  generalize f0.y.val * f1.z.val - f0.z.val * f1.y.val = nx at *
  generalize f0.z.val * f1.x.val - f0.x.val * f1.z.val = ny at *
  generalize f0.x.val * f1.y.val - f0.y.val * f1.x.val = nz at *
  generalize |f0.y.val| * |f1.z.val| + |f0.z.val| * |f1.y.val| = sx at *
  generalize |f0.z.val| * |f1.x.val| + |f0.x.val| * |f1.z.val| = sy at *
  generalize |f0.x.val| * |f1.y.val| + |f0.y.val| * |f1.x.val| = sz at *
  have u1 := p1.s_nonneg
  have u2 := p2.s_nonneg
  have u3 := p3.s_nonneg
  have hP := prodSum_nonneg F0 F1
  have S : |e.x.val| * sx + |e.y.val| * sy + |e.z.val| * sz ≤ C * ((1 + uro) ^ 2 * prodSum F0 F1) := by
    have m1 := mul_le_mul c2 s1 u1 hC0
    have m2 := mul_le_mul c4 s2 u2 hC0
    have m3 := mul_le_mul c6 s3 u3 hC0
    unfold prodSum; linarith
  have D : |e.x.val * |nx| + e.y.val * |ny| + e.z.val * |nz| - projRadius (pos e) (crossP F0 F1)| ≤ C * (2.01 / 2 ^ 24 * prodSum F0 F1) := by
    have e : e.x.val * |nx| + e.y.val * |ny| + e.z.val * |nz| - projRadius (pos e) (crossP F0 F1) =
        e.x.val * (|nx| - |F0.y * F1.z - F0.z * F1.y|) + e.y.val * (|ny| - |F0.z * F1.x - F0.x * F1.z|) + e.z.val * (|nz| - |F0.x * F1.y - F0.y * F1.x|) := by
      change _ - (e.x.val * |F0.y * F1.z - F0.z * F1.y| + e.y.val * |F0.z * F1.x - F0.x * F1.z| + e.z.val * |F0.x * F1.y - F0.y * F1.x|) = _
      ring
    rw [e]
    refine ((abs_add_le _ _).trans (add_le_add_left (abs_add_le _ _) _)).trans ?_
    rw [abs_mul, abs_mul, abs_mul]
    have m1 := mul_le_mul c2 ((abs_abs_sub_abs_le _ _).trans e1) (abs_nonneg _) hC0
    have m2 := mul_le_mul c4 ((abs_abs_sub_abs_le _ _).trans e2) (abs_nonneg _) hC0
    have m3 := mul_le_mul c6 ((abs_abs_sub_abs_le _ _).trans e3) (abs_nonneg _) hC0
    unfold prodSum; linarith
  have t := abs_sub_le R.val (e.x.val * |nx| + e.y.val * |ny| + e.z.val * |nz|) (projRadius (pos e) (crossP F0 F1))
  have g1 : ((1 : ℝ) + uro) ^ 5 - 1 ≤ 5.01 / 2 ^ 24 := by unfold uro; norm_num
  have g2 : ((9 : ℕ) : ℝ) * polT ^ (1 + 1) * (1 + uro) ^ 5 / 2 ^ 150 ≤ 1 / 2 ^ 100 := by unfold uro polT; norm_num
  have g3 := mul_le_mul g1 S (by positivity) (by norm_num)
  have g4 : 5.01 / 2 ^ 24 * (C * ((1 + uro) ^ 2 * prodSum F0 F1)) + C * (2.01 / 2 ^ 24 * prodSum F0 F1) ≤ 7.03 / 2 ^ 24 * C * prodSum F0 F1 := by
    have : 5.01 / 2 ^ 24 * (1 + uro) ^ 2 + 2.01 / 2 ^ 24 ≤ (7.03 / 2 ^ 24 : ℝ) := by unfold uro; norm_num
    have := mul_le_mul_of_nonneg_right this (mul_nonneg hC0 hP)
    linarith
  linarith

theorem normal_decides {c0 c1 c2 f0 f1 e : V4 F32} {L : ℝ} (hL : 1 / 2 ^ 10 ≤ L) (hL2 : L ≤ 2 ^ 18) (h0 : Small (2.001 * L) c0)
    (he : Small L e) (g0 : Small polT f0) (g1 : Small polT f1)
    (k0 : Close f0 (diff (pos c1) (pos c0))) (k1 : Close f1 (diff (pos c2) (pos c1)))
    {d : ℝ} (hP : 1 / 2 ^ 60 ≤ prodSum (diff (pos c1) (pos c0)) (diff (pos c2) (pos c1)))
    (hd : 22 / 2 ^ 24 * L * prodSum (diff (pos c1) (pos c0)) (diff (pos c2) (pos c1)) ≤
      d * sumAbs (crossP (diff (pos c1) (pos c0)) (diff (pos c2) (pos c1)))) (n : V4 F32) (hn : n = Simd.cross3 f0 f1) :
    Decides (!(Flt.abs (Simd.dot3 n c0) <=. e.x *. Flt.abs n.x +. e.y *. Flt.abs n.y +. e.z *. Flt.abs n.z))
      (pos c0) (pos c1) (pos c2) (pos e) d (crossP (diff (pos c1) (pos c0)) (diff (pos c2) (pos c1))) := by
  have hT : 2.001 * L ≤ polT := by unfold polT; norm_num at *; linarith
  have hT2 : L ≤ polT := by linarith
  obtain ⟨rf, re⟩ := normal_radius hT2 he g0 g1 k0 k1 n hn
  obtain ⟨df, de⟩ := normal_dot hT h0 g0 g1 k0 k1
  rw [← hn] at df de
  change Decides (!(leb (fabs (Simd.dot3 n c0)) (fadd (fadd (fmul e.x (fabs n.x)) (fmul e.y (fabs n.y))) (fmul e.z (fabs n.z))))) _ _ _ _ _ _
  have hle := Reliable.fle_iff df rf
  generalize fabs (Simd.dot3 n c0) = dd at *
  generalize fadd (fadd (fmul e.x (fabs n.x)) (fmul e.y (fabs n.y))) (fmul e.z (fabs n.z)) = rr at *
  have tiny : (1 : ℝ) / 2 ^ 99 ≤ 0.8 / 2 ^ 24 * (L * prodSum (diff (pos c1) (pos c0)) (diff (pos c2) (pos c1))) := by
    have := mul_le_mul hL hP (by norm_num) (by linarith)
    norm_num at this ⊢; linarith
  have hdf : diff (pos c0) ⟨0, 0, 0⟩ = pos c0 := by simp [diff]
  have tot : 7.03 / 2 ^ 24 * L * prodSum (diff (pos c1) (pos c0)) (diff (pos c2) (pos c1)) + 1 / 2 ^ 100 +
      (7.03 / 2 ^ 24 * (2.001 * L) * prodSum (diff (pos c1) (pos c0)) (diff (pos c2) (pos c1)) + 1 / 2 ^ 100) ≤
      d * sumAbs (crossP (diff (pos c1) (pos c0)) (diff (pos c2) (pos c1))) := by
    norm_num at tiny hd ⊢; linarith
  rw [abs_le] at re de
  unfold Decides
  rw [normal_match, normal_match, radius_shift, radius_shift, hdf]
  constructor
  · intro h
    have h' : ¬ leb dd rr = true := by simpa using h
    rw [hle, not_le] at h'
    change rr.val < dd.val at h'
    linarith
  · intro h
    have h' : leb dd rr = true := by simpa using h
    have h' := hle.1 h'
    change dd.val ≤ rr.val at h'
    linarith

end SatF32
end Verif
