import Verif.Props.Reliable
import Verif.Props.LengthAccuracy
import Verif.Props.Frustum
import Verif.Spec.Cull

/-!
# C112: culling by the planes of a matrix in binary32
-/

namespace Verif
open F32 Spec Reliable

/-- The faces describe the clip volume of C39. -/
theorem faces_inClip (c : Fin 4 → ℝ) : (∀ g ∈ faces, 0 ≤ g c) ↔ InClip c := by
  simp only [faces, List.forall_mem_cons, List.not_mem_nil, false_imp_iff, implies_true, and_true, InClip]
  constructor
  · rintro ⟨h1, h2, h3, h4, h5, h6⟩
    exact ⟨⟨by linarith, by linarith⟩, ⟨by linarith, by linarith⟩, by linarith, by linarith⟩
  · rintro ⟨⟨h1, h2⟩, ⟨h3, h4⟩, h5, h6⟩
    exact ⟨by linarith, by linarith, by linarith, by linarith, h5, by linarith⟩

namespace CullP

/-- The culling decision, when every computed plane is a multiple of a face up to `d`. -/
theorem decision {planes : List (Plane F32)} {b : Aabb F32} {m : M4 F32} {e : ℝ} (hb : FiniteBox b)
    (h : List.Forall₂ (fun pl g => AllFinite pl.normDist.toList ∧ planeSize pl (farthest b) ≤ 2 ^ 126 ∧
      ∃ c d : ℝ, 0 < c ∧ (∀ p ∈ boxPts b, |planeAt pl p - c * g (clipAt m p)| ≤ d) ∧
        slack (planeSize pl (farthest b)) + d ≤ c * e) planes faces) :
    (b.isBehindFrustum planes = true → ∃ g ∈ faces, ∀ p ∈ boxPts b, g (clipAt m p) < e) ∧
    ((∃ g ∈ faces, ∀ p ∈ boxPts b, g (clipAt m p) < - e) → b.isBehindFrustum planes = true) := by
  have l1 : ∀ pl ∈ planes, ∃ g ∈ faces, AllFinite pl.normDist.toList ∧ planeSize pl (farthest b) ≤ 2 ^ 126 ∧
      ∃ c d : ℝ, 0 < c ∧ (∀ p ∈ boxPts b, |planeAt pl p - c * g (clipAt m p)| ≤ d) ∧
        slack (planeSize pl (farthest b)) + d ≤ c * e := by
    intro pl hpl
    obtain ⟨i, hi, rfl⟩ := List.mem_iff_getElem.1 hpl
    exact ⟨faces[i]'(h.length_eq ▸ hi), List.getElem_mem _, (List.forall₂_iff_get.1 h).2 i hi (h.length_eq ▸ hi)⟩
  have l2 : ∀ g ∈ faces, ∃ pl ∈ planes, AllFinite pl.normDist.toList ∧ planeSize pl (farthest b) ≤ 2 ^ 126 ∧
      ∃ c d : ℝ, 0 < c ∧ (∀ p ∈ boxPts b, |planeAt pl p - c * g (clipAt m p)| ≤ d) ∧
        slack (planeSize pl (farthest b)) + d ≤ c * e := by
    intro g hg
    obtain ⟨i, hi, rfl⟩ := List.mem_iff_getElem.1 hg
    exact ⟨planes[i]'(h.length_eq.symm ▸ hi), List.getElem_mem _, (List.forall₂_iff_get.1 h).2 i (h.length_eq.symm ▸ hi) hi⟩
  obtain ⟨k1, k2⟩ := isBehindFrustum_f32 planes b hb (fun pl hpl => (l1 pl hpl).choose_spec.2.1)
    (fun pl hpl => (l1 pl hpl).choose_spec.2.2.1)
  constructor
  · intro hc
    obtain ⟨pl, hpl, hp⟩ := k1 hc
    obtain ⟨g, hg, -, -, c, d, c0, hd, he⟩ := l1 pl hpl
    refine ⟨g, hg, fun p hp' => ?_⟩
    have h1 := (abs_le.1 (hd p hp')).1
    have h2 := hp p hp'
    have : c * g (clipAt m p) < c * e := by linarith
    exact lt_of_mul_lt_mul_left this c0.le
  · rintro ⟨g, hg, hp⟩
    obtain ⟨pl, hpl, -, -, c, d, c0, hd, he⟩ := l2 g hg
    refine k2 ⟨pl, hpl, fun p hp' => ?_⟩
    have h1 := (abs_le.1 (hd p hp')).2
    have h2 := mul_lt_mul_of_pos_left (hp p hp') c0
    linarith

/-- The value and size of a plane whose coefficients are known with relative error `r` and absolute error `t`. -/
theorem plane_close {pl : Plane F32} {x y z w r t : ℝ} (hr : 0 ≤ r) (ht : 0 ≤ t)
    (hx : |rv pl.normDist.x - x| ≤ r * |x| + t) (hy : |rv pl.normDist.y - y| ≤ r * |y| + t)
    (hz : |rv pl.normDist.z - z| ≤ r * |z| + t) (hw : |rv pl.normDist.w - w| ≤ r * |w| + t) (f : V3 ℝ) :
    planeSize pl f ≤ (1 + r) * (|x| * |f.x| + |y| * |f.y| + |z| * |f.z| + |w|) + t * (1 + size1 f) ∧
    ∀ p : V3 ℝ, |p.x| ≤ |f.x| → |p.y| ≤ |f.y| → |p.z| ≤ |f.z| →
      |planeAt pl p - (x * p.x + y * p.y + z * p.z + w)| ≤
        r * (|x| * |f.x| + |y| * |f.y| + |z| * |f.z| + |w|) + t * (1 + size1 f) := by
  have one : ∀ {a b : ℝ}, |a - b| ≤ r * |b| + t → |a| ≤ (1 + r) * |b| + t := by
    intro a b h
    have := abs_add_le (a - b) b
    rw [sub_add_cancel] at this
    linarith
  constructor
  · have a1 := mul_le_mul_of_nonneg_right (one hx) (abs_nonneg f.x)
    have a2 := mul_le_mul_of_nonneg_right (one hy) (abs_nonneg f.y)
    have a3 := mul_le_mul_of_nonneg_right (one hz) (abs_nonneg f.z)
    have a4 := one hw
    unfold planeSize size1
    linarith
  · intro p px py pz
    have e : planeAt pl p - (x * p.x + y * p.y + z * p.z + w) =
        (rv pl.normDist.x - x) * p.x + (rv pl.normDist.y - y) * p.y + (rv pl.normDist.z - z) * p.z + (rv pl.normDist.w - w) := by
      unfold planeAt; ring
    rw [e]
    have t1 := abs_add_le ((rv pl.normDist.x - x) * p.x + (rv pl.normDist.y - y) * p.y + (rv pl.normDist.z - z) * p.z) (rv pl.normDist.w - w)
    have t2 := abs_add_le ((rv pl.normDist.x - x) * p.x + (rv pl.normDist.y - y) * p.y) ((rv pl.normDist.z - z) * p.z)
    have t3 := abs_add_le ((rv pl.normDist.x - x) * p.x) ((rv pl.normDist.y - y) * p.y)
    have mul : ∀ {a b c d : ℝ}, |a - b| ≤ r * |b| + t → |c| ≤ |d| → |(a - b) * c| ≤ (r * |b| + t) * |d| := by
      intro a b c d h1 h2
      rw [abs_mul]
      exact mul_le_mul h1 h2 (abs_nonneg _) ((abs_nonneg _).trans h1)
    have a1 := mul hx px
    have a2 := mul hy py
    have a3 := mul hz pz
    unfold size1
    linarith

/-- What is known of a plane extracted from a matrix. -/
def Known (m : M4 F32) (B : ℝ) (f : V3 ℝ) (pl : Plane F32) (g : (Fin 4 → ℝ) → ℝ) : Prop :=
  AllFinite pl.normDist.toList ∧ ∃ x y z w : ℝ, (∀ p, g (clipAt m p) = x * p.x + y * p.y + z * p.z + w) ∧
    |rv pl.normDist.x - x| ≤ uro * |x| ∧ |rv pl.normDist.y - y| ≤ uro * |y| ∧ |rv pl.normDist.z - z| ≤ uro * |z| ∧
    |rv pl.normDist.w - w| ≤ uro * |w| ∧ |x| * |f.x| + |y| * |f.y| + |z| * |f.z| + |w| ≤ 2 * clipSize m f ∧
    |x| ≤ 2 * B ∧ |y| ≤ 2 * B ∧ |z| ≤ 2 * B ∧ |w| ≤ 2 * B

theorem coef_add {a b : F32} {B : ℝ} (ha : a.isFinite = true ∧ |rv a| ≤ B) (hb : b.isFinite = true ∧ |rv b| ≤ B) (hB : B ≤ 2 ^ 100) :
    (fadd a b).isFinite = true ∧ |rv (fadd a b) - (rv a + rv b)| ≤ uro * |rv a + rv b| ∧ |rv a + rv b| ≤ 2 * B := by
  have h := abs_add_le (rv a) (rv b)
  have h2 : |rv a + rv b| ≤ 2 * B := by linarith [ha.2, hb.2]
  obtain ⟨f, e⟩ := fadd_err' ha.1 hb.1 (lt_of_le_of_lt h2 (by norm_num; linarith))
  exact ⟨f, e, h2⟩

theorem coef_sub {a b : F32} {B : ℝ} (ha : a.isFinite = true ∧ |rv a| ≤ B) (hb : b.isFinite = true ∧ |rv b| ≤ B) (hB : B ≤ 2 ^ 100) :
    (fsub a b).isFinite = true ∧ |rv (fsub a b) - (rv a - rv b)| ≤ uro * |rv a - rv b| ∧ |rv a - rv b| ≤ 2 * B := by
  have h := abs_sub (rv a) (rv b)
  have h2 : |rv a - rv b| ≤ 2 * B := by linarith [ha.2, hb.2]
  obtain ⟨f, e⟩ := fsub_err' ha.1 hb.1 (lt_of_le_of_lt h2 (by norm_num; linarith))
  exact ⟨f, e, h2⟩

/-- The sizes of the terms of a sum or difference of two rows. -/
theorem row_size {a1 a2 a3 a4 b1 b2 b3 b4 c1 c2 c3 c4 X Y Z S : ℝ} (hX : 0 ≤ X) (hY : 0 ≤ Y) (hZ : 0 ≤ Z)
    (h1 : |c1| ≤ |a1| + |b1|) (h2 : |c2| ≤ |a2| + |b2|) (h3 : |c3| ≤ |a3| + |b3|) (h4 : |c4| ≤ |a4| + |b4|)
    (ha : |a1| * X + |a2| * Y + |a3| * Z + |a4| ≤ S) (hb : |b1| * X + |b2| * Y + |b3| * Z + |b4| ≤ S) :
    |c1| * X + |c2| * Y + |c3| * Z + |c4| ≤ 2 * S := by
  have := mul_le_mul_of_nonneg_right h1 hX
  have := mul_le_mul_of_nonneg_right h2 hY
  have := mul_le_mul_of_nonneg_right h3 hZ
  linarith

theorem extract_eq (m : M4 F32) : Plane.extractFrustum m =
    [⟨⟨fadd m.c0.w m.c0.x, fadd m.c1.w m.c1.x, fadd m.c2.w m.c2.x, fadd m.c3.w m.c3.x⟩⟩,
     ⟨⟨fsub m.c0.w m.c0.x, fsub m.c1.w m.c1.x, fsub m.c2.w m.c2.x, fsub m.c3.w m.c3.x⟩⟩,
     ⟨⟨fsub m.c0.w m.c0.y, fsub m.c1.w m.c1.y, fsub m.c2.w m.c2.y, fsub m.c3.w m.c3.y⟩⟩,
     ⟨⟨fadd m.c0.w m.c0.y, fadd m.c1.w m.c1.y, fadd m.c2.w m.c2.y, fadd m.c3.w m.c3.y⟩⟩,
     ⟨⟨m.c0.z, m.c1.z, m.c2.z, m.c3.z⟩⟩,
     ⟨⟨fsub m.c0.w m.c0.z, fsub m.c1.w m.c1.z, fsub m.c2.w m.c2.z, fsub m.c3.w m.c3.z⟩⟩] := rfl

theorem extract_known {m : M4 F32} {B : ℝ} (hm : EntriesLe m B) (hB : B ≤ 2 ^ 100) (f : V3 ℝ) :
    List.Forall₂ (Known m B f) (Plane.extractFrustum m) faces := by
  rw [extract_eq]
  simp only [EntriesLe, V4.toList, List.cons_append, List.nil_append, List.mem_cons, List.not_mem_nil, or_false,
    forall_eq_or_imp, forall_eq] at hm
  obtain ⟨x0, y0, z0, w0, x1, y1, z1, w1, x2, y2, z2, w2, x3, y3, z3, w3⟩ := hm
  have fx := abs_nonneg f.x; have fy := abs_nonneg f.y; have fz := abs_nonneg f.z
  have sx : |rv m.c0.x| * |f.x| + |rv m.c1.x| * |f.y| + |rv m.c2.x| * |f.z| + |rv m.c3.x| ≤ clipSize m f :=
    (le_max_left _ _).trans (le_max_left _ _)
  have sy : |rv m.c0.y| * |f.x| + |rv m.c1.y| * |f.y| + |rv m.c2.y| * |f.z| + |rv m.c3.y| ≤ clipSize m f :=
    (le_max_right _ _).trans (le_max_left _ _)
  have sz : |rv m.c0.z| * |f.x| + |rv m.c1.z| * |f.y| + |rv m.c2.z| * |f.z| + |rv m.c3.z| ≤ clipSize m f :=
    (le_max_left _ _).trans (le_max_right _ _)
  have sw : |rv m.c0.w| * |f.x| + |rv m.c1.w| * |f.y| + |rv m.c2.w| * |f.z| + |rv m.c3.w| ≤ clipSize m f :=
    (le_max_right _ _).trans (le_max_right _ _)
  refine .cons ?_ (.cons ?_ (.cons ?_ (.cons ?_ (.cons ?_ (.cons ?_ .nil)))))
  · have a := coef_add w0 x0 hB; have b := coef_add w1 x1 hB; have c := coef_add w2 x2 hB; have d := coef_add w3 x3 hB
    refine ⟨allFinite4 a.1 b.1 c.1 d.1, _, _, _, _, fun p => ?_, a.2.1, b.2.1, c.2.1, d.2.1,
      row_size fx fy fz (abs_add_le _ _) (abs_add_le _ _) (abs_add_le _ _) (abs_add_le _ _) sw sx, a.2.2, b.2.2, c.2.2, d.2.2⟩
    simp only [clipAt, Matrix.cons_val]; ring
  · have a := coef_sub w0 x0 hB; have b := coef_sub w1 x1 hB; have c := coef_sub w2 x2 hB; have d := coef_sub w3 x3 hB
    refine ⟨allFinite4 a.1 b.1 c.1 d.1, _, _, _, _, fun p => ?_, a.2.1, b.2.1, c.2.1, d.2.1,
      row_size fx fy fz (abs_sub _ _) (abs_sub _ _) (abs_sub _ _) (abs_sub _ _) sw sx, a.2.2, b.2.2, c.2.2, d.2.2⟩
    simp only [clipAt, Matrix.cons_val]; ring
  · have a := coef_sub w0 y0 hB; have b := coef_sub w1 y1 hB; have c := coef_sub w2 y2 hB; have d := coef_sub w3 y3 hB
    refine ⟨allFinite4 a.1 b.1 c.1 d.1, _, _, _, _, fun p => ?_, a.2.1, b.2.1, c.2.1, d.2.1,
      row_size fx fy fz (abs_sub _ _) (abs_sub _ _) (abs_sub _ _) (abs_sub _ _) sw sy, a.2.2, b.2.2, c.2.2, d.2.2⟩
    simp only [clipAt, Matrix.cons_val]; ring
  · have a := coef_add w0 y0 hB; have b := coef_add w1 y1 hB; have c := coef_add w2 y2 hB; have d := coef_add w3 y3 hB
    refine ⟨allFinite4 a.1 b.1 c.1 d.1, _, _, _, _, fun p => ?_, a.2.1, b.2.1, c.2.1, d.2.1,
      row_size fx fy fz (abs_add_le _ _) (abs_add_le _ _) (abs_add_le _ _) (abs_add_le _ _) sw sy, a.2.2, b.2.2, c.2.2, d.2.2⟩
    simp only [clipAt, Matrix.cons_val]; ring
  · have ex : ∀ {a : F32}, |rv a - rv a| ≤ uro * |rv a| := by
      intro a; rw [sub_self, abs_zero]; unfold uro; positivity
    have B0 : 0 ≤ B := (abs_nonneg _).trans z0.2
    refine ⟨allFinite4 z0.1 z1.1 z2.1 z3.1, rv m.c0.z, rv m.c1.z, rv m.c2.z, rv m.c3.z, fun p => ?_, ex, ex, ex, ex, ?_,
      by linarith [z0.2], by linarith [z1.2], by linarith [z2.2], by linarith [z3.2]⟩
    · simp only [clipAt, Matrix.cons_val]
    · have : 0 ≤ |rv m.c0.z| * |f.x| + |rv m.c1.z| * |f.y| + |rv m.c2.z| * |f.z| + |rv m.c3.z| := by positivity
      linarith
  · have a := coef_sub w0 z0 hB; have b := coef_sub w1 z1 hB; have c := coef_sub w2 z2 hB; have d := coef_sub w3 z3 hB
    refine ⟨allFinite4 a.1 b.1 c.1 d.1, _, _, _, _, fun p => ?_, a.2.1, b.2.1, c.2.1, d.2.1,
      row_size fx fy fz (abs_sub _ _) (abs_sub _ _) (abs_sub _ _) (abs_sub _ _) sw sz, a.2.2, b.2.2, c.2.2, d.2.2⟩
    simp only [clipAt, Matrix.cons_val]; ring

theorem clipSize_nonneg (m : M4 F32) (f : V3 ℝ) : 0 ≤ clipSize m f :=
  le_trans (by positivity) ((le_max_left _ _).trans (le_max_left _ _))

end CullP
open CullP

/-- C112: culling a box by the planes extracted from a matrix, in binary32. When a box is culled, no point of it is inside the
clip volume by more than the slack `clipSize / 2^19 + 2^-147` at some face; when the whole box is outside one face by more than
the slack, it is culled. -/
theorem cull_f32 (m : M4 F32) (b : Aabb F32) (hm : EntriesLe m (2 ^ 100)) (hb : FiniteBox b)
    (hs : clipSize m (farthest b) ≤ 2 ^ 120) :
    (b.isBehindFrustum (Plane.extractFrustum m) = true →
      ∃ g ∈ faces, ∀ p ∈ boxPts b, g (clipAt m p) < clipSize m (farthest b) / 2 ^ 19 + 1 / 2 ^ 147) ∧
    ((∃ g ∈ faces, ∀ p ∈ boxPts b, g (clipAt m p) < - (clipSize m (farthest b) / 2 ^ 19 + 1 / 2 ^ 147)) →
      b.isBehindFrustum (Plane.extractFrustum m) = true) := by
  refine decision hb ((extract_known hm le_rfl (farthest b)).imp fun pl g hk => ?_)
  obtain ⟨fin, x, y, z, w, hg, ex, ey, ez, ew, hS, -⟩ := hk
  have S0 := clipSize_nonneg m (farthest b)
  have u0 : 0 ≤ uro := by unfold uro; positivity
  obtain ⟨p1, p2⟩ := plane_close (pl := pl) (x := x) (y := y) (z := z) (w := w) (r := uro) (t := 0) u0 le_rfl (by linarith) (by linarith) (by linarith) (by linarith) (farthest b)
  set G := |x| * |(farthest b).x| + |y| * |(farthest b).y| + |z| * |(farthest b).z| + |w|
  have uu : uro = 1 / 2 ^ 24 := rfl
  rw [uu] at p1 p2
  refine ⟨fin, ?_, 1, 1 / 2 ^ 24 * G, one_pos, fun p hp => ?_, ?_⟩
  · linarith
  · obtain ⟨m1, m2, m3⟩ := mem_far hp
    have := p2 p m1 m2 m3
    rw [one_mul, hg]; linarith
  · unfold slack; linarith

namespace CullP

/-- A coefficient divided by the length, against the exact coefficient divided by the same length. -/
theorem quot {a l : F32} {α L : ℝ} (ha : a.isFinite = true) (hl : l.isFinite = true)
    (h : |rv l - L| ≤ (3 / 2 ^ 24 + 1 / 2 ^ 40) * L) (hL : 1 / 2 ^ 50 ≤ L) (hα : |rv a - α| ≤ uro * |α|) (hM : |α| ≤ 2 * 2 ^ 48) :
    (fdiv a l).isFinite = true ∧ |rv (fdiv a l) - α / L| ≤ 6 / 2 ^ 24 * |α / L| + 1 / 2 ^ 150 := by
  have L0 : 0 < L := lt_of_lt_of_le (by positivity) hL
  have uu : uro = 1 / 2 ^ 24 := rfl
  rw [uu] at hα
  have q0 := abs_nonneg (α / L)
  have e1 : |rv a / L - α / L| ≤ 1 / 2 ^ 24 * |α / L| := by
    rw [← sub_div, abs_div, abs_div, abs_of_pos L0, ← mul_div_assoc]
    gcongr
  have e2 : |rv a / L| ≤ (1 + 1 / 2 ^ 24) * |α / L| := by
    have := abs_add_le (rv a / L - α / L) (α / L)
    rw [sub_add_cancel] at this
    linarith
  have e3 : |α / L| ≤ 2 ^ 99 := by
    rw [abs_div, abs_of_pos L0, div_le_iff₀ L0]
    have := mul_le_mul_of_nonneg_left hL (show (0 : ℝ) ≤ 2 ^ 99 by positivity)
    linarith
  obtain ⟨f, e⟩ := LenAcc.div_rel ha hl h L0 (by positivity) (by norm_num) (show |a.val / L| ≤ 2 ^ 100 by
    have : |a.val / L| ≤ (1 + 1 / 2 ^ 24) * |α / L| := e2
    linarith)
  refine ⟨f, ?_⟩
  have e' : |rv (fdiv a l) - rv a / L| ≤ (3 / 2 ^ 24 + 1 / 2 ^ 40 + 1 / 2 ^ 24 + 1 / 2 ^ 40) * |rv a / L| + 1 / 2 ^ 150 := e
  have t := abs_add_le (rv (fdiv a l) - rv a / L) (rv a / L - α / L)
  rw [sub_add_sub_cancel] at t
  have e4 := mul_le_mul_of_nonneg_left e2 (show (0 : ℝ) ≤ 3 / 2 ^ 24 + 1 / 2 ^ 40 + 1 / 2 ^ 24 + 1 / 2 ^ 40 by positivity)
  linarith

theorem norm_eq (pl : Plane F32) : pl.normalize =
    ⟨⟨fdiv pl.normDist.x (Simd.length3 pl.normDist), fdiv pl.normDist.y (Simd.length3 pl.normDist),
      fdiv pl.normDist.z (Simd.length3 pl.normDist), fdiv pl.normDist.w (Simd.length3 pl.normDist)⟩⟩ := by
  unfold Plane.normalize V4.div V4.map2 V4.splat
  generalize Simd.length3 pl.normDist = l
  rfl

theorem len_eq (v : V4 F32) : Simd.length3 v = fsqrt (Backend.dot3 .sse41 v v) := by
  unfold Simd.length3 Backend.dot3
  generalize Simd.dot3 v v = l
  rfl

theorem fin_xyz {v : V4 F32} (h1 : v.x.isFinite = true) (h2 : v.y.isFinite = true) (h3 : v.z.isFinite = true) :
    AllFinite v.xyz.toList := by
  simp only [AllFinite, V3.toList, V4.xyz, List.mem_cons, List.not_mem_nil, or_false, forall_eq_or_imp, forall_eq]
  exact ⟨h1, h2, h3⟩

end CullP

/-- C112: the same with the planes normalised after they were extracted. -/
theorem cull_normalized_f32 (m : M4 F32) (b : Aabb F32) (hm : EntriesLe m (2 ^ 48)) (hb : FiniteBox b)
    (hs : clipSize m (farthest b) ≤ 2 ^ 60) (hz : size1 (farthest b) ≤ 2 ^ 100)
    (hn : ∀ pl ∈ Plane.extractFrustum m, 1 / 2 ^ 100 ≤ normSq pl.normDist.xyz.toList) :
    (b.isBehindFrustum (Plane.normalizePlanes (Plane.extractFrustum m)) = true →
      ∃ g ∈ faces, ∀ p ∈ boxPts b,
        g (clipAt m p) < clipSize m (farthest b) / 2 ^ 19 + (1 + size1 (farthest b)) / 2 ^ 95) ∧
    ((∃ g ∈ faces, ∀ p ∈ boxPts b,
        g (clipAt m p) < - (clipSize m (farthest b) / 2 ^ 19 + (1 + size1 (farthest b)) / 2 ^ 95)) →
      b.isBehindFrustum (Plane.normalizePlanes (Plane.extractFrustum m)) = true) := by
  have S0 := clipSize_nonneg m (farthest b)
  have s0 : 0 ≤ size1 (farthest b) := by unfold size1; positivity
  have K : List.Forall₂ (fun pl g => 1 / 2 ^ 100 ≤ normSq pl.normDist.xyz.toList ∧ Known m (2 ^ 48) (farthest b) pl g)
      (Plane.extractFrustum m) faces := by
    have h := extract_known hm (by norm_num) (farthest b)
    rw [List.forall₂_iff_get] at h ⊢
    exact ⟨h.1, fun i h1 h2 => ⟨hn _ (List.getElem_mem _), h.2 i h1 h2⟩⟩
  refine decision hb ?_
  unfold Plane.normalizePlanes
  rw [List.forall₂_map_left_iff]
  refine K.imp fun pl g hk => ?_
  obtain ⟨hX, fin, x, y, z, w, hg, ex, ey, ez, ew, hS, bx, by', bz, bw⟩ := hk
  obtain ⟨fx, fy, fz, fw⟩ := VecAcc.fin4 fin
  have uu : uro = 1 / 2 ^ 24 := rfl
  -- the length of the normal
  set X := normSq pl.normDist.xyz.toList with hXd
  have val : ∀ {a : F32} {α : ℝ}, |rv a - α| ≤ uro * |α| → |α| ≤ 2 * 2 ^ 48 → rv a ^ 2 ≤ 2 ^ 100 := by
    intro a α h1 h2
    rw [uu] at h1
    have := abs_add_le (rv a - α) α
    rw [sub_add_cancel] at this
    have h3 : |rv a| ≤ 2 ^ 50 := by linarith
    calc rv a ^ 2 = |rv a| ^ 2 := (sq_abs _).symm
      _ ≤ (2 ^ 50) ^ 2 := by gcongr
      _ = 2 ^ 100 := by norm_num
  have hX2 : X ≤ 2 ^ 102 := by
    have e : X = rv pl.normDist.x ^ 2 + (rv pl.normDist.y ^ 2 + (rv pl.normDist.z ^ 2 + 0)) := rfl
    have := val ex bx; have := val ey by'; have := val ez bz
    rw [e]; linarith
  have X0 : 0 < X := lt_of_lt_of_le (by positivity) hX
  obtain ⟨r1, r2⟩ := LenAcc.knownK3 .sse41 (v := pl.normDist) (fin_xyz fx fy fz) (hX2.trans (by norm_num))
  obtain ⟨l1, l2⟩ := LenAcc.len_rel r1 r2 hX (hX2.trans (by norm_num))
  rw [← hXd] at l2
  have L1 : 1 / 2 ^ 50 ≤ Real.sqrt X := by
    apply Real.le_sqrt_of_sq_le
    refine le_trans (le_of_eq ?_) hX
    norm_num
  have L2 : Real.sqrt X ≤ 2 ^ 51 := by
    rw [Real.sqrt_le_left (by positivity)]
    refine hX2.trans (le_of_eq ?_)
    norm_num
  rw [norm_eq, len_eq]
  generalize fsqrt (Backend.dot3 .sse41 pl.normDist pl.normDist) = l at l1 l2 ⊢
  generalize Real.sqrt X = L at l2 L1 L2
  have L0 : 0 < L := lt_of_lt_of_le (by positivity) L1
  have qx := quot fx l1 l2 L1 ex bx
  have qy := quot fy l1 l2 L1 ey by'
  have qz := quot fz l1 l2 L1 ez bz
  have qw := quot fw l1 l2 L1 ew bw
  obtain ⟨p1, p2⟩ := plane_close
    (pl := ⟨⟨fdiv pl.normDist.x l, fdiv pl.normDist.y l, fdiv pl.normDist.z l, fdiv pl.normDist.w l⟩⟩)
    (x := x / L) (y := y / L) (z := z / L) (w := w / L) (r := 6 / 2 ^ 24) (t := 1 / 2 ^ 150)
    (by positivity) (by positivity) qx.2 qy.2 qz.2 qw.2 (farthest b)
  have hG : |x / L| * |(farthest b).x| + |y / L| * |(farthest b).y| + |z / L| * |(farthest b).z| + |w / L| =
      (|x| * |(farthest b).x| + |y| * |(farthest b).y| + |z| * |(farthest b).z| + |w|) / L := by
    simp only [abs_div, abs_of_pos L0]; ring
  rw [hG] at p1 p2
  set G := (|x| * |(farthest b).x| + |y| * |(farthest b).y| + |z| * |(farthest b).z| + |w|) / L with hGd
  have G1 : G ≤ 2 * (1 / L * clipSize m (farthest b)) := by
    rw [hGd, div_le_iff₀ L0]
    have : 2 * (1 / L * clipSize m (farthest b)) * L = 2 * clipSize m (farthest b) := by field_simp
    linarith
  have c1 : 1 / L ≤ 2 ^ 50 := by
    rw [div_le_iff₀ L0]
    have := mul_le_mul_of_nonneg_left L1 (show (0 : ℝ) ≤ 2 ^ 50 by positivity)
    linarith
  have c2 : 1 / 2 ^ 51 ≤ 1 / L := one_div_le_one_div_of_le L0 L2
  have c0 : 0 < 1 / L := by positivity
  set c := 1 / L with hc
  have S2 : c * clipSize m (farthest b) ≤ 2 ^ 50 * 2 ^ 60 := mul_le_mul c1 hs S0 (by positivity)
  refine ⟨allFinite4 qx.1 qy.1 qz.1 qw.1, ?_, c, 6 / 2 ^ 24 * G + 1 / 2 ^ 150 * (1 + size1 (farthest b)), c0, fun p hp => ?_, ?_⟩
  · linarith
  · obtain ⟨m1, m2, m3⟩ := mem_far hp
    have := p2 p m1 m2 m3
    rw [hg]
    have e : c * (x * p.x + y * p.y + z * p.z + w) = x / L * p.x + y / L * p.y + z / L * p.z + w / L := by rw [hc]; ring
    rw [e]; exact this
  · have e1 := mul_le_mul_of_nonneg_right c2 (show 0 ≤ (1 + size1 (farthest b)) / 2 ^ 95 by positivity)
    have S3 : 0 ≤ c * clipSize m (farthest b) := by positivity
    rw [mul_add c]
    unfold slack
    have e2 : c * (clipSize m (farthest b) / 2 ^ 19) = c * clipSize m (farthest b) / 2 ^ 19 := by ring
    rw [e2]
    linarith

/-- C112: a box with a point that is inside every face of the clip volume by at least the slack is never culled, neither with
the extracted planes nor with the normalised ones. -/
theorem cull_keeps_f32 (m : M4 F32) (b : Aabb F32) (hm : EntriesLe m (2 ^ 48)) (hb : FiniteBox b)
    (hs : clipSize m (farthest b) ≤ 2 ^ 60) (hz : size1 (farthest b) ≤ 2 ^ 100)
    (hn : ∀ pl ∈ Plane.extractFrustum m, 1 / 2 ^ 100 ≤ normSq pl.normDist.xyz.toList)
    (p : V3 ℝ) (hp : p ∈ boxPts b)
    (hv : ∀ g ∈ faces, clipSize m (farthest b) / 2 ^ 19 + (1 + size1 (farthest b)) / 2 ^ 95 ≤ g (clipAt m p)) :
    b.isBehindFrustum (Plane.extractFrustum m) = false ∧
    b.isBehindFrustum (Plane.normalizePlanes (Plane.extractFrustum m)) = false := by
  have s0 : 0 ≤ size1 (farthest b) := by unfold size1; positivity
  constructor
  · rw [← Bool.not_eq_true]
    intro h
    obtain ⟨g, hg, k⟩ := (cull_f32 m b (fun x hx => ⟨(hm x hx).1, (hm x hx).2.trans (by norm_num)⟩) hb
      (hs.trans (by norm_num))).1 h
    have h1 := k p hp
    have h2 := hv g hg
    have h3 : (1 : ℝ) / 2 ^ 147 ≤ 1 / 2 ^ 95 := by norm_num
    linarith
  · rw [← Bool.not_eq_true]
    intro h
    obtain ⟨g, hg, k⟩ := (cull_normalized_f32 m b hm hb hs hz hn).1 h
    exact absurd (k p hp) (not_lt.2 (hv g hg))

/-! ## A concrete case -/

/-- The identity as a view-projection matrix: the clip volume is -1 ≤ x, y ≤ 1, 0 ≤ z ≤ 1. -/
def plainView : M4 F32 := ⟨⟨f1, f0, f0, f0⟩, ⟨f0, f1, f0, f0⟩, ⟨f0, f0, f1, f0⟩, ⟨f0, f0, f0, f1⟩⟩

/-- The hypotheses are met by that matrix and the unit box, whose centre is well inside the clip volume. -/
example : unitBox.isBehindFrustum (Plane.extractFrustum plainView) = false ∧
    unitBox.isBehindFrustum (Plane.normalizePlanes (Plane.extractFrustum plainView)) = false := by
  have h0 : rv f0 = 0 := by unfold rv; rw [show f0.toRat = 0 by decide +kernel]; simp
  have h1 : rv f1 = 1 := by unfold rv; rw [show f1.toRat = 1 by decide +kernel]; simp
  have le : ∀ {a b : F32}, a.toRat ≤ b.toRat → rv a ≤ rv b := fun h => by unfold rv; exact_mod_cast h
  have far : farthest unitBox = ⟨1, 1, 1⟩ := by
    simp only [farthest, unitBox, V4.splat, h0, h1]; norm_num
  have cs : clipSize plainView ⟨1, 1, 1⟩ = 1 := by simp only [clipSize, plainView, h0, h1]; norm_num
  have sz : size1 ⟨1, 1, 1⟩ = 3 := by simp only [size1]; norm_num
  refine cull_keeps_f32 plainView unitBox ?_ ⟨?_, le ?_, le ?_, le ?_⟩ ?_ ?_ ?_ ⟨1 / 2, 1 / 2, 1 / 2⟩ ?_ ?_
  · intro x hx
    simp only [plainView, V4.toList, List.cons_append, List.nil_append, List.mem_cons, List.not_mem_nil, or_false] at hx
    have : x = f0 ∨ x = f1 := by tauto
    rcases this with rfl | rfl
    · exact ⟨by decide +kernel, by rw [h0]; norm_num⟩
    · exact ⟨by decide +kernel, by rw [h1]; norm_num⟩
  · unfold AllFinite; decide +kernel
  · decide +kernel
  · decide +kernel
  · decide +kernel
  · rw [far, cs]; norm_num
  · rw [far, sz]; norm_num
  · have q : ∀ pl ∈ Plane.extractFrustum plainView, (1 : ℚ) ≤ (pl.normDist.xyz.toList.map fun x => x.toRat ^ 2).sum := by decide +kernel
    intro pl hpl
    have h := q pl hpl
    have e : normSq pl.normDist.xyz.toList = (((pl.normDist.xyz.toList.map fun x => x.toRat ^ 2).sum : ℚ) : ℝ) := by
      simp only [normSq, V3.toList, List.map_cons, List.map_nil, List.sum_cons, List.sum_nil, rv]; push_cast; rfl
    rw [e]
    have h' : (1 : ℝ) ≤ (((pl.normDist.xyz.toList.map fun x => x.toRat ^ 2).sum : ℚ) : ℝ) := by exact_mod_cast h
    exact le_trans (by norm_num) h'
  · simp only [boxPts, Box, pos, unitBox, V4.splat, h0, h1, Set.mem_setOf_eq]; norm_num
  · rw [far, cs, sz]
    simp only [faces, List.forall_mem_cons, List.not_mem_nil, false_imp_iff, implies_true, and_true, clipAt, plainView, h0, h1,
      Matrix.cons_val]
    norm_num

/-- A box beyond x = 2 is culled by the planes of that matrix. -/
example : Aabb.isBehindFrustum (Plane.extractFrustum plainView) ⟨⟨f2, f0, f0, f0⟩, ⟨f2, f1, f1, f0⟩⟩ = true := by decide +kernel

end Verif
