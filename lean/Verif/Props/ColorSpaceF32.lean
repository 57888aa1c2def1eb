import Verif.Model.ColorTargets
import Verif.Props.ColorSpace
import Verif.Props.VecAccuracy
import Verif.Props.BrdfF32
import Verif.Spec.AngleQuat

/-!
# C132: XYZ and Yxy conversions in binary32
-/

namespace Verif
open F32 Spec VecAcc SatF32

/-- The model of the SSE4.1 configuration is the one of the target with a fused multiply-add. -/
theorem color_targets_sse41 [FltT F32] (v : V4 F32) :
    ColorSpace.rgbToXyz v = F32x4.rgbToXyz (.sse true) v ∧ ColorSpace.xyzToRgb v = F32x4.xyzToRgb (.sse true) v ∧
    ColorSpace.xyzToYxy v = F32x4.xyzToYxy .sse41 v ∧ ColorSpace.yxyToXyz v = F32x4.yxyToXyz v := by
  refine ⟨?_, ?_, ?_, ?_⟩ <;> exact rfl

namespace ColorSpaceP
open BrdfF32

/-- A constant, rounded. -/
theorem lit_rel (q : Rat) (h1 : 1 / 2 ^ 10 ≤ |(q : ℝ)|) (h2 : |(q : ℝ)| ≤ 2 ^ 10) :
    (ofRat q).isFinite = true ∧ |(ofRat q).val - q| ≤ 1.01 / 2 ^ 24 * |(q : ℝ)| := by
  have a := lit_approx q _ le_rfl (lt_of_le_of_lt h2 (by norm_num))
  refine ⟨a.1, a.2.trans ?_⟩
  unfold ulp
  generalize |(q : ℝ)| = Q at *
  norm_num at *
  linarith

/-- Three products with rounded constants. -/
theorem lin3 {r m1 m2 m3 : F32} {q1 q2 q3 x y z W : ℝ} (h : SumOk r [(rv m1, x), (rv m2, y), (rv m3, z)])
    (h1 : |m1.val - q1| ≤ 1.01 / 2 ^ 24 * |q1|) (h2 : |m2.val - q2| ≤ 1.01 / 2 ^ 24 * |q2|) (h3 : |m3.val - q3| ≤ 1.01 / 2 ^ 24 * |q3|)
    (hW : |q1| * |x| + |q2| * |y| + |q3| * |z| ≤ W) (hb : W ≤ 2 ^ 100) : Approx r (q1 * x + q2 * y + q3 * z) (4.1 / 2 ^ 24 * W + 3 / 2 ^ 149) := by
  have one : ∀ {m : F32} {q x : ℝ}, |m.val - q| ≤ 1.01 / 2 ^ 24 * |q| → |m.val * x - q * x| ≤ 1.01 / 2 ^ 24 * (|q| * |x|) ∧ |m.val * x| ≤ (1 + 1.01 / 2 ^ 24) * (|q| * |x|) := by
    intro m q x hm
    have a : |m.val * x - q * x| ≤ 1.01 / 2 ^ 24 * (|q| * |x|) := by
      rw [← sub_mul, abs_mul, ← mul_assoc]
      exact mul_le_mul_of_nonneg_right hm (abs_nonneg _)
    refine ⟨a, ?_⟩
    have := abs_add_le (m.val * x - q * x) (q * x)
    rw [sub_add_cancel, abs_mul q x] at this
    linarith
  obtain ⟨a1, b1⟩ := one (x := x) h1
  obtain ⟨a2, b2⟩ := one (x := y) h2
  obtain ⟨a3, b3⟩ := one (x := z) h3
  have e1 : absProd [(rv m1, x), (rv m2, y), (rv m3, z)] = |m1.val * x| + |m2.val * y| + |m3.val * z| := by simp [absProd, rv_eq]; ring
  have e2 : sumProd [(rv m1, x), (rv m2, y), (rv m3, z)] = m1.val * x + m2.val * y + m3.val * z := by simp [sumProd, rv_eq]; ring
  have hA : |m1.val * x| + |m2.val * y| + |m3.val * z| ≤ (1 + 1.01 / 2 ^ 24) * W := by
    have : (1 + 1.01 / 2 ^ 24 : ℝ) * (|q1| * |x| + |q2| * |y| + |q3| * |z|) ≤ (1 + 1.01 / 2 ^ 24) * W :=
      mul_le_mul_of_nonneg_left hW (by norm_num)
    linarith
  have h' := h (by rw [e1]; refine hA.trans ?_; norm_num at *; linarith)
  rw [e1, e2] at h'
  refine ⟨h'.1, ?_⟩
  have t : |m1.val * x + m2.val * y + m3.val * z - (q1 * x + q2 * y + q3 * z)| ≤ 1.01 / 2 ^ 24 * W := by
    rw [show m1.val * x + m2.val * y + m3.val * z - (q1 * x + q2 * y + q3 * z) = (m1.val * x - q1 * x) + (m2.val * y - q2 * y) + (m3.val * z - q3 * z) by ring]
    have s1 := abs_add_le ((m1.val * x - q1 * x) + (m2.val * y - q2 * y)) (m3.val * z - q3 * z)
    have s2 := abs_add_le (m1.val * x - q1 * x) (m2.val * y - q2 * y)
    have : (1.01 / 2 ^ 24 : ℝ) * (|q1| * |x| + |q2| * |y| + |q3| * |z|) ≤ 1.01 / 2 ^ 24 * W :=
      mul_le_mul_of_nonneg_left hW (by norm_num)
    linarith
  have l : List.length [(rv m1, x), (rv m2, y), (rv m3, z)] = 3 := rfl
  have s := h'.2
  rw [l] at s
  have u3 : ((1 : ℝ) + 1 / 2 ^ 24) ^ 3 - 1 ≤ 3.01 / 2 ^ 24 := by norm_num
  have p := mul_le_mul u3 hA (by positivity) (by norm_num)
  have tri := abs_add_le (rv r - (m1.val * x + m2.val * y + m3.val * z)) (m1.val * x + m2.val * y + m3.val * z - (q1 * x + q2 * y + q3 * z))
  rw [sub_add_sub_cancel] at tri
  have W0 : 0 ≤ W := le_trans (by positivity) hW
  change |rv r - _| ≤ _
  push_cast at s
  norm_num at *
  linarith

theorem mem3 {u : V4 F32} (fx : u.x.isFinite = true) (fy : u.y.isFinite = true) (fz : u.z.isFinite = true) : AllFinite u.xyz.toList := by
  intro x hx; simp only [V4.xyz, V3.toList, List.mem_cons, List.not_mem_nil, or_false] at hx
  rcases hx with rfl | rfl | rfl <;> assumption

/-- A product with a matrix given by nine entries. -/
theorem rows (t : FTarget) {a b c d e f g h i o : F32} {v : V4 F32} (fa : a.isFinite = true) (fb : b.isFinite = true) (fc : c.isFinite = true)
    (fd : d.isFinite = true) (fe : e.isFinite = true) (ff : f.isFinite = true) (fg : g.isFinite = true) (fh : h.isFinite = true)
    (fi : i.isFinite = true) (fo : o.isFinite = true) (fx : v.x.isFinite = true) (fy : v.y.isFinite = true) (fz : v.z.isFinite = true) :
    let r := F32x4.multiply3x3V t (M4.ofRows a b c o d e f o g h i o o o o o) v
    SumOk r.x [(rv a, v.x.val), (rv b, v.y.val), (rv c, v.z.val)] ∧ SumOk r.y [(rv d, v.x.val), (rv e, v.y.val), (rv f, v.z.val)] ∧
      SumOk r.z [(rv g, v.x.val), (rv h, v.y.val), (rv i, v.z.val)] := by
  refine mulV_accuracy.2.2.2.2.2 t (M4.ofRows a b c o d e f o g h i o o o o o) v ?_ (mem3 fx fy fz)
  refine ⟨?_, ?_, ?_, ?_⟩ <;> intro x hx <;> simp only [M4.ofRows, V4.toList, List.mem_cons, List.not_mem_nil, or_false] at hx <;>
    rcases hx with rfl | rfl | rfl | rfl <;> assumption

theorem toXyz_form (t : FTarget) (v : V4 F32) {a b c d e f g h i o : F32} (ha : ofRat 0.4124564 = a) (hb : ofRat 0.2126729 = b) (hc : ofRat 0.0193339 = c)
    (hd : ofRat 0.3575761 = d) (he : ofRat 0.7151522 = e) (hf : ofRat 0.1191920 = f) (hg : ofRat 0.1804375 = g) (hh : ofRat 0.0721750 = h)
    (hi : ofRat 0.9503041 = i) (ho : ofRat 0 = o) :
    F32x4.rgbToXyz t v = F32x4.multiply3x3V t (M4.ofRows a b c o d e f o g h i o o o o o) v := by
  subst ha hb hc hd he hf hg hh hi ho
  rfl

theorem toRgb_form (t : FTarget) (v : V4 F32) {a b c d e f g h i o : F32} (ha : ofRat 3.2404542 = a) (hb : ofRat (-0.9692660) = b) (hc : ofRat 0.0556434 = c)
    (hd : ofRat (-1.5371385) = d) (he : ofRat 1.8760108 = e) (hf : ofRat (-0.2040259) = f) (hg : ofRat (-0.4985314) = g) (hh : ofRat 0.0415560 = h)
    (hi : ofRat 1.0572252 = i) (ho : ofRat 0 = o) :
    F32x4.xyzToRgb t v = F32x4.multiply3x3V t (M4.ofRows a b c o d e f o g h i o o o o o) v := by
  subst ha hb hc hd he hf hg hh hi ho
  rfl

theorem lit_rel' (q : Rat) (x : ℝ) (e : (q : ℝ) = x) (h1 : 1 / 2 ^ 10 ≤ |x|) (h2 : |x| ≤ 2 ^ 10) :
    ∃ m : F32, ofRat q = m ∧ m.isFinite = true ∧ |m.val - x| ≤ 1.01 / 2 ^ 24 * |x| := by
  subst e
  obtain ⟨f, h⟩ := lit_rel q h1 h2
  exact ⟨_, rfl, f, h⟩

/-- The first matrix product. -/
theorem toXyz (t : FTarget) {v : V4 F32} {W : ℝ} (fx : v.x.isFinite = true) (fy : v.y.isFinite = true) (fz : v.z.isFinite = true)
    (hW : |v.x.val| + |v.y.val| + |v.z.val| ≤ W) (hb : W ≤ 2 ^ 99) :
    Approx (F32x4.rgbToXyz t v).x (0.4124564 * v.x.val + 0.2126729 * v.y.val + 0.0193339 * v.z.val)
      (4.1 / 2 ^ 24 * (0.4124564 * |v.x.val| + 0.2126729 * |v.y.val| + 0.0193339 * |v.z.val|) + 3 / 2 ^ 149) ∧
    Approx (F32x4.rgbToXyz t v).y (0.3575761 * v.x.val + 0.7151522 * v.y.val + 0.1191920 * v.z.val)
      (4.1 / 2 ^ 24 * (0.3575761 * |v.x.val| + 0.7151522 * |v.y.val| + 0.1191920 * |v.z.val|) + 3 / 2 ^ 149) ∧
    Approx (F32x4.rgbToXyz t v).z (0.1804375 * v.x.val + 0.0721750 * v.y.val + 0.9503041 * v.z.val)
      (4.1 / 2 ^ 24 * (0.1804375 * |v.x.val| + 0.0721750 * |v.y.val| + 0.9503041 * |v.z.val|) + 3 / 2 ^ 149) := by
  obtain ⟨a, ea, fa, ha⟩ := lit_rel' 0.4124564 0.4124564 (by norm_num) (by norm_num [abs_of_pos]) (by norm_num [abs_of_pos])
  obtain ⟨b, eb, fb, hb'⟩ := lit_rel' 0.2126729 0.2126729 (by norm_num) (by norm_num [abs_of_pos]) (by norm_num [abs_of_pos])
  obtain ⟨c, ec, fc, hc⟩ := lit_rel' 0.0193339 0.0193339 (by norm_num) (by norm_num [abs_of_pos]) (by norm_num [abs_of_pos])
  obtain ⟨d, ed, fd, hd⟩ := lit_rel' 0.3575761 0.3575761 (by norm_num) (by norm_num [abs_of_pos]) (by norm_num [abs_of_pos])
  obtain ⟨e, ee, fe, he⟩ := lit_rel' 0.7151522 0.7151522 (by norm_num) (by norm_num [abs_of_pos]) (by norm_num [abs_of_pos])
  obtain ⟨f, ef, ff, hf⟩ := lit_rel' 0.1191920 0.1191920 (by norm_num) (by norm_num [abs_of_pos]) (by norm_num [abs_of_pos])
  obtain ⟨g, eg, fg, hg⟩ := lit_rel' 0.1804375 0.1804375 (by norm_num) (by norm_num [abs_of_pos]) (by norm_num [abs_of_pos])
  obtain ⟨h, eh, fh, hh⟩ := lit_rel' 0.0721750 0.0721750 (by norm_num) (by norm_num [abs_of_pos]) (by norm_num [abs_of_pos])
  obtain ⟨i, ei, fi, hi⟩ := lit_rel' 0.9503041 0.9503041 (by norm_num) (by norm_num [abs_of_pos]) (by norm_num [abs_of_pos])
  have fo := lit0.1
  obtain ⟨o, eo⟩ : ∃ o, ofRat 0 = o := ⟨_, rfl⟩
  rw [eo] at fo
  rw [toXyz_form t v ea eb ec ed ee ef eg eh ei eo]
  obtain ⟨s1, s2, s3⟩ := rows t fa fb fc fd fe ff fg fh fi fo fx fy fz
  have x0 := abs_nonneg v.x.val
  have y0 := abs_nonneg v.y.val
  have z0 := abs_nonneg v.z.val
  refine ⟨lin3 s1 ha hb' hc (by norm_num [abs_of_pos]) (by linarith), lin3 s2 hd he hf (by norm_num [abs_of_pos]) (by linarith),
    lin3 s3 hg hh hi (by norm_num [abs_of_pos]) (by linarith)⟩

/-- The second matrix product. -/
theorem toRgb (t : FTarget) {v : V4 F32} {W : ℝ} (fx : v.x.isFinite = true) (fy : v.y.isFinite = true) (fz : v.z.isFinite = true)
    (hx : |v.x.val| ≤ W) (hy : |v.y.val| ≤ W) (hz : |v.z.val| ≤ W) (hb : W ≤ 2 ^ 90) :
    Approx (F32x4.xyzToRgb t v).x (3.2404542 * v.x.val + (-0.9692660) * v.y.val + 0.0556434 * v.z.val) (17.6 / 2 ^ 24 * W + 3 / 2 ^ 149) ∧
    Approx (F32x4.xyzToRgb t v).y (-1.5371385 * v.x.val + 1.8760108 * v.y.val + (-0.2040259) * v.z.val) (17.6 / 2 ^ 24 * W + 3 / 2 ^ 149) ∧
    Approx (F32x4.xyzToRgb t v).z (-0.4985314 * v.x.val + 0.0415560 * v.y.val + 1.0572252 * v.z.val) (17.6 / 2 ^ 24 * W + 3 / 2 ^ 149) := by
  obtain ⟨a, ea, fa, ha⟩ := lit_rel' 3.2404542 3.2404542 (by norm_num) (by norm_num [abs_of_pos]) (by norm_num [abs_of_pos])
  obtain ⟨b, eb, fb, hb'⟩ := lit_rel' (-0.9692660) (-0.9692660) (by norm_num) (by norm_num [abs_of_pos]) (by norm_num [abs_of_pos])
  obtain ⟨c, ec, fc, hc⟩ := lit_rel' 0.0556434 0.0556434 (by norm_num) (by norm_num [abs_of_pos]) (by norm_num [abs_of_pos])
  obtain ⟨d, ed, fd, hd⟩ := lit_rel' (-1.5371385) (-1.5371385) (by norm_num) (by norm_num [abs_of_pos]) (by norm_num [abs_of_pos])
  obtain ⟨e, ee, fe, he⟩ := lit_rel' 1.8760108 1.8760108 (by norm_num) (by norm_num [abs_of_pos]) (by norm_num [abs_of_pos])
  obtain ⟨f, ef, ff, hf⟩ := lit_rel' (-0.2040259) (-0.2040259) (by norm_num) (by norm_num [abs_of_pos]) (by norm_num [abs_of_pos])
  obtain ⟨g, eg, fg, hg⟩ := lit_rel' (-0.4985314) (-0.4985314) (by norm_num) (by norm_num [abs_of_pos]) (by norm_num [abs_of_pos])
  obtain ⟨h, eh, fh, hh⟩ := lit_rel' 0.0415560 0.0415560 (by norm_num) (by norm_num [abs_of_pos]) (by norm_num [abs_of_pos])
  obtain ⟨i, ei, fi, hi⟩ := lit_rel' 1.0572252 1.0572252 (by norm_num) (by norm_num [abs_of_pos]) (by norm_num [abs_of_pos])
  have fo := lit0.1
  obtain ⟨o, eo⟩ : ∃ o, ofRat 0 = o := ⟨_, rfl⟩
  rw [eo] at fo
  rw [toRgb_form t v ea eb ec ed ee ef eg eh ei eo]
  obtain ⟨s1, s2, s3⟩ := rows t fa fb fc fd fe ff fg fh fi fo fx fy fz
  have W0 := (abs_nonneg _).trans hx
  have fin : ∀ {r : F32} {y : ℝ}, Approx r y (4.1 / 2 ^ 24 * (4.27 * W) + 3 / 2 ^ 149) → Approx r y (17.6 / 2 ^ 24 * W + 3 / 2 ^ 149) :=
    fun h => h.mono (by norm_num; linarith)
  refine ⟨fin (lin3 s1 ha hb' hc ?_ (by norm_num at *; linarith)), fin (lin3 s2 hd he hf ?_ (by norm_num at *; linarith)),
    fin (lin3 s3 hg hh hi ?_ (by norm_num at *; linarith))⟩ <;> norm_num [abs_of_pos] <;> linarith

/-- The reciprocal of the sum. -/
theorem recip (k : Backend) {v : V4 F32} {one : F32} {S : ℝ} (o1 : one.isFinite = true) (o2 : one.val = 1) (fx : v.x.isFinite = true) (fy : v.y.isFinite = true)
    (fz : v.z.isFinite = true) (x0 : 0 ≤ v.x.val) (y0 : 0 ≤ v.y.val) (z0 : 0 ≤ v.z.val) (hS : v.x.val + v.y.val + v.z.val = S) (S1 : 1 / 2 ^ 40 ≤ S) (S2 : S ≤ 2 ^ 40) :
    (fdiv one (k.dot3 v (V4.splat one))).isFinite = true ∧ F32.Rel (fdiv one (k.dot3 v (V4.splat one))).val (1 / S) (4.05 / 2 ^ 24) 0 := by
  have S0 : 0 < S := lt_of_lt_of_le (by norm_num) S1
  have h := dot_accuracy.2.2.2.1 k v (V4.splat one) (mem3 fx fy fz) (mem3 o1 o1 o1)
  have e1 : absProd [(rv v.x, rv (V4.splat one).x), (rv v.y, rv (V4.splat one).y), (rv v.z, rv (V4.splat one).z)] = S := by
    simp only [absProd, V4.splat, rv_eq, o2, List.map_cons, List.map_nil, List.sum_cons, List.sum_nil, mul_one, abs_of_nonneg x0, abs_of_nonneg y0, abs_of_nonneg z0]
    rw [← hS]; ring
  have e2 : sumProd [(rv v.x, rv (V4.splat one).x), (rv v.y, rv (V4.splat one).y), (rv v.z, rv (V4.splat one).z)] = S := by
    simp only [sumProd, V4.splat, rv_eq, o2, List.map_cons, List.map_nil, List.sum_cons, List.sum_nil, mul_one]
    rw [← hS]; ring
  have h' := h (by rw [e1]; exact S2.trans (by norm_num))
  rw [e1, e2] at h'
  obtain ⟨fd, hd⟩ := h'
  generalize k.dot3 v (V4.splat one) = d at *
  have r : F32.Rel d.val S (3.02 / 2 ^ 24) 0 := by
    unfold F32.Rel
    rw [abs_of_pos S0]
    refine hd.trans ?_
    simp only [List.length_cons, List.length_nil]
    norm_num at S1 ⊢
    linarith
  have i1 : 1 / S ≤ 2 ^ 40 := by rw [div_le_iff₀ S0]; linarith
  have i2 : 1 / 2 ^ 40 ≤ 1 / S := by rw [le_div_iff₀ S0]; linarith
  have ip : 0 < 1 / S := by positivity
  refine div_rel' o1 fd (by rw [o2]; exact F32.Rel.refl 1) r le_rfl (by norm_num) (by norm_num) (by norm_num) (by norm_num) ?_ ?_
  · rw [abs_of_pos ip]; exact le_trans (by norm_num) i2
  · rw [abs_of_pos ip]; exact i1.trans (by norm_num)

/-- A chromaticity. -/
theorem chroma {a i : F32} {S : ℝ} (fa : a.isFinite = true) (fi : i.isFinite = true) (a0 : 0 ≤ a.val) (aS : a.val ≤ S) (S1 : 1 / 2 ^ 40 ≤ S)
    (hi : F32.Rel i.val (1 / S) (4.05 / 2 ^ 24) 0) : (fmul a i).isFinite = true ∧ F32.Rel (fmul a i).val (a.val / S) (5.1 / 2 ^ 24) (1 / 2 ^ 149) := by
  have S0 : 0 < S := lt_of_lt_of_le (by norm_num) S1
  have m := (F32.Rel.refl a.val).mul hi
  simp only [mul_zero, add_zero, zero_mul, zero_add, mul_one_div] at m
  have q0 : 0 ≤ a.val / S := div_nonneg a0 S0.le
  have q1 : a.val / S ≤ 1 := by rw [div_le_one S0]; exact aS
  have am := m.abs_le
  rw [abs_of_nonneg q0] at am
  obtain ⟨f, h⟩ := fmul_rel fa fi (by linarith)
  refine ⟨f, (m.round h (by unfold uro; norm_num)).mono (by rw [u_eq]; norm_num) (by rw [u_eq]; norm_num)⟩

/-- The two computed lanes of the conversion back. -/
theorem back {Y x' y' one : F32} {x y z S : ℝ} (o1 : one.isFinite = true) (o2 : one.val = 1) (fY : Y.isFinite = true) (hY : Y.val = y) (fx : x'.isFinite = true) (fy : y'.isFinite = true)
    (hx : F32.Rel x'.val (x / S) (5.1 / 2 ^ 24) (1 / 2 ^ 149)) (hy : F32.Rel y'.val (y / S) (5.1 / 2 ^ 24) (1 / 2 ^ 149))
    (x0 : 0 ≤ x) (y0 : S / 2 ^ 20 ≤ y) (z0 : 0 ≤ z) (hS : x + y + z = S) (S1 : 1 / 2 ^ 40 ≤ S) (S2 : S ≤ 2 ^ 40) :
    Approx (fdiv (fmul Y x') y') x (15 / 2 ^ 24 * S) ∧ Approx (fdiv (fmul Y (fsub (fsub one x') y')) y') z (15 / 2 ^ 24 * S) := by
  have S0 : 0 < S := lt_of_lt_of_le (by norm_num) S1
  have yp : 0 < y := lt_of_lt_of_le (by positivity) y0
  have yq : 1 / 2 ^ 20 ≤ y / S := by rw [le_div_iff₀ S0]; linarith
  have yqp : 0 < y / S := by positivity
  have xq : 0 ≤ x / S := div_nonneg x0 S0.le
  have zq : 0 ≤ z / S := div_nonneg z0 S0.le
  have sum : x / S + y / S + z / S = 1 := by rw [← add_div, ← add_div, hS, div_self S0.ne']
  have y60 : 1 / 2 ^ 60 ≤ y := by linarith
  have y40 : y ≤ 2 ^ 40 := by linarith
  have ryq : F32.Rel y'.val (y / S) (5.2 / 2 ^ 24) 0 := by
    unfold F32.Rel at *
    rw [abs_of_pos yqp] at *
    refine hy.trans ?_
    norm_num at yq ⊢
    linarith
  have yn : y'.val ≠ 0 := by
    have := ryq.le_abs
    rw [abs_of_pos yqp] at this
    intro h0
    rw [h0, abs_zero] at this
    norm_num at yq this
    linarith
  have den : 0.9 / 2 ^ 20 ≤ (1 - 5.2 / 2 ^ 24) * |y / S| := by
    rw [abs_of_pos yqp]; linarith
  constructor
  · have m := (F32.Rel.refl Y.val).mul hx
    simp only [mul_zero, add_zero, zero_mul, zero_add] at m
    rw [hY] at m
    have q0 : 0 ≤ y * (x / S) := mul_nonneg yp.le xq
    have q1 : y * (x / S) ≤ 2 ^ 40 * 1 := mul_le_mul y40 (by linarith) xq (by norm_num)
    have ya : (1 + 0) * |y| * (1 / 2 ^ 149) ≤ 1 / 2 ^ 109 := by rw [abs_of_pos yp]; linarith
    have m := m.mono (le_refl (5.1 / 2 ^ 24)) (a' := 1 / 2 ^ 109) (by linarith)
    have am := m.abs_le
    rw [abs_of_nonneg q0] at am
    obtain ⟨f1, h1⟩ := fmul_rel fY fx (by rw [hY]; linarith)
    rw [hY] at h1
    have n := (m.round h1 (by unfold uro; norm_num)).mono (e' := 6.2 / 2 ^ 24) (a' := 1 / 2 ^ 108) (by rw [u_eq]; norm_num) (by rw [u_eq]; norm_num)
    have dv := n.div ryq (by norm_num) yqp.ne'
    rw [show y * (x / S) / (y / S) = x by field_simp] at dv
    have ad : 1 / 2 ^ 108 / ((1 - 5.2 / 2 ^ 24) * |y / S|) ≤ 1 / 2 ^ 87 := by
      rw [div_le_iff₀ (lt_of_lt_of_le (by norm_num) den)]
      norm_num at den ⊢
      linarith
    have dv := dv.mono (e' := 11.5 / 2 ^ 24) (by norm_num) ad
    have av := dv.abs_le
    rw [abs_of_nonneg x0] at av
    have xS : x ≤ S := by linarith
    obtain ⟨f2, h2⟩ := fdiv_rel f1 fy yn (by linarith)
    have fin := (dv.round h2 (by unfold uro; norm_num)).mono (e' := 12.6 / 2 ^ 24) (a' := 1 / 2 ^ 86) (by rw [u_eq]; norm_num) (by rw [u_eq]; norm_num)
    refine ⟨f2, ?_⟩
    unfold F32.Rel at fin
    rw [abs_of_nonneg x0] at fin
    refine fin.trans ?_
    norm_num at S1 ⊢
    linarith
  · have hx' := hx
    have hy' := hy
    unfold F32.Rel at hx' hy'
    rw [abs_of_nonneg xq] at hx'
    rw [abs_of_pos yqp] at hy'
    have bx := abs_le.1 hx'
    have by' := abs_le.1 hy'
    have b1 : |one.val - x'.val| ≤ 1.01 := by rw [o2, abs_le]; norm_num at bx ⊢; constructor <;> linarith
    obtain ⟨f1, h1⟩ := fsub_err' o1 fx (lt_of_le_of_lt b1 (by norm_num))
    rw [u_eq] at h1
    have h1' : |(fsub one x').val - (one.val - x'.val)| ≤ 1 / 2 ^ 24 * 1.01 := h1.trans (mul_le_mul_of_nonneg_left b1 (by norm_num))
    generalize fsub one x' = w at *
    have c1 := abs_le.1 h1'
    have c2 := abs_le.1 b1
    have b2 : |w.val - y'.val| ≤ 1.02 := by
      rw [o2] at c1 c2
      rw [abs_le]; norm_num at bx by' c1 c2 ⊢; constructor <;> linarith
    obtain ⟨f2, h2⟩ := fsub_err' f1 fy (lt_of_le_of_lt b2 (by norm_num))
    rw [u_eq] at h2
    have h2' : |(fsub w y').val - (w.val - y'.val)| ≤ 1 / 2 ^ 24 * 1.02 := h2.trans (mul_le_mul_of_nonneg_left b2 (by norm_num))
    generalize fsub w y' = m at *
    have c3 := abs_le.1 h2'
    have rm : F32.Rel m.val (z / S) 0 (7.4 / 2 ^ 24) := by
      unfold F32.Rel
      rw [zero_mul, zero_add, abs_le]
      rw [o2] at c1
      norm_num at bx by' c1 c3 ⊢
      constructor <;> linarith
    have n := (F32.Rel.refl Y.val).mul rm
    simp only [mul_zero, add_zero, zero_mul, zero_add] at n
    rw [hY, abs_of_pos yp] at n
    have zq1 : z / S ≤ 1 := by linarith
    have q0 : 0 ≤ y * (z / S) := mul_nonneg yp.le zq
    have q1 : y * (z / S) ≤ 2 ^ 40 * 1 := mul_le_mul y40 zq1 zq (by norm_num)
    have am := n.abs_le
    rw [abs_of_nonneg q0] at am
    obtain ⟨f3, h3⟩ := fmul_rel fY f2 (by rw [hY]; linarith)
    rw [hY] at h3
    have n2 := (n.round h3 (by unfold uro; norm_num)).mono (e' := 1 / 2 ^ 24) (a' := 7.5 / 2 ^ 24 * y) (by rw [u_eq]; norm_num) (by
      rw [u_eq]; linarith)
    have dv := n2.div ryq (by norm_num) yqp.ne'
    rw [show y * (z / S) / (y / S) = z by field_simp] at dv
    have ad : 7.5 / 2 ^ 24 * y / ((1 - 5.2 / 2 ^ 24) * |y / S|) ≤ 7.6 / 2 ^ 24 * S := by
      rw [abs_of_pos yqp, show 7.5 / 2 ^ 24 * y / ((1 - 5.2 / 2 ^ 24) * (y / S)) = 7.5 / 2 ^ 24 / (1 - 5.2 / 2 ^ 24) * S by field_simp]
      refine mul_le_mul_of_nonneg_right (by norm_num) S0.le
    have dv := dv.mono (e' := 6.3 / 2 ^ 24) (by norm_num) ad
    have av := dv.abs_le
    rw [abs_of_nonneg z0] at av
    have zS : z ≤ S := by linarith
    obtain ⟨f4, h4⟩ := fdiv_rel f3 fy yn (by linarith)
    have fin := (dv.round h4 (by unfold uro; norm_num)).mono (e' := 7.31 / 2 ^ 24) (a' := 7.62 / 2 ^ 24 * S) (by rw [u_eq]; norm_num) (by
      rw [u_eq]; linarith)
    refine ⟨f4, ?_⟩
    unfold F32.Rel at fin
    rw [abs_of_nonneg z0] at fin
    refine fin.trans ?_
    norm_num
    linarith

/-- From values close to the exact ones back to the color. -/
theorem fromXyz (t : FTarget) {p : V4 F32} {r g b B ε W : ℝ} (fx : p.x.isFinite = true) (fy : p.y.isFinite = true) (fz : p.z.isFinite = true)
    (px : |p.x.val - (0.4124564 * r + 0.2126729 * g + 0.0193339 * b)| ≤ ε) (py : |p.y.val - (0.3575761 * r + 0.7151522 * g + 0.1191920 * b)| ≤ ε)
    (pz : |p.z.val - (0.1804375 * r + 0.0721750 * g + 0.9503041 * b)| ≤ ε) (hr : |r| ≤ B) (hg : |g| ≤ B) (hb : |b| ≤ B)
    (wx : |p.x.val| ≤ W) (wy : |p.y.val| ≤ W) (wz : |p.z.val| ≤ W) (W2 : W ≤ 2 ^ 90) :
    NearV (F32x4.xyzToRgb t p) ![r, g, b] (1e-6 * B + 4.3 * ε + 17.6 / 2 ^ 24 * W + 3 / 2 ^ 149) := by
  obtain ⟨q1, q2, q3⟩ := toRgb t fx fy fz wx wy wz W2
  rw [abs_le] at px py pz hr hg hb
  obtain ⟨x1, x2⟩ := px
  obtain ⟨y1, y2⟩ := py
  obtain ⟨z1, z2⟩ := pz
  obtain ⟨r1, r2⟩ := hr
  obtain ⟨g1, g2⟩ := hg
  obtain ⟨b1, b2⟩ := hb
  have fin : ∀ {r : F32} {x y : ℝ}, Approx r x (17.6 / 2 ^ 24 * W + 3 / 2 ^ 149) → |x - y| ≤ 1e-6 * B + 4.3 * ε →
      Near r y (1e-6 * B + 4.3 * ε + 17.6 / 2 ^ 24 * W + 3 / 2 ^ 149) := fun h h' => (h.trans h').mono (by linarith)
  refine ⟨fin q1 ?_, fin q2 ?_, fin q3 ?_⟩ <;> simp only [Matrix.cons_val] <;> rw [abs_le] <;> constructor <;> linarith

/-- The sizes of the XYZ values of a color with non-negative channels. -/
theorem xyz_size {r g b : ℝ} (hr : 0 ≤ r) (hg : 0 ≤ g) (hb : 0 ≤ b) :
    let X := 0.4124564 * r + 0.2126729 * g + 0.0193339 * b
    let Y := 0.3575761 * r + 0.7151522 * g + 0.1191920 * b
    let Z := 0.1804375 * r + 0.0721750 * g + 0.9503041 * b
    0.019 * (r + g + b) ≤ X ∧ 0.11 * (r + g + b) ≤ Y ∧ 0.07 * (r + g + b) ≤ Z ∧ X + Y + Z ≤ 1.089 * (r + g + b) ∧ 0.9 * (r + g + b) ≤ X + Y + Z := by
  intro X Y Z
  simp only [X, Y, Z]
  refine ⟨?_, ?_, ?_, ?_, ?_⟩ <;> linarith

theorem step20 {P Q A S T : ℝ} (h : |Q - P| ≤ 15 / 2 ^ 24 * S) (h' : |P - A| ≤ 4.1 / 2 ^ 24 * A + 3 / 2 ^ 149) (hA : A ≤ 1.089 * T)
    (hS : S ≤ 1.09 * T) (hT : 1 / 2 ^ 30 ≤ T) : |Q - A| ≤ 20.9 / 2 ^ 24 * T := by
  refine (abs_sub_le Q P A).trans ?_
  linarith

theorem size11 {Q A T : ℝ} (h : |Q - A| ≤ 20.9 / 2 ^ 24 * T) (h0 : 0 ≤ A) (h1 : A ≤ 1.089 * T) (hT : 0 < T) : |Q| ≤ 1.1 * T := by
  rw [abs_le] at h ⊢
  constructor <;> linarith

end ColorSpaceP
open ColorSpaceP BrdfF32

/-- C132: `xyzToYxy` in binary32: the first lane is the luminance, the other two are the chromaticities `x / (x + y + z)` and
`y / (x + y + z)` up to a relative error of `5.1 * 2^-24`, on every backend. -/
theorem xyzToYxy_f32 (k : Backend) (v : V4 F32) (S : ℝ) (fx : v.x.isFinite = true) (fy : v.y.isFinite = true) (fz : v.z.isFinite = true)
    (x0 : 0 ≤ rv v.x) (y0 : 0 ≤ rv v.y) (z0 : 0 ≤ rv v.z) (hS : rv v.x + rv v.y + rv v.z = S) (S1 : 1 / 2 ^ 40 ≤ S) (S2 : S ≤ 2 ^ 40) :
    (F32x4.xyzToYxy k v).x = v.y ∧ Near (F32x4.xyzToYxy k v).y (rv v.x / S) (5.1 / 2 ^ 24 * (rv v.x / S) + 1 / 2 ^ 149) ∧
      Near (F32x4.xyzToYxy k v).z (rv v.y / S) (5.1 / 2 ^ 24 * (rv v.y / S) + 1 / 2 ^ 149) := by
  obtain ⟨o1, o2⟩ := one_val
  obtain ⟨fi, hi⟩ := recip k o1 o2 fx fy fz x0 y0 z0 hS S1 S2
  have S0 : 0 < S := lt_of_lt_of_le (by norm_num) S1
  have cx := chroma fx fi x0 (by simp only [rv_eq] at *; linarith) S1 hi
  have cy := chroma fy fi y0 (by simp only [rv_eq] at *; linarith) S1 hi
  refine ⟨rfl, ⟨cx.1, ?_⟩, ⟨cy.1, ?_⟩⟩
  · have := cx.2
    unfold F32.Rel at this
    rw [abs_of_nonneg (show 0 ≤ v.x.val / S from div_nonneg x0 S0.le)] at this
    exact this
  · have := cy.2
    unfold F32.Rel at this
    rw [abs_of_nonneg (show 0 ≤ v.y.val / S from div_nonneg y0 S0.le)] at this
    exact this

/-- C132: converting to Yxy and back in binary32 returns every XYZ color with non-negative lanes, up to `15 * 2^-24` of the sum of
the lanes, if the luminance is at least a millionth of the sum. -/
theorem yxy_roundtrip_f32 (k : Backend) (v : V4 F32) (S : ℝ) (fx : v.x.isFinite = true) (fy : v.y.isFinite = true) (fz : v.z.isFinite = true)
    (x0 : 0 ≤ rv v.x) (y0 : S / 2 ^ 20 ≤ rv v.y) (z0 : 0 ≤ rv v.z) (hS : rv v.x + rv v.y + rv v.z = S) (S1 : 1 / 2 ^ 40 ≤ S) (S2 : S ≤ 2 ^ 40) :
    NearV (F32x4.yxyToXyz (F32x4.xyzToYxy k v)) (exact3 v) (15 / 2 ^ 24 * S) := by
  obtain ⟨o1, o2⟩ := one_val
  have S0 : 0 < S := lt_of_lt_of_le (by norm_num) S1
  have y0' : 0 ≤ rv v.y := le_trans (by positivity) y0
  obtain ⟨fi, hi⟩ := recip k o1 o2 fx fy fz x0 y0' z0 hS S1 S2
  have cx := chroma fx fi x0 (by simp only [rv_eq] at *; linarith) S1 hi
  have cy := chroma fy fi y0' (by simp only [rv_eq] at *; linarith) S1 hi
  obtain ⟨b1, b2⟩ := back o1 o2 fy rfl cx.1 cy.1 cx.2 cy.2 x0 y0 z0 hS S1 S2
  refine ⟨b1, ⟨fy, ?_⟩, b2⟩
  change |rv v.y - rv v.y| ≤ _
  rw [sub_self, abs_zero]; positivity

/-- C132: converting linear colors to XYZ and back in binary32, for channels of any sign of at most `B`: up to `4e-6 * B`. -/
theorem xyz_roundtrip_f32 (t : FTarget) (v : V4 F32) (B : ℝ) (fx : v.x.isFinite = true) (fy : v.y.isFinite = true) (fz : v.z.isFinite = true)
    (hx : |rv v.x| ≤ B) (hy : |rv v.y| ≤ B) (hz : |rv v.z| ≤ B) (B1 : 1 / 2 ^ 100 ≤ B) (B2 : B ≤ 2 ^ 80) :
    NearV (F32x4.xyzToRgb t (F32x4.rgbToXyz t v)) (exact3 v) (4e-6 * B) := by
  simp only [rv_eq] at hx hy hz
  obtain ⟨⟨f1, a1⟩, ⟨f2, a2⟩, ⟨f3, a3⟩⟩ := toXyz t fx fy fz (W := 3 * B) (by linarith) (by linarith)
  generalize F32x4.rgbToXyz t v = p at *
  have bx := abs_le.1 hx
  have by' := abs_le.1 hy
  have bz := abs_le.1 hz
  have ax := abs_nonneg v.x.val
  have ay := abs_nonneg v.y.val
  have az := abs_nonneg v.z.val
  have b1 : |p.x.val - (0.4124564 * v.x.val + 0.2126729 * v.y.val + 0.0193339 * v.z.val)| ≤ 5 / 2 ^ 24 * B := a1.trans (by linarith)
  have b2 : |p.y.val - (0.3575761 * v.x.val + 0.7151522 * v.y.val + 0.1191920 * v.z.val)| ≤ 5 / 2 ^ 24 * B := a2.trans (by linarith)
  have b3 : |p.z.val - (0.1804375 * v.x.val + 0.0721750 * v.y.val + 0.9503041 * v.z.val)| ≤ 5 / 2 ^ 24 * B := a3.trans (by linarith)
  have c1 := abs_le.1 b1
  have c2 := abs_le.1 b2
  have c3 := abs_le.1 b3
  have q := fromXyz t f1 f2 f3 b1 b2 b3 hx hy hz (W := 1.21 * B) (by rw [abs_le]; constructor <;> linarith)
    (by rw [abs_le]; constructor <;> linarith) (by rw [abs_le]; constructor <;> linarith) (by linarith)
  have n : 1e-6 * B + 4.3 * (5 / 2 ^ 24 * B) + 17.6 / 2 ^ 24 * (1.21 * B) + 3 / 2 ^ 149 ≤ 4e-6 * B := by linarith
  exact ⟨Approx.mono q.1 n, Approx.mono q.2.1 n, Approx.mono q.2.2 n⟩

/-- C132: XYZ values in binary32: each is the exact combination of the linear channels with the matrix in the code (the
transpose of the standard one, see C65), up to `4.1` rounding
units of its own size when the channels are non-negative. -/
theorem rgbToXyz_f32 (t : FTarget) (v : V4 F32) (fx : v.x.isFinite = true) (fy : v.y.isFinite = true) (fz : v.z.isFinite = true)
    (x0 : 0 ≤ rv v.x) (y0 : 0 ≤ rv v.y) (z0 : 0 ≤ rv v.z) (hT : rv v.x + rv v.y + rv v.z ≤ 2 ^ 99) :
    let X := 0.4124564 * rv v.x + 0.2126729 * rv v.y + 0.0193339 * rv v.z
    let Y := 0.3575761 * rv v.x + 0.7151522 * rv v.y + 0.1191920 * rv v.z
    let Z := 0.1804375 * rv v.x + 0.0721750 * rv v.y + 0.9503041 * rv v.z
    Near (F32x4.rgbToXyz t v).x X (4.1 / 2 ^ 24 * X + 3 / 2 ^ 149) ∧ Near (F32x4.rgbToXyz t v).y Y (4.1 / 2 ^ 24 * Y + 3 / 2 ^ 149) ∧
      Near (F32x4.rgbToXyz t v).z Z (4.1 / 2 ^ 24 * Z + 3 / 2 ^ 149) := by
  simp only [rv_eq] at x0 y0 z0 hT ⊢
  have h := toXyz t fx fy fz (W := v.x.val + v.y.val + v.z.val) (by rw [abs_of_nonneg x0, abs_of_nonneg y0, abs_of_nonneg z0]) hT
  rw [abs_of_nonneg x0, abs_of_nonneg y0, abs_of_nonneg z0] at h
  exact h

set_option maxHeartbeats 2000000 in
/-- C132: converting linear colors to Yxy and back in binary32: every color with non-negative channels whose sum `T` is between `2^-30`
and `2^30` comes back up to `1e-5 * T`, on every backend and with every kind of multiply-add. -/
theorem rgb_yxy_roundtrip_f32 (k : Backend) (t : FTarget) (v : V4 F32) (T : ℝ) (fx : v.x.isFinite = true) (fy : v.y.isFinite = true) (fz : v.z.isFinite = true)
    (x0 : 0 ≤ rv v.x) (y0 : 0 ≤ rv v.y) (z0 : 0 ≤ rv v.z) (hT : rv v.x + rv v.y + rv v.z = T) (T1 : 1 / 2 ^ 30 ≤ T) (T2 : T ≤ 2 ^ 30) :
    NearV (F32x4.yxyToRgb t (F32x4.rgbToYxy k t v)) (exact3 v) (1e-5 * T) := by
  simp only [rv_eq] at x0 y0 z0 hT
  have T0 : 0 < T := lt_of_lt_of_le (by norm_num) T1
  obtain ⟨⟨f1, a1⟩, ⟨f2, a2⟩, ⟨f3, a3⟩⟩ := toXyz t fx fy fz (W := T) (by rw [abs_of_nonneg x0, abs_of_nonneg y0, abs_of_nonneg z0, hT]) (by linarith)
  unfold F32x4.yxyToRgb F32x4.rgbToYxy
  rw [abs_of_nonneg x0, abs_of_nonneg y0, abs_of_nonneg z0] at a1 a2 a3
  obtain ⟨s1, s2, s3, s4, s5⟩ := xyz_size x0 y0 z0
  rw [hT] at s1 s2 s3 s4 s5
  generalize F32x4.rgbToXyz t v = p at *
  generalize eX : 0.4124564 * v.x.val + 0.2126729 * v.y.val + 0.0193339 * v.z.val = X at *
  generalize eY : 0.3575761 * v.x.val + 0.7151522 * v.y.val + 0.1191920 * v.z.val = Y at *
  generalize eZ : 0.1804375 * v.x.val + 0.0721750 * v.y.val + 0.9503041 * v.z.val = Z at *
  have c1 := abs_le.1 a1
  have c2 := abs_le.1 a2
  have c3 := abs_le.1 a3
  have p1 : 0 ≤ p.x.val := by linarith
  have p2 : 0 ≤ p.y.val := by linarith
  have p3 : 0 ≤ p.z.val := by linarith
  have su : p.x.val + p.y.val + p.z.val ≤ 1.09 * T := by linarith
  have sl : 0.89 * T ≤ p.x.val + p.y.val + p.z.val := by linarith
  obtain ⟨⟨g1, h1⟩, ⟨g2, h2⟩, ⟨g3, h3⟩⟩ := yxy_roundtrip_f32 k p _ f1 f2 f3 p1 (by
    simp only [rv_eq]; linarith) p3 rfl (by simp only [rv_eq]; linarith) (by simp only [rv_eq]; linarith)
  simp only [rv_eq, exact3] at h1 h2 h3
  simp only [Matrix.cons_val] at h1 h2 h3
  generalize F32x4.yxyToXyz (F32x4.xyzToYxy k p) = q at *
  have step := fun {P Q A : ℝ} (h : |Q - P| ≤ 15 / 2 ^ 24 * (p.x.val + p.y.val + p.z.val)) (h' : |P - A| ≤ 4.1 / 2 ^ 24 * A + 3 / 2 ^ 149) (hA : A ≤ 1.089 * T) =>
    step20 h h' hA su T1
  have d1 : |q.x.val - X| ≤ 20.9 / 2 ^ 24 * T := step h1 a1 (by linarith)
  have d2 : |q.y.val - Y| ≤ 20.9 / 2 ^ 24 * T := step h2 a2 (by linarith)
  have d3 : |q.z.val - Z| ≤ 20.9 / 2 ^ 24 * T := step h3 a3 (by linarith)
  subst eX eY eZ
  have r := fromXyz t g1 g2 g3 d1 d2 d3 (B := T) (by rw [abs_of_nonneg x0]; linarith) (by rw [abs_of_nonneg y0]; linarith) (by rw [abs_of_nonneg z0]; linarith)
    (W := 1.1 * T) (size11 d1 (by linarith) (by linarith) T0) (size11 d2 (by linarith) (by linarith) T0)
    (size11 d3 (by linarith) (by linarith) T0) (by linarith)
  have n : 1e-6 * T + 4.3 * (20.9 / 2 ^ 24 * T) + 17.6 / 2 ^ 24 * (1.1 * T) + 3 / 2 ^ 149 ≤ 1e-5 * T := by linarith
  exact ⟨Approx.mono r.1 n, Approx.mono r.2.1 n, Approx.mono r.2.2 n⟩

/-- C132 fails for black: both chromaticities are NaN, on every backend. -/
theorem rgbToYxy_black_targets (k : Backend) (t : FTarget) :
    (F32x4.rgbToYxy k t ⟨⟨0⟩, ⟨0⟩, ⟨0⟩, ⟨0⟩⟩).y.isNaN = true ∧ (F32x4.rgbToYxy k t ⟨⟨0⟩, ⟨0⟩, ⟨0⟩, ⟨0⟩⟩).z.isNaN = true := by
  rcases t with b | b <;> rcases b <;> rcases k <;> decide +kernel

/-- An ordinary color meets the hypotheses of the round trips: red 1/2, green 1/2, blue 1/4. -/
example (k : Backend) (t : FTarget) (a b : F32) (fa : a.isFinite = true) (fb : b.isFinite = true) (ha : rv a = 1 / 2) (hb : rv b = 1 / 4) :
    NearV (F32x4.yxyToRgb t (F32x4.rgbToYxy k t ⟨a, a, b, b⟩)) (exact3 ⟨a, a, b, b⟩) (1e-5 * 1.25) ∧
    NearV (F32x4.xyzToRgb t (F32x4.rgbToXyz t ⟨a, a, b, b⟩)) (exact3 ⟨a, a, b, b⟩) (4e-6 * 1) := by
  constructor
  · apply rgb_yxy_roundtrip_f32 <;> first | assumption | (simp only [ha, hb]; norm_num) | norm_num
  · apply xyz_roundtrip_f32 <;> first | assumption | (simp only [ha, hb]; norm_num [abs_le]) | norm_num

/-- There are such floats. -/
example : ∃ a b : F32, a.isFinite = true ∧ b.isFinite = true ∧ rv a = 1 / 2 ∧ rv b = 1 / 4 := by
  obtain ⟨h1, h2⟩ := lit_exact (q := 1 / 2) (U := 2 ^ 148) (by decide +kernel) (by decide +kernel)
  obtain ⟨h3, h4⟩ := lit_exact (q := 1 / 4) (U := 2 ^ 147) (by decide +kernel) (by decide +kernel)
  exact ⟨_, _, h1, h3, h2.trans (by norm_num), h4.trans (by norm_num)⟩

end Verif
