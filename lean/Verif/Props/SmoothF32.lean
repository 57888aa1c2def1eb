import Verif.Spec.SmoothF32
import Verif.Props.Scalar
import Verif.Props.LengthAccuracy
import Verif.Props.BoxF32

/-!
# C137: smoothing over frames in binary32
-/

namespace Verif
open F32 Spec

namespace SmoothF32

/-- One frame. -/
theorem step {f : F32 → F32 → F32} (hf : PowUnitOk f) {o a b c t : F32} {K : ℝ} (ho : o.isFinite = true ∧ o.val = 1)
    (fa : a.isFinite = true) (fb : b.isFinite = true) (fc : c.isFinite = true) (ft : t.isFinite = true) (ha : |a.val| ≤ K)
    (hb : |b.val| ≤ K) (hK : K ≤ 2 ^ 121) (c0 : 0 < c.val) (c1 : c.val ≤ 1) (t0 : 0 ≤ t.val) :
    Near (fadd a (fmul (fsub o (f c t)) (fsub b a))) (smoothed a.val b.val c.val t.val) (13.1 * (uro * K) + 1.1 / 2 ^ 150) := by
  have hu := uro_pos
  have K0 : 0 ≤ K := (abs_nonneg _).trans ha
  obtain ⟨fp, ep⟩ := hf c t fc ft c0 c1 t0
  change |(f c t).val - c.val ^ t.val| ≤ 1 / 2 ^ 22 * c.val ^ t.val + 1 / 2 ^ 149 at ep
  unfold smoothed
  have p0 : 0 < c.val ^ t.val := Real.rpow_pos_of_pos c0 _
  have p1 : c.val ^ t.val ≤ 1 := Real.rpow_le_one c0.le c1 t0
  generalize f c t = q at *
  generalize c.val ^ t.val = p at *
  obtain ⟨e1, e2⟩ := abs_le.1 ep
  have w0 : |o.val - q.val| ≤ 1 - p + 1 / 2 ^ 22 * p + 1 / 2 ^ 149 := by
    rw [ho.2, abs_le]; constructor <;> norm_num at * <;> linarith
  obtain ⟨fw, ew⟩ := fsub_err' ho.1 fp (lt_of_le_of_lt w0 (by norm_num; linarith))
  have ew' : |(fsub o q).val - (1 - p)| ≤ 4.001 * uro := by
    have t := abs_add_le ((fsub o q).val - (o.val - q.val)) (o.val - q.val - (1 - p))
    rw [sub_add_sub_cancel] at t
    have m := mul_le_mul_of_nonneg_left w0 hu.le
    have : |o.val - q.val - (1 - p)| ≤ 1 / 2 ^ 22 * p + 1 / 2 ^ 149 := by
      rw [ho.2, show 1 - q.val - (1 - p) = -(q.val - p) by ring, abs_neg]; exact ep
    rw [BoxF32.small_u] at *
    norm_num at *; linarith
  clear ew
  generalize fsub o q = w at *
  have D : |b.val - a.val| ≤ 2 * K := by
    have := abs_sub b.val a.val; linarith
  obtain ⟨fd, ed⟩ := fsub_err' fb fa (lt_of_le_of_lt D (by norm_num at *; linarith))
  generalize fsub b a = d at *
  have ed' : |d.val - (b.val - a.val)| ≤ 2 * (uro * K) := ed.trans (by
    have := mul_le_mul_of_nonneg_left D hu.le; linarith)
  have uK : 0 ≤ uro * K := mul_nonneg hu.le K0
  have uK' : uro * K ≤ 1 / 2 ^ 20 * K := mul_le_mul_of_nonneg_right (by rw [BoxF32.small_u]; norm_num) K0
  have uuK : uro * (uro * K) ≤ 1 / 2 ^ 20 * (uro * K) := mul_le_mul_of_nonneg_right (by rw [BoxF32.small_u]; norm_num) uK
  have db : |d.val| ≤ 2.0001 * K := by
    have := abs_add_le (d.val - (b.val - a.val)) (b.val - a.val)
    rw [sub_add_cancel] at this
    norm_num at *; linarith
  have wb : |w.val| ≤ 1.0001 := by
    have := abs_add_le (w.val - (1 - p)) (1 - p)
    rw [sub_add_cancel, abs_of_nonneg (show 0 ≤ 1 - p by linarith)] at this
    rw [BoxF32.small_u] at ew'
    norm_num at *; linarith
  have wd : |w.val * d.val - (1 - p) * (b.val - a.val)| ≤ 10.01 * (uro * K) := by
    rw [show w.val * d.val - (1 - p) * (b.val - a.val) = (w.val - (1 - p)) * d.val + (1 - p) * (d.val - (b.val - a.val)) by ring]
    refine (abs_add_le _ _).trans ?_
    rw [abs_mul, abs_mul, abs_of_nonneg (show 0 ≤ 1 - p by linarith)]
    have m1 := mul_le_mul ew' db (abs_nonneg _) (by linarith)
    have m2 : (1 - p) * |d.val - (b.val - a.val)| ≤ 1 * (2 * (uro * K)) := mul_le_mul (by linarith) ed' (abs_nonneg _) (by norm_num)
    norm_num at *; linarith
  have wdb : |w.val * d.val| ≤ 2.001 * K := by
    rw [abs_mul]
    refine (mul_le_mul wb db (abs_nonneg _) (by norm_num)).trans ?_
    norm_num; linarith
  obtain ⟨fm, em⟩ := fmul_rel fw fd (lt_of_le_of_lt wdb (by norm_num at *; linarith))
  generalize fmul w d = m at *
  have em' : |m.val - (1 - p) * (b.val - a.val)| ≤ 12.02 * (uro * K) + 1 / 2 ^ 150 := by
    have t := abs_add_le (m.val - w.val * d.val) (w.val * d.val - (1 - p) * (b.val - a.val))
    rw [sub_add_sub_cancel] at t
    have := mul_le_mul_of_nonneg_left wdb hu.le
    norm_num at *; linarith
  have conv : |a.val + (1 - p) * (b.val - a.val)| ≤ K := by
    rw [show a.val + (1 - p) * (b.val - a.val) = p * a.val + (1 - p) * b.val by ring]
    refine (abs_add_le _ _).trans ?_
    rw [abs_mul, abs_mul, abs_of_pos p0, abs_of_nonneg (show 0 ≤ 1 - p by linarith)]
    nlinarith
  have am : |a.val + m.val| ≤ 1.0001 * K + 1 / 2 ^ 150 := by
    have t := abs_add_le (m.val - (1 - p) * (b.val - a.val)) (a.val + (1 - p) * (b.val - a.val))
    rw [show m.val - (1 - p) * (b.val - a.val) + (a.val + (1 - p) * (b.val - a.val)) = a.val + m.val by ring] at t
    norm_num at *; linarith
  obtain ⟨fr, er⟩ := fadd_err' fa fm (lt_of_le_of_lt am (by norm_num at *; linarith))
  refine ⟨fr, ?_⟩
  change |(fadd a m).val - _| ≤ _
  have t := abs_add_le ((fadd a m).val - (a.val + m.val)) (m.val - (1 - p) * (b.val - a.val))
  rw [show (fadd a m).val - (a.val + m.val) + (m.val - (1 - p) * (b.val - a.val)) = (fadd a m).val - (b.val + p * (a.val - b.val)) by ring] at t
  have m3 := mul_le_mul_of_nonneg_left am hu.le
  have tiny : uro * (1 / 2 ^ 150) ≤ 0.01 / 2 ^ 150 := by rw [BoxF32.small_u]; norm_num
  norm_num at *
  linarith

theorem smoothed_add (a b f s t : ℝ) (hf : 0 < f) : smoothed (smoothed a b f s) b f t = smoothed a b f (s + t) := by
  unfold smoothed
  rw [Real.rpow_add hf]; ring

theorem smoothed_lip (a a' b f t : ℝ) (hf : 0 < f) (hf1 : f ≤ 1) (ht : 0 ≤ t) :
    |smoothed a b f t - smoothed a' b f t| ≤ |a - a'| := by
  unfold smoothed
  rw [show b + f ^ t * (a - b) - (b + f ^ t * (a' - b)) = f ^ t * (a - a') by ring, abs_mul, abs_of_pos (Real.rpow_pos_of_pos hf _)]
  have := Real.rpow_le_one hf.le hf1 ht
  nlinarith [abs_nonneg (a - a')]

end SmoothF32

/-- One call of `lerpDelta` per frame. -/
def smoothF32 (T : FltT F32) (a b f : F32) : List F32 → F32
  | [] => a
  | dt :: rest => smoothF32 T (Scalar.lerpDelta a b f dt) b f rest

open SmoothF32

/-- C137: after any sequence of up to 65536 frames the value computed in binary32 is within `14 M / 2^24` per frame of the
exact value at the total time. -/
theorem lerpDelta_frames_f32 (T : FltT F32) (hT : PowUnitOk T.pow) (a b f : F32) (dts : List F32) (M : ℝ) (fa : a.isFinite = true)
    (fb : b.isFinite = true) (ff : f.isFinite = true) (ha : |rv a| ≤ M) (hb : |rv b| ≤ M) (hM : M ≤ 2 ^ 120) (f0 : 0 < rv f)
    (f1 : rv f ≤ 1) (hd : ∀ dt ∈ dts, dt.isFinite = true ∧ 0 ≤ rv dt) (hn : dts.length ≤ 2 ^ 16) :
    Near (smoothF32 T a b f dts) (smoothed (rv a) (rv b) (rv f) (dts.map rv).sum) (dts.length * (14 * M / 2 ^ 24 + 1 / 2 ^ 149)) := by
  have M0 : 0 ≤ M := (abs_nonneg _).trans ha
  have key : ∀ (l : List F32) (k : ℕ) (x : F32), x.isFinite = true → |rv x| ≤ M + k * (14 * M / 2 ^ 24 + 1 / 2 ^ 149) →
      k + l.length ≤ 2 ^ 16 → (∀ dt ∈ l, dt.isFinite = true ∧ 0 ≤ rv dt) →
      Near (smoothF32 T x b f l) (smoothed (rv x) (rv b) (rv f) (l.map rv).sum) (l.length * (14 * M / 2 ^ 24 + 1 / 2 ^ 149)) := by
    intro l
    induction l with
    | nil =>
      intro k x fx hx _ _
      refine ⟨fx, ?_⟩
      simp [smoothF32, smoothed]
    | cons t l ih =>
      intro k x fx hx hk hl
      have ht := hl t (by simp)
      have k16 : (k : ℝ) + 1 ≤ 2 ^ 16 := by
        have : k + 1 ≤ 2 ^ 16 := by simp at hk; omega
        exact_mod_cast this
      have kE : (k : ℝ) * (14 * M / 2 ^ 24 + 1 / 2 ^ 149) ≤ 2 ^ 16 * (14 * M / 2 ^ 24 + 1 / 2 ^ 149) :=
        mul_le_mul_of_nonneg_right (by linarith) (by positivity)
      have hK : |x.val| ≤ 1.055 * M + 1 / 2 ^ 133 := hx.trans (by norm_num at *; linarith)
      have hKb : |b.val| ≤ 1.055 * M + 1 / 2 ^ 133 := hb.trans (by norm_num at *; linarith)
      have s := step hT LenAcc.one_lit fx fb ff ht.1 hK hKb (by norm_num at *; linarith) f0 f1 ht.2
      obtain ⟨s1, s2⟩ := s
      have s3 : |rv (Scalar.lerpDelta x b f t) - smoothed (rv x) (rv b) (rv f) (rv t)| ≤ 14 * M / 2 ^ 24 + 1 / 2 ^ 149 := by
        refine s2.trans ?_
        rw [BoxF32.small_u]
        norm_num; linarith
      have conv : |smoothed (rv x) (rv b) (rv f) (rv t)| ≤ M + k * (14 * M / 2 ^ 24 + 1 / 2 ^ 149) := by
        have p0 : 0 < rv f ^ rv t := Real.rpow_pos_of_pos f0 _
        have p1 : rv f ^ rv t ≤ 1 := Real.rpow_le_one f0.le f1 ht.2
        have hb' : |rv b| ≤ M + k * (14 * M / 2 ^ 24 + 1 / 2 ^ 149) := hb.trans (le_add_of_nonneg_right (by positivity))
        unfold smoothed
        rw [show rv b + rv f ^ rv t * (rv x - rv b) = rv f ^ rv t * rv x + (1 - rv f ^ rv t) * rv b by ring]
        refine (abs_add_le _ _).trans ?_
        rw [abs_mul, abs_mul, abs_of_pos p0, abs_of_nonneg (show 0 ≤ 1 - rv f ^ rv t by linarith)]
        nlinarith
      have bx : |rv (Scalar.lerpDelta x b f t)| ≤ M + (k + 1 : ℕ) * (14 * M / 2 ^ 24 + 1 / 2 ^ 149) := by
        have := abs_add_le (rv (Scalar.lerpDelta x b f t) - smoothed (rv x) (rv b) (rv f) (rv t)) (smoothed (rv x) (rv b) (rv f) (rv t))
        rw [sub_add_cancel] at this
        push_cast
        linarith
      obtain ⟨r1, r2⟩ := ih (k + 1) (Scalar.lerpDelta x b f t) s1 bx (by simp at hk; omega) (fun d hd => hl d (by simp [hd]))
      refine ⟨r1, ?_⟩
      have S0 : 0 ≤ (l.map rv).sum := List.sum_nonneg (fun z hz => by
        obtain ⟨d, hd, rfl⟩ := List.mem_map.1 hz
        exact (hl d (by simp [hd])).2)
      have lip := smoothed_lip (rv (Scalar.lerpDelta x b f t)) (smoothed (rv x) (rv b) (rv f) (rv t)) (rv b) (rv f) _ f0 f1 S0
      rw [smoothed_add _ _ _ _ _ f0] at lip
      rw [List.map_cons, List.sum_cons]
      change |rv (smoothF32 T (Scalar.lerpDelta x b f t) b f l) - _| ≤ _
      have t3 := abs_add_le (rv (smoothF32 T (Scalar.lerpDelta x b f t) b f l) - smoothed (rv (Scalar.lerpDelta x b f t)) (rv b) (rv f) (l.map rv).sum)
        (smoothed (rv (Scalar.lerpDelta x b f t)) (rv b) (rv f) (l.map rv).sum - smoothed (rv x) (rv b) (rv f) (rv t + (l.map rv).sum))
      rw [sub_add_sub_cancel] at t3
      rw [List.length_cons]
      push_cast
      refine t3.trans ?_
      refine (add_le_add r2 (lip.trans s3)).trans (le_of_eq (by ring))
  exact key dts 0 a fa (by simpa using ha) (by simpa using hn) hd

/-- C137: two ways of splitting the same total time into frames give the same value up to the sum of their errors. -/
theorem lerpDelta_split_f32 (T : FltT F32) (hT : PowUnitOk T.pow) (a b f : F32) (xs ys : List F32) (M : ℝ) (fa : a.isFinite = true)
    (fb : b.isFinite = true) (ff : f.isFinite = true) (ha : |rv a| ≤ M) (hb : |rv b| ≤ M) (hM : M ≤ 2 ^ 120) (f0 : 0 < rv f)
    (f1 : rv f ≤ 1) (hx : ∀ dt ∈ xs, dt.isFinite = true ∧ 0 ≤ rv dt) (hy : ∀ dt ∈ ys, dt.isFinite = true ∧ 0 ≤ rv dt)
    (nx : xs.length ≤ 2 ^ 16) (ny : ys.length ≤ 2 ^ 16) (h : (xs.map rv).sum = (ys.map rv).sum) :
    |rv (smoothF32 T a b f xs) - rv (smoothF32 T a b f ys)| ≤ (xs.length + ys.length) * (14 * M / 2 ^ 24 + 1 / 2 ^ 149) := by
  obtain ⟨-, e1⟩ := lerpDelta_frames_f32 T hT a b f xs M fa fb ff ha hb hM f0 f1 hx nx
  obtain ⟨-, e2⟩ := lerpDelta_frames_f32 T hT a b f ys M fa fb ff ha hb hM f0 f1 hy ny
  rw [← h] at e2
  rw [abs_le] at *
  constructor <;> linarith [e1.1, e1.2, e2.1, e2.2]

private theorem near_value {y : ℝ} (h2 : |y| ≤ 2 ^ 40) : ∃ r : F32, Near r y (1 / 2 ^ 22 * |y| + 1 / 2 ^ 149) := by
  by_cases hy : y = 0
  · subst hy
    refine ⟨ofRat 0, SatF32.lit0.1, ?_⟩
    change |(ofRat 0).val - 0| ≤ _
    rw [SatF32.lit0.2]; norm_num
  have hp : 0 < |y| := abs_pos.2 hy
  obtain ⟨q, q1, q2⟩ := exists_rat_btwn (show y < y + |y| / 2 ^ 24 by linarith [show 0 < |y| / 2 ^ 24 by positivity])
  have qa : |(q : ℝ)| ≤ 2 * |y| := by
    have := abs_add_le ((q : ℝ) - y) y
    rw [sub_add_cancel, abs_of_pos (show 0 < (q : ℝ) - y by linarith)] at this
    norm_num at *; linarith
  have a := lit_approx q (2 * |y|) qa (by norm_num at *; linarith)
  refine ⟨_, a.1, ?_⟩
  have a2 := abs_le.1 a.2
  change |F32.val _ - _| ≤ _
  have u : ulp (2 * |y|) ≤ |y| / 2 ^ 23 + 1 / 2 ^ 149 := by unfold ulp; norm_num at *; linarith
  obtain ⟨a3, a4⟩ := a2
  rw [abs_le]; norm_num at *; constructor <;> linarith

/-- Some platform's `std::pow` meets the assumption. -/
theorem powUnitOk_exists : ∃ T : FltT F32, PowUnitOk T.pow := by
  have k : ∀ b x : F32, ∃ r : F32, 0 < rv b → rv b ≤ 1 → 0 ≤ rv x → Near r (rv b ^ rv x) (1 / 2 ^ 22 * rv b ^ rv x + 1 / 2 ^ 149) := by
    intro b x
    by_cases h : 0 < rv b ∧ rv b ≤ 1 ∧ 0 ≤ rv x
    · have p0 := Real.rpow_nonneg h.1.le (rv x)
      have p1 := Real.rpow_le_one h.1.le h.2.1 h.2.2
      obtain ⟨r, hr⟩ := near_value (y := rv b ^ rv x) (abs_le.2 ⟨by norm_num; linarith, by norm_num; linarith⟩)
      rw [abs_of_nonneg p0] at hr
      exact ⟨r, fun _ _ _ => hr⟩
    · exact ⟨b, fun h1 h2 h3 => (h ⟨h1, h2, h3⟩).elim⟩
  choose f hf using k
  exact ⟨⟨f, id, id, id, id, id, id, id, fun x _ => x, fun x _ => x, id, fun _ => false⟩, fun b x _ _ h1 h2 h3 => hf b x h1 h2 h3⟩

/-- Non-vacuity: from 2 to 1 with half of the distance left after each unit of time, over frames of 1/2, 1/2 and 1. -/
example : ∃ T : FltT F32, Near (smoothF32 T (ofRat 2) (ofRat 1) (ofRat (1 / 2)) [ofRat (1 / 2), ofRat (1 / 2), ofRat 1]) (5 / 4) (1 / 2 ^ 16) := by
  obtain ⟨T, hT⟩ := powUnitOk_exists
  refine ⟨T, ?_⟩
  have v1 : (ofRat 1).isFinite = true ∧ rv (ofRat 1) = 1 := LenAcc.one_lit
  have v2 : (ofRat 2).isFinite = true ∧ rv (ofRat 2) = 2 := BoxF32.two_lit
  have v3 : (ofRat (1 / 2)).isFinite = true ∧ rv (ofRat (1 / 2)) = 1 / 2 := BoxF32.half_lit
  generalize ofRat 1 = x at *
  generalize ofRat 2 = y at *
  generalize ofRat (1 / 2) = z at *
  obtain ⟨r1, r2⟩ := lerpDelta_frames_f32 T hT y x z [z, z, x] 2 v2.1 v1.1 v3.1 (by rw [v2.2]; norm_num) (by rw [v1.2]; norm_num)
    (by norm_num) (by rw [v3.2]; norm_num) (by rw [v3.2]; norm_num)
    (by
      intro d hd
      simp only [List.mem_cons, List.not_mem_nil, or_false] at hd
      rcases hd with rfl | rfl | rfl
      · exact ⟨v3.1, by rw [v3.2]; norm_num⟩
      · exact ⟨v3.1, by rw [v3.2]; norm_num⟩
      · exact ⟨v1.1, by rw [v1.2]; norm_num⟩) (by simp)
  refine ⟨r1, ?_⟩
  have e : smoothed (rv y) (rv x) (rv z) (([z, z, x] : List F32).map rv).sum = 5 / 4 := by
    simp only [List.map_cons, List.map_nil, List.sum_cons, List.sum_nil]
    rw [v1.2, v2.2, v3.2]
    unfold smoothed
    rw [show (1 / 2 + (1 / 2 + (1 + 0)) : ℝ) = ((2 : ℕ) : ℝ) by norm_num, Real.rpow_natCast]
    norm_num
  rw [e] at r2
  exact r2.trans (by simp only [List.length_cons, List.length_nil]; norm_num)

end Verif
