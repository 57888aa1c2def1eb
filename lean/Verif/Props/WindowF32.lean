import Verif.Spec.WindowF32
import Verif.Props.ShWindow
import Verif.Props.AnglesF32
import Verif.Props.LengthAccuracy
import Verif.Props.CubeMapF32
import Verif.Props.Reliable
import Verif.Props.BoxF32

/-!
# C138: windowing and deringing in binary32
-/

namespace Verif
open F32 Spec Sh

namespace WindowF32

theorem sinc_lip {x y : ℝ} (hx : 0 < x) (hy : 0 < y) : |Real.sin y / y - Real.sin x / x| ≤ 2 * (|y - x| / y) := by
  have e : Real.sin y / y - Real.sin x / x = (Real.sin y - Real.sin x) / y + Real.sin x / x * ((x - y) / y) := by
    field_simp; ring
  rw [e]
  refine (abs_add_le _ _).trans ?_
  rw [abs_mul, abs_div, abs_div, abs_div, abs_of_pos hy, abs_of_pos hx, abs_sub_comm x y]
  have h1 : |Real.sin y - Real.sin x| ≤ |y - x| := Real.abs_sin_sub_sin_le y x
  have h2 : |Real.sin x| / x ≤ 1 := by rw [div_le_one hx]; exact Real.abs_sin_le_abs.trans (abs_of_pos hx).le
  have h3 : |Real.sin y - Real.sin x| / y ≤ |y - x| / y := div_le_div_of_nonneg_right h1 hy.le
  have h4 : |Real.sin x| / x * (|y - x| / y) ≤ 1 * (|y - x| / y) := mul_le_mul_of_nonneg_right h2 (by positivity)
  linarith

theorem mul_step {a b : F32} {A B α β : ℝ} (fa : a.isFinite = true) (fb : b.isFinite = true) (ha : |a.val - A| ≤ α * uro)
    (hb : |b.val - B| ≤ β * uro) (A0 : 0 ≤ A) (A1 : A ≤ 1) (B0 : 0 ≤ B) (B1 : B ≤ 1) (hα : α ≤ 64) (hβ : β ≤ 64) :
    (fmul a b).isFinite = true ∧ |(fmul a b).val - A * B| ≤ (α + β + 1.1) * uro := by
  have hu := uro_pos
  have α0 : 0 ≤ α * uro := (abs_nonneg _).trans ha
  have β0 : 0 ≤ β * uro := (abs_nonneg _).trans hb
  have βu : β * uro ≤ 1 / 2 ^ 18 := by
    have := mul_le_mul_of_nonneg_right hβ hu.le; rw [BoxF32.small_u] at *; norm_num at *; linarith
  have αu : α * uro ≤ 1 / 2 ^ 18 := by
    have := mul_le_mul_of_nonneg_right hα hu.le; rw [BoxF32.small_u] at *; norm_num at *; linarith
  have bb : |b.val| ≤ 1 + β * uro := by
    have := abs_add_le (b.val - B) B
    rw [sub_add_cancel, abs_of_nonneg B0] at this; linarith
  have d : |a.val * b.val - A * B| ≤ α * uro + β * uro + α * uro * (β * uro) := by
    rw [show a.val * b.val - A * B = (a.val - A) * b.val + A * (b.val - B) by ring]
    refine (abs_add_le _ _).trans ?_
    rw [abs_mul, abs_mul, abs_of_nonneg A0]
    have h1 := mul_le_mul ha bb (abs_nonneg _) α0
    have h2 := mul_le_mul A1 hb (abs_nonneg _) (by norm_num)
    linarith
  have αβ : α * uro * (β * uro) ≤ 1 / 2 ^ 12 * uro * (1 : ℝ) * (1 / 1) := by
    have := mul_le_mul (mul_le_mul_of_nonneg_right hα hu.le) βu β0 (by positivity)
    rw [show (64 : ℝ) * uro * (1 / 2 ^ 18) = 1 / 2 ^ 12 * uro * 1 * (1 / 1) by ring] at this
    exact this
  have ab : |a.val * b.val| ≤ 1.001 := by
    have t := abs_add_le (a.val * b.val - A * B) (A * B)
    rw [sub_add_cancel, abs_of_nonneg (mul_nonneg A0 B0)] at t
    have : A * B ≤ 1 := mul_le_one₀ A1 B0 B1
    have u1 : uro ≤ 1 / 2 ^ 18 := by rw [BoxF32.small_u]; norm_num
    norm_num at *; linarith
  obtain ⟨f, e⟩ := fmul_rel fa fb (lt_of_le_of_lt ab (by norm_num))
  refine ⟨f, ?_⟩
  have t := abs_add_le ((fmul a b).val - a.val * b.val) (a.val * b.val - A * B)
  rw [sub_add_sub_cancel] at t
  have h3 := mul_le_mul_of_nonneg_left ab hu.le
  have tiny : (1 : ℝ) / 2 ^ 150 ≤ 1 / 1000 * uro := by rw [BoxF32.small_u]; norm_num
  norm_num at *
  linarith

/-- The factor below the cutoff. -/
theorem factor {s : F32 → F32} (hs : SinWideOk s) {P L w : F32} (hP : P.isFinite = true ∧ P.val = 13176795 / 2 ^ 22)
    (fL : L.isFinite = true) (fw : w.isFinite = true) (l1 : 1 ≤ L.val) (lw : L.val < w.val) (w2 : w.val ≤ 2 ^ 20) :
    Near (fmul (fmul (fmul (fdiv (s (fdiv (fmul P L) w)) (fdiv (fmul P L) w)) (fdiv (s (fdiv (fmul P L) w)) (fdiv (fmul P L) w)))
      (fdiv (s (fdiv (fmul P L) w)) (fdiv (fmul P L) w))) (fdiv (s (fdiv (fmul P L) w)) (fdiv (fmul P L) w)))
      ((Real.sin (Real.pi * L.val / w.val) / (Real.pi * L.val / w.val)) ^ 4) (1 / 2 ^ 18) ∧
    0 ≤ (fmul (fmul (fmul (fdiv (s (fdiv (fmul P L) w)) (fdiv (fmul P L) w)) (fdiv (s (fdiv (fmul P L) w)) (fdiv (fmul P L) w)))
      (fdiv (s (fdiv (fmul P L) w)) (fdiv (fmul P L) w))) (fdiv (s (fdiv (fmul P L) w)) (fdiv (fmul P L) w))).val := by
  have hu := uro_pos
  have u1 : uro ≤ 1 / 2 ^ 18 := by rw [BoxF32.small_u]; norm_num
  have hp1 := Real.pi_gt_d20
  have hp2 := Real.pi_lt_d20
  have w0 : 0 < w.val := by linarith
  -- `pi l`
  have PL : |P.val * L.val| ≤ 3.2 * L.val := by
    rw [abs_mul, abs_of_pos (show 0 < L.val by linarith), hP.2]
    refine mul_le_mul_of_nonneg_right ?_ (by linarith)
    rw [abs_of_pos (by norm_num)]; norm_num
  obtain ⟨fa, ea⟩ := fmul_rel hP.1 fL (lt_of_le_of_lt PL (by norm_num at *; linarith))
  generalize fmul P L = a at *
  have ea' : |a.val - Real.pi * L.val| ≤ 1.49 * (uro * (Real.pi * L.val)) := by
    have t := abs_add_le (a.val - P.val * L.val) (P.val * L.val - Real.pi * L.val)
    rw [sub_add_sub_cancel] at t
    have h1 : |P.val * L.val| = P.val * L.val := abs_of_nonneg (by rw [hP.2]; nlinarith)
    have h2 : |P.val * L.val - Real.pi * L.val| ≤ 8.75e-8 * L.val := by
      rw [← sub_mul, abs_mul, abs_of_pos (show 0 < L.val by linarith), hP.2]
      refine mul_le_mul_of_nonneg_right (abs_le.2 ⟨?_, ?_⟩) (by linarith) <;> norm_num at * <;> linarith
    rw [h1, hP.2] at ea
    rw [hP.2] at h2 t
    have h3 : 3.14159265358979323846 * L.val ≤ Real.pi * L.val := mul_le_mul_of_nonneg_right hp1.le (by linarith)
    rw [BoxF32.small_u] at *
    norm_num at *
    linarith
  clear ea
  have XL : 3 ≤ Real.pi * L.val := by nlinarith
  have X0 : 0 < Real.pi * L.val := by linarith
  have xpi : Real.pi * L.val / w.val < Real.pi := by
    rw [div_lt_iff₀ w0]; exact mul_lt_mul_of_pos_left lw (by linarith)
  have xlo : 1 / 2 ^ 19 ≤ Real.pi * L.val / w.val := by
    rw [le_div_iff₀ w0]; norm_num at *; linarith
  have d1 : |a.val / w.val - Real.pi * L.val / w.val| ≤ 1.49 * (uro * (Real.pi * L.val / w.val)) := by
    rw [← sub_div, abs_div, abs_of_pos w0, div_le_iff₀ w0]
    rw [show 1.49 * (uro * (Real.pi * L.val / w.val)) * w.val = 1.49 * (uro * (Real.pi * L.val)) by field_simp]
    exact ea'
  have x0 : 0 < Real.pi * L.val / w.val := by positivity
  have ux : uro * (Real.pi * L.val / w.val) ≤ 1 / 2 ^ 18 * (Real.pi * L.val / w.val) := mul_le_mul_of_nonneg_right u1 x0.le
  have ux0 : 0 < uro * (Real.pi * L.val / w.val) := by positivity
  generalize Real.pi * L.val / w.val = x at *
  have aw : |a.val / w.val| ≤ 1.0001 * x := by
    have t := abs_add_le (a.val / w.val - x) x
    rw [sub_add_cancel, abs_of_pos x0] at t
    norm_num at *; linarith
  obtain ⟨fy, ey⟩ := fdiv_rel fa fw w0.ne' (lt_of_le_of_lt aw (by norm_num at *; linarith))
  generalize fdiv a w = y at *
  have tx : (1 : ℝ) / 2 ^ 150 ≤ 1 / 1000 * (uro * x) := by
    have : uro * (1 / 2 ^ 19) ≤ uro * x := mul_le_mul_of_nonneg_left xlo hu.le
    rw [BoxF32.small_u] at *; norm_num at *; linarith
  have ey' : |y.val - x| ≤ 2.5 * (uro * x) := by
    have t := abs_add_le (y.val - a.val / w.val) (a.val / w.val - x)
    rw [sub_add_sub_cancel] at t
    have := mul_le_mul_of_nonneg_left aw hu.le
    norm_num at *; linarith
  obtain ⟨y1, y2⟩ := abs_le.1 ey'
  have ylo : x * 0.9999 ≤ y.val := by norm_num at *; linarith
  have y0 : 0 < y.val := by norm_num at *; linarith
  have y4 : y.val ≤ 4 := by norm_num at *; linarith
  obtain ⟨ft, et⟩ := hs y fy y0.le y4
  change |(s y).val - Real.sin y.val| ≤ 1 / 2 ^ 22 * |Real.sin y.val| + 1 / 2 ^ 149 at et
  generalize s y = t at *
  have sy : |Real.sin y.val| ≤ y.val := Real.abs_sin_le_abs.trans (abs_of_pos y0).le
  have q1 : |t.val / y.val - Real.sin y.val / y.val| ≤ 4.001 * uro := by
    rw [← sub_div, abs_div, abs_of_pos y0, div_le_iff₀ y0]
    have : 1 / 2 ^ 20 * uro ≤ y.val * uro := mul_le_mul_of_nonneg_right (by norm_num at *; linarith) hu.le
    rw [BoxF32.small_u] at *; norm_num at *; linarith
  have q2 : |Real.sin y.val / y.val - Real.sin x / x| ≤ 5.01 * uro := by
    refine (sinc_lip x0 y0).trans ?_
    have : |y.val - x| / y.val ≤ 2.501 * uro := by
      rw [div_le_iff₀ y0]
      have := mul_le_mul_of_nonneg_left ylo (show 0 ≤ 2.501 * uro by linarith)
      norm_num at *; linarith
    linarith
  have S0 : 0 ≤ Real.sin x / x := div_nonneg (Real.sin_nonneg_of_nonneg_of_le_pi x0.le xpi.le) x0.le
  have S1 : Real.sin x / x ≤ 1 := by rw [div_le_one x0]; exact Real.sin_le x0.le
  generalize Real.sin x / x = S at *
  have q3 : |t.val / y.val - S| ≤ 9.02 * uro := by
    have r := abs_add_le (t.val / y.val - Real.sin y.val / y.val) (Real.sin y.val / y.val - S)
    rw [sub_add_sub_cancel] at r; linarith
  have q4 : |t.val / y.val| ≤ 1.01 := by
    have r := abs_add_le (t.val / y.val - S) S
    rw [sub_add_cancel, abs_of_nonneg S0] at r; norm_num at *; linarith
  obtain ⟨fq, eq⟩ := fdiv_rel ft fy y0.ne' (lt_of_le_of_lt q4 (by norm_num))
  generalize fdiv t y = q at *
  have eq' : |q.val - S| ≤ 10.2 * uro := by
    have r := abs_add_le (q.val - t.val / y.val) (t.val / y.val - S)
    rw [sub_add_sub_cancel] at r
    have := mul_le_mul_of_nonneg_left q4 hu.le
    have tiny : (1 : ℝ) / 2 ^ 150 ≤ 1 / 1000 * uro := by rw [BoxF32.small_u]; norm_num
    norm_num at *; linarith
  obtain ⟨f2, e2⟩ := mul_step fq fq eq' eq' S0 S1 S0 S1 (by norm_num) (by norm_num)
  have SS : S * S ≤ 1 := mul_le_one₀ S1 S0 S1
  obtain ⟨f3, e3⟩ := mul_step f2 fq e2 eq' (mul_nonneg S0 S0) SS S0 S1 (by norm_num) (by norm_num)
  have SSS : S * S * S ≤ 1 := mul_le_one₀ SS S0 S1
  obtain ⟨f4, e4⟩ := mul_step f3 fq e3 eq' (mul_nonneg (mul_nonneg S0 S0) S0) SSS S0 S1 (by norm_num) (by norm_num)
  refine ⟨⟨f4, ?_⟩, ?_⟩
  · change |(fmul (fmul (fmul q q) q) q).val - _| ≤ _
    rw [show S ^ 4 = S * S * S * S by ring]
    refine e4.trans ?_
    rw [BoxF32.small_u]; norm_num
  · have b : ∀ {r : F32} {A α : ℝ}, |r.val - A| ≤ α * uro → 0 ≤ A → A ≤ 1 → α ≤ 64 → |r.val| ≤ 2 := by
      intro r A α h A0 A1 hα
      have := abs_add_le (r.val - A) A
      rw [sub_add_cancel, abs_of_nonneg A0] at this
      have := mul_le_mul_of_nonneg_right hα hu.le
      norm_num at *; linarith
    have bq := b eq' S0 S1 (by norm_num)
    have b2 := b e2 (mul_nonneg S0 S0) SS (by norm_num)
    have b3 := b e3 (mul_nonneg (mul_nonneg S0 S0) S0) SSS (by norm_num)
    have pr : ∀ {c d : ℝ}, |c| ≤ 2 → |d| ≤ 2 → |c * d| < 2 ^ 127 := by
      intro c d hc hd
      rw [abs_mul]
      exact lt_of_le_of_lt (mul_le_mul hc hd (abs_nonneg _) (by norm_num)) (by norm_num)
    have z := SatF32.lit0
    have n2 := BoxF32.mul_near fq fq (pr bq bq)
    have n3 := BoxF32.mul_near f2 fq (pr b2 bq)
    have n4 := BoxF32.mul_near f3 fq (pr b3 bq)
    have g2 : 0 ≤ (fmul q q).val := by
      have := BoxF32.nearest_ge n2 z.1 (by rw [z.2]; exact mul_self_nonneg _)
      rwa [z.2] at this
    have key : 0 ≤ (fmul (fmul q q) q).val * q.val := by
      rcases le_total 0 q.val with h | h
      · have := BoxF32.nearest_ge n3 z.1 (by rw [z.2]; exact mul_nonneg g2 h)
        rw [z.2] at this
        exact mul_nonneg this h
      · have := BoxF32.nearest_le n3 z.1 (by rw [z.2]; exact mul_nonpos_of_nonneg_of_nonpos g2 h)
        rw [z.2] at this
        exact mul_nonneg_of_nonpos_of_nonpos this h
    have := BoxF32.nearest_ge n4 z.1 (by rw [z.2]; exact key)
    rwa [z.2] at this

/-- The middle of two numbers up to 13. -/
theorem mid {h l r : F32} (hh : h.isFinite = true ∧ h.val = 1 / 2) (fl : l.isFinite = true) (fr : r.isFinite = true) (l3 : 3 ≤ l.val)
    (r3 : 3 ≤ r.val) (l13 : l.val ≤ 13) (r13 : r.val ≤ 13) :
    (fmul h (fadd l r)).isFinite = true ∧ 3 ≤ (fmul h (fadd l r)).val ∧ (fmul h (fadd l r)).val ≤ 13 ∧
    ∀ B C : F32, B.isFinite = true → C.isFinite = true → C.val = 2 * B.val → l.val + r.val ≤ C.val → (fmul h (fadd l r)).val ≤ B.val := by
  have s : |l.val + r.val| ≤ 26 := abs_le.2 ⟨by linarith, by linarith⟩
  have n1 := BoxF32.add_near fl fr (lt_of_le_of_lt s (by norm_num))
  have i3 := ofInt_exact 3 (by norm_num)
  have i6 := ofInt_exact 6 (by norm_num)
  have i13 := ofInt_exact 13 (by norm_num)
  have i26 := ofInt_exact 26 (by norm_num)
  push_cast at i3 i6 i13 i26
  have s1 := BoxF32.nearest_ge n1 i6.1 (by rw [i6.2]; linarith)
  have s2 := BoxF32.nearest_le n1 i26.1 (by rw [i26.2]; linarith)
  rw [i6.2] at s1; rw [i26.2] at s2
  have fs := n1.1
  have n2 := BoxF32.mul_near hh.1 fs (by rw [hh.2, abs_of_nonneg (by linarith)]; norm_num; linarith)
  rw [hh.2] at n2
  have m1 := BoxF32.nearest_ge n2 i3.1 (by rw [i3.2]; linarith)
  have m2 := BoxF32.nearest_le n2 i13.1 (by rw [i13.2]; linarith)
  rw [i3.2] at m1; rw [i13.2] at m2
  refine ⟨n2.1, m1, m2, fun B C fB fC hC hs => ?_⟩
  have := BoxF32.nearest_le n1 fC hs
  exact BoxF32.nearest_le n2 fB (by linarith)

theorem stdMin_val {a b : F32} (fa : a.isFinite = true) (fb : b.isFinite = true) :
    (Flt.stdMin a b).isFinite = true ∧ (Flt.stdMin a b).val = min a.val b.val := by
  unfold Flt.stdMin
  have k : (b <. a) = true ↔ b.val < a.val := Reliable.flt_iff fb fa
  by_cases h : (b <. a) = true
  · rw [if_pos h]; exact ⟨fb, (min_eq_right (k.1 h).le).symm⟩
  · rw [if_neg h]; exact ⟨fa, (min_eq_left (not_lt.1 (fun h' => h (k.2 h')))).symm⟩

/-- The state of the search. -/
def Ok (st : List F32 × F32 × F32 × F32) : Prop :=
  (st.2.1.isFinite = true ∧ 3 ≤ st.2.1.val ∧ st.2.1.val ≤ 13) ∧ (st.2.2.1.isFinite = true ∧ 3 ≤ st.2.2.1.val ∧ st.2.2.1.val ≤ 13) ∧
  (st.2.2.2.isFinite = true ∧ 3 ≤ st.2.2.2.val)

theorem half' : (Flt.lit 0.5 : F32).isFinite = true ∧ (Flt.lit 0.5 : F32).val = 1 / 2 := by
  have h : (Flt.lit 0.5 : F32).isFinite = true ∧ (Flt.lit 0.5 : F32).units = 2 ^ 148 := by decide +kernel
  refine ⟨h.1, ?_⟩
  rw [val_units, h.2]
  norm_num

variable [FltT F32]

/-- One step of the search. -/
theorem step_f32 {shmin : List F32 → Option (List F32 × F32)} {st st' : List F32 × F32 × F32 × F32}
    (e : deringStep shmin st = some st') (ok : Ok st) : Ok st' ∧ st'.2.2.2.val ≤ st.2.2.2.val ∧ st'.2.2.2.val ≤ st'.2.1.val ∧
    (st'.2.1 = st.2.1 ∨ st'.2.1 = fmul (Flt.lit 0.5) (fadd st.2.1 st.2.2.1)) := by
  obtain ⟨⟨fl, l1, l2⟩, ⟨fr, r1, r2⟩, ⟨fc, c1⟩⟩ := ok
  obtain ⟨fm, m1, m2, -⟩ := mid half' fl fr l1 r1 l2 r2
  unfold deringStep at e
  obtain ⟨b, -, e⟩ := Option.bind_eq_some_iff.1 e
  obtain ⟨p, -, e⟩ := Option.map_eq_some_iff.1 e
  subst e
  change (fmul (Flt.lit 0.5) (fadd st.2.1 st.2.2.1)).isFinite = true at fm
  simp only [Ok]
  generalize hm : (Flt.lit 0.5 *. (st.2.1 +. st.2.2.1) : F32) = m
  change fmul (Flt.lit 0.5) (fadd st.2.1 st.2.2.1) = m at hm
  rw [hm] at fm m1 m2
  by_cases h : (p.2 <. Flt.lit 0) = true
  · simp only [h, if_true]
    obtain ⟨g1, g2⟩ := stdMin_val fc fl
    generalize Flt.stdMin st.2.2.2 st.2.1 = k at *
    refine ⟨⟨⟨fl, l1, l2⟩, ⟨fm, m1, m2⟩, g1, ?_⟩, ?_, ?_, Or.inl trivial⟩
    · rw [g2]; exact le_min c1 l1
    · rw [g2]; exact min_le_left _ _
    · rw [g2]; exact min_le_right _ _
  · simp only [h, Bool.false_eq_true, if_false]
    obtain ⟨g1, g2⟩ := stdMin_val fc fm
    generalize Flt.stdMin st.2.2.2 m = k at *
    refine ⟨⟨⟨fm, m1, m2⟩, ⟨fr, r1, r2⟩, g1, ?_⟩, ?_, ?_, Or.inr ?_⟩
    · rw [g2]; exact le_min c1 m1
    · rw [g2]; exact min_le_left _ _
    · rw [g2]; exact min_le_right _ _
    · exact hm.symm

theorem search_f32 {shmin : List F32 → Option (List F32 × F32)} (n : Nat) :
    ∀ {st st' : List F32 × F32 × F32 × F32}, deringSearch shmin n st = some st' → Ok st →
      st'.2.2.2.isFinite = true ∧ 3 ≤ st'.2.2.2.val ∧ st'.2.2.2.val ≤ st.2.2.2.val := by
  induction n with
  | zero => intro st st' e h; cases e; exact ⟨h.2.2.1, h.2.2.2, le_rfl⟩
  | succ n ih =>
    intro st st' e h
    unfold deringSearch at e
    split at e
    · obtain ⟨s1, e1, e2⟩ := Option.bind_eq_some_iff.1 e
      obtain ⟨a, b, -, -⟩ := step_f32 e1 h
      obtain ⟨c, d, f⟩ := ih e2 a
      exact ⟨c, d, f.trans b⟩
    · cases e; exact ⟨h.2.2.1, h.2.2.2, le_rfl⟩

omit [FltT F32] in
theorem tenth : (fadd (FltB.ofInt 3 : F32) (Flt.lit 0.1)).isFinite = true ∧ (fadd (FltB.ofInt 3 : F32) (Flt.lit 0.1)).val ≤ 3.2 := by
  have h : (fadd (FltB.ofInt 3 : F32) (Flt.lit 0.1)).isFinite = true ∧
    (fadd (FltB.ofInt 3 : F32) (Flt.lit 0.1)).units ≤ 13 * 2 ^ 147 - 2 ^ 145 := by decide +kernel
  refine ⟨h.1, ?_⟩
  rw [val_units]
  have : ((fadd (FltB.ofInt 3 : F32) (Flt.lit 0.1)).units : ℝ) ≤ ((13 * 2 ^ 147 - 2 ^ 145 : ℤ) : ℝ) := by exact_mod_cast h.2
  push_cast at this
  norm_num at this ⊢
  linarith

/-- One channel. -/
theorem channel_f32 {shmin : List F32 → Option (List F32 × F32)} {sh : List (V4 F32)} {c c' B C : F32} {ch : Fin 4}
    (e : deringChannel shmin sh c ch = some c') (fc : c.isFinite = true) (hc : 3 ≤ c.val) (hc' : c.val ≤ 13) (fB : B.isFinite = true)
    (fC : C.isFinite = true) (hC : C.val = 2 * B.val) (h3 : 3 + c.val ≤ C.val) (hB : 3.2 ≤ B.val) :
    c'.isFinite = true ∧ 3 ≤ c'.val ∧ c'.val ≤ B.val := by
  unfold deringChannel at e
  obtain ⟨st, e', hst⟩ := Option.map_eq_some_iff.1 e
  subst hst
  have i3 : (FltB.ofInt (Ibl.shBandCount : Int) : F32).isFinite = true ∧ (FltB.ofInt (Ibl.shBandCount : Int) : F32).val = 3 := by
    rw [CubeF32.ofInt_eq]
    have := ofInt_exact 3 (by norm_num)
    exact_mod_cast this
  have tn : (fadd (FltB.ofInt (Ibl.shBandCount : Int) : F32) (Flt.lit 0.1)).isFinite = true ∧
    (fadd (FltB.ofInt (Ibl.shBandCount : Int) : F32) (Flt.lit 0.1)).val ≤ 3.2 := tenth
  generalize (FltB.ofInt (Ibl.shBandCount : Int) : F32) = t at *
  generalize sh.map (fun v => v.get ch) = a at *
  have ok : Ok (a, t, c, c) := ⟨⟨i3.1, i3.2.ge, by rw [i3.2]; norm_num⟩, ⟨fc, hc, hc'⟩, ⟨fc, hc⟩⟩
  obtain ⟨g1, g2, -⟩ := search_f32 16 e' ok
  refine ⟨g1, g2, ?_⟩
  unfold deringSearch at e'
  split at e'
  · obtain ⟨s1, e1, e2⟩ := Option.bind_eq_some_iff.1 e'
    obtain ⟨a1, -, b2, b3⟩ := step_f32 e1 ok
    refine ((search_f32 15 e2 a1).2.2.trans b2).trans ?_
    rcases b3 with h | h
    · rw [h]; simp only; rw [i3.2]; linarith
    · rw [h]
      exact (mid half' i3.1 fc i3.2.ge hc (by rw [i3.2]; norm_num) hc').2.2.2 B C fB fC hC (by rw [i3.2]; exact h3)
  · rename_i hn
    cases e'
    have : ¬ (fadd t (Flt.lit 0.1)).val < c.val := fun h' => hn ((Reliable.flt_iff tn.1 fc).2 h')
    push Not at this
    simp only
    linarith [tn.2]

omit [FltT F32] in
theorem consts : ∃ a b c d e f : F32, (a.isFinite = true ∧ a.val = 8) ∧ (b.isFinite = true ∧ b.val = 16) ∧ (c.isFinite = true ∧ c.val = 11 / 2) ∧
    (d.isFinite = true ∧ d.val = 11) ∧ (e.isFinite = true ∧ e.val = 17 / 4) ∧ (f.isFinite = true ∧ f.val = 17 / 2) := by
  have k : ∀ (q : ℚ) (n : ℤ) , (ofRat q).isFinite = true → (ofRat q).units = n * 2 ^ 147 → (ofRat q).isFinite = true ∧ (ofRat q).val = n / 4 := by
    intro q n h1 h2
    refine ⟨h1, ?_⟩
    rw [val_units, h2]; push_cast; ring
  refine ⟨ofRat 8, ofRat 16, ofRat (11 / 2), ofRat 11, ofRat (17 / 4), ofRat (17 / 2), ?_, ?_, ?_, ?_, ?_, ?_⟩
  · have := k 8 32 (by decide +kernel) (by decide +kernel); norm_num at this ⊢; exact this
  · have := k 16 64 (by decide +kernel) (by decide +kernel); norm_num at this ⊢; exact this
  · have := k (11 / 2) 22 (by decide +kernel) (by decide +kernel); norm_num at this ⊢; exact this
  · have := k 11 44 (by decide +kernel) (by decide +kernel); norm_num at this ⊢; exact this
  · have := k (17 / 4) 17 (by decide +kernel) (by decide +kernel); norm_num at this ⊢; exact this
  · have := k (17 / 2) 34 (by decide +kernel) (by decide +kernel); norm_num at this ⊢; exact this

/-- The common cutoff. -/
theorem cutoff_f32 (shmin : List F32 → Option (List F32 × F32)) (sh out : List (V4 F32)) (h : sh.length = 9)
    (e : deringingSH shmin sh = some out) :
    ∃ c : F32, c.isFinite = true ∧ 3 ≤ c.val ∧ c.val ≤ 17 / 4 ∧ WindowedBy c sh out := by
  obtain ⟨k1, k2, k3, k4, k5, k6, h1, h2, h3, h4, h5, h6⟩ := consts
  unfold deringingSH at e
  obtain ⟨c2, e2, eo⟩ := Option.bind_eq_some_iff.1 e
  have i13 : (FltB.ofInt ((Ibl.shBandCount : Int) * 4 + 1) : F32).isFinite = true ∧ (FltB.ofInt ((Ibl.shBandCount : Int) * 4 + 1) : F32).val = 13 := by
    rw [CubeF32.ofInt_eq]
    have := ofInt_exact 13 (by norm_num)
    exact_mod_cast this
  generalize (FltB.ofInt ((Ibl.shBandCount : Int) * 4 + 1) : F32) = t at *
  simp only [List.foldlM_cons, List.foldlM_nil, Option.bind_eq_bind, Option.pure_def] at e2
  obtain ⟨c0, e0, e2⟩ := Option.bind_eq_some_iff.1 e2
  obtain ⟨c1, e1, e2⟩ := Option.bind_eq_some_iff.1 e2
  obtain ⟨c2', e2, e3⟩ := Option.bind_eq_some_iff.1 e2
  cases e3
  obtain ⟨a0, a1, a2⟩ := channel_f32 e0 i13.1 (by rw [i13.2]; norm_num) (by rw [i13.2]) h1.1 h2.1 (by rw [h1.2, h2.2]; norm_num)
    (by rw [i13.2, h2.2]; norm_num) (by rw [h1.2]; norm_num)
  rw [h1.2] at a2
  obtain ⟨b0, b1, b2⟩ := channel_f32 e1 a0 a1 (by linarith) h3.1 h4.1 (by rw [h3.2, h4.2]; norm_num)
    (by rw [h4.2]; linarith) (by rw [h3.2]; norm_num)
  rw [h3.2] at b2
  obtain ⟨d0, d1, d2⟩ := channel_f32 e2 b0 b1 (by linarith) h5.1 h6.1 (by rw [h5.2, h6.2]; norm_num)
    (by rw [h6.2]; linarith) (by rw [h5.2]; norm_num)
  rw [h5.2] at d2
  obtain ⟨out', eo', ho⟩ := windowed sh h c2
  rw [eo'] at eo
  cases eo
  exact ⟨c2, d0, d1, d2, ho⟩

end WindowF32

open WindowF32

/-- C138: the factor of every band is within `2^-18` of the exact one, and is never negative. -/
theorem sincWindow_f32 (T : FltT F32) (hT : SinWideOk T.sin) (l : ℕ) (c : F32) (hl : l ≤ 2 ^ 20) (fc : c.isFinite = true)
    (hc : rv c ≤ 2 ^ 20) : Near (sincWindow (l : Int) c) (bandFactor l (rv c)) (1 / 2 ^ 18) ∧ 0 ≤ rv (sincWindow (l : Int) c) := by
  have iL : (FltB.ofInt (l : Int) : F32).isFinite = true ∧ (FltB.ofInt (l : Int) : F32).val = l := by
    rw [CubeF32.ofInt_eq]
    have := ofInt_exact (l : Int) (by simp; omega)
    exact_mod_cast this
  unfold sincWindow bandFactor
  by_cases h0 : l = 0
  · rw [if_pos h0, if_pos (by exact_mod_cast h0)]
    have o := LenAcc.one_lit
    refine ⟨⟨o.1, ?_⟩, ?_⟩
    · change |(ofRat 1).val - 1| ≤ _
      rw [o.2]; norm_num
    · change 0 ≤ (ofRat 1).val
      rw [o.2]; norm_num
  rw [if_neg h0, if_neg (by exact_mod_cast h0)]
  have k : (c <=. (FltB.ofInt (l : Int) : F32)) = true ↔ c.val ≤ (FltB.ofInt (l : Int) : F32).val := Reliable.fle_iff fc iL.1
  rw [iL.2] at k
  by_cases h1 : c.val ≤ l
  · rw [if_pos (k.2 h1), if_pos (show rv c ≤ l from h1)]
    have z := SatF32.lit0
    refine ⟨⟨z.1, ?_⟩, ?_⟩
    · change |(ofRat 0).val - 0| ≤ _
      rw [z.2]; norm_num
    · change 0 ≤ (ofRat 0).val
      rw [z.2]
  · rw [if_neg (fun h => h1 (k.1 h)), if_neg (show ¬ rv c ≤ l from h1)]
    push Not at h1
    have l1 : (1 : ℝ) ≤ l := by exact_mod_cast Nat.one_le_iff_ne_zero.2 h0
    have := WindowF32.factor hT AngleP.pi_factor iL.1 fc (by rw [iL.2]; exact l1) (by rw [iL.2]; exact h1) hc
    rw [iL.2] at this
    exact this

/-- The exact factors at the cutoffs `deringingSH` ends with. -/
theorem bandFactor_range {c : ℝ} (h1 : 3 ≤ c) (h2 : c ≤ 17 / 4) :
    bandFactor 0 c = 1 ∧ 0 ≤ bandFactor 1 c ∧ bandFactor 1 c ≤ 9 / 10 ∧ 0 ≤ bandFactor 2 c ∧ bandFactor 2 c ≤ 6 / 25 := by
  have hp1 := Real.pi_gt_d4
  have hp2 := Real.pi_lt_d4
  have c0 : 0 < c := by linarith
  have key : ∀ {x b : ℝ}, 0 < x → Real.sin x ≤ b * x → x ≤ Real.pi → 0 ≤ (Real.sin x / x) ^ 4 ∧ (Real.sin x / x) ^ 4 ≤ b ^ 4 := by
    intro x b x0 hb hx
    have s0 : 0 ≤ Real.sin x / x := div_nonneg (Real.sin_nonneg_of_nonneg_of_le_pi x0.le hx) x0.le
    exact ⟨by positivity, pow_le_pow_left₀ s0 (by rw [div_le_iff₀ x0]; exact hb) 4⟩
  have x1 : 0.739 ≤ Real.pi * ((1 : ℕ) : ℝ) / c := by rw [le_div_iff₀ c0]; push_cast; norm_num at *; linarith
  have x2 : Real.pi * ((1 : ℕ) : ℝ) / c ≤ 1.06 := by rw [div_le_iff₀ c0]; push_cast; norm_num at *; linarith
  have z1 : 1.478 ≤ Real.pi * ((2 : ℕ) : ℝ) / c := by rw [le_div_iff₀ c0]; push_cast; norm_num at *; linarith
  have z2 : Real.pi * ((2 : ℕ) : ℝ) / c ≤ 2.12 := by rw [div_le_iff₀ c0]; push_cast; norm_num at *; linarith
  have f1 : bandFactor 1 c = (Real.sin (Real.pi * ((1 : ℕ) : ℝ) / c) / (Real.pi * ((1 : ℕ) : ℝ) / c)) ^ 4 := by
    unfold bandFactor
    rw [if_neg (by norm_num), if_neg (by push_cast; linarith)]
  have f2 : bandFactor 2 c = (Real.sin (Real.pi * ((2 : ℕ) : ℝ) / c) / (Real.pi * ((2 : ℕ) : ℝ) / c)) ^ 4 := by
    unfold bandFactor
    rw [if_neg (by norm_num), if_neg (by push_cast; linarith)]
  generalize Real.pi * ((1 : ℕ) : ℝ) / c = x at *
  generalize Real.pi * ((2 : ℕ) : ℝ) / c = z at *
  have k1 := key (x := x) (b := 0.96) (by norm_num at *; linarith) (by
    have a := sinc_anti (x := 0.739) (y := x) (by norm_num) x1 (by norm_num at *; linarith)
    have b := (abs_le.1 (Real.sin_bound (x := 0.739) (by rw [abs_of_pos (by norm_num)]; norm_num))).2
    rw [abs_of_pos (show (0 : ℝ) < 0.739 by norm_num)] at b
    have d : Real.sin 0.739 / 0.739 ≤ 0.96 := by rw [div_le_iff₀ (by norm_num)]; norm_num at *; linarith
    exact (div_le_iff₀ (by norm_num at *; linarith)).1 (a.trans d)) (by norm_num at *; linarith)
  have k2 := key (x := z) (b := 0.68) (by norm_num at *; linarith) ((Real.sin_le_one z).trans (by norm_num at *; linarith))
    (by norm_num at *; linarith)
  rw [f1, f2]
  refine ⟨by simp [bandFactor], k1.1, k1.2.trans (by norm_num), k2.1, k2.2.trans (by norm_num)⟩

/-- One lane. -/
theorem WindowF32.lane {l : ℕ} {k x : F32} {f : ℝ} (fk : k.isFinite = true) (ek : |k.val - f| ≤ 1 / 2 ^ 18) (k0 : 0 ≤ k.val) (k1 : k.val ≤ 1)
    (h0 : l = 0 → k.val = 1) (h2 : l = 2 → k.val ≤ 0.241) (fx : x.isFinite = true) (hx : |rv x| ≤ 2 ^ 126) :
    Near (fmul x k) (f * rv x) (|rv x| / 2 ^ 17 + 1 / 2 ^ 149) ∧ |rv (fmul x k)| ≤ |rv x| ∧ (l = 0 → rv (fmul x k) = rv x) ∧
    (l = 2 → |rv (fmul x k)| ≤ |rv x| / 4 + 1 / 2 ^ 149) := by
  change |x.val| ≤ _ at hx
  change Near (fmul x k) (f * x.val) (|x.val| / 2 ^ 17 + 1 / 2 ^ 149) ∧ |(fmul x k).val| ≤ |x.val| ∧ (l = 0 → (fmul x k).val = x.val) ∧
    (l = 2 → |(fmul x k).val| ≤ |x.val| / 4 + 1 / 2 ^ 149)
  have hu := uro_pos
  have x0 := abs_nonneg x.val
  have pr : |x.val * k.val| ≤ |x.val| := by
    rw [abs_mul, abs_of_nonneg k0]; exact mul_le_of_le_one_right x0 k1
  have lt : |x.val * k.val| < 2 ^ 127 := lt_of_le_of_lt (pr.trans hx) (by norm_num)
  obtain ⟨fr, er⟩ := fmul_rel fx fk lt
  have n := BoxF32.mul_near fx fk lt
  have z := SatF32.lit0
  have ux : uro * |x.val| ≤ 1 / 2 ^ 20 * |x.val| := mul_le_mul_of_nonneg_right (by rw [BoxF32.small_u]; norm_num) x0
  have up := mul_le_mul_of_nonneg_left pr hu.le
  refine ⟨⟨fr, ?_⟩, ?_, ?_, ?_⟩
  · change |(fmul x k).val - f * x.val| ≤ _
    have t := abs_add_le ((fmul x k).val - x.val * k.val) (x.val * (k.val - f))
    rw [show (fmul x k).val - x.val * k.val + x.val * (k.val - f) = (fmul x k).val - f * x.val by ring, abs_mul] at t
    have := mul_le_mul_of_nonneg_left ek x0
    norm_num at *; linarith [abs_nonneg x.val]
  · rcases le_total 0 x.val with h | h
    · have a1 := BoxF32.nearest_ge n z.1 (by rw [z.2]; exact mul_nonneg h k0)
      have a2 := BoxF32.nearest_le n fx (mul_le_of_le_one_right h k1)
      rw [z.2] at a1
      rw [abs_of_nonneg a1, abs_of_nonneg h]; exact a2
    · have a1 := BoxF32.nearest_le n z.1 (by rw [z.2]; exact mul_nonpos_of_nonpos_of_nonneg h k0)
      have a2 := BoxF32.nearest_ge n fx (by nlinarith)
      rw [z.2] at a1
      rw [abs_of_nonpos a1, abs_of_nonpos h]; linarith
  · intro h
    have := n.2 x fx
    rw [h0 h, mul_one] at this
    change |(fmul x k).val - x.val| ≤ |x.val - x.val| at this
    rw [sub_self, abs_zero] at this
    exact sub_eq_zero.1 (abs_nonpos_iff.1 this)
  · intro h
    have t := abs_add_le ((fmul x k).val - x.val * k.val) (x.val * k.val)
    rw [sub_add_cancel] at t
    have : |x.val * k.val| ≤ |x.val| * 0.241 := by
      rw [abs_mul, abs_of_nonneg k0]; exact mul_le_mul_of_nonneg_left (h2 h) x0
    norm_num at *; linarith

/-- C138: whatever the minimum search answers, `deringingSH` in binary32 scales all bands and channels with the exact factors of
one cutoff between 3 and 4.25, up to `2^-17` of each coefficient: it keeps the constant band, shrinks band 1 and leaves at most
a quarter of band 2. -/
theorem dering_f32 (T : FltT F32) (hT : SinWideOk T.sin) (shmin : List F32 → Option (List F32 × F32)) (hk : KeepsNine shmin)
    (sh : List (V4 F32)) (h : sh.length = 9) (hf : ∀ v ∈ sh, ∀ x ∈ v.toList, x.isFinite = true ∧ |rv x| ≤ 2 ^ 126) :
    ∃ c out, 3 ≤ c ∧ c ≤ (17 / 4 : ℝ) ∧ deringingSH shmin sh = some out ∧ out.length = 9 ∧
      ∀ (l : ℕ) (m : ℤ), l < 3 → |m| ≤ l → ∃ v r, sh[(shIndex m l).toNat]? = some v ∧ out[(shIndex m l).toNat]? = some r ∧
        ∀ i : Fin 4, Near (r.get i) (bandFactor l c * rv (v.get i)) (|rv (v.get i)| / 2 ^ 17 + 1 / 2 ^ 149) ∧
          |rv (r.get i)| ≤ |rv (v.get i)| ∧ (l = 0 → rv (r.get i) = rv (v.get i)) ∧ (l = 2 → |rv (r.get i)| ≤ |rv (v.get i)| / 4 + 1 / 2 ^ 149) := by
  obtain ⟨_, out, e, -⟩ := dering_scales shmin hk sh h
  obtain ⟨c, fc, c3, c4, h9, hw⟩ := cutoff_f32 shmin sh out h e
  refine ⟨c.val, out, c3, c4, e, h9, ?_⟩
  intro l m hl hm
  obtain ⟨r0, r1, r2, r3, r4⟩ := bandFactor_range c3 c4
  have w := hw l m hl hm
  have idx : (shIndex m l).toNat < 9 := by
    rw [abs_le] at hm
    unfold shIndex
    interval_cases l <;> omega
  obtain ⟨v, hv⟩ : ∃ v, sh[(shIndex m l).toNat]? = some v := ⟨_, List.getElem?_eq_getElem (by omega)⟩
  rw [hv, Option.map_some] at w
  refine ⟨v, _, hv, w, fun i => ?_⟩
  have vf := hf v (List.mem_of_getElem? hv)
  obtain ⟨⟨fw, ew⟩, w0⟩ := sincWindow_f32 T hT l c (by omega) fc (by change c.val ≤ _; norm_num; linarith)
  have w1 : l = 0 → (sincWindow (l : Int) c).val = 1 := by
    rintro rfl
    unfold sincWindow
    rw [if_pos (by norm_num)]
    exact LenAcc.one_lit.2
  have lane : ∀ x : F32, x.isFinite = true ∧ |rv x| ≤ 2 ^ 126 →
      Near (fmul x (sincWindow (l : Int) c)) (bandFactor l c.val * rv x) (|rv x| / 2 ^ 17 + 1 / 2 ^ 149) ∧
      |rv (fmul x (sincWindow (l : Int) c))| ≤ |rv x| ∧ (l = 0 → rv (fmul x (sincWindow (l : Int) c)) = rv x) ∧
      (l = 2 → |rv (fmul x (sincWindow (l : Int) c))| ≤ |rv x| / 4 + 1 / 2 ^ 149) := by
    change |(sincWindow (l : Int) c).val - bandFactor l c.val| ≤ 1 / 2 ^ 18 at ew
    change 0 ≤ (sincWindow (l : Int) c).val at w0
    obtain ⟨e1, e2⟩ := abs_le.1 ew
    have k1 : (sincWindow (l : Int) c).val ≤ 1 := by
      interval_cases l
      · rw [w1 rfl]
      · norm_num at *; linarith
      · norm_num at *; linarith
    have k2 : l = 2 → (sincWindow (l : Int) c).val ≤ 0.241 := by
      rintro rfl; norm_num at *; linarith
    generalize sincWindow (l : Int) c = k at *
    intro x hx
    exact lane fw ew w0 k1 w1 k2 hx.1 hx.2
  match i with
  | 0 => exact lane v.x (vf _ (by simp [V4.toList]))
  | 1 => exact lane v.y (vf _ (by simp [V4.toList]))
  | 2 => exact lane v.z (vf _ (by simp [V4.toList]))
  | 3 => exact lane v.w (vf _ (by simp [V4.toList]))

private theorem near_value {y : ℝ} (h2 : |y| ≤ 2 ^ 40) : ∃ r : F32, Near r y (1 / 2 ^ 22 * |y| + 1 / 2 ^ 149) := by
  by_cases hy : y = 0
  · subst hy
    refine ⟨ofRat 0, SatF32.lit0.1, ?_⟩
    change |(ofRat 0).val - 0| ≤ _
    rw [SatF32.lit0.2]; norm_num
  have hp : 0 < |y| := abs_pos.2 hy
  obtain ⟨q, q1, q2⟩ := exists_rat_btwn (show y < y + |y| / 2 ^ 24 by linarith [show 0 < |y| / 2 ^ 24 by positivity])
  have qa : |(q : ℝ)| ≤ 2 * |y| := by
    have := abs_add_le ((q : ℝ) - y) y
    rw [sub_add_cancel, abs_of_pos (show 0 < (q : ℝ) - y by linarith)] at this
    norm_num at *; linarith
  have a := lit_approx q (2 * |y|) qa (by norm_num at *; linarith)
  refine ⟨_, a.1, ?_⟩
  have a2 := abs_le.1 a.2
  change |F32.val _ - _| ≤ _
  have u : ulp (2 * |y|) ≤ |y| / 2 ^ 23 + 1 / 2 ^ 149 := by unfold ulp; norm_num at *; linarith
  obtain ⟨a3, a4⟩ := a2
  rw [abs_le]; norm_num at *; constructor <;> linarith

/-- Some platform's `std::sin` meets the assumption. -/
theorem sinWideOk_exists : ∃ T : FltT F32, SinWideOk T.sin := by
  have k : ∀ x : F32, ∃ r : F32, Near r (Real.sin (rv x)) (1 / 2 ^ 22 * |Real.sin (rv x)| + 1 / 2 ^ 149) :=
    fun x => near_value ((Real.abs_sin_le_one _).trans (by norm_num))
  choose f hf using k
  exact ⟨⟨fun x _ => x, id, id, f, id, id, id, id, fun x _ => x, fun x _ => x, id, fun _ => false⟩, fun x _ _ _ => hf x⟩

/-- Non-vacuity: nine coefficients and a search that always answers one. -/
example : ∃ T : FltT F32, SinWideOk T.sin ∧ KeepsNine (fun a : List F32 => some (a, ofRat 1)) ∧
    (List.replicate 9 (⟨ofRat 1, ofRat 2, ofRat (1 / 2), ofRat 0⟩ : V4 F32)).length = 9 ∧
    ∀ v ∈ List.replicate 9 (⟨ofRat 1, ofRat 2, ofRat (1 / 2), ofRat 0⟩ : V4 F32), ∀ x ∈ v.toList, x.isFinite = true ∧ |rv x| ≤ 2 ^ 126 := by
  obtain ⟨T, hT⟩ := sinWideOk_exists
  have v1 : (ofRat 1).isFinite = true ∧ rv (ofRat 1) = 1 := LenAcc.one_lit
  have v2 : (ofRat 2).isFinite = true ∧ rv (ofRat 2) = 2 := BoxF32.two_lit
  have v3 : (ofRat (1 / 2)).isFinite = true ∧ rv (ofRat (1 / 2)) = 1 / 2 := BoxF32.half_lit
  have v4 : (ofRat 0).isFinite = true ∧ rv (ofRat 0) = 0 := SatF32.lit0
  generalize ofRat 1 = a at *
  generalize ofRat 2 = b at *
  generalize ofRat (1 / 2) = c at *
  generalize ofRat 0 = d at *
  refine ⟨T, hT, fun l h => ⟨_, rfl, h⟩, rfl, ?_⟩
  intro v hv x hx
  rw [List.mem_replicate] at hv
  obtain ⟨-, rfl⟩ := hv
  simp only [V4.toList, List.mem_cons, List.not_mem_nil, or_false] at hx
  rcases hx with rfl | rfl | rfl | rfl
  · exact ⟨v1.1, by rw [v1.2]; norm_num⟩
  · exact ⟨v2.1, by rw [v2.2]; norm_num⟩
  · exact ⟨v3.1, by rw [v3.2]; norm_num⟩
  · exact ⟨v4.1, by rw [v4.2]; norm_num⟩

end Verif
