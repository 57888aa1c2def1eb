import Verif.Props.AngleQuat
import Verif.Props.Place
import Verif.Props.BrdfF32
import Verif.Props.Reliable

/-!
# C133: extracting the rotation of a matrix in binary32
-/

namespace Verif
open F32 Spec Quaternion RotateP VecAcc SatF32

namespace ExtractQuatP
open AngleQuatP Reliable BrdfF32

theorem quarter_exact : Approx (ofRat (1 / 4)) (1 / 4) 0 := by
  have h : (ofRat (1 / 4)).isFinite = true ∧ (ofRat (1 / 4)).units = 2 ^ 147 := by decide +kernel
  refine ⟨h.1, ?_⟩
  rw [val_units, h.2]
  norm_num

/-- Sums and differences of three diagonal entries. -/
theorem three {a b c : F32} {A B C ε : ℝ} (ha : Approx a A ε) (hb : Approx b B ε) (hc : Approx c C ε) (h1 : |A| ≤ 1) (h2 : |B| ≤ 1) (h3 : |C| ≤ 1)
    (e1 : ε ≤ 1 / 2 ^ 14) : Approx (fadd (fadd a b) c) (A + B + C) (3 * ε + 6 / 2 ^ 24) ∧ Approx (fsub (fsub a b) c) (A - B - C) (3 * ε + 6 / 2 ^ 24) := by
  have n1 := abs_add_le A B
  have n2 := abs_add_le (A + B) C
  have n3 := abs_sub A B
  have n4 := abs_sub (A - B) C
  constructor
  · have s := Approx.add ha hb 2.1 (by norm_num at e1 ⊢; linarith) (by norm_num)
    have s' := Approx.add (s.mono (e' := 2 * ε + 2.2 / 2 ^ 24) (by unfold ulp; norm_num; linarith)) hc 3.1 (by norm_num at e1 ⊢; linarith) (by norm_num)
    exact s'.mono (by unfold ulp; norm_num; linarith)
  · have s := Approx.sub ha hb 2.1 (by norm_num at e1 ⊢; linarith) (by norm_num)
    have s' := Approx.sub (s.mono (e' := 2 * ε + 2.2 / 2 ^ 24) (by unfold ulp; norm_num; linarith)) hc 3.1 (by norm_num at e1 ⊢; linarith) (by norm_num)
    exact s'.mono (by unfold ulp; norm_num; linarith)

/-- The largest of four numbers, as chosen by the code. -/
theorem pick {a b c d : F32} (ha : a.isFinite = true) (hb : b.isFinite = true) (hc : c.isFinite = true) (hd : d.isFinite = true) :
    let r : Fin 4 × F32 := (0, a)
    let r := if ltb r.2 b then (1, b) else r
    let r := if ltb r.2 c then (2, c) else r
    let r := if ltb r.2 d then (3, d) else r
    (r = (0, a) ∨ r = (1, b) ∨ r = (2, c) ∨ r = (3, d)) ∧ a.val ≤ r.2.val ∧ b.val ≤ r.2.val ∧ c.val ≤ r.2.val ∧ d.val ≤ r.2.val := by
  dsimp only
  by_cases h1 : ltb a b = true <;> simp only [h1, if_true, if_false, Bool.false_eq_true]
  all_goals by_cases h2 : ltb (if ltb a b then b else a) c = true
  all_goals simp only [h1, if_true, if_false, Bool.false_eq_true] at h2
  all_goals simp only [h2, if_true, if_false, Bool.false_eq_true]
  all_goals split_ifs with h3
  all_goals simp only [flt_iff, ha, hb, hc, hd] at h1 h2 h3
  all_goals simp
  all_goals refine ⟨?_, ?_, ?_⟩
  all_goals linarith

/-- The component found by the square root, and the factor for the others. -/
theorem head {r : F32} {q δ : ℝ} (hr : Approx r (4 * q ^ 2 - 1) δ) (d0 : 0 ≤ δ) (d1 : δ ≤ 1 / 2 ^ 12) (hq : q ^ 2 ≤ 1) (hl : 1 - 2 * δ ≤ 4 * q ^ 2) :
    let v := fmul (fsqrt (fadd r (ofRat 1))) (ofRat (1 / 2))
    Approx v |q| (0.26 * δ + 3.2 / 2 ^ 24) ∧ (fdiv (ofRat (1 / 4)) v).isFinite = true ∧
      F32.Rel (fdiv (ofRat (1 / 4)) v).val (1 / (4 * |q|)) (0.55 * δ + 8 / 2 ^ 24) 0 := by
  obtain ⟨o1, o2⟩ := BrdfF32.one_val
  have o : Approx (ofRat 1) 1 0 := ⟨o1, by rw [o2]; simp⟩
  have qa : |q| ^ 2 = q ^ 2 := sq_abs q
  have q0 := abs_nonneg q
  have q1 : |q| ≤ 1 := by nlinarith
  have ql : 0.499 ≤ |q| := by
    by_contra h
    have : |q| < 0.499 := lt_of_not_ge h
    norm_num at this d1
    nlinarith
  have A := Approx.add hr o 4.01 (by rw [sub_add_cancel, abs_of_nonneg (by positivity)]; norm_num at d1 ⊢; linarith) (by norm_num)
  rw [sub_add_cancel] at A
  replace A : Approx (fadd r (ofRat 1)) (4 * q ^ 2) (δ + 4.02 / 2 ^ 24) := A.mono (by unfold ulp; norm_num)
  generalize fadd r (ofRat 1) = s at *
  intro v
  obtain ⟨fs, hs⟩ := A
  have hs' := abs_le.1 hs
  have s0 : 0.998 ≤ s.val := by norm_num at hs' d1 hl ⊢; linarith
  have s4 : s.val ≤ 4.01 := by norm_num at hs' d1 hl ⊢; linarith
  have hn := fsqrt_nearest fs (by have : 0 ≤ s.val := by linarith
                                  unfold val at this; exact_mod_cast this)
  change IsNearest _ (Real.sqrt s.val) at hn
  have R0 := Real.sqrt_nonneg s.val
  have R2 := Real.sq_sqrt (show 0 ≤ s.val by linarith)
  have Rl : 0.998 ≤ Real.sqrt s.val := Real.le_sqrt_of_sq_le (by norm_num at s0 ⊢; linarith)
  have Ru : Real.sqrt s.val ≤ 2.01 := Real.sqrt_le_iff.2 ⟨by norm_num, by norm_num at s4 ⊢; linarith⟩
  have Ra := nearest_approx hn (M := 2.01) (by rw [abs_of_nonneg R0]; exact Ru) (by norm_num)
  have Rd : |Real.sqrt s.val - |q| * 2| ≤ (δ + 4.02 / 2 ^ 24) / 1.99 := by
    rw [le_div_iff₀ (by norm_num)]
    have e : s.val - 4 * q ^ 2 = (Real.sqrt s.val - |q| * 2) * (Real.sqrt s.val + |q| * 2) := by rw [← qa]; linear_combination -R2
    rw [e, abs_mul, abs_of_pos (show 0 < Real.sqrt s.val + |q| * 2 by linarith)] at hs
    have := mul_le_mul_of_nonneg_left (show 1.99 ≤ Real.sqrt s.val + |q| * 2 by norm_num at Rl ql ⊢; linarith) (abs_nonneg (Real.sqrt s.val - |q| * 2))
    linarith
  have T := Ra.trans Rd
  have M := Approx.mul T half_exact 2 (1 / 2) (by rw [abs_of_nonneg (by linarith)]; linarith) (by norm_num) (by unfold ulp; norm_num at d1 ⊢; linarith)
  rw [show |q| * 2 * (1 / 2) = |q| by ring] at M
  have V : Approx v |q| (0.26 * δ + 3.2 / 2 ^ 24) := M.mono (by unfold ulp; norm_num at d0 d1 ⊢; linarith)
  refine ⟨V, ?_⟩
  clear_value v
  clear M T Ra
  obtain ⟨fv, hv⟩ := V
  have hv' := abs_le.1 hv
  have vl : 0.49 ≤ v.val := by norm_num at hv' d1 ql ⊢; linarith
  obtain ⟨ff, fe⟩ := quarter_exact
  have fe := quarter_exact.eq
  generalize ofRat (1 / 4) = f at *
  have rv : F32.Rel v.val |q| (0.5222 * δ + 6.43 / 2 ^ 24) 0 := by
    unfold F32.Rel
    rw [abs_abs, add_zero]
    refine hv.trans ?_
    have := mul_le_mul_of_nonneg_left ql (show 0 ≤ 0.5222 * δ + 6.43 / 2 ^ 24 by positivity)
    norm_num at this ⊢
    linarith
  have dv := (F32.Rel.refl f.val).div rv (by norm_num at d1 ⊢; linarith) (by positivity)
  obtain ⟨h1, h2⟩ := fdiv_rel ff fv (by linarith) (by
    rw [fe, abs_of_pos (div_pos (by norm_num) (by linarith)), div_lt_iff₀ (by linarith)]; norm_num at vl ⊢; linarith)
  refine ⟨h1, ?_⟩
  have w := dv.round h2 (by unfold uro; norm_num)
  rw [fe, show (1 / 4 / |q| : ℝ) = 1 / (4 * |q|) by rw [div_div]] at w
  have Q0 : 1 / 4 ≤ 1 / (4 * |q|) := by rw [div_le_div_iff₀ (by norm_num) (by linarith)]; linarith
  have Qa : |1 / (4 * |q|)| = 1 / (4 * |q|) := abs_of_nonneg (by linarith)
  unfold F32.Rel at w ⊢
  rw [Qa] at w ⊢
  refine w.trans ?_
  generalize 1 / (4 * |q|) = Q at *
  have ed : (0 + (0.5222 * δ + 6.43 / 2 ^ 24)) / (1 - (0.5222 * δ + 6.43 / 2 ^ 24)) ≤ 0.53 * δ + 6.6 / 2 ^ 24 := by
    rw [div_le_iff₀ (by norm_num at d1 ⊢; linarith)]
    norm_num at d1 d0 ⊢
    nlinarith
  have e0 : 0 ≤ (0 + (0.5222 * δ + 6.43 / 2 ^ 24)) / (1 - (0.5222 * δ + 6.43 / 2 ^ 24)) := by
    refine div_nonneg (by positivity) ?_
    norm_num at d1 ⊢; linarith
  generalize (0 + (0.5222 * δ + 6.43 / 2 ^ 24)) / (1 - (0.5222 * δ + 6.43 / 2 ^ 24)) = e at *
  rw [u_eq, zero_div]
  have k1 : e + 1 / 2 ^ 24 + e * (1 / 2 ^ 24) ≤ 0.54 * δ + 7.7 / 2 ^ 24 := by norm_num at ed d0 ⊢; linarith
  have k2 := mul_le_mul_of_nonneg_right k1 (show 0 ≤ Q by linarith)
  have k3 : 0 ≤ δ * Q := mul_nonneg d0 (by linarith)
  norm_num at k2 Q0 ⊢
  linarith

/-- The sum or difference of two entries off the diagonal. -/
theorem two {a b : F32} {A B ε : ℝ} (ha : Approx a A ε) (hb : Approx b B ε) (h1 : |A| ≤ 1) (h2 : |B| ≤ 1) (e1 : ε ≤ 1 / 2 ^ 14) :
    Approx (fadd a b) (A + B) (2 * ε + 2.2 / 2 ^ 24) ∧ Approx (fsub a b) (A - B) (2 * ε + 2.2 / 2 ^ 24) := by
  have n1 := abs_add_le A B
  have n3 := abs_sub A B
  exact ⟨(Approx.add ha hb 2.1 (by norm_num at e1 ⊢; linarith) (by norm_num)).mono (by unfold ulp; norm_num; linarith),
    (Approx.sub ha hb 2.1 (by norm_num at e1 ⊢; linarith) (by norm_num)).mono (by unfold ulp; norm_num; linarith)⟩

/-- Another component. -/
theorem rest {n f : F32} {N q p σ ε : ℝ} (hn : Approx n N (2 * ε + 2.2 / 2 ^ 24)) (hN : N = 4 * q * p) (ff : f.isFinite = true)
    (hf : F32.Rel f.val (1 / (4 * |q|)) (0.55 * (3 * ε + 6 / 2 ^ 24) + 8 / 2 ^ 24) 0) (hσ : σ * |q| = q) (s1 : |σ| = 1) (e0 : 0 ≤ ε) (e1 : ε ≤ 1 / 2 ^ 14)
    (hl : 0.499 ≤ |q|) (hp : q ^ 2 + p ^ 2 ≤ 1) : Approx (fmul n f) (σ * p) (3 * ε + 14 / 2 ^ 24) := by
  have q0 : 0 < |q| := by linarith
  have p0 := abs_nonneg p
  have pa : |p| ≤ 0.87 := by
    have h1 := sq_abs q
    have h2 := sq_abs p
    by_contra h
    have h : 0.87 < |p| := lt_of_not_ge h
    norm_num at h hl
    nlinarith
  have m := F32.Rel.mul (r := n.val) (x := N) (e := 0) (a := 2 * ε + 2.2 / 2 ^ 24) (by unfold F32.Rel; rw [zero_mul, zero_add]; exact hn.2) hf
  have ex : N * (1 / (4 * |q|)) = σ * p := by
    rw [hN]
    nth_rewrite 1 [← hσ]
    field_simp
  rw [ex] at m
  have Q0 : 0 < 1 / (4 * |q|) := by positivity
  have Q1 : 1 / (4 * |q|) ≤ 0.502 := by rw [div_le_iff₀ (by positivity)]; norm_num at hl ⊢; linarith
  have sp : |σ * p| = |p| := by rw [abs_mul, s1, one_mul]
  have mm : F32.Rel (n.val * f.val) (σ * p) (1.65 * ε + 11.31 / 2 ^ 24) (1.01 * ε + 1.12 / 2 ^ 24) := by
    refine m.mono (by norm_num; linarith) ?_
    rw [abs_of_pos Q0]
    have k : (1 + (0.55 * (3 * ε + 6 / 2 ^ 24) + 8 / 2 ^ 24)) * (1 / (4 * |q|)) ≤ 1.001 * 0.502 :=
      mul_le_mul (by norm_num at e1 ⊢; linarith) Q1 Q0.le (by norm_num)
    have := mul_le_mul_of_nonneg_right k (show 0 ≤ 2 * ε + 2.2 / 2 ^ 24 by positivity)
    norm_num at this ⊢
    linarith
  clear m
  have ma := mm.abs_le
  rw [sp] at ma
  have cof := mul_le_mul (show 1 + (1.65 * ε + 11.31 / 2 ^ 24) ≤ 1.001 by norm_num at e1 ⊢; linarith) pa p0 (by norm_num)
  obtain ⟨f1, f2⟩ := fmul_rel hn.1 ff (by norm_num at ma cof e1 ⊢; linarith)
  have fin := mm.round f2 (by unfold uro; norm_num)
  refine ⟨f1, ?_⟩
  unfold F32.Rel at fin
  rw [sp, u_eq] at fin
  refine fin.trans ?_
  have cof2 := mul_le_mul_of_nonneg_left pa (show 0 ≤ 1.65 * ε + 11.31 / 2 ^ 24 + 1 / 2 ^ 24 + (1.65 * ε + 11.31 / 2 ^ 24) * (1 / 2 ^ 24) by positivity)
  norm_num at cof2 ⊢
  linarith

theorem form (m : M4 F32) : Transform.extractQuat m =
    (let r : Fin 4 × F32 := (0, fadd (fadd m.c0.x m.c1.y) m.c2.z)
     let r := if ltb r.2 (fsub (fsub m.c0.x m.c1.y) m.c2.z) then (1, fsub (fsub m.c0.x m.c1.y) m.c2.z) else r
     let r := if ltb r.2 (fsub (fsub m.c1.y m.c0.x) m.c2.z) then (2, fsub (fsub m.c1.y m.c0.x) m.c2.z) else r
     let r := if ltb r.2 (fsub (fsub m.c2.z m.c0.x) m.c1.y) then (3, fsub (fsub m.c2.z m.c0.x) m.c1.y) else r
     let v := fmul (fsqrt (fadd r.2 (ofRat 1))) (ofRat (1 / 2))
     let mult := fdiv (ofRat (1 / 4)) v
     match r.1 with
     | 0 => ⟨fmul (fsub m.c1.z m.c2.y) mult, fmul (fsub m.c2.x m.c0.z) mult, fmul (fsub m.c0.y m.c1.x) mult, v⟩
     | 1 => ⟨v, fmul (fadd m.c0.y m.c1.x) mult, fmul (fadd m.c2.x m.c0.z) mult, fmul (fsub m.c1.z m.c2.y) mult⟩
     | 2 => ⟨fmul (fadd m.c0.y m.c1.x) mult, v, fmul (fadd m.c1.z m.c2.y) mult, fmul (fsub m.c2.x m.c0.z) mult⟩
     | 3 => ⟨fmul (fadd m.c2.x m.c0.z) mult, fmul (fadd m.c1.z m.c2.y) mult, v, fmul (fsub m.c0.y m.c1.x) mult⟩) := by
  exact rfl

theorem core {m : M4 F32} {x y z w ε : ℝ} (h : x ^ 2 + y ^ 2 + z ^ 2 + w ^ 2 = 1) (e0 : 0 ≤ ε) (e1 : ε ≤ 1 / 2 ^ 14)
    (a0 : Approx m.c0.x (1 - 2 * (y * y + z * z)) ε) (a1 : Approx m.c0.y (2 * (x * y + w * z)) ε) (a2 : Approx m.c0.z (2 * (x * z - w * y)) ε)
    (b0 : Approx m.c1.x (2 * (x * y - w * z)) ε) (b1 : Approx m.c1.y (1 - 2 * (x * x + z * z)) ε) (b2 : Approx m.c1.z (2 * (y * z + w * x)) ε)
    (c0 : Approx m.c2.x (2 * (x * z + w * y)) ε) (c1 : Approx m.c2.y (2 * (y * z - w * x)) ε) (c2 : Approx m.c2.z (1 - 2 * (x * x + y * y)) ε) :
    let r := Transform.extractQuat m
    ∃ σ : ℝ, (σ = 1 ∨ σ = -1) ∧ Approx r.x (σ * x) (3 * ε + 14 / 2 ^ 24) ∧ Approx r.y (σ * y) (3 * ε + 14 / 2 ^ 24) ∧
      Approx r.z (σ * z) (3 * ε + 14 / 2 ^ 24) ∧ Approx r.w (σ * w) (3 * ε + 14 / 2 ^ 24) := by
  have x2 := sq_nonneg x; have y2 := sq_nonneg y; have z2 := sq_nonneg z; have w2 := sq_nonneg w
  have half : ∀ {a b c d : ℝ}, a ^ 2 + b ^ 2 + c ^ 2 + d ^ 2 = 1 → |2 * (a * b + c * d)| ≤ 1 ∧ |2 * (a * b - c * d)| ≤ 1 := by
    intro a b c d h
    constructor <;> rw [abs_le] <;> constructor <;> nlinarith [sq_nonneg (a - b), sq_nonneg (a + b), sq_nonneg (c - d), sq_nonneg (c + d)]
  have dg : ∀ {a b : ℝ}, a ^ 2 + b ^ 2 ≤ 1 → |1 - 2 * (a * a + b * b)| ≤ 1 := by
    intro a b h; rw [abs_le]; constructor <;> nlinarith [sq_nonneg a, sq_nonneg b]
  have da := dg (a := y) (b := z) (by linarith)
  have db := dg (a := x) (b := z) (by linarith)
  have dc := dg (a := x) (b := y) (by linarith)
  obtain ⟨o1, o2⟩ := half (a := x) (b := y) (c := w) (d := z) (by linarith)
  obtain ⟨o3, o4⟩ := half (a := x) (b := z) (c := w) (d := y) (by linarith)
  obtain ⟨o5, o6⟩ := half (a := y) (b := z) (c := w) (d := x) (by linarith)
  have t0 := (three a0 b1 c2 da db dc e1).1
  have t1 := (three a0 b1 c2 da db dc e1).2
  have t2 := (three b1 a0 c2 db da dc e1).2
  have t3 := (three c2 a0 b1 dc da db e1).2
  replace t0 := t0.of_eq (y := 4 * w ^ 2 - 1) (by linarith)
  replace t1 := t1.of_eq (y := 4 * x ^ 2 - 1) (by ring)
  replace t2 := t2.of_eq (y := 4 * y ^ 2 - 1) (by ring)
  replace t3 := t3.of_eq (y := 4 * z ^ 2 - 1) (by ring)
  obtain ⟨xy, xy'⟩ := two a1 b0 o1 o2 e1
  obtain ⟨xz, xz'⟩ := two c0 a2 o3 o4 e1
  obtain ⟨yz, yz'⟩ := two b2 c1 o5 o6 e1
  intro r
  have hr : r = _ := form m
  obtain ⟨pc, p0, p1, p2, p3⟩ := pick t0.1 t1.1 t2.1 t3.1
  rw [hr]
  clear hr r
  generalize fadd (fadd m.c0.x m.c1.y) m.c2.z = T0 at *
  generalize fsub (fsub m.c0.x m.c1.y) m.c2.z = T1 at *
  generalize fsub (fsub m.c1.y m.c0.x) m.c2.z = T2 at *
  generalize fsub (fsub m.c2.z m.c0.x) m.c1.y = T3 at *
  dsimp only at pc p0 p1 p2 p3 ⊢
  have sg : ∀ q : ℝ, ∃ σ : ℝ, (σ = 1 ∨ σ = -1) ∧ σ * |q| = q ∧ |σ| = 1 ∧ σ * q = |q| := by
    intro q
    rcases le_total 0 q with h | h
    · exact ⟨1, Or.inl rfl, by rw [abs_of_nonneg h, one_mul], abs_one, by rw [abs_of_nonneg h, one_mul]⟩
    · exact ⟨-1, Or.inr rfl, by rw [abs_of_nonpos h]; ring, by simp, by rw [abs_of_nonpos h]; ring⟩
  have big : ∀ {q : ℝ} {t : F32}, Approx t (4 * q ^ 2 - 1) (3 * ε + 6 / 2 ^ 24) → T0.val ≤ t.val → T1.val ≤ t.val → T2.val ≤ t.val → T3.val ≤ t.val →
      1 - 2 * (3 * ε + 6 / 2 ^ 24) ≤ 4 * q ^ 2 := by
    intro q t ht h0 h1 h2 h3
    have i0 := abs_le.1 t0.2
    have i1 := abs_le.1 t1.2
    have i2 := abs_le.1 t2.2
    have i3 := abs_le.1 t3.2
    have i := abs_le.1 ht.2
    linarith
  have low : ∀ {q : ℝ}, 1 - 2 * (3 * ε + 6 / 2 ^ 24) ≤ 4 * q ^ 2 → 0.499 ≤ |q| := by
    intro q hq
    by_contra h
    have h : |q| < 0.499 := lt_of_not_ge h
    have hh := pow_lt_pow_left₀ h (abs_nonneg q) two_ne_zero
    rw [sq_abs] at hh
    norm_num at hh e1 hq
    linarith
  have d0 : 0 ≤ 3 * ε + 6 / 2 ^ 24 := by positivity
  have d1 : 3 * ε + 6 / 2 ^ 24 ≤ 1 / 2 ^ 12 := by norm_num at e1 ⊢; linarith
  have first : ∀ {v : F32} {q : ℝ}, Approx v |q| (0.26 * (3 * ε + 6 / 2 ^ 24) + 3.2 / 2 ^ 24) → Approx v |q| (3 * ε + 14 / 2 ^ 24) :=
    fun h => h.mono (by norm_num; linarith)
  rcases pc with hc | hc | hc | hc <;> rw [hc] at p0 p1 p2 p3 ⊢ <;> dsimp only at p0 p1 p2 p3 ⊢
  · have hl := big t0 p0 p1 p2 p3
    obtain ⟨hv, hf, hm⟩ := head t0 d0 d1 (by linarith) hl
    obtain ⟨σ, s0, s1, s2, s3⟩ := sg w
    refine ⟨σ, s0, ?_, ?_, ?_, (first hv).of_eq s3.symm⟩
    · exact rest yz' (by ring) hf hm s1 s2 e0 e1 (low hl) (by linarith)
    · exact rest xz' (by ring) hf hm s1 s2 e0 e1 (low hl) (by linarith)
    · exact rest xy' (by ring) hf hm s1 s2 e0 e1 (low hl) (by linarith)
  · have hl := big t1 p0 p1 p2 p3
    obtain ⟨hv, hf, hm⟩ := head t1 d0 d1 (by linarith) hl
    obtain ⟨σ, s0, s1, s2, s3⟩ := sg x
    refine ⟨σ, s0, (first hv).of_eq s3.symm, ?_, ?_, ?_⟩
    · exact rest xy (by ring) hf hm s1 s2 e0 e1 (low hl) (by linarith)
    · exact rest xz (by ring) hf hm s1 s2 e0 e1 (low hl) (by linarith)
    · exact rest yz' (by ring) hf hm s1 s2 e0 e1 (low hl) (by linarith)
  · have hl := big t2 p0 p1 p2 p3
    obtain ⟨hv, hf, hm⟩ := head t2 d0 d1 (by linarith) hl
    obtain ⟨σ, s0, s1, s2, s3⟩ := sg y
    refine ⟨σ, s0, ?_, (first hv).of_eq s3.symm, ?_, ?_⟩
    · exact rest xy (by ring) hf hm s1 s2 e0 e1 (low hl) (by linarith)
    · exact rest yz (by ring) hf hm s1 s2 e0 e1 (low hl) (by linarith)
    · exact rest xz' (by ring) hf hm s1 s2 e0 e1 (low hl) (by linarith)
  · have hl := big t3 p0 p1 p2 p3
    obtain ⟨hv, hf, hm⟩ := head t3 d0 d1 (by linarith) hl
    obtain ⟨σ, s0, s1, s2, s3⟩ := sg z
    refine ⟨σ, s0, ?_, ?_, (first hv).of_eq s3.symm, ?_⟩
    · exact rest xz (by ring) hf hm s1 s2 e0 e1 (low hl) (by linarith)
    · exact rest yz (by ring) hf hm s1 s2 e0 e1 (low hl) (by linarith)
    · exact rest xy' (by ring) hf hm s1 s2 e0 e1 (low hl) (by linarith)

/-- The columns of the matrix of a unit quaternion. -/
theorem columns {q : ℍ[ℝ]} (hq : ‖q‖ = 1) (a b c : ℝ) :
    q.imI ^ 2 + q.imJ ^ 2 + q.imK ^ 2 + q.re ^ 2 = 1 ∧
    (q * imQ ⟨a, b, c, 0⟩ * q⁻¹).imI = (1 - 2 * (q.imJ * q.imJ + q.imK * q.imK)) * a + 2 * (q.imI * q.imJ - q.re * q.imK) * b + 2 * (q.imI * q.imK + q.re * q.imJ) * c ∧
    (q * imQ ⟨a, b, c, 0⟩ * q⁻¹).imJ = 2 * (q.imI * q.imJ + q.re * q.imK) * a + (1 - 2 * (q.imI * q.imI + q.imK * q.imK)) * b + 2 * (q.imJ * q.imK - q.re * q.imI) * c ∧
    (q * imQ ⟨a, b, c, 0⟩ * q⁻¹).imK = 2 * (q.imI * q.imK - q.re * q.imJ) * a + 2 * (q.imJ * q.imK + q.re * q.imI) * b + (1 - 2 * (q.imI * q.imI + q.imJ * q.imJ)) * c := by
  have n : q.imI ^ 2 + q.imJ ^ 2 + q.imK ^ 2 + q.re ^ 2 = (1 : ℝ) ^ 2 := by
    have := Quaternion.normSq_eq_norm_mul_self q
    rw [hq, Quaternion.normSq_def'] at this
    linarith
  have := PlaceP.conj_unit one_pos n a b c
  simp only [div_one] at this
  exact this

end ExtractQuatP
open ExtractQuatP AngleQuatP

/-- C133: extracting a quaternion in binary32 from a matrix whose columns are within `ε` of the images of the axes under the rotation by the
unit quaternion `q`: every lane is within `3 ε + 14 / 2^24` of the one of `q`, or every lane is within that of the one of `-q`. -/
theorem extractQuat_f32 (m : M4 F32) (q : ℍ[ℝ]) (ε : ℝ) (hq : ‖q‖ = 1) (e1 : ε ≤ 1 / 2 ^ 14)
    (h0 : NearIm m.c0 (q * imQ ⟨1, 0, 0, 0⟩ * q⁻¹) ε) (h1 : NearIm m.c1 (q * imQ ⟨0, 1, 0, 0⟩ * q⁻¹) ε) (h2 : NearIm m.c2 (q * imQ ⟨0, 0, 1, 0⟩ * q⁻¹) ε) :
    NearQ (Transform.extractQuat m) q (3 * ε + 14 / 2 ^ 24) ∨ NearQ (Transform.extractQuat m) (-q) (3 * ε + 14 / 2 ^ 24) := by
  obtain ⟨n, i0, j0, k0⟩ := columns hq 1 0 0
  obtain ⟨-, i1, j1, k1⟩ := columns hq 0 1 0
  obtain ⟨-, i2, j2, k2⟩ := columns hq 0 0 1
  rw [NearIm, i0, j0, k0] at h0
  rw [NearIm, i1, j1, k1] at h1
  rw [NearIm, i2, j2, k2] at h2
  simp only [mul_one, mul_zero, add_zero, zero_add] at h0 h1 h2
  have e0 : 0 ≤ ε := (abs_nonneg _).trans h0.1.2
  obtain ⟨σ, hs, r1, r2, r3, r4⟩ := core n e0 e1 h0.1 h0.2.1 h0.2.2 h1.1 h1.2.1 h1.2.2 h2.1 h2.2.1 h2.2.2
  rcases hs with rfl | rfl
  · left
    simp only [one_mul] at r1 r2 r3 r4
    exact ⟨⟨r1, r2, r3⟩, r4⟩
  · right
    simp only [neg_mul, one_mul] at r1 r2 r3 r4
    exact ⟨⟨r1, r2, r3⟩, r4⟩

/-- C133: the extracted quaternion rotates vectors as the matrix does. -/
theorem extractQuat_rotates_f32 (k : Backend) (t : FTarget) (m : M4 F32) (R : M4 ℝ) (v : V4 F32) (ε : ℝ) (hR : IsRotation (block3 R)) (e1 : ε ≤ 1 / 2 ^ 14)
    (h0 : NearV m.c0 (xyz R.c0) ε) (h1 : NearV m.c1 (xyz R.c1) ε) (h2 : NearV m.c2 (xyz R.c2) ε) (fv : AllFinite v.xyz.toList) (hv : len3 v ≤ 2 ^ 100) :
    NearV (F32x4.rotate k t (Transform.extractQuat m) v) (Matrix.mulVec (block3 R) (exact3 v)) ((1 / 2 ^ 16 + 37 * ε) * len3 v + 1 / 2 ^ 140) := by
  obtain ⟨hu, hm⟩ := extractQuat_rotation R hR
  generalize Transform.extractQuat R = E at *
  have hQ : ‖toQ E‖ = 1 := by
    have := Quaternion.normSq_eq_norm_mul_self (toQ E)
    rw [Quaternion.normSq_def'] at this
    unfold UnitQuat at hu
    simp only [toQ_re, toQ_imI, toQ_imJ, toQ_imK] at this
    nlinarith [norm_nonneg (toQ E)]
  have ent : ∀ i j, block3 (Transform.rotate E) i j = block3 R i j := fun i j => by rw [hm]
  have g00 := ent 0 0; have g01 := ent 0 1; have g02 := ent 0 2
  have g10 := ent 1 0; have g11 := ent 1 1; have g12 := ent 1 2
  have g20 := ent 2 0; have g21 := ent 2 1; have g22 := ent 2 2
  simp [block3, vec] at g00 g01 g02 g10 g11 g12 g20 g21 g22
  have cc : ∀ a b c : ℝ, toQ E * imQ ⟨a, b, c, 0⟩ * (toQ E)⁻¹ = imV (Matrix.mulVec (block3 R) ![a, b, c]) := by
    intro a b c
    obtain ⟨-, i0, j0, k0⟩ := columns hQ a b c
    simp only [toQ_re, toQ_imI, toQ_imJ, toQ_imK] at i0 j0 k0
    have hre := conj_re (toQ E) (imQ ⟨a, b, c, 0⟩) rfl
    ext
    · exact hre
    · rw [i0]; simp [imV, block3, Matrix.mulVec, dotProduct, Fin.sum_univ_three, ← g00, ← g01, ← g02]
    · rw [j0]; simp [imV, block3, Matrix.mulVec, dotProduct, Fin.sum_univ_three, ← g10, ← g11, ← g12]
    · rw [k0]; simp [imV, block3, Matrix.mulVec, dotProduct, Fin.sum_univ_three, ← g20, ← g21, ← g22]
  have e0 : 0 ≤ ε := (abs_nonneg _).trans h0.1.2
  have L0 : 0 ≤ len3 v := Real.sqrt_nonneg _
  have hE := extractQuat_f32 m (toQ E) ε hQ e1 (by rw [cc]; simpa [NearIm, NearV, imV, block3, Matrix.mulVec, dotProduct, Fin.sum_univ_three, xyz] using h0)
    (by rw [cc]; simpa [NearIm, NearV, imV, block3, Matrix.mulVec, dotProduct, Fin.sum_univ_three, xyz] using h1)
    (by rw [cc]; simpa [NearIm, NearV, imV, block3, Matrix.mulVec, dotProduct, Fin.sum_univ_three, xyz] using h2)
  have ew : toQ E * pureOf v * (toQ E)⁻¹ = imV (Matrix.mulVec (block3 R) (exact3 v)) := cc _ _ _
  have ew' : -toQ E * pureOf v * (-toQ E)⁻¹ = imV (Matrix.mulVec (block3 R) (exact3 v)) := by rw [inv_neg, neg_mul, neg_mul_neg]; exact ew
  have le : (1 / 2 ^ 19 + 12.1 * (3 * ε + 14 / 2 ^ 24)) * len3 v + 1 / 2 ^ 140 ≤ (1 / 2 ^ 16 + 37 * ε) * len3 v + 1 / 2 ^ 140 := by
    have := mul_le_mul_of_nonneg_right (show (1 / 2 ^ 19 + 12.1 * (3 * ε + 14 / 2 ^ 24)) ≤ 1 / 2 ^ 16 + 37 * ε by norm_num; linarith) L0
    linarith
  rcases hE with hE | hE
  · have := rotate_close k t hE hQ (by norm_num at e1 ⊢; linarith) fv hv ew
    exact ⟨Approx.mono this.1 le, Approx.mono this.2.1 le, Approx.mono this.2.2 le⟩
  · have := rotate_close k t hE (by rw [norm_neg]; exact hQ) (by norm_num at e1 ⊢; linarith) fv hv ew'
    exact ⟨Approx.mono this.1 le, Approx.mono this.2.1 le, Approx.mono this.2.2 le⟩

/-- C133: the position and the rotation put into a model matrix of unit scale are found in it again: the position exactly, the
rotation (or its negative, the same rotation) within `9e-6` in every lane. -/
theorem extractTransform_f32 (k : Backend) (t : FTarget) (p q s : V4 F32) (fp : AllFinite p.xyz.toList) (fq : AllFinite q.toList)
    (fs : AllFinite s.xyz.toList) (h1 : 1 / 2 ^ 50 ≤ ‖quatOf q‖) (h2 : ‖quatOf q‖ ≤ 2 ^ 62) (hs : rv s.x = 1 ∧ rv s.y = 1 ∧ rv s.z = 1) :
    let r := Transform.extractTransform2 (F32x4.calcModel k t p q s)
    exact3 r.1 = exact3 p ∧ (NearQ r.2 ((‖quatOf q‖⁻¹ : ℝ) • quatOf q) 9e-6 ∨ NearQ r.2 (-((‖quatOf q‖⁻¹ : ℝ) • quatOf q)) 9e-6) := by
  obtain ⟨⟨c0, c1, c2⟩, pos, -⟩ := calcModel_matrix_accuracy k t p q s fp fq fs h1 h2 (by rw [hs.1, hs.2.1, hs.2.2]; norm_num)
  rw [hs.1] at c0
  rw [hs.2.1] at c1
  rw [hs.2.2] at c2
  have n0 : 0 < ‖quatOf q‖ := lt_of_lt_of_le (by positivity) h1
  have q0 : quatOf q ≠ 0 := norm_pos_iff.1 n0
  generalize quatOf q = Q at *
  have hn : ‖(‖Q‖⁻¹ : ℝ) • Q‖ = 1 := by rw [norm_smul, norm_inv, norm_norm, inv_mul_cancel₀ n0.ne']
  have hc : ∀ v, ((‖Q‖⁻¹ : ℝ) • Q) * v * ((‖Q‖⁻¹ : ℝ) • Q)⁻¹ = Q * v * Q⁻¹ := by
    intro v
    rw [smul_inv₀, smul_mul_assoc, smul_mul_smul_comm, mul_inv_cancel₀ (inv_ne_zero n0.ne'), one_smul]
  generalize F32x4.calcModel k t p q s = m at *
  intro r
  have mo : ∀ {c : V4 F32} {x : ℍ[ℝ]} (z : F32), NearIm c x (40 / 2 ^ 24 * |(1 : ℝ)| + 1 / 2 ^ 146) → NearIm (V4.withW c z) x (41 / 2 ^ 24) := by
    intro c x z h
    have le : (40 / 2 ^ 24 * |(1 : ℝ)| + 1 / 2 ^ 146) ≤ 41 / 2 ^ 24 := by norm_num
    exact ⟨Approx.mono h.1 le, Approx.mono h.2.1 le, Approx.mono h.2.2 le⟩
  refine ⟨?_, ?_⟩
  · change exact3 m.c3 = exact3 p
    unfold exact3
    rw [pos.1, pos.2.1, pos.2.2]
  · have h := extractQuat_f32 (Transform.extractRotationOnly m) ((‖Q‖⁻¹ : ℝ) • Q) (41 / 2 ^ 24) hn (by norm_num) (by rw [hc]; exact mo _ c0)
      (by rw [hc]; exact mo _ c1) (by rw [hc]; exact mo _ c2)
    have le : (3 * (41 / 2 ^ 24) + 14 / 2 ^ 24 : ℝ) ≤ 9e-6 := by norm_num
    have up : ∀ {x : ℍ[ℝ]}, NearQ r.2 x (3 * (41 / 2 ^ 24) + 14 / 2 ^ 24) → NearQ r.2 x 9e-6 := fun h =>
      ⟨⟨Approx.mono h.1.1 le, Approx.mono h.1.2.1 le, Approx.mono h.1.2.2 le⟩, Approx.mono h.2 le⟩
    exact h.imp up up

/-- A turn by 120 degrees about the diagonal, at the position (1, 1, 1), meets the hypotheses. -/
example (k : Backend) (t : FTarget) (a o : F32) (fa : a.isFinite = true) (fo : o.isFinite = true) (ha : rv a = 1 / 2) (ho : rv o = 1) :
    let q : V4 F32 := ⟨a, a, a, a⟩
    let p : V4 F32 := ⟨o, o, o, o⟩
    let r := Transform.extractTransform2 (F32x4.calcModel k t p q p)
    exact3 r.1 = exact3 p ∧ (NearQ r.2 (quatOf q) 9e-6 ∨ NearQ r.2 (-quatOf q) 9e-6) := by
  have n2 := quat_sq ⟨a, a, a, a⟩
  simp only [ha] at n2
  have n : ‖quatOf ⟨a, a, a, a⟩‖ = 1 := by nlinarith [norm_nonneg (quatOf ⟨a, a, a, a⟩)]
  have h := extractTransform_f32 k t ⟨o, o, o, o⟩ ⟨a, a, a, a⟩ ⟨o, o, o, o⟩ (by simp [AllFinite, V4.xyz, V3.toList, fo]) (by simp [AllFinite, V4.toList, fa])
    (by simp [AllFinite, V4.xyz, V3.toList, fo]) (by rw [n]; norm_num) (by rw [n]; norm_num) ⟨ho, ho, ho⟩
  rw [n, inv_one, one_smul] at h
  exact h

end Verif
