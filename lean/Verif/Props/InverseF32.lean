import Verif.Proofs.F32Poly
import Verif.Model.MatBackends
import Verif.Props.MatBackends
import Verif.Spec.Inverse

/-!
# C118: inverse matrices in binary32
-/

namespace Verif
open F32 Spec

private theorem pAdd {a b : F32} {x y s t : ℝ} {k l m m' d n n' : ℕ} (ha : Pol a x s k m d n) (hb : Pol b y t l m' d n')
    (hk : max k l ≤ 64) (hm : m + m' ≤ 64) (hd : d ≤ 4) (hn : n + n' ≤ 64) :
    Pol (a +. b) (x + y) (s + t) (max k l + 1) (m + m') d (n + n') := ha.add hb hk hm hd hn
private theorem pSub {a b : F32} {x y s t : ℝ} {k l m m' d n n' : ℕ} (ha : Pol a x s k m d n) (hb : Pol b y t l m' d n')
    (hk : max k l ≤ 64) (hm : m + m' ≤ 64) (hd : d ≤ 4) (hn : n + n' ≤ 64) :
    Pol (a -. b) (x - y) (s + t) (max k l + 1) (m + m') d (n + n') := ha.sub hb hk hm hd hn
private theorem pMul {a b : F32} {y t : ℝ} {l m d n : ℕ} (ha : a.isFinite = true) (hab : |a.val| ≤ polT) (hb : Pol b y t l m d n)
    (hk : l ≤ 64) (hm : m ≤ 64) (hd : d + 1 ≤ 4) (hn : n ≤ 64) :
    Pol (a *. b) (a.val * y) (|a.val| * t) (l + 1) (m + 1) (d + 1) n := hb.mul ha hab hk hm hd hn
private theorem pSign {a : F32} {y t : ℝ} {l m d n : ℕ} (q : Rat) (hq : (Flt.lit q : F32).isFinite = true)
    (hv : (Flt.lit q : F32).val = q) (h1 : |(q : ℝ)| = 1) (ha : Pol a y t l m d n)
    (hk : l ≤ 64) (hm : m ≤ 64) (hd : d ≤ 4) (hn : n ≤ 64) :
    Pol (a *. (Flt.lit q : F32)) (y * q) t (l + 1) (m + 1) d n := by
  have := ha.sign hq (by rw [hv]; exact h1) hk hm hd hn
  rw [hv] at this; exact this

private theorem rv_val (x : F32) : rv x = x.val := rfl

attribute [local irreducible] F32.fadd F32.fsub F32.fmul F32.ffma

set_option maxHeartbeats 4000000 in
private theorem sse_pol (fm : F32 → F32 → F32 → F32) (hf : ∀ a b c, fm a b c = ffma a b c ∨ fm a b c = fadd c (fmul a b))
    (m : M4 F32) (hm : ∀ i j, (at4 m i j).isFinite = true ∧ |rv (at4 m i j)| ≤ 2 ^ 20) (i j : Fin 4) :
    Pol (at4 (Simd.inverseColsSse fm m).2 i j) ((realM4 m).adjugate i j) (absDet ((realM4 m).submatrix j.succAbove i.succAbove)) 7 12 2 6 := by
  obtain ⟨⟨a, b, c, d⟩, ⟨e, f, g, h⟩, ⟨i', j', k, l⟩, ⟨m, n, o, p⟩⟩ := m
  have h0 : ∀ i j, (at4 (⟨⟨a, b, c, d⟩, ⟨e, f, g, h⟩, ⟨i', j', k, l⟩, ⟨m, n, o, p⟩⟩ : M4 F32) i j).isFinite = true ∧
    |(at4 (⟨⟨a, b, c, d⟩, ⟨e, f, g, h⟩, ⟨i', j', k, l⟩, ⟨m, n, o, p⟩⟩ : M4 F32) i j).val| ≤ polT := hm
  simp [Fin.forall_fin_succ, at4, V4.get] at h0
  obtain ⟨⟨⟨_, _⟩, ⟨_, _⟩, ⟨_, _⟩, _, _⟩, ⟨⟨_, _⟩, ⟨_, _⟩, ⟨_, _⟩, _, _⟩, ⟨⟨_, _⟩, ⟨_, _⟩, ⟨_, _⟩, _, _⟩, ⟨_, _⟩, ⟨_, _⟩, ⟨_, _⟩, _, _⟩ := h0
  clear hm
  rw [Matrix.adjugate_fin_succ_eq_det_submatrix, Matrix.det_fin_three]
  fin_cases i <;> fin_cases j
  all_goals
    simp [Simd.inverseColsSse, Simd.shuffle, V4.get, V4.mul, V4.sub, V4.map2, V4.map3, at4, realM4, absDet, Fin.sum_univ_succ,
      Fin.succAbove]
    simp only [rv_val]
    apply Pol.conv
    · repeat' first | apply pSub | apply Pol.fma (hf _ _ _) | apply pMul | apply Pol.var | assumption
      all_goals norm_num
    · ring
    · ring
    all_goals norm_num

private theorem sLit : ((Flt.lit 1 : F32).isFinite = true ∧ (Flt.lit 1 : F32).val = ((1 : Rat) : ℝ)) ∧
    ((Flt.lit (-1) : F32).isFinite = true ∧ (Flt.lit (-1) : F32).val = ((-1 : Rat) : ℝ)) := by
  obtain ⟨a, b⟩ := lit_exact (q := 1) (U := 2 ^ 149) (by decide +kernel) (by decide +kernel)
  obtain ⟨c, d⟩ := lit_exact (q := -1) (U := -2 ^ 149) (by decide +kernel) (by decide +kernel)
  exact ⟨⟨a, b.trans (by push_cast; norm_num)⟩, c, d.trans (by push_cast; norm_num)⟩

set_option maxHeartbeats 4000000 in
private theorem plain_pol (m : M4 F32) (hm : ∀ i j, (at4 m i j).isFinite = true ∧ |rv (at4 m i j)| ≤ 2 ^ 20) (i j : Fin 4) :
    Pol (at4 m.cofactors i j) ((realM4 m).adjugate i j) (absDet ((realM4 m).submatrix j.succAbove i.succAbove)) 7 12 2 6 := by
  obtain ⟨⟨a, b, c, d⟩, ⟨e, f, g, h⟩, ⟨i', j', k, l⟩, ⟨m, n, o, p⟩⟩ := m
  have h0 : ∀ i j, (at4 (⟨⟨a, b, c, d⟩, ⟨e, f, g, h⟩, ⟨i', j', k, l⟩, ⟨m, n, o, p⟩⟩ : M4 F32) i j).isFinite = true ∧
    |(at4 (⟨⟨a, b, c, d⟩, ⟨e, f, g, h⟩, ⟨i', j', k, l⟩, ⟨m, n, o, p⟩⟩ : M4 F32) i j).val| ≤ polT := hm
  simp [Fin.forall_fin_succ, at4, V4.get] at h0
  obtain ⟨⟨⟨_, _⟩, ⟨_, _⟩, ⟨_, _⟩, _, _⟩, ⟨⟨_, _⟩, ⟨_, _⟩, ⟨_, _⟩, _, _⟩, ⟨⟨_, _⟩, ⟨_, _⟩, ⟨_, _⟩, _, _⟩, ⟨_, _⟩, ⟨_, _⟩, ⟨_, _⟩, _, _⟩ := h0
  clear hm
  rw [Matrix.adjugate_fin_succ_eq_det_submatrix, Matrix.det_fin_three]
  fin_cases i <;> fin_cases j
  all_goals
    simp [M4.cofactors, V4.add, V4.get, V4.mul, V4.sub, V4.map2, at4, realM4, absDet, Fin.sum_univ_succ, Fin.succAbove]
    simp only [rv_val]
    apply Pol.conv
    · first | apply pSign 1 sLit.1.1 sLit.1.2 | apply pSign (-1) sLit.2.1 sLit.2.2
      · norm_num
      · repeat' first | apply pSub | apply pAdd | apply pMul | apply Pol.var | assumption
        all_goals norm_num
      all_goals norm_num
    · push_cast; ring
    · ring
    all_goals norm_num

private theorem row_real (m : M4 F32) : (realM4 m).det = ∑ j, (at4 m 0 j).val * (realM4 m).adjugate j 0 := by
  rw [Matrix.det_eq_sum_mul_adjugate_row (realM4 m) 0]; rfl
private theorem col_real (m : M4 F32) : (realM4 m).det = ∑ i, (at4 m i 0).val * (realM4 m).adjugate 0 i := by
  rw [Matrix.det_eq_sum_mul_adjugate_col (realM4 m) 0]; rfl
private theorem row_abs (m : M4 F32) :
    absDet (realM4 m) = ∑ j, |(at4 m 0 j).val| * absDet ((realM4 m).submatrix (0 : Fin 4).succAbove j.succAbove) := by
  rw [absDet]; rfl
private theorem col_abs (m : M4 F32) :
    absDet (realM4 m) = ∑ i, |(at4 m i 0).val| * absDet ((realM4 m).submatrix i.succAbove (0 : Fin 4).succAbove) := by
  simp only [← rv_val]
  simp [absDet, Fin.sum_univ_succ, Fin.succAbove, realM4]
  ring

/-- The determinant, as a sum of four products added in pairs. -/
private theorem det_pol {a0 a1 a2 a3 c0 c1 c2 c3 : F32} {y0 y1 y2 y3 t0 t1 t2 t3 D P : ℝ}
    (h0 : a0.isFinite = true ∧ |a0.val| ≤ polT) (h1 : a1.isFinite = true ∧ |a1.val| ≤ polT)
    (h2 : a2.isFinite = true ∧ |a2.val| ≤ polT) (h3 : a3.isFinite = true ∧ |a3.val| ≤ polT)
    (p0 : Pol c0 y0 t0 7 12 2 6) (p1 : Pol c1 y1 t1 7 12 2 6) (p2 : Pol c2 y2 t2 7 12 2 6) (p3 : Pol c3 y3 t3 7 12 2 6)
    (hD : D = a0.val * y0 + (a1.val * y1 + (a2.val * y2 + a3.val * y3)))
    (hP : P = |a0.val| * t0 + (|a1.val| * t1 + (|a2.val| * t2 + |a3.val| * t3))) :
    Pol ((a0 *. c0 +. a1 *. c1) +. (a2 *. c2 +. a3 *. c3)) D P 10 52 3 24 ∧
    Pol ((a3 *. c3 +. a2 *. c2) +. (a1 *. c1 +. a0 *. c0)) D P 10 52 3 24 := by
  have q0 := pMul h0.1 h0.2 p0 (by norm_num) (by norm_num) (by norm_num) (by norm_num)
  have q1 := pMul h1.1 h1.2 p1 (by norm_num) (by norm_num) (by norm_num) (by norm_num)
  have q2 := pMul h2.1 h2.2 p2 (by norm_num) (by norm_num) (by norm_num) (by norm_num)
  have q3 := pMul h3.1 h3.2 p3 (by norm_num) (by norm_num) (by norm_num) (by norm_num)
  subst hD; subst hP
  refine ⟨?_, ?_⟩
  · have := pAdd (pAdd q0 q1 (by norm_num) (by norm_num) (by norm_num) (by norm_num))
      (pAdd q2 q3 (by norm_num) (by norm_num) (by norm_num) (by norm_num)) (by norm_num) (by norm_num) (by norm_num) (by norm_num)
    exact this.conv (by ring) (by ring) (by norm_num) (by norm_num) (by norm_num)
  · have := pAdd (pAdd q3 q2 (by norm_num) (by norm_num) (by norm_num) (by norm_num))
      (pAdd q1 q0 (by norm_num) (by norm_num) (by norm_num) (by norm_num)) (by norm_num) (by norm_num) (by norm_num) (by norm_num)
    exact this.conv (by ring) (by ring) (by norm_num) (by norm_num) (by norm_num)

/-- The reciprocal of the determinant times a cofactor. -/
private theorem inv_final {Dh c : F32} {D P C S : ℝ} (hD : Pol Dh D P 10 52 3 24) (hc : Pol c C S 7 12 2 6)
    (hd : 1 / 2 ^ 40 ≤ |D|) (hk : P / |D| ≤ 2 ^ 16) :
    Near (fmul (fdiv (Flt.lit 1) Dh) c) (C / D) (8 / 2 ^ 24 * (S / |D|) + 13 / 2 ^ 24 * (P / |D|) * |C / D| + 1 / 2 ^ 60) := by
  have D0 : 0 < |D| := lt_of_lt_of_le (by norm_num) hd
  have Dn : D ≠ 0 := abs_pos.1 D0
  obtain ⟨κ, hκ⟩ : ∃ κ, κ = P / |D| := ⟨_, rfl⟩
  rw [← hκ] at hk ⊢
  have hP : P = κ * |D| := by rw [hκ]; field_simp
  have κ1 : 1 ≤ κ := by rw [hκ, le_div_iff₀ D0]; linarith [hD.abs_le]
  obtain ⟨w, hw⟩ : ∃ w, w = 1 / |D| := ⟨_, rfl⟩
  have w0 : 0 < w := by rw [hw]; positivity
  have w1 : w ≤ 2 ^ 40 := by rw [hw, div_le_iff₀ D0]; linarith
  have w2 : 1 / 2 ^ 90 ≤ w := by
    rw [hw, div_le_div_iff₀ (by norm_num) D0]
    have := hD.abs_le.trans hD.big
    unfold polT at this; norm_num at this ⊢; linarith
  -- the determinant
  have e1 : F32.Rel Dh.val D (10.002 / 2 ^ 24 * κ) 0 := by
    have h := hD.err
    have h1 : ((1 : ℝ) + uro) ^ 10 - 1 ≤ 10.001 / 2 ^ 24 := by unfold uro; norm_num
    have h2 : (52 : ℕ) * polT ^ 3 * (1 + uro) ^ 10 / 2 ^ 150 ≤ (1 : ℝ) / 2 ^ 80 := by unfold uro polT; norm_num
    have h3 : (((1 : ℝ) + uro) ^ 10 - 1) * P ≤ 10.001 / 2 ^ 24 * P := mul_le_mul_of_nonneg_right h1 hD.s_nonneg
    have h4 : (1 : ℝ) / 2 ^ 80 ≤ 0.001 / 2 ^ 24 * (κ * |D|) := by
      have : (1 : ℝ) / 2 ^ 40 ≤ κ * |D| := hd.trans (by nlinarith)
      norm_num at this ⊢; linarith
    unfold F32.Rel
    rw [hP] at h h3
    linarith
  have θ1 : 10.002 / 2 ^ 24 * κ ≤ 0.0391 := by norm_num at hk ⊢; linarith
  have one : F32.Rel (Flt.lit 1 : F32).val 1 0 0 := by
    have := sLit.1.2
    push_cast at this
    rw [this]; exact Rel.refl 1
  have e2 := (one.div e1 (by linarith) Dn)
  have e2' : F32.Rel ((Flt.lit 1 : F32).val / Dh.val) (1 / D) (10.41 / 2 ^ 24 * κ) 0 := by
    refine e2.mono ?_ (by simp)
    rw [zero_add, div_le_iff₀ (by linarith)]
    have : 0.0391 * (10.41 / 2 ^ 24 * κ) ≥ 10.002 / 2 ^ 24 * κ * (10.41 / 2 ^ 24 * κ) := by gcongr
    have : (10.41 / 2 ^ 24 : ℝ) * κ * (1 - 0.0391) ≥ 10.002 / 2 ^ 24 * κ := by
      norm_num; linarith
    linarith
  have hn : |1 / D| = w := by rw [abs_div, abs_one, hw]
  have Dhn : Dh.val ≠ 0 := by
    have := e1.le_abs
    intro h; rw [h, abs_zero] at this
    nlinarith
  have sm : |(Flt.lit 1 : F32).val / Dh.val| < 2 ^ 127 := by
    have := e2'.abs_le
    rw [hn, add_zero] at this
    have : (10.41 / 2 ^ 24 : ℝ) * κ ≤ 1 := by norm_num at hk ⊢; linarith
    calc _ ≤ (1 + 10.41 / 2 ^ 24 * κ) * w := by assumption
      _ ≤ (1 + 1) * 2 ^ 40 := by gcongr
      _ < _ := by norm_num
  obtain ⟨fd, ed⟩ := fdiv_rel sLit.1.1 hD.fin Dhn sm
  have e3 := e2'.round ed uro_pos.le
  generalize hdd : fdiv (Flt.lit 1) Dh = d at *
  have hu : uro = 1 / 2 ^ 24 := rfl
  have e4 : |d.val - 1 / D| ≤ 11.42 / 2 ^ 24 * κ * w + 1 / 2 ^ 150 := by
    have h := e3
    unfold F32.Rel at h
    rw [hn, hu] at h
    have : 10.41 / 2 ^ 24 * κ + 1 / 2 ^ 24 + 10.41 / 2 ^ 24 * κ * (1 / 2 ^ 24) ≤ (11.42 / 2 ^ 24 : ℝ) * κ := by
      norm_num; linarith
    have := mul_le_mul_of_nonneg_right this w0.le
    linarith
  have e5 : |d.val| ≤ 1.05 * w := by
    have h := abs_add_le (d.val - 1 / D) (1 / D)
    rw [sub_add_cancel, hn] at h
    have : 11.42 / 2 ^ 24 * κ * w ≤ 0.045 * w := by
      gcongr; norm_num at hk ⊢; linarith
    have : (1 : ℝ) / 2 ^ 150 ≤ 1 / 2 ^ 50 * w := by
      calc (1 : ℝ) / 2 ^ 150 ≤ 1 / 2 ^ 50 * (1 / 2 ^ 90) := by norm_num
        _ ≤ _ := by gcongr
    linarith
  -- the cofactor
  have S0 := hc.s_nonneg
  have e6 : |c.val - C| ≤ 7.001 / 2 ^ 24 * S + 1 / 2 ^ 105 := by
    have h := hc.err
    have h1 : ((1 : ℝ) + uro) ^ 7 - 1 ≤ 7.001 / 2 ^ 24 := by unfold uro; norm_num
    have h2 : (12 : ℕ) * polT ^ 2 * (1 + uro) ^ 7 / 2 ^ 150 ≤ (1 : ℝ) / 2 ^ 105 := by unfold uro polT; norm_num
    have h3 := mul_le_mul_of_nonneg_right h1 S0
    linarith
  have S1 : S ≤ 2 ^ 63 := hc.big.trans (by unfold polT; norm_num)
  have C1 : |C| ≤ 2 ^ 63 := hc.abs_le.trans S1
  -- the product
  have hx : |C / D| = |C| * w := by rw [abs_div, hw]; ring
  have e7 : |d.val * c.val - C / D| ≤ 7.36 / 2 ^ 24 * (S * w) + 11.42 / 2 ^ 24 * κ * (|C| * w) + 1 / 2 ^ 62 := by
    have e : d.val * c.val - C / D = d.val * (c.val - C) + C * (d.val - 1 / D) := by ring
    rw [e]
    refine (abs_add_le _ _).trans ?_
    rw [abs_mul, abs_mul]
    have t1 : |d.val| * |c.val - C| ≤ 1.05 * w * (7.001 / 2 ^ 24 * S + 1 / 2 ^ 105) :=
      mul_le_mul e5 e6 (abs_nonneg _) (by positivity)
    have t2 : |C| * |d.val - 1 / D| ≤ |C| * (11.42 / 2 ^ 24 * κ * w + 1 / 2 ^ 150) := by gcongr
    have t3 : w * (1 / 2 ^ 105) ≤ 2 ^ 40 * (1 / 2 ^ 105) := by gcongr
    have t4 : |C| * (1 / 2 ^ 150) ≤ 2 ^ 63 * (1 / 2 ^ 150) := by gcongr
    have t5 : 1.05 * w * (7.001 / 2 ^ 24 * S) ≤ 7.36 / 2 ^ 24 * (S * w) := by
      have : 0 ≤ S * w := by positivity
      norm_num; linarith
    have t6 : (1.05 : ℝ) * (2 ^ 40 * (1 / 2 ^ 105)) + 2 ^ 63 * (1 / 2 ^ 150) ≤ 1 / 2 ^ 62 := by norm_num
    linarith
  have Sw : S * w ≤ 2 ^ 103 := by
    calc S * w ≤ 2 ^ 63 * 2 ^ 40 := by gcongr
      _ = _ := by norm_num
  have Cw : |C| * w ≤ 2 ^ 103 := (mul_le_mul_of_nonneg_right hc.abs_le w0.le).trans Sw
  have Cw0 : 0 ≤ |C| * w := by positivity
  have Sw0 : 0 ≤ S * w := by positivity
  have kk : 11.42 / 2 ^ 24 * κ * (|C| * w) ≤ 0.045 * (|C| * w) := by gcongr; norm_num at hk ⊢; linarith
  have e8 : |d.val * c.val| ≤ 1.05 * (|C| * w) + 7.36 / 2 ^ 24 * (S * w) + 1 / 2 ^ 62 := by
    have h := abs_add_le (d.val * c.val - C / D) (C / D)
    rw [sub_add_cancel, hx] at h
    linarith
  have sm2 : |d.val * c.val| < 2 ^ 127 := by
    refine e8.trans_lt ?_
    norm_num at Sw Cw ⊢
    linarith
  obtain ⟨fr, er⟩ := fmul_rel fd hc.fin sm2
  refine ⟨fr, ?_⟩
  have h := abs_add_le ((fmul d c).val - d.val * c.val) (d.val * c.val - C / D)
  rw [sub_add_sub_cancel] at h
  rw [hx, show S / |D| = S * w by rw [hw]; ring]
  change |(fmul d c).val - C / D| ≤ _
  have h9 := mul_le_mul_of_nonneg_left e8 uro_pos.le
  have hκ2 : 13 / 2 ^ 24 * κ * (|C| * w) = 13 / 2 ^ 24 * (κ * (|C| * w)) := by ring
  have hκ3 : |C| * w ≤ κ * (|C| * w) := le_mul_of_one_le_left Cw0 κ1
  have hκ4 : 11.42 / 2 ^ 24 * κ * (|C| * w) = 11.42 / 2 ^ 24 * (κ * (|C| * w)) := by ring
  rw [hκ4] at e7
  rw [hκ2]
  rw [hu] at h9 er
  norm_num at h9 er e7 ⊢
  linarith

private theorem inv_entry (m : M4 F32) (i j : Fin 4) : (realM4 m)⁻¹ i j = (realM4 m).adjugate i j / (realM4 m).det := by
  rw [Matrix.inv_def, Ring.inverse_eq_inv', Matrix.smul_apply, smul_eq_mul]; ring

/-- C118: `inverse4x4` on SSE, AVX2 and NEON, with fused and with separate multiply-add: the inverse up to rounding. -/
theorem inverse4x4_f32 (m : M4 F32) (h : InvertibleOk m) (fused : Bool) :
    InverseNear m (Simd.inverse4x4Sse (F32x4.fma1 (.sse fused)) m) ∧ InverseNear m (Simd.inverse4x4Neon (F32x4.fma1 (.neon fused)) m) := by
  obtain ⟨h1, h2, h3⟩ := h
  have hf : ∀ a b c, F32x4.fma1 (.sse fused) a b c = ffma a b c ∨ F32x4.fma1 (.sse fused) a b c = fadd c (fmul a b) := by
    cases fused
    · exact fun _ _ _ => .inr rfl
    · exact fun _ _ _ => .inl rfl
  have key : InverseNear m (Simd.inverse4x4Sse (F32x4.fma1 (.sse fused)) m) := by
    generalize F32x4.fma1 (.sse fused) = fm at hf
    intro i j
    have p := sse_pol fm hf m h1
    have q := (det_pol (h1 0 0) (h1 0 1) (h1 0 2) (h1 0 3) (p 0 0) (p 1 0) (p 2 0) (p 3 0) (D := (realM4 m).det) (P := absDet (realM4 m))
      (by rw [row_real]; simp only [Fin.sum_univ_succ, Fin.sum_univ_zero, add_zero]; rfl)
      (by rw [row_abs]; simp only [Fin.sum_univ_succ, Fin.sum_univ_zero, add_zero]; rfl)).2
    have := inv_final q (p i j) h2 h3
    rw [inv_entry]
    fin_cases j <;> fin_cases i <;> exact this
  refine ⟨key, ?_⟩
  rw [Simd.inverse4x4_bits]; exact key

/-- C118: the same without SIMD and for `float4x4`. -/
theorem inverse_f32 (m : M4 F32) (h : InvertibleOk m) : InverseNear m m.inverse ∧ InverseNear m (Simd.inverse4x4Plain m) := by
  refine (fun k => ⟨k, k⟩) ?_
  obtain ⟨h1, h2, h3⟩ := h
  intro i j
  have p := plain_pol m h1
  have q := (det_pol (h1 0 0) (h1 1 0) (h1 2 0) (h1 3 0) (p 0 0) (p 0 1) (p 0 2) (p 0 3) (D := (realM4 m).det) (P := absDet (realM4 m))
    (by rw [col_real]; simp only [Fin.sum_univ_succ, Fin.sum_univ_zero, add_zero]; rfl)
    (by rw [col_abs]; simp only [Fin.sum_univ_succ, Fin.sum_univ_zero, add_zero]; rfl)).1
  have := inv_final q (p i j) h2 h3
  rw [inv_entry]
  rw [fmul_comm] at this
  fin_cases j <;> fin_cases i <;> exact this

/-- Concrete case: a shear with a swap, a scale and a translation. -/
private theorem exMat : InvertibleOk (M4.ofRows (ofRat 0) (ofRat 1) (ofRat 0) (ofRat 5) (ofRat 1) (ofRat 0) (ofRat 0) (ofRat 0)
    (ofRat 0) (ofRat 3) (ofRat 2) (ofRat 0) (ofRat 0) (ofRat 0) (ofRat 0) (ofRat (-1))) := by
  obtain ⟨a1, a2⟩ := lit_exact (q := 0) (U := 0) (by decide +kernel) (by decide +kernel)
  obtain ⟨b1, b2⟩ := lit_exact (q := 1) (U := 2 ^ 149) (by decide +kernel) (by decide +kernel)
  obtain ⟨c1, c2⟩ := lit_exact (q := 5) (U := 5 * 2 ^ 149) (by decide +kernel) (by decide +kernel)
  obtain ⟨d1, d2⟩ := lit_exact (q := 3) (U := 3 * 2 ^ 149) (by decide +kernel) (by decide +kernel)
  obtain ⟨e1, e2⟩ := lit_exact (q := 2) (U := 2 * 2 ^ 149) (by decide +kernel) (by decide +kernel)
  obtain ⟨f1, f2⟩ := lit_exact (q := -1) (U := -2 ^ 149) (by decide +kernel) (by decide +kernel)
  generalize ofRat 0 = a at *
  generalize ofRat 1 = b at *
  generalize ofRat 5 = c at *
  generalize ofRat 3 = d at *
  generalize ofRat 2 = e at *
  generalize ofRat (-1) = f at *
  replace a2 : rv a = 0 := a2.trans (by norm_num)
  replace b2 : rv b = 1 := b2.trans (by norm_num)
  replace c2 : rv c = 5 := c2.trans (by norm_num)
  replace d2 : rv d = 3 := d2.trans (by norm_num)
  replace e2 : rv e = 2 := e2.trans (by norm_num)
  replace f2 : rv f = -1 := f2.trans (by norm_num)
  have hm : realM4 (M4.ofRows a b a c b a a a a d e a a a a f) = !![0, 1, 0, 5; 1, 0, 0, 0; 0, 3, 2, 0; 0, 0, 0, -1] := by
    ext i j
    fin_cases i <;> fin_cases j <;> simp [realM4, at4, M4.ofRows, V4.get, *]
  have hd : (realM4 (M4.ofRows a b a c b a a a a d e a a a a f)).det = 2 := by
    rw [hm]; simp [Matrix.det_succ_row_zero, Fin.sum_univ_succ, Fin.succAbove]
  have ha : absDet (realM4 (M4.ofRows a b a c b a a a a d e a a a a f)) = 2 := by
    rw [hm]; simp [absDet, Fin.sum_univ_succ, Fin.succAbove]
  refine ⟨?_, ?_, ?_⟩
  · intro i j
    have hfin : (at4 (M4.ofRows a b a c b a a a a d e a a a a f) i j).isFinite = true := by
      fin_cases i <;> fin_cases j <;> simp [at4, M4.ofRows, V4.get, *]
    refine ⟨hfin, ?_⟩
    change |realM4 (M4.ofRows a b a c b a a a a d e a a a a f) i j| ≤ _
    rw [hm]
    fin_cases i <;> fin_cases j <;> simp <;> norm_num
  · rw [hd]; norm_num
  · unfold cancel; rw [hd, ha]; norm_num

example := inverse4x4_f32 _ exMat true
example := inverse_f32 _ exMat

end Verif
