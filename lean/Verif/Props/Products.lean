import Verif.Props.VecAccuracy
import Verif.Spec.Products
import Mathlib.Tactic

/-!
# C109: rounding errors of long products

A product of any number of quaternions or matrices, in any order of multiplication, is as close to the exact product as
its number of multiplications allows: the relative error grows linearly with it.
-/

namespace Verif
open F32 Spec Quaternion

namespace ProductsP

private theorem u4 : ((1 : ℝ) + 1 / 2 ^ 24) ^ 4 - 1 ≤ 401 / 100 / 2 ^ 24 := by norm_num

/-- The induction: an operation with relative error `k0` and absolute error `d` on top of a submultiplicative size. -/
theorem chain {α R : Type} [NonUnitalSeminormedRing R] (real : α → R) (fin : α → Prop) (op : α → α → α) (k0 k d lo hi : ℝ)
    (k0pos : 0 ≤ k0) (kk : k0 ≤ k) (hd : d ≤ (k - k0) * lo) (lopos : 0 ≤ lo)
    (step : ∀ a b, fin a → fin b → ‖real a‖ * ‖real b‖ ≤ 2 * hi →
      fin (op a b) ∧ ‖real (op a b) - real a * real b‖ ≤ k0 * (‖real a‖ * ‖real b‖) + d) :
    ∀ t : Product α, t.All fin → t.Between (fun a => ‖real a‖) lo hi → (1 + k) ^ t.count ≤ 2 →
      fin (t.eval id op) ∧
      ‖real (t.eval id op) - t.eval real (· * ·)‖ ≤ ((1 + k) ^ t.count - 1) * t.eval (fun a => ‖real a‖) (· * ·) ∧
      ‖t.eval real (· * ·)‖ ≤ t.eval (fun a => ‖real a‖) (· * ·)
  | .factor a, hf, _, _ => by
    refine ⟨hf, ?_, le_refl _⟩
    simp [Product.eval, Product.count]
  | .times l r, hf, hb, hn => by
    have kpos : 0 ≤ k := k0pos.trans kk
    have g1 : ∀ n : ℕ, (1 : ℝ) ≤ (1 + k) ^ n := fun n => one_le_pow₀ (by linarith)
    have cl : (1 + k) ^ l.count ≤ 2 := le_trans (pow_le_pow_right₀ (by linarith) (by simp [Product.count]; omega)) hn
    have cr : (1 + k) ^ r.count ≤ 2 := le_trans (pow_le_pow_right₀ (by linarith) (by simp [Product.count]; omega)) hn
    obtain ⟨fl, el, nl⟩ := chain real fin op k0 k d lo hi k0pos kk hd lopos step l hf.1 hb.1 cl
    obtain ⟨fr, er, nr⟩ := chain real fin op k0 k d lo hi k0pos kk hd lopos step r hf.2 hb.2.1 cr
    obtain ⟨hlo, hhi⟩ := hb.2.2
    have hc : (1 + k) ^ (Product.times l r).count = (1 + k) ^ l.count * (1 + k) ^ r.count * (1 + k) := by
      simp only [Product.count]; ring
    rw [hc] at hn ⊢
    simp only [Product.eval] at hlo hhi ⊢
    have gl := g1 l.count
    have gr := g1 r.count
    generalize (1 + k) ^ l.count = gL at *
    generalize (1 + k) ^ r.count = gR at *
    generalize l.eval id op = a at *
    generalize r.eval id op = b at *
    generalize l.eval real (· * ·) = x at *
    generalize r.eval real (· * ·) = y at *
    generalize l.eval (fun a => ‖real a‖) (· * ·) = L at *
    generalize r.eval (fun a => ‖real a‖) (· * ·) = R' at *
    have L0 : 0 ≤ L := (norm_nonneg _).trans nl
    have R0 : 0 ≤ R' := (norm_nonneg _).trans nr
    have na : ‖real a‖ ≤ gL * L := by
      have := norm_add_le (real a - x) x
      rw [sub_add_cancel] at this
      linarith
    have nb : ‖real b‖ ≤ gR * R' := by
      have := norm_add_le (real b - y) y
      rw [sub_add_cancel] at this
      linarith
    have nab : ‖real a‖ * ‖real b‖ ≤ gL * gR * (L * R') := by
      calc ‖real a‖ * ‖real b‖ ≤ (gL * L) * (gR * R') :=
            mul_le_mul na nb (norm_nonneg _) (mul_nonneg (by linarith) L0)
        _ = _ := by ring
    have LR0 : 0 ≤ L * R' := mul_nonneg L0 R0
    have gg : 1 ≤ gL * gR := by nlinarith
    have gg2 : gL * gR ≤ 2 := by nlinarith
    obtain ⟨fo, eo⟩ := step a b fl fr (by nlinarith)
    refine ⟨fo, ?_, ?_⟩
    · have e1 : ‖real a * real b - x * y‖ ≤ (gL * gR - 1) * (L * R') := by
        have h : real a * real b - x * y = (real a - x) * real b + x * (real b - y) := by
          rw [sub_mul, mul_sub]; abel
        rw [h]
        have t1 : ‖(real a - x) * real b‖ ≤ ((gL - 1) * L) * (gR * R') :=
          (norm_mul_le _ _).trans (mul_le_mul el nb (norm_nonneg _) (mul_nonneg (by linarith) L0))
        have t2 : ‖x * (real b - y)‖ ≤ L * ((gR - 1) * R') :=
          (norm_mul_le _ _).trans (mul_le_mul nl er (norm_nonneg _) L0)
        have := norm_add_le ((real a - x) * real b) (x * (real b - y))
        nlinarith
      have h : real (op a b) - x * y = (real (op a b) - real a * real b) + (real a * real b - x * y) := by abel
      rw [h]
      have h3 := norm_add_le (real (op a b) - real a * real b) (real a * real b - x * y)
      have h4 : k0 * (‖real a‖ * ‖real b‖) ≤ k0 * (gL * gR * (L * R')) := mul_le_mul_of_nonneg_left nab k0pos
      have h5 : d ≤ (k - k0) * (gL * gR * (L * R')) := by
        refine hd.trans (mul_le_mul_of_nonneg_left ?_ (by linarith))
        nlinarith
      nlinarith
    · exact (norm_mul_le _ _).trans (mul_le_mul nl nr (norm_nonneg _) L0)


/-! ### Quaternions -/

theorem norm_sq (q : ℍ[ℝ]) : ‖q‖ ^ 2 = q.re ^ 2 + q.imI ^ 2 + q.imJ ^ 2 + q.imK ^ 2 := by
  rw [sq, ← Quaternion.normSq_eq_norm_mul_self, Quaternion.normSq_def']

/-- A quaternion with components at most `e` has length at most `2 e`. -/
theorem norm_le_comp {q : ℍ[ℝ]} {e : ℝ} (h0 : |q.re| ≤ e) (h1 : |q.imI| ≤ e) (h2 : |q.imJ| ≤ e) (h3 : |q.imK| ≤ e) :
    ‖q‖ ≤ 2 * e := by
  have e0 : 0 ≤ e := (abs_nonneg _).trans h0
  refine le_of_sq_le_sq ?_ (by linarith)
  rw [norm_sq]
  have s : ∀ x : ℝ, |x| ≤ e → x ^ 2 ≤ e ^ 2 := fun x h => by rw [← sq_abs]; gcongr
  nlinarith [s _ h0, s _ h1, s _ h2, s _ h3]

/-- The sum of the absolute products of two quadruples is at most the product of the lengths. -/
theorem cauchy {a b c d p q r s A B : ℝ} (hA : 0 ≤ A) (hB : 0 ≤ B) (ha : A ^ 2 = a ^ 2 + b ^ 2 + c ^ 2 + d ^ 2)
    (hb : B ^ 2 = p ^ 2 + q ^ 2 + r ^ 2 + s ^ 2) : |a * p| + |b * q| + |c * r| + |d * s| ≤ A * B := by
  refine le_of_sq_le_sq ?_ (mul_nonneg hA hB)
  rw [mul_pow, ha, hb, abs_mul, abs_mul, abs_mul, abs_mul, ← sq_abs a, ← sq_abs b, ← sq_abs c, ← sq_abs d, ← sq_abs p,
    ← sq_abs q, ← sq_abs r, ← sq_abs s]
  generalize |a| = a; generalize |b| = b; generalize |c| = c; generalize |d| = d
  generalize |p| = p; generalize |q| = q; generalize |r| = r; generalize |s| = s
  nlinarith [sq_nonneg (a * q - b * p), sq_nonneg (a * r - c * p), sq_nonneg (a * s - d * p), sq_nonneg (b * r - c * q),
    sq_nonneg (b * s - d * q), sq_nonneg (c * s - d * r)]

theorem quat_step (a b : V4 F32) (fa : AllFinite a.toList) (fb : AllFinite b.toList)
    (h : ‖quatOf a‖ * ‖quatOf b‖ ≤ 2 * 2 ^ 100) :
    AllFinite (Quat.mul a b).toList ∧
    ‖quatOf (Quat.mul a b) - quatOf a * quatOf b‖ ≤ 802 / 100 / 2 ^ 24 * (‖quatOf a‖ * ‖quatOf b‖) + 8 / 2 ^ 149 := by
  obtain ⟨hx, hy, hz, hw⟩ := quat_mul_accuracy a b fa fb
  have na : ‖quatOf a‖ ^ 2 = rv a.w ^ 2 + rv a.x ^ 2 + rv a.y ^ 2 + rv a.z ^ 2 := norm_sq _
  have nb : ‖quatOf b‖ ^ 2 = rv b.w ^ 2 + rv b.x ^ 2 + rv b.y ^ 2 + rv b.z ^ 2 := norm_sq _
  have A0 := norm_nonneg (quatOf a)
  have B0 := norm_nonneg (quatOf b)
  have key : ∀ {r : F32} {a1 b1 a2 b2 a3 b3 a4 b4 : ℝ}, SumOk r [(a1, b1), (a2, b2), (a3, b3), (a4, b4)] →
      ‖quatOf a‖ ^ 2 = a1 ^ 2 + a2 ^ 2 + a3 ^ 2 + a4 ^ 2 → ‖quatOf b‖ ^ 2 = b1 ^ 2 + b2 ^ 2 + b3 ^ 2 + b4 ^ 2 →
      r.isFinite = true ∧ |rv r - (a1 * b1 + a2 * b2 + a3 * b3 + a4 * b4)| ≤
        401 / 100 / 2 ^ 24 * (‖quatOf a‖ * ‖quatOf b‖) + 4 / 2 ^ 149 := by
    intro r a1 b1 a2 b2 a3 b3 a4 b4 hs ha hb
    have c := cauchy A0 B0 ha hb
    have e1 : absProd [(a1, b1), (a2, b2), (a3, b3), (a4, b4)] = |a1 * b1| + |a2 * b2| + |a3 * b3| + |a4 * b4| := by
      simp [absProd]; ring
    have e2 : sumProd [(a1, b1), (a2, b2), (a3, b3), (a4, b4)] = a1 * b1 + a2 * b2 + a3 * b3 + a4 * b4 := by
      simp [sumProd]; ring
    have h' := hs (by rw [e1]; refine c.trans (h.trans ?_); norm_num)
    rw [e1, e2] at h'
    refine ⟨h'.1, h'.2.trans ?_⟩
    have l : (List.length [(a1, b1), (a2, b2), (a3, b3), (a4, b4)]) = 4 := rfl
    rw [l]
    have p0 : 0 ≤ |a1 * b1| + |a2 * b2| + |a3 * b3| + |a4 * b4| := by positivity
    have := mul_le_mul u4 c p0 (by norm_num)
    push_cast
    linarith
  obtain ⟨fx, ex⟩ := key hx (by rw [na]; ring) (by rw [nb]; ring)
  obtain ⟨fy, ey⟩ := key hy (by rw [na]; ring) (by rw [nb]; ring)
  obtain ⟨fz, ez⟩ := key hz (by rw [na]; ring) (by rw [nb]; ring)
  obtain ⟨fw, ew⟩ := key hw (by rw [na]; ring) (by rw [nb])
  refine ⟨by intro x hx; simp only [V4.toList, List.mem_cons, List.not_mem_nil, or_false] at hx; rcases hx with rfl | rfl | rfl | rfl <;> assumption, ?_⟩
  have : (802 / 100 / 2 ^ 24 * (‖quatOf a‖ * ‖quatOf b‖) + 8 / 2 ^ 149 : ℝ) =
      2 * (401 / 100 / 2 ^ 24 * (‖quatOf a‖ * ‖quatOf b‖) + 4 / 2 ^ 149) := by ring
  rw [this]
  apply norm_le_comp
  · refine le_trans (le_of_eq ?_) ew
    simp only [Quaternion.re_sub, Quaternion.re_mul, quatOf, toQ_re, toQ_imI, toQ_imJ, toQ_imK]
    congr 1; ring
  · refine le_trans (le_of_eq ?_) ex
    simp only [Quaternion.imI_sub, Quaternion.imI_mul, quatOf, toQ_re, toQ_imI, toQ_imJ, toQ_imK]
    congr 1; ring
  · refine le_trans (le_of_eq ?_) ey
    simp only [Quaternion.imJ_sub, Quaternion.imJ_mul, quatOf, toQ_re, toQ_imI, toQ_imJ, toQ_imK]
    congr 1; ring
  · refine le_trans (le_of_eq ?_) ez
    simp only [Quaternion.imK_sub, Quaternion.imK_mul, quatOf, toQ_re, toQ_imI, toQ_imJ, toQ_imK]
    congr 1; ring

/-! ### Matrices -/

theorem row_le (m : Matrix (Fin 4) (Fin 4) ℝ) (i : Fin 4) : ∑ j, |m i j| ≤ rowNorm m :=
  Finset.le_sup' (fun i => ∑ j, |m i j|) (Finset.mem_univ i)

theorem rowNorm_le {m : Matrix (Fin 4) (Fin 4) ℝ} {e : ℝ} (h : ∀ i, ∑ j, |m i j| ≤ e) : rowNorm m ≤ e :=
  Finset.sup'_le _ _ fun i _ => h i

open scoped Matrix.Norms.Operator in
theorem rowNorm_eq (m : Matrix (Fin 4) (Fin 4) ℝ) : ‖m‖ = rowNorm m := by
  apply le_antisymm
  · rw [Matrix.linfty_opNorm_def]
    have : ((Finset.univ : Finset (Fin 4)).sup fun i => ∑ j, ‖m i j‖₊) ≤ (⟨rowNorm m, (by positivity : (0:ℝ) ≤ ∑ j, |m 0 j|).trans (row_le m 0)⟩ : NNReal) := by
      refine Finset.sup_le fun i _ => ?_
      refine NNReal.coe_le_coe.1 ?_
      push_cast
      exact row_le m i
    exact_mod_cast this
  · refine rowNorm_le fun i => ?_
    rw [Matrix.linfty_opNorm_def]
    have : (∑ j, ‖m i j‖₊) ≤ (Finset.univ : Finset (Fin 4)).sup fun i => ∑ j, ‖m i j‖₊ := Finset.le_sup (f := fun i => ∑ j, ‖m i j‖₊) (Finset.mem_univ i)
    have h2 : ((∑ j, ‖m i j‖₊ : NNReal) : ℝ) = ∑ j, |m i j| := by push_cast; rfl
    rw [← h2]
    exact_mod_cast this

private theorem entry {r : F32} {a1 b1 a2 b2 a3 b3 a4 b4 : ℝ} (hs : SumOk r [(a1, b1), (a2, b2), (a3, b3), (a4, b4)])
    (h : |a1| * |b1| + |a2| * |b2| + |a3| * |b3| + |a4| * |b4| ≤ 2 ^ 101) :
    r.isFinite = true ∧ |rv r - (a1 * b1 + a2 * b2 + a3 * b3 + a4 * b4)| ≤
      401 / 100 / 2 ^ 24 * (|a1| * |b1| + |a2| * |b2| + |a3| * |b3| + |a4| * |b4|) + 4 / 2 ^ 149 := by
  have e1 : absProd [(a1, b1), (a2, b2), (a3, b3), (a4, b4)] = |a1| * |b1| + |a2| * |b2| + |a3| * |b3| + |a4| * |b4| := by
    simp [absProd, abs_mul]; ring
  have e2 : sumProd [(a1, b1), (a2, b2), (a3, b3), (a4, b4)] = a1 * b1 + a2 * b2 + a3 * b3 + a4 * b4 := by
    simp [sumProd]; ring
  have h' := hs (by rw [e1]; refine h.trans ?_; norm_num)
  rw [e1, e2] at h'
  refine ⟨h'.1, h'.2.trans ?_⟩
  have l : (List.length [(a1, b1), (a2, b2), (a3, b3), (a4, b4)]) = 4 := rfl
  rw [l]
  have p0 : 0 ≤ |a1| * |b1| + |a2| * |b2| + |a3| * |b3| + |a4| * |b4| := by positivity
  have := mul_le_mul_of_nonneg_right u4 p0
  push_cast
  linarith

theorem fin_list {v : V4 F32} (h0 : v.x.isFinite = true) (h1 : v.y.isFinite = true) (h2 : v.z.isFinite = true)
    (h3 : v.w.isFinite = true) : AllFinite v.toList := by
  intro x hx
  simp only [V4.toList, List.mem_cons, List.not_mem_nil, or_false] at hx
  rcases hx with rfl | rfl | rfl | rfl <;> assumption

theorem mat_step (op : M4 F32 → M4 F32 → M4 F32)
    (acc : ∀ a b, FinM a → FinM b → MulVOk a b.c0 (op a b).c0 ∧ MulVOk a b.c1 (op a b).c1 ∧ MulVOk a b.c2 (op a b).c2 ∧
      MulVOk a b.c3 (op a b).c3) (a b : M4 F32) (fa : FinM a) (fb : FinM b)
    (h : rowNorm (matOf a) * rowNorm (matOf b) ≤ 2 * 2 ^ 100) :
    FinM (op a b) ∧ rowNorm (matOf (op a b) - matOf a * matOf b) ≤
      401 / 100 / 2 ^ 24 * (rowNorm (matOf a) * rowNorm (matOf b)) + 16 / 2 ^ 149 := by
  obtain ⟨⟨p00, p10, p20, p30⟩, ⟨p01, p11, p21, p31⟩, ⟨p02, p12, p22, p32⟩, ⟨p03, p13, p23, p33⟩⟩ := acc a b fa fb
  set A := matOf a with hA
  set B := matOf b with hB
  have B0 : 0 ≤ rowNorm B := (by positivity : (0:ℝ) ≤ ∑ j, |B 0 j|).trans (row_le B 0)
  -- the sum of all absolute products of row `i`
  have tot : ∀ i, ∑ j, ∑ k, |A i k| * |B k j| ≤ rowNorm A * rowNorm B := by
    intro i
    rw [Finset.sum_comm]
    calc ∑ k, ∑ j, |A i k| * |B k j| = ∑ k, |A i k| * ∑ j, |B k j| := by simp only [Finset.mul_sum]
      _ ≤ ∑ k, |A i k| * rowNorm B := Finset.sum_le_sum fun k _ => mul_le_mul_of_nonneg_left (row_le B k) (abs_nonneg _)
      _ = (∑ k, |A i k|) * rowNorm B := by rw [Finset.sum_mul]
      _ ≤ _ := mul_le_mul_of_nonneg_right (row_le A i) B0
  have one : ∀ i j, ∑ k, |A i k| * |B k j| ≤ 2 ^ 101 := by
    intro i j
    have h1 : ∑ k, |A i k| * |B k j| ≤ ∑ j, ∑ k, |A i k| * |B k j| :=
      Finset.single_le_sum (f := fun j => ∑ k, |A i k| * |B k j|) (fun j _ => Finset.sum_nonneg fun k _ => by positivity) (Finset.mem_univ j)
    calc _ ≤ _ := h1.trans (tot i)
      _ ≤ _ := h
      _ = _ := by norm_num
  have q00 := entry p00 (by have := one 0 0; simpa [Fin.sum_univ_four, hA, hB, matOf, mat4] using this)
  have q10 := entry p10 (by have := one 1 0; simpa [Fin.sum_univ_four, hA, hB, matOf, mat4] using this)
  have q20 := entry p20 (by have := one 2 0; simpa [Fin.sum_univ_four, hA, hB, matOf, mat4] using this)
  have q30 := entry p30 (by have := one 3 0; simpa [Fin.sum_univ_four, hA, hB, matOf, mat4] using this)
  have q01 := entry p01 (by have := one 0 1; simpa [Fin.sum_univ_four, hA, hB, matOf, mat4] using this)
  have q11 := entry p11 (by have := one 1 1; simpa [Fin.sum_univ_four, hA, hB, matOf, mat4] using this)
  have q21 := entry p21 (by have := one 2 1; simpa [Fin.sum_univ_four, hA, hB, matOf, mat4] using this)
  have q31 := entry p31 (by have := one 3 1; simpa [Fin.sum_univ_four, hA, hB, matOf, mat4] using this)
  have q02 := entry p02 (by have := one 0 2; simpa [Fin.sum_univ_four, hA, hB, matOf, mat4] using this)
  have q12 := entry p12 (by have := one 1 2; simpa [Fin.sum_univ_four, hA, hB, matOf, mat4] using this)
  have q22 := entry p22 (by have := one 2 2; simpa [Fin.sum_univ_four, hA, hB, matOf, mat4] using this)
  have q32 := entry p32 (by have := one 3 2; simpa [Fin.sum_univ_four, hA, hB, matOf, mat4] using this)
  have q03 := entry p03 (by have := one 0 3; simpa [Fin.sum_univ_four, hA, hB, matOf, mat4] using this)
  have q13 := entry p13 (by have := one 1 3; simpa [Fin.sum_univ_four, hA, hB, matOf, mat4] using this)
  have q23 := entry p23 (by have := one 2 3; simpa [Fin.sum_univ_four, hA, hB, matOf, mat4] using this)
  have q33 := entry p33 (by have := one 3 3; simpa [Fin.sum_univ_four, hA, hB, matOf, mat4] using this)
  refine ⟨⟨fin_list q00.1 q10.1 q20.1 q30.1, fin_list q01.1 q11.1 q21.1 q31.1, fin_list q02.1 q12.1 q22.1 q32.1,
    fin_list q03.1 q13.1 q23.1 q33.1⟩, ?_⟩
  have ent : ∀ i j, |(matOf (op a b) - A * B) i j| ≤ 401 / 100 / 2 ^ 24 * ∑ k, |A i k| * |B k j| + 4 / 2 ^ 149 := by
    intro i j
    rw [Matrix.sub_apply, Matrix.mul_apply, Fin.sum_univ_four, Fin.sum_univ_four]
    fin_cases i <;> fin_cases j
    exacts [q00.2, q01.2, q02.2, q03.2, q10.2, q11.2, q12.2, q13.2, q20.2, q21.2, q22.2, q23.2, q30.2, q31.2, q32.2, q33.2]
  refine rowNorm_le fun i => ?_
  calc ∑ j, |(matOf (op a b) - A * B) i j| ≤ ∑ j, (401 / 100 / 2 ^ 24 * ∑ k, |A i k| * |B k j| + 4 / 2 ^ 149) :=
        Finset.sum_le_sum fun j _ => ent i j
    _ = 401 / 100 / 2 ^ 24 * ∑ j, ∑ k, |A i k| * |B k j| + 16 / 2 ^ 149 := by
        rw [Finset.sum_add_distrib, ← Finset.mul_sum]
        simp
        norm_num
    _ ≤ _ := by
        have := tot i
        gcongr

open scoped Matrix.Norms.Operator in
theorem mat_chain (op : M4 F32 → M4 F32 → M4 F32)
    (acc : ∀ a b, FinM a → FinM b → MulVOk a b.c0 (op a b).c0 ∧ MulVOk a b.c1 (op a b).c1 ∧ MulVOk a b.c2 (op a b).c2 ∧
      MulVOk a b.c3 (op a b).c3) (t : Product (M4 F32)) (hf : t.All FinM)
    (hb : t.Between (fun m => rowNorm (matOf m)) (1 / 2 ^ 100) (2 ^ 100)) (hn : (1 + 5 / 2 ^ 24 : ℝ) ^ t.count ≤ 2) :
    FinM (t.eval id op) ∧ ∀ i j, |matOf (t.eval id op) i j - t.eval matOf (· * ·) i j| ≤
      ((1 + 5 / 2 ^ 24) ^ t.count - 1) * t.eval (fun m => rowNorm (matOf m)) (· * ·) := by
  have hs : (fun m => ‖matOf m‖) = (fun m : M4 F32 => rowNorm (matOf m)) := funext fun m => rowNorm_eq _
  have := chain matOf FinM op (401 / 100 / 2 ^ 24) (5 / 2 ^ 24) (16 / 2 ^ 149) (1 / 2 ^ 100) (2 ^ 100) (by norm_num)
    (by norm_num) (by norm_num) (by norm_num) (fun a b fa fb h => by
      rw [rowNorm_eq, rowNorm_eq] at h
      rw [rowNorm_eq, rowNorm_eq, rowNorm_eq]
      exact mat_step op acc a b fa fb h) t hf (by rw [hs]; exact hb) hn
  rw [hs] at this
  refine ⟨this.1, fun i j => ?_⟩
  refine le_trans ?_ this.2.1
  rw [rowNorm_eq]
  refine le_trans ?_ (row_le _ i)
  rw [← Matrix.sub_apply]
  exact Finset.single_le_sum (f := fun j => |(matOf (t.eval id op) - t.eval matOf (· * ·)) i j|) (fun _ _ => abs_nonneg _) (Finset.mem_univ j)

theorem norm_eval (t : Product (V4 F32)) : ‖t.eval quatOf (· * ·)‖ = t.eval (fun q => ‖quatOf q‖) (· * ·) := by
  induction t with
  | factor a => rfl
  | times l r hl hr => simp only [Product.eval, norm_mul, hl, hr]

end ProductsP
open ProductsP

/-- C109: a product of any number of quaternions, multiplied in any order in binary32, is within a relative error of
`9 / 2^24` per multiplication (compounded) of the exact Hamilton product, when no partial product leaves the range. -/
theorem quat_product_accuracy (t : Product (V4 F32)) (hf : t.All fun q => AllFinite q.toList)
    (hb : t.Between (fun q => ‖quatOf q‖) (1 / 2 ^ 100) (2 ^ 100)) (hn : (1 + 9 / 2 ^ 24 : ℝ) ^ t.count ≤ 2) :
    AllFinite (t.eval id Quat.mul).toList ∧
    ‖quatOf (t.eval id Quat.mul) - t.eval quatOf (· * ·)‖ ≤ ((1 + 9 / 2 ^ 24) ^ t.count - 1) * ‖t.eval quatOf (· * ·)‖ := by
  have := chain quatOf (fun q => AllFinite q.toList) Quat.mul (802 / 100 / 2 ^ 24) (9 / 2 ^ 24) (8 / 2 ^ 149) (1 / 2 ^ 100)
    (2 ^ 100) (by norm_num) (by norm_num) (by norm_num) (by norm_num) (fun a b fa fb h => quat_step a b fa fb h) t hf hb hn
  rw [norm_eval]
  exact ⟨this.1, this.2.1⟩

/-- C109: a product of any number of 4x4 matrices, multiplied in any order by the scalar code or by any SIMD target with or
without fused multiply-add: every entry is within `(1 + 5 / 2^24)^n - 1` of the exact product, relative to the product of
the largest row sums of the factors. -/
theorem mat_product_accuracy (t : Product (M4 F32)) (hf : t.All FinM)
    (hb : t.Between (fun m => rowNorm (matOf m)) (1 / 2 ^ 100) (2 ^ 100)) (hn : (1 + 5 / 2 ^ 24 : ℝ) ^ t.count ≤ 2) :
    (FinM (t.eval id M4.mul) ∧ ∀ i j, |matOf (t.eval id M4.mul) i j - t.eval matOf (· * ·) i j| ≤
      ((1 + 5 / 2 ^ 24) ^ t.count - 1) * t.eval (fun m => rowNorm (matOf m)) (· * ·)) ∧
    ∀ target : FTarget, FinM (t.eval id (F32x4.mulM target)) ∧
      ∀ i j, |matOf (t.eval id (F32x4.mulM target)) i j - t.eval matOf (· * ·) i j| ≤
        ((1 + 5 / 2 ^ 24) ^ t.count - 1) * t.eval (fun m => rowNorm (matOf m)) (· * ·) :=
  ⟨mat_chain _ mulM_accuracy.2.2.1 t hf hb hn, fun target => mat_chain _ (mulM_accuracy.2.2.2 target) t hf hb hn⟩

/-- C109: products of up to 65536 rotations whose quaternions have length one up to `2^-19`: no overflow, an error of at
most `13 / 2^24` per multiplication, and a length that stays one up to `2^-18` per factor. -/
theorem quat_unit_product (t : Product (V4 F32)) (hf : t.All fun q => AllFinite q.toList)
    (hu : t.All fun q => |‖quatOf q‖ - 1| ≤ 1 / 2 ^ 19) (hn : t.count ≤ 2 ^ 16) :
    AllFinite (t.eval id Quat.mul).toList ∧
    ‖quatOf (t.eval id Quat.mul) - t.eval quatOf (· * ·)‖ ≤ 13 / 2 ^ 24 * t.count ∧
    |‖quatOf (t.eval id Quat.mul)‖ - 1| ≤ (t.count + 1) / 2 ^ 18 := by
  -- powers of numbers close to one
  have up : ∀ (c : ℝ) (n : ℕ), 0 ≤ c → c * n ≤ 1 / 7 → (1 + c) ^ n ≤ 1 + 7 / 6 * (c * n) := by
    intro c n hc
    induction n with
    | zero => intro _; simp
    | succ n ih =>
      intro h
      push_cast at h ⊢
      have h1 := ih (by nlinarith)
      rw [pow_succ]
      have : (1 + c) ^ n * (1 + c) ≤ (1 + 7 / 6 * (c * n)) * (1 + c) := mul_le_mul_of_nonneg_right h1 (by linarith)
      nlinarith [mul_nonneg hc (by positivity : (0:ℝ) ≤ n)]
  have dn : ∀ n : ℕ, 1 - (1 / 2 ^ 19 : ℝ) * n ≤ (1 - 1 / 2 ^ 19) ^ n := by
    intro n
    have := one_add_mul_le_pow (a := -(1 / 2 ^ 19 : ℝ)) (by norm_num) n
    rw [← sub_eq_add_neg] at this
    linarith
  -- the exact lengths of all partial products
  have rng : ∀ s : Product (V4 F32), s.All (fun q => |‖quatOf q‖ - 1| ≤ 1 / 2 ^ 19) → s.count ≤ 2 ^ 16 →
      s.Between (fun q => ‖quatOf q‖) (1 / 2 ^ 100) (2 ^ 100) ∧
      (1 - 1 / 2 ^ 19) ^ (s.count + 1) ≤ s.eval (fun q => ‖quatOf q‖) (· * ·) ∧
      s.eval (fun q => ‖quatOf q‖) (· * ·) ≤ (1 + 1 / 2 ^ 19) ^ (s.count + 1) := by
    intro s
    induction s with
    | factor q =>
      intro h _
      have h' : |‖quatOf q‖ - 1| ≤ 1 / 2 ^ 19 := h
      rw [abs_le] at h'
      refine ⟨⟨?_, ?_⟩, ?_, ?_⟩
      · have : (1 / 2 ^ 100 : ℝ) ≤ 1 - 1 / 2 ^ 19 := by norm_num
        linarith
      · have : (1 + 1 / 2 ^ 19 : ℝ) ≤ 2 ^ 100 := by norm_num
        linarith
      · simp only [Product.count, Product.eval, zero_add, pow_one]; linarith
      · simp only [Product.count, Product.eval, zero_add, pow_one]; linarith
    | times l r hl hr =>
      intro h hc
      simp only [Product.count] at hc
      obtain ⟨bl, ll, ul⟩ := hl h.1 (by omega)
      obtain ⟨br, lr, ur⟩ := hr h.2 (by omega)
      have p0 : (0:ℝ) ≤ (1 - 1 / 2 ^ 19) ^ (l.count + 1) := pow_nonneg (by norm_num) _
      have p1 : (0:ℝ) ≤ (1 - 1 / 2 ^ 19) ^ (r.count + 1) := pow_nonneg (by norm_num) _
      have low : (1 - 1 / 2 ^ 19 : ℝ) ^ ((Product.times l r).count + 1) ≤
          (Product.times l r).eval (fun q => ‖quatOf q‖) (· * ·) := by
        have : (Product.times l r).count + 1 = (l.count + 1) + (r.count + 1) := by simp only [Product.count]; omega
        rw [this, pow_add]
        exact mul_le_mul ll lr p1 (p0.trans ll)
      have high : (Product.times l r).eval (fun q => ‖quatOf q‖) (· * ·) ≤
          (1 + 1 / 2 ^ 19 : ℝ) ^ ((Product.times l r).count + 1) := by
        have : (Product.times l r).count + 1 = (l.count + 1) + (r.count + 1) := by simp only [Product.count]; omega
        rw [this, pow_add]
        exact mul_le_mul ul ur (p1.trans lr) (by positivity)
      have hcc : ((Product.times l r).count : ℝ) ≤ 2 ^ 16 := by
        simp only [Product.count]; exact_mod_cast hc
      refine ⟨⟨bl, br, ?_, ?_⟩, low, high⟩
      · refine le_trans ?_ low
        refine le_trans ?_ (dn _)
        push_cast
        have : (1 / 2 ^ 19 : ℝ) * ((Product.times l r).count + 1) ≤ 1 / 2 ^ 19 * (2 ^ 16 + 1) := by gcongr
        have e : (1 / 2 ^ 100 : ℝ) ≤ 1 - 1 / 2 ^ 19 * (2 ^ 16 + 1) := by norm_num
        linarith
      · refine high.trans ?_
        have : (1 / 2 ^ 19 : ℝ) * (((Product.times l r).count : ℝ) + 1) ≤ 1 / 2 ^ 19 * (2 ^ 16 + 1) := by gcongr
        have e : (1 / 2 ^ 19 : ℝ) * (2 ^ 16 + 1) ≤ 1 / 7 := by norm_num
        have h1 := up (1 / 2 ^ 19) ((Product.times l r).count + 1) (by norm_num) (by push_cast; linarith)
        refine h1.trans ?_
        push_cast
        have : (1 : ℝ) + 7 / 6 * (1 / 7) ≤ 2 ^ 100 := by norm_num
        linarith
  obtain ⟨hb, hlo, hhi⟩ := rng t hu hn
  have hn' : (t.count : ℝ) ≤ 2 ^ 16 := by exact_mod_cast hn
  have n0 : (0 : ℝ) ≤ t.count := by positivity
  have gk := up (9 / 2 ^ 24) t.count (by norm_num) (by
    have : (9 / 2 ^ 24 : ℝ) * t.count ≤ 9 / 2 ^ 24 * 2 ^ 16 := by gcongr
    have e : (9 / 2 ^ 24 : ℝ) * 2 ^ 16 ≤ 1 / 7 := by norm_num
    linarith)
  have gh := up (1 / 2 ^ 19) (t.count + 1) (by norm_num) (by
    push_cast
    have : (1 / 2 ^ 19 : ℝ) * (t.count + 1) ≤ 1 / 2 ^ 19 * (2 ^ 16 + 1) := by gcongr
    have e : (1 / 2 ^ 19 : ℝ) * (2 ^ 16 + 1) ≤ 1 / 7 := by norm_num
    linarith)
  have gl := dn (t.count + 1)
  push_cast at gh gl
  obtain ⟨fin, err⟩ := quat_product_accuracy t hf hb (gk.trans (by
    have : (9 / 2 ^ 24 : ℝ) * t.count ≤ 9 / 2 ^ 24 * 2 ^ 16 := by gcongr
    have e : (1 : ℝ) + 7 / 6 * (9 / 2 ^ 24 * 2 ^ 16) ≤ 2 := by norm_num
    linarith))
  rw [norm_eval] at err
  have E0 : t.eval (fun q => ‖quatOf q‖) (· * ·) ≤ 115 / 100 := by
    have e : (1 : ℝ) + 7 / 6 * (1 / 2 ^ 19 * (2 ^ 16 + 1)) ≤ 115 / 100 := by norm_num
    have : (1 / 2 ^ 19 : ℝ) * (t.count + 1) ≤ 1 / 2 ^ 19 * (2 ^ 16 + 1) := by gcongr
    linarith
  have Epos : 0 ≤ t.eval (fun q => ‖quatOf q‖) (· * ·) := (pow_nonneg (by norm_num) _).trans hlo
  have fe : ‖quatOf (t.eval id Quat.mul) - t.eval quatOf (· * ·)‖ ≤ 13 / 2 ^ 24 * t.count := by
    refine err.trans ?_
    calc ((1 + 9 / 2 ^ 24 : ℝ) ^ t.count - 1) * t.eval (fun q => ‖quatOf q‖) (· * ·) ≤ (7 / 6 * (9 / 2 ^ 24 * t.count)) * (115 / 100) :=
          mul_le_mul (by linarith) E0 Epos (by positivity)
      _ ≤ _ := by
        have : (0:ℝ) ≤ t.count / 2 ^ 24 := by positivity
        linarith
  refine ⟨fin, fe, ?_⟩
  have tri := abs_norm_sub_norm_le (quatOf (t.eval id Quat.mul)) (t.eval quatOf (· * ·))
  rw [norm_eval] at tri
  have t1 := (abs_le.1 (tri.trans fe))
  have z : (0:ℝ) ≤ t.count / 2 ^ 24 := by positivity
  rw [abs_le]
  constructor <;> linarith [t1.1, t1.2]

/-- C109: what a loop `q = q * d` computes is such a product, with one multiplication per step. -/
theorem fromLeft_eval {α β : Type} (f : α → β) (op : β → β → β) (q : α) (l : List α) :
    (Product.fromLeft q l).eval f op = l.foldl (fun p a => op p (f a)) (f q) ∧ (Product.fromLeft q l).count = l.length := by
  have h : ∀ (l : List α) (p : Product α),
      (l.foldl (fun p a => Product.times p (.factor a)) p).eval f op = l.foldl (fun p a => op p (f a)) (p.eval f op) ∧
      (l.foldl (fun p a => Product.times p (.factor a)) p).count = p.count + l.length := by
    intro l
    induction l with
    | nil => intro p; exact ⟨rfl, rfl⟩
    | cons a l ih =>
      intro p
      obtain ⟨h1, h2⟩ := ih (.times p (.factor a))
      simp only [List.foldl_cons, List.length_cons]
      refine ⟨h1, ?_⟩
      rw [h2]
      simp only [Product.count]
      omega
  have := h l (.factor q)
  exact ⟨this.1, by rw [Product.fromLeft, this.2]; simp [Product.count]⟩

/-- C109: a loop that composes up to 65536 rotations. -/
theorem quat_loop (q : V4 F32) (l : List (V4 F32)) (hf : ∀ r ∈ q :: l, AllFinite r.toList)
    (hu : ∀ r ∈ q :: l, |‖quatOf r‖ - 1| ≤ 1 / 2 ^ 19) (hn : l.length ≤ 2 ^ 16) :
    AllFinite (l.foldl Quat.mul q).toList ∧
    ‖quatOf (l.foldl Quat.mul q) - quatOf q * (l.map quatOf).prod‖ ≤ 13 / 2 ^ 24 * l.length ∧
    |‖quatOf (l.foldl Quat.mul q)‖ - 1| ≤ (l.length + 1) / 2 ^ 18 := by
  have all : ∀ (p : V4 F32 → Prop) (l : List (V4 F32)) (t : Product (V4 F32)), t.All p → (∀ r ∈ l, p r) →
      (l.foldl (fun p a => Product.times p (.factor a)) t).All p := by
    intro p l
    induction l with
    | nil => intro t ht _; exact ht
    | cons a l ih => intro t ht h; exact ih _ ⟨ht, h a (by simp)⟩ fun r hr => h r (by simp [hr])
  have cnt := (fromLeft_eval id Quat.mul q l).2
  have := quat_unit_product (Product.fromLeft q l) (all _ l (.factor q) (hf q (by simp)) fun r hr => hf r (by simp [hr]))
    (all _ l (.factor q) (hu q (by simp)) fun r hr => hu r (by simp [hr])) (by rw [cnt]; exact hn)
  rw [cnt, (fromLeft_eval id Quat.mul q l).1, (fromLeft_eval quatOf (· * ·) q l).1] at this
  have e : ∀ (l : List (V4 F32)) (x : ℍ[ℝ]), l.foldl (fun p a => p * quatOf a) x = x * (l.map quatOf).prod := by
    intro l
    induction l with
    | nil => intro x; simp
    | cons a l ih => intro x; simp [ih, mul_assoc]
  rw [e l] at this
  exact this

/-- The rotation by 120 degrees about the diagonal: all four lanes are one half. -/
def thirdTurn : V4 F32 := ⟨ofRat (1 / 2), ofRat (1 / 2), ofRat (1 / 2), ofRat (1 / 2)⟩

private theorem half_val : (ofRat (1 / 2)).isFinite = true ∧ rv (ofRat (1 / 2)) = 1 / 2 := by
  have h : (ofRat (1 / 2)).isFinite = true ∧ (ofRat (1 / 2)).units = 2 ^ 148 := by decide +kernel
  refine ⟨h.1, ?_⟩
  show (ofRat (1 / 2)).val = 1 / 2
  rw [val_units, h.2]
  norm_num

theorem thirdTurn_ok : AllFinite thirdTurn.toList ∧ ‖quatOf thirdTurn‖ = 1 := by
  refine ⟨ProductsP.fin_list half_val.1 half_val.1 half_val.1 half_val.1, ?_⟩
  have : ‖quatOf thirdTurn‖ ^ 2 = 1 := by
    rw [norm_sq]
    simp only [quatOf, thirdTurn, toQ, half_val.2]
    norm_num
  rw [← sq_eq_sq₀ (norm_nonneg _) (by norm_num), this]; norm_num

/-- A loop of a thousand equal rotations meets the hypotheses. -/
example : |‖quatOf ((List.replicate 1000 thirdTurn).foldl Quat.mul thirdTurn)‖ - 1| ≤ 1001 / 2 ^ 18 := by
  have h : ∀ r ∈ thirdTurn :: List.replicate 1000 thirdTurn, r = thirdTurn := by
    intro r hr
    rcases List.mem_cons.1 hr with rfl | hr
    · rfl
    · exact List.eq_of_mem_replicate hr
  have := (quat_loop thirdTurn (List.replicate 1000 thirdTurn) (fun r hr => by rw [h r hr]; exact thirdTurn_ok.1)
    (fun r hr => by rw [h r hr, thirdTurn_ok.2]; norm_num) (by rw [List.length_replicate]; norm_num)).2.2
  rw [List.length_replicate] at this
  norm_num at this ⊢
  exact this

/-- A product of two products meets the hypotheses of the general theorem. -/
example : AllFinite ((Product.times (.times (.factor thirdTurn) (.factor thirdTurn))
    (.times (.factor thirdTurn) (.factor thirdTurn))).eval id Quat.mul).toList := by
  have b : (Product.times (.times (.factor thirdTurn) (.factor thirdTurn))
      (.times (.factor thirdTurn) (.factor thirdTurn))).Between (fun q => ‖quatOf q‖) (1 / 2 ^ 100) (2 ^ 100) := by
    simp only [Product.Between, Product.eval, thirdTurn_ok.2]
    norm_num
  have f : (Product.times (.times (.factor thirdTurn) (.factor thirdTurn))
      (.times (.factor thirdTurn) (.factor thirdTurn))).All fun q => AllFinite q.toList :=
    ⟨⟨thirdTurn_ok.1, thirdTurn_ok.1⟩, thirdTurn_ok.1, thirdTurn_ok.1⟩
  exact (quat_product_accuracy _ f b (by simp only [Product.count]; norm_num)).1

/-- So does a product of matrices. -/
example : FinM ((Product.times (.factor ⟨thirdTurn, thirdTurn, thirdTurn, thirdTurn⟩)
    (.factor ⟨thirdTurn, thirdTurn, thirdTurn, thirdTurn⟩)).eval id M4.mul) := by
  have n : rowNorm (matOf ⟨thirdTurn, thirdTurn, thirdTurn, thirdTurn⟩) = 2 := by
    have e : ∀ i, ∑ j, |matOf ⟨thirdTurn, thirdTurn, thirdTurn, thirdTurn⟩ i j| = 2 := by
      intro i
      have h : ∀ i j, matOf ⟨thirdTurn, thirdTurn, thirdTurn, thirdTurn⟩ i j = 1 / 2 := by
        intro i j
        fin_cases i <;> fin_cases j <;> exact half_val.2
      simp only [h, Fin.sum_univ_four]
      norm_num
    exact le_antisymm (rowNorm_le fun i => (e i).le) ((e 0).symm.le.trans (row_le _ 0))
  have f : (Product.times (.factor (⟨thirdTurn, thirdTurn, thirdTurn, thirdTurn⟩ : M4 F32))
      (.factor ⟨thirdTurn, thirdTurn, thirdTurn, thirdTurn⟩)).All FinM :=
    ⟨⟨thirdTurn_ok.1, thirdTurn_ok.1, thirdTurn_ok.1, thirdTurn_ok.1⟩,
     ⟨thirdTurn_ok.1, thirdTurn_ok.1, thirdTurn_ok.1, thirdTurn_ok.1⟩⟩
  refine (mat_product_accuracy _ f ?_ ?_).1.1
  · simp only [Product.Between, Product.eval, n]
    norm_num
  · simp only [Product.count]; norm_num

end Verif
