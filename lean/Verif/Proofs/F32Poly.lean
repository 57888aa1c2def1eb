import Verif.Proofs.F32Rel

/-!
# Rounding errors of polynomials

`Pol r x s k m d n`: the binary32 value `r` was computed from inputs of size at most `2^20` by additions, subtractions and
multiplications by inputs; `x` is the exact value and `s` the same with every term replaced by its absolute value. Chains of
at most `k` roundings and `m` products are involved, the degree is `d + 1` and there are at most `n` terms.
-/

namespace Verif
open F32

/-- The bound on the inputs. -/
noncomputable def polT : ℝ := 2 ^ 20

structure Pol (r : F32) (x s : ℝ) (k m d n : ℕ) : Prop where
  fin : r.isFinite = true
  abs_le : |x| ≤ s
  big : s ≤ n * polT ^ (d + 1)
  err : |r.val - x| ≤ ((1 + uro) ^ k - 1) * s + m * polT ^ d * (1 + uro) ^ k / 2 ^ 150

theorem one_le_T (d : ℕ) : 1 ≤ polT ^ d := one_le_pow₀ (by unfold polT; norm_num)

theorem Pol.s_nonneg {r : F32} {x s : ℝ} {k m d n : ℕ} (h : Pol r x s k m d n) : 0 ≤ s := (abs_nonneg _).trans h.abs_le

theorem Pol.conv {r : F32} {x s X S : ℝ} {k m d n K M N : ℕ} (h : Pol r x s k m d n) (hx : x = X) (hs : s = S) (hk : k ≤ K)
    (hm : m ≤ M) (hn : n ≤ N) : Pol r X S K M d N := by
  subst hx; subst hs
  have h0 := h.s_nonneg
  have h1 := g_mono hk
  have h2 : (m : ℝ) ≤ M := by exact_mod_cast hm
  have h3 : (n : ℝ) ≤ N := by exact_mod_cast hn
  have h4 := one_le_T d
  have h5 := one_le_T (d + 1)
  have h6 := one_le_g k
  refine ⟨h.fin, h.abs_le, h.big.trans (by gcongr), h.err.trans ?_⟩
  gcongr

theorem Pol.var {r : F32} (h : r.isFinite = true) (hb : |r.val| ≤ polT) : Pol r r.val |r.val| 0 0 0 1 := by
  refine ⟨h, le_rfl, by simpa using hb, by simp⟩

/-- The size of the computed value. -/
theorem Pol.val_le {r : F32} {x s : ℝ} {k m d n : ℕ} (h : Pol r x s k m d n) :
    |r.val| ≤ (1 + uro) ^ k * s + m * polT ^ d * (1 + uro) ^ k / 2 ^ 150 := by
  have h1 := abs_add_le (r.val - x) x
  rw [sub_add_cancel] at h1
  linarith [h.err, h.abs_le]

/-- No overflow. -/
theorem pol_small {k m d n : ℕ} {s : ℝ} (hs : s ≤ n * polT ^ (d + 1)) (h0 : 0 ≤ s) (hk : k ≤ 64) (hm : m ≤ 64) (hd : d ≤ 4) (hn : n ≤ 64) :
    (1 + uro) ^ k * s + m * polT ^ d * (1 + uro) ^ k / 2 ^ 150 < 2 ^ 127 := by
  have h1 := g_small hk
  have h2 := one_le_g k
  have hm' : (m : ℝ) ≤ 64 := by exact_mod_cast hm
  have hn' : (n : ℝ) ≤ 64 := by exact_mod_cast hn
  have t1 : polT ^ (d + 1) ≤ 2 ^ 100 := by
    calc polT ^ (d + 1) ≤ polT ^ 5 := pow_le_pow_right₀ (by unfold polT; norm_num) (by omega)
      _ = 2 ^ 100 := by unfold polT; norm_num
  have t2 : polT ^ d ≤ 2 ^ 80 := by
    calc polT ^ d ≤ polT ^ 4 := pow_le_pow_right₀ (by unfold polT; norm_num) hd
      _ = 2 ^ 80 := by unfold polT; norm_num
  have p1 := one_le_T (d + 1)
  have p2 := one_le_T d
  have s1 : s ≤ 64 * 2 ^ 100 := hs.trans (by gcongr)
  have h3 : (1 + uro) ^ k * s ≤ (1 + 1 / 2 ^ 16) * (64 * 2 ^ 100) := by gcongr
  have h4 : (m : ℝ) * polT ^ d * (1 + uro) ^ k / 2 ^ 150 ≤ 64 * 2 ^ 80 * (1 + 1 / 2 ^ 16) / 2 ^ 150 := by gcongr
  have : ((1 : ℝ) + 1 / 2 ^ 16) * (64 * 2 ^ 100) + 64 * 2 ^ 80 * (1 + 1 / 2 ^ 16) / 2 ^ 150 < 2 ^ 127 := by norm_num
  linarith

/-- One more rounding. -/
private theorem pol_round {k m d : ℕ} {s y x r : ℝ} (hy : |y - x| ≤ ((1 + uro) ^ k - 1) * s + m * polT ^ d * (1 + uro) ^ k / 2 ^ 150)
    (hx : |x| ≤ s) (hr : |r - y| ≤ uro * |y|) :
    |r - x| ≤ ((1 + uro) ^ (k + 1) - 1) * s + m * polT ^ d * (1 + uro) ^ (k + 1) / 2 ^ 150 := by
  have h1 : |y| ≤ (1 + uro) ^ k * s + m * polT ^ d * (1 + uro) ^ k / 2 ^ 150 := by
    have h1 := abs_add_le (y - x) x
    rw [sub_add_cancel] at h1
    linarith
  have h2 := abs_add_le (r - y) (y - x)
  rw [sub_add_sub_cancel] at h2
  have h3 := mul_le_mul_of_nonneg_left h1 uro_pos.le
  have e : ((1 + uro) ^ (k + 1) - 1) * s + m * polT ^ d * (1 + uro) ^ (k + 1) / 2 ^ 150 =
      ((1 + uro) ^ k - 1) * s + m * polT ^ d * (1 + uro) ^ k / 2 ^ 150
      + uro * ((1 + uro) ^ k * s + m * polT ^ d * (1 + uro) ^ k / 2 ^ 150) := by rw [pow_succ]; ring
  rw [e]; linarith

private theorem pol_sum {a b x y s t : ℝ} {k l m m' d : ℕ}
    (ha : |a - x| ≤ ((1 + uro) ^ k - 1) * s + m * polT ^ d * (1 + uro) ^ k / 2 ^ 150)
    (hb : |b - y| ≤ ((1 + uro) ^ l - 1) * t + m' * polT ^ d * (1 + uro) ^ l / 2 ^ 150) (hs : 0 ≤ s) (ht : 0 ≤ t) :
    |a - x| + |b - y| ≤ ((1 + uro) ^ (max k l) - 1) * (s + t) + (m + m' : ℕ) * polT ^ d * (1 + uro) ^ (max k l) / 2 ^ 150 := by
  have h1 := g_mono (le_max_left k l)
  have h2 := g_mono (le_max_right k l)
  have h3 := one_le_T d
  have h4 : ((1 + uro) ^ k - 1) * s ≤ ((1 + uro) ^ (max k l) - 1) * s := by gcongr
  have h5 : ((1 + uro) ^ l - 1) * t ≤ ((1 + uro) ^ (max k l) - 1) * t := by gcongr
  have h6 : m * polT ^ d * (1 + uro) ^ k / 2 ^ 150 ≤ m * polT ^ d * (1 + uro) ^ (max k l) / 2 ^ 150 := by gcongr
  have h7 : m' * polT ^ d * (1 + uro) ^ l / 2 ^ 150 ≤ m' * polT ^ d * (1 + uro) ^ (max k l) / 2 ^ 150 := by gcongr
  push_cast
  linarith

theorem Pol.add {a b : F32} {x y s t : ℝ} {k l m m' d n n' : ℕ} (ha : Pol a x s k m d n) (hb : Pol b y t l m' d n')
    (hk : max k l ≤ 64) (hm : m + m' ≤ 64) (hd : d ≤ 4) (hn : n + n' ≤ 64) :
    Pol (fadd a b) (x + y) (s + t) (max k l + 1) (m + m') d (n + n') := by
  have hs := pol_sum ha.err hb.err ha.s_nonneg hb.s_nonneg
  have hx : |x + y| ≤ s + t := (abs_add_le _ _).trans (add_le_add ha.abs_le hb.abs_le)
  have hB : s + t ≤ (n + n' : ℕ) * polT ^ (d + 1) := by push_cast; linarith [ha.big, hb.big]
  have hs' := (show |a.val + b.val - (x + y)| ≤ |a.val - x| + |b.val - y| by
    rw [show a.val + b.val - (x + y) = (a.val - x) + (b.val - y) by ring]
    exact abs_add_le _ _).trans hs
  have hlt : |a.val + b.val| < 2 ^ 127 := by
    have h1 := abs_add_le (a.val + b.val - (x + y)) (x + y)
    rw [sub_add_cancel] at h1
    have := pol_small hB (add_nonneg ha.s_nonneg hb.s_nonneg) hk hm hd hn
    linarith
  obtain ⟨h1, h2⟩ := fadd_err' ha.fin hb.fin hlt
  exact ⟨h1, hx, hB, pol_round hs' hx h2⟩

theorem Pol.sub {a b : F32} {x y s t : ℝ} {k l m m' d n n' : ℕ} (ha : Pol a x s k m d n) (hb : Pol b y t l m' d n')
    (hk : max k l ≤ 64) (hm : m + m' ≤ 64) (hd : d ≤ 4) (hn : n + n' ≤ 64) :
    Pol (fsub a b) (x - y) (s + t) (max k l + 1) (m + m') d (n + n') := by
  have hs := pol_sum ha.err hb.err ha.s_nonneg hb.s_nonneg
  have hx : |x - y| ≤ s + t := (abs_sub _ _).trans (add_le_add ha.abs_le hb.abs_le)
  have hB : s + t ≤ (n + n' : ℕ) * polT ^ (d + 1) := by push_cast; linarith [ha.big, hb.big]
  have hs' := (show |a.val - b.val - (x - y)| ≤ |a.val - x| + |b.val - y| by
    rw [show a.val - b.val - (x - y) = (a.val - x) - (b.val - y) by ring]
    exact abs_sub _ _).trans hs
  have hlt : |a.val - b.val| < 2 ^ 127 := by
    have h1 := abs_add_le (a.val - b.val - (x - y)) (x - y)
    rw [sub_add_cancel] at h1
    have := pol_small hB (add_nonneg ha.s_nonneg hb.s_nonneg) hk hm hd hn
    linarith
  obtain ⟨h1, h2⟩ := fsub_err' ha.fin hb.fin hlt
  exact ⟨h1, hx, hB, pol_round hs' hx h2⟩

/-- The exact product of an input and a computed value. -/
private theorem pol_prod {a b : F32} {y t : ℝ} {l m d n : ℕ} (hab : |a.val| ≤ polT) (hb : Pol b y t l m d n) :
    |a.val * b.val - a.val * y| ≤ ((1 + uro) ^ l - 1) * (|a.val| * t) + m * polT ^ (d + 1) * (1 + uro) ^ l / 2 ^ 150 ∧
    |a.val * y| ≤ |a.val| * t ∧ |a.val| * t ≤ n * polT ^ (d + 1 + 1) := by
  have h0 := hb.s_nonneg
  have h1 := one_le_g l
  have h2 := one_le_T d
  have hT : 0 < polT := by unfold polT; norm_num
  refine ⟨?_, ?_, ?_⟩
  · rw [← mul_sub, abs_mul]
    have h3 := mul_le_mul_of_nonneg_left hb.err (abs_nonneg a.val)
    have h4 : |a.val| * (m * polT ^ d * (1 + uro) ^ l / 2 ^ 150) ≤ polT * (m * polT ^ d * (1 + uro) ^ l / 2 ^ 150) := by gcongr
    rw [pow_succ polT]
    linarith
  · rw [abs_mul]; exact mul_le_mul_of_nonneg_left hb.abs_le (abs_nonneg _)
  · calc |a.val| * t ≤ polT * (n * polT ^ (d + 1)) := mul_le_mul hab hb.big h0 hT.le
      _ = _ := by ring

private theorem pol_round1 {k m d : ℕ} {s y x r : ℝ} (hy : |y - x| ≤ ((1 + uro) ^ k - 1) * s + m * polT ^ d * (1 + uro) ^ k / 2 ^ 150)
    (hx : |x| ≤ s) (hr : |r - y| ≤ uro * |y| + 1 / 2 ^ 150) :
    |r - x| ≤ ((1 + uro) ^ (k + 1) - 1) * s + (m + 1 : ℕ) * polT ^ d * (1 + uro) ^ (k + 1) / 2 ^ 150 := by
  have h1 : |y| ≤ (1 + uro) ^ k * s + m * polT ^ d * (1 + uro) ^ k / 2 ^ 150 := by
    have h1 := abs_add_le (y - x) x
    rw [sub_add_cancel] at h1
    linarith
  have h2 := abs_add_le (r - y) (y - x)
  rw [sub_add_sub_cancel] at h2
  have h3 := mul_le_mul_of_nonneg_left h1 uro_pos.le
  have e : ((1 + uro) ^ (k + 1) - 1) * s + (m + 1 : ℕ) * polT ^ d * (1 + uro) ^ (k + 1) / 2 ^ 150 =
      ((1 + uro) ^ k - 1) * s + m * polT ^ d * (1 + uro) ^ k / 2 ^ 150
      + uro * ((1 + uro) ^ k * s + m * polT ^ d * (1 + uro) ^ k / 2 ^ 150) + polT ^ d * (1 + uro) ^ (k + 1) / 2 ^ 150 := by
    push_cast; rw [pow_succ]; ring
  have h4 : (1 : ℝ) / 2 ^ 150 ≤ polT ^ d * (1 + uro) ^ (k + 1) / 2 ^ 150 := by
    have := one_le_mul_of_one_le_of_one_le (one_le_T d) (one_le_g (k + 1))
    gcongr
  rw [e]; linarith

theorem Pol.mul {a b : F32} {y t : ℝ} {l m d n : ℕ} (ha : a.isFinite = true) (hab : |a.val| ≤ polT) (hb : Pol b y t l m d n)
    (hk : l ≤ 64) (hm : m ≤ 64) (hd : d + 1 ≤ 4) (hn : n ≤ 64) :
    Pol (fmul a b) (a.val * y) (|a.val| * t) (l + 1) (m + 1) (d + 1) n := by
  obtain ⟨h1, h2, h3⟩ := pol_prod hab hb
  have hlt : |a.val * b.val| < 2 ^ 127 := by
    have h4 := abs_add_le (a.val * b.val - a.val * y) (a.val * y)
    rw [sub_add_cancel] at h4
    have := pol_small h3 (mul_nonneg (abs_nonneg _) hb.s_nonneg) hk hm hd hn
    linarith
  obtain ⟨h4, h5⟩ := fmul_rel ha hb.fin hlt
  exact ⟨h4, h2, h3, pol_round1 h1 h2 h5⟩

/-- Multiplication by a sign. -/
theorem Pol.sign {a b : F32} {y t : ℝ} {l m d n : ℕ} (hb : b.isFinite = true) (hbb : |b.val| = 1) (ha : Pol a y t l m d n)
    (hk : l ≤ 64) (hm : m ≤ 64) (hd : d ≤ 4) (hn : n ≤ 64) :
    Pol (fmul a b) (y * b.val) t (l + 1) (m + 1) d n := by
  have h1 : |a.val * b.val - y * b.val| ≤ ((1 + uro) ^ l - 1) * t + m * polT ^ d * (1 + uro) ^ l / 2 ^ 150 := by
    rw [← sub_mul, abs_mul, hbb, mul_one]; exact ha.err
  have h2 : |y * b.val| ≤ t := by rw [abs_mul, hbb, mul_one]; exact ha.abs_le
  have hlt : |a.val * b.val| < 2 ^ 127 := by
    have h4 := abs_add_le (a.val * b.val - y * b.val) (y * b.val)
    rw [sub_add_cancel] at h4
    have := pol_small ha.big ha.s_nonneg hk hm hd hn
    linarith
  obtain ⟨h4, h5⟩ := fmul_rel ha.fin hb hlt
  exact ⟨h4, h2, ha.big, pol_round1 h1 h2 h5⟩

/-- A multiply-add of an input and computed values, fused or not. -/
theorem Pol.fma {a b c f : F32} {y z t w : ℝ} {l m d n k m' n' : ℕ} (hf : f = ffma a b c ∨ f = fadd c (fmul a b))
    (ha : a.isFinite = true) (hab : |a.val| ≤ polT) (hb : Pol b y t l m d n)
    (hc : Pol c z w k m' (d + 1) n') (hk : max (l + 1) k ≤ 64) (hm : m + m' + 1 ≤ 64) (hd : d + 1 ≤ 4) (hn : n + n' ≤ 64) :
    Pol f (a.val * y + z) (|a.val| * t + w) (max (l + 1) k + 1) (m + m' + 1) (d + 1) (n + n') := by
  rcases hf with rfl | rfl
  · obtain ⟨h1, h2, h3⟩ := pol_prod hab hb
    have hs0 := mul_nonneg (abs_nonneg a.val) hb.s_nonneg
    have hs := pol_sum h1 hc.err hs0 hc.s_nonneg
    have hx : |a.val * y + z| ≤ |a.val| * t + w := (abs_add_le _ _).trans (add_le_add h2 hc.abs_le)
    have hB : |a.val| * t + w ≤ (n + n' : ℕ) * polT ^ (d + 1 + 1) := by push_cast; linarith [hc.big]
    have hs' := (show |a.val * b.val + c.val - (a.val * y + z)| ≤ |a.val * b.val - a.val * y| + |c.val - z| by
      rw [show a.val * b.val + c.val - (a.val * y + z) = (a.val * b.val - a.val * y) + (c.val - z) by ring]
      exact abs_add_le _ _).trans hs
    have hk' : max l k ≤ 64 := le_trans (by omega) hk
    have hlt : |a.val * b.val + c.val| < 2 ^ 127 := by
      have h1 := abs_add_le (a.val * b.val + c.val - (a.val * y + z)) (a.val * y + z)
      rw [sub_add_cancel] at h1
      have := pol_small hB (add_nonneg hs0 hc.s_nonneg) hk' (by omega : m + m' ≤ 64) hd hn
      linarith
    obtain ⟨h4, h5⟩ := ffma_approx ha hb.fin hc.fin le_rfl hlt
    have h5' : |(ffma a b c).val - (a.val * b.val + c.val)| ≤ uro * |a.val * b.val + c.val| + 1 / 2 ^ 150 := by
      refine h5.trans ?_; unfold ulp uro; linarith
    have := (⟨h4, hx, hB, pol_round1 hs' hx h5'⟩ : Pol _ _ _ _ _ _ _)
    exact this.conv rfl rfl (by omega) le_rfl le_rfl
  · have h := (hb.mul ha hab (by omega) (by omega) hd (by omega))
    have := hc.add h (by omega) (by omega) hd (by omega)
    exact this.conv (by ring) (by ring) (by omega) (by omega) (by omega)

end Verif
