import Verif.Proofs.F32Real

/-!
# Counting roundings

`Err r x W k m`: the binary32 value `r` was computed from terms whose absolute values sum to `W`, through chains of at
most `k` roundings, `m` of which may have underflowed; it is within `((1+2^-24)^k - 1) W + m (1+2^-24)^k 2^-150` of the
exact value `x`.
-/

namespace Verif
open F32

/-- The unit roundoff of binary32. -/
noncomputable def uro : ℝ := 1 / 2 ^ 24

theorem uro_pos : 0 < uro := by unfold uro; positivity

/-- The error after `k` roundings of terms of total size `W`, with `m` possible underflows. -/
noncomputable def rounded (k : ℕ) (W : ℝ) (m : ℕ) : ℝ := ((1 + uro) ^ k - 1) * W + m * (1 + uro) ^ k / 2 ^ 150

def Err (r : F32) (x W : ℝ) (k m : ℕ) : Prop := r.isFinite = true ∧ |x| ≤ W ∧ |r.val - x| ≤ rounded k W m

theorem one_le_g (k : ℕ) : 1 ≤ (1 + uro) ^ k := one_le_pow₀ (by linarith [uro_pos])

theorem g_mono {k k' : ℕ} (h : k ≤ k') : (1 + uro) ^ k ≤ (1 + uro) ^ k' := pow_le_pow_right₀ (by linarith [uro_pos]) h

theorem rounded_mono {k k' m m' : ℕ} {W W' : ℝ} (hk : k ≤ k') (hW : W ≤ W') (hm : m ≤ m') (h0 : 0 ≤ W) :
    rounded k W m ≤ rounded k' W' m' := by
  unfold rounded
  have h1 := one_le_g k
  have h2 := g_mono hk
  have hm' : (m : ℝ) ≤ m' := by exact_mod_cast hm
  gcongr <;> linarith

theorem Err.mono {r : F32} {x W W' : ℝ} {k k' m m' : ℕ} (h : Err r x W k m) (hk : k ≤ k') (hm : m ≤ m') (hW : W ≤ W') :
    Err r x W' k' m' :=
  ⟨h.1, h.2.1.trans hW, h.2.2.trans (rounded_mono hk hW hm ((abs_nonneg _).trans h.2.1))⟩

theorem Err.self {r : F32} (h : r.isFinite = true) : Err r r.val |r.val| 0 0 := by
  refine ⟨h, le_rfl, ?_⟩; simp [rounded]

theorem Err.of_eq {r : F32} {x x' W : ℝ} {k m : ℕ} (h : Err r x W k m) (e : x = x') : Err r x' W k m := e ▸ h

theorem Err.W_nonneg {r : F32} {x W : ℝ} {k m : ℕ} (h : Err r x W k m) : 0 ≤ W := (abs_nonneg _).trans h.2.1

/-- The size of the computed value. -/
theorem Err.abs_le {r : F32} {x W : ℝ} {k m : ℕ} (h : Err r x W k m) :
    |r.val| ≤ (1 + uro) ^ k * W + m * (1 + uro) ^ k / 2 ^ 150 := by
  have h1 := abs_add_le (r.val - x) x
  rw [sub_add_cancel] at h1
  have h2 := h.2.2
  unfold rounded at h2
  linarith [h.2.1]

theorem g_small {k : ℕ} (h : k ≤ 64) : (1 + uro) ^ k ≤ 1 + 1 / 2 ^ 16 := by
  refine (g_mono h).trans ?_
  unfold uro; norm_num

/-- No overflow. -/
theorem small {k m : ℕ} {W : ℝ} (hk : k ≤ 64) (hm : m ≤ 64) (hW : W ≤ 2 ^ 126) (h0 : 0 ≤ W) :
    (1 + uro) ^ k * W + m * (1 + uro) ^ k / 2 ^ 150 < 2 ^ 127 := by
  have h1 := g_small hk
  have h2 := one_le_g k
  have hm' : (m : ℝ) ≤ 64 := by exact_mod_cast hm
  have h3 : (1 + uro) ^ k * W ≤ (1 + 1 / 2 ^ 16) * 2 ^ 126 := by gcongr
  have h4 : (m : ℝ) * (1 + uro) ^ k / 2 ^ 150 ≤ 64 * (1 + 1 / 2 ^ 16) / 2 ^ 150 := by gcongr
  have : ((1 : ℝ) + 1 / 2 ^ 16) * 2 ^ 126 + 64 * (1 + 1 / 2 ^ 16) / 2 ^ 150 < 2 ^ 127 := by norm_num
  linarith

theorem fadd_err' {a b : F32} (ha : a.isFinite = true) (hb : b.isFinite = true) (h : |a.val + b.val| < 2 ^ 127) :
    (fadd a b).isFinite = true ∧ |(fadd a b).val - (a.val + b.val)| ≤ uro * |a.val + b.val| := by
  have e : a.val + b.val = ((a.toRat + b.toRat : Rat) : ℝ) := by unfold val; push_cast; rfl
  rw [e] at h ⊢
  obtain ⟨h1, h2⟩ := fadd_err ha hb (rat_le_max le_rfl h)
  refine ⟨h1, ?_⟩
  have := (Rat.cast_le (K := ℝ)).2 h2
  unfold val uro
  push_cast at this ⊢
  linarith

theorem fsub_err' {a b : F32} (ha : a.isFinite = true) (hb : b.isFinite = true) (h : |a.val - b.val| < 2 ^ 127) :
    (fsub a b).isFinite = true ∧ |(fsub a b).val - (a.val - b.val)| ≤ uro * |a.val - b.val| := by
  have e : a.val - b.val = ((a.toRat - b.toRat : Rat) : ℝ) := by unfold val; push_cast; rfl
  rw [e] at h ⊢
  obtain ⟨h1, h2⟩ := fsub_err ha hb (rat_le_max le_rfl h)
  refine ⟨h1, ?_⟩
  have := (Rat.cast_le (K := ℝ)).2 h2
  unfold val uro
  push_cast at this ⊢
  linarith

theorem rounded_step (k m : ℕ) (W : ℝ) :
    rounded k W m + uro * ((1 + uro) ^ k * W + m * (1 + uro) ^ k / 2 ^ 150) = rounded (k + 1) W m := by
  unfold rounded; rw [pow_succ]; ring

theorem rounded_add (k m1 m2 : ℕ) (W1 W2 : ℝ) : rounded k W1 m1 + rounded k W2 m2 = rounded k (W1 + W2) (m1 + m2) := by
  unfold rounded; push_cast; ring

private theorem add_core {k m : ℕ} {W s x r : ℝ} (hs : |s - x| ≤ rounded k W m) (hx : |x| ≤ W) (hr : |r - s| ≤ uro * |s|) :
    |r - x| ≤ rounded (k + 1) W m := by
  have h1 : |s| ≤ (1 + uro) ^ k * W + m * (1 + uro) ^ k / 2 ^ 150 := by
    have h1 := abs_add_le (s - x) x
    rw [sub_add_cancel] at h1
    unfold rounded at hs
    linarith
  have h2 := abs_add_le (r - s) (s - x)
  rw [sub_add_sub_cancel] at h2
  have h3 := mul_le_mul_of_nonneg_left h1 uro_pos.le
  rw [← rounded_step]; linarith

theorem Err.add {a b : F32} {x y W1 W2 : ℝ} {k m1 m2 : ℕ} (ha : Err a x W1 k m1) (hb : Err b y W2 k m2)
    (hW : W1 + W2 ≤ 2 ^ 126) (hk : k ≤ 64) (hm : m1 + m2 ≤ 64) :
    Err (fadd a b) (x + y) (W1 + W2) (k + 1) (m1 + m2) := by
  have hs : |a.val + b.val - (x + y)| ≤ rounded k (W1 + W2) (m1 + m2) := by
    rw [show a.val + b.val - (x + y) = (a.val - x) + (b.val - y) by ring, ← rounded_add]
    exact (abs_add_le _ _).trans (add_le_add ha.2.2 hb.2.2)
  have hx : |x + y| ≤ W1 + W2 := (abs_add_le _ _).trans (add_le_add ha.2.1 hb.2.1)
  have hlt : |a.val + b.val| < 2 ^ 127 := by
    have h1 := abs_add_le (a.val + b.val - (x + y)) (x + y)
    rw [sub_add_cancel] at h1
    have := small hk hm hW (add_nonneg ha.W_nonneg hb.W_nonneg)
    unfold rounded at hs
    linarith
  obtain ⟨h1, h2⟩ := fadd_err' ha.1 hb.1 hlt
  exact ⟨h1, hx, add_core hs hx h2⟩

theorem Err.sub {a b : F32} {x y W1 W2 : ℝ} {k m1 m2 : ℕ} (ha : Err a x W1 k m1) (hb : Err b y W2 k m2)
    (hW : W1 + W2 ≤ 2 ^ 126) (hk : k ≤ 64) (hm : m1 + m2 ≤ 64) :
    Err (fsub a b) (x - y) (W1 + W2) (k + 1) (m1 + m2) := by
  have hs : |a.val - b.val - (x - y)| ≤ rounded k (W1 + W2) (m1 + m2) := by
    rw [show a.val - b.val - (x - y) = (a.val - x) - (b.val - y) by ring, ← rounded_add]
    exact (abs_sub _ _).trans (add_le_add ha.2.2 hb.2.2)
  have hx : |x - y| ≤ W1 + W2 := (abs_sub _ _).trans (add_le_add ha.2.1 hb.2.1)
  have hlt : |a.val - b.val| < 2 ^ 127 := by
    have h1 := abs_add_le (a.val - b.val - (x - y)) (x - y)
    rw [sub_add_cancel] at h1
    have := small hk hm hW (add_nonneg ha.W_nonneg hb.W_nonneg)
    unfold rounded at hs
    linarith
  obtain ⟨h1, h2⟩ := fsub_err' ha.1 hb.1 hlt
  exact ⟨h1, hx, add_core hs hx h2⟩

/-- One subtraction of exact values: relative to the exact difference. -/
theorem Err.diff {a b : F32} (ha : a.isFinite = true) (hb : b.isFinite = true) (h : |a.val - b.val| ≤ 2 ^ 126) :
    Err (fsub a b) (a.val - b.val) |a.val - b.val| 1 0 := by
  obtain ⟨h1, h2⟩ := fsub_err' ha hb (h.trans_lt (by norm_num))
  refine ⟨h1, le_rfl, h2.trans ?_⟩
  unfold rounded; simp

/-- Multiplication of factors that did not underflow. -/
theorem Err.mul {a b : F32} {x y W1 W2 : ℝ} {k1 k2 : ℕ} (ha : Err a x W1 k1 0) (hb : Err b y W2 k2 0)
    (hW : W1 * W2 ≤ 2 ^ 126) (hk : k1 + k2 ≤ 64) : Err (fmul a b) (x * y) (W1 * W2) (k1 + k2 + 1) 1 := by
  have W1p := ha.W_nonneg
  have W2p := hb.W_nonneg
  have ea := ha.2.2
  have eb := hb.2.2
  have ba := ha.abs_le
  unfold rounded at ea eb
  simp only [Nat.cast_zero, zero_mul, zero_div, add_zero] at ea eb ba
  have hx : |x * y| ≤ W1 * W2 := by
    rw [abs_mul]; exact mul_le_mul ha.2.1 hb.2.1 (abs_nonneg _) W1p
  have hs : |a.val * b.val - x * y| ≤ rounded (k1 + k2) (W1 * W2) 0 := by
    have e : a.val * b.val - x * y = a.val * (b.val - y) + (a.val - x) * y := by ring
    rw [e]
    refine (abs_add_le _ _).trans ?_
    rw [abs_mul, abs_mul]
    have t1 : |a.val| * |b.val - y| ≤ ((1 + uro) ^ k1 * W1) * (((1 + uro) ^ k2 - 1) * W2) :=
      mul_le_mul ba eb (abs_nonneg _) ((abs_nonneg _).trans ba)
    have t2 : |a.val - x| * |y| ≤ (((1 + uro) ^ k1 - 1) * W1) * W2 :=
      mul_le_mul ea hb.2.1 (abs_nonneg _) ((abs_nonneg _).trans ea)
    unfold rounded
    rw [pow_add]
    simp only [Nat.cast_zero, zero_mul, zero_div, add_zero]
    linarith
  have hlt := small hk (show 0 ≤ 64 by norm_num) hW (mul_nonneg W1p W2p)
  have hb' : |a.val * b.val| ≤ (1 + uro) ^ (k1 + k2) * (W1 * W2) := by
    have h1 := abs_add_le (a.val * b.val - x * y) (x * y)
    rw [sub_add_cancel] at h1
    unfold rounded at hs
    simp only [Nat.cast_zero, zero_mul, zero_div, add_zero] at hs
    linarith
  simp only [Nat.cast_zero, zero_mul, zero_div, add_zero] at hlt
  obtain ⟨h1, h2⟩ := fmul_approx ha.1 hb.1 hb' hlt
  refine ⟨h1, hx, ?_⟩
  have h3 := abs_add_le ((fmul a b).val - a.val * b.val) (a.val * b.val - x * y)
  rw [sub_add_sub_cancel] at h3
  unfold ulp at h2
  unfold rounded at hs ⊢
  simp only [Nat.cast_zero, zero_mul, zero_div, add_zero] at hs
  have h4 := one_le_g (k1 + k2 + 1)
  have h5 : (1 : ℝ) / 2 ^ 150 ≤ (1 + uro) ^ (k1 + k2 + 1) / 2 ^ 150 := by gcongr
  have h6 : (1 + uro) ^ (k1 + k2) * (W1 * W2) / 2 ^ 24 = uro * ((1 + uro) ^ (k1 + k2) * (W1 * W2)) := by unfold uro; ring
  have h7 : (1 + uro) ^ (k1 + k2 + 1) = (1 + uro) ^ (k1 + k2) + uro * (1 + uro) ^ (k1 + k2) := by rw [pow_succ]; ring
  rw [h6] at h2
  have h8 : ((1 + uro) ^ (k1 + k2 + 1) - 1) * (W1 * W2)
      = ((1 + uro) ^ (k1 + k2) - 1) * (W1 * W2) + uro * ((1 + uro) ^ (k1 + k2) * (W1 * W2)) := by rw [h7]; ring
  rw [h8]
  push_cast
  rw [one_mul]
  linarith

/-- A product of exact values. -/
theorem Err.prod {a b : F32} (ha : a.isFinite = true) (hb : b.isFinite = true) (h : |a.val| * |b.val| ≤ 2 ^ 126) :
    Err (fmul a b) (a.val * b.val) (|a.val| * |b.val|) 1 1 :=
  (Err.self ha).mul (Err.self hb) h (by norm_num)

/-- A fused multiply-add of exact factors. -/
theorem Err.fused {a b c : F32} {z W : ℝ} {k m : ℕ} (ha : a.isFinite = true) (hb : b.isFinite = true) (hc : Err c z W k m)
    (hW : |a.val| * |b.val| + W ≤ 2 ^ 126) (hk : k ≤ 64) (hm : m ≤ 64) :
    Err (ffma a b c) (a.val * b.val + z) (|a.val| * |b.val| + W) (k + 1) (m + 1) := by
  have Wp := hc.W_nonneg
  have hp : |a.val * b.val| = |a.val| * |b.val| := abs_mul _ _
  have hp0 : 0 ≤ |a.val| * |b.val| := by positivity
  have hx : |a.val * b.val + z| ≤ |a.val| * |b.val| + W := (abs_add_le _ _).trans (by rw [hp]; linarith [hc.2.1])
  have hs : |a.val * b.val + c.val - (a.val * b.val + z)| ≤ rounded k (|a.val| * |b.val| + W) m := by
    rw [add_sub_add_left_eq_sub]
    exact hc.2.2.trans (rounded_mono le_rfl (by linarith) le_rfl Wp)
  have hlt := small hk hm hW (by positivity)
  have hb' : |a.val * b.val + c.val| ≤ (1 + uro) ^ k * (|a.val| * |b.val| + W) + m * (1 + uro) ^ k / 2 ^ 150 := by
    have h1 := abs_add_le (a.val * b.val + c.val - (a.val * b.val + z)) (a.val * b.val + z)
    rw [sub_add_cancel] at h1
    unfold rounded at hs
    linarith
  obtain ⟨h1, h2⟩ := ffma_approx ha hb hc.1 hb' hlt
  refine ⟨h1, hx, ?_⟩
  have h3 := abs_add_le ((ffma a b c).val - (a.val * b.val + c.val)) (a.val * b.val + c.val - (a.val * b.val + z))
  rw [sub_add_sub_cancel] at h3
  generalize |a.val| * |b.val| + W = V at *
  unfold ulp at h2
  have h5 : (1 : ℝ) / 2 ^ 150 ≤ (1 + uro) ^ (k + 1) / 2 ^ 150 := by have := one_le_g (k + 1); gcongr
  have h6 := rounded_step k m V
  have h7 : rounded (k + 1) V (m + 1) = rounded (k + 1) V m + (1 + uro) ^ (k + 1) / 2 ^ 150 := by
    unfold rounded; push_cast; ring
  rw [h7, ← h6]
  have h8 : ((1 + uro) ^ k * V + m * (1 + uro) ^ k / 2 ^ 150) / 2 ^ 24
      = uro * ((1 + uro) ^ k * V + m * (1 + uro) ^ k / 2 ^ 150) := by unfold uro; ring
  linarith

end Verif
