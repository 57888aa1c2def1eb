import Verif.Proofs.F32Div
import Verif.Model.SimdMath

/-!
# Forward error bounds over the reals

`Approx r x e`: the binary32 value `r` is finite and within `e` of the real `x`. Each arithmetic operation has a rule with
explicit magnitude bounds, so that a straight-line program is bounded by numeric side conditions only.
-/

namespace Verif
open F32

/-- The real value of a binary32 number. -/
noncomputable def F32.val (r : F32) : ℝ := (r.toRat : ℝ)

def Approx (r : F32) (x e : ℝ) : Prop := r.isFinite = true ∧ |r.val - x| ≤ e

/-- The rounding error of a result of magnitude at most `M`. -/
noncomputable def ulp (M : ℝ) : ℝ := M / 2 ^ 24 + 1 / 2 ^ 150

theorem maxRat_big : (2 : ℝ) ^ 127 ≤ ((maxRat : Rat) : ℝ) := by
  rw [maxRat_eq]
  have h : magUnits (infMag - 1) = (2 ^ 24 - 1) * 2 ^ 253 := by decide +kernel
  rw [h]; push_cast; norm_num

theorem Approx.mono {r : F32} {x e e' : ℝ} (h : Approx r x e) (he : e ≤ e') : Approx r x e' := ⟨h.1, h.2.trans he⟩

theorem Approx.self {r : F32} (h : r.isFinite = true) : Approx r r.val 0 := ⟨h, by simp⟩

theorem Approx.abs_le {r : F32} {x e : ℝ} (h : Approx r x e) : |r.val| ≤ |x| + e := by
  have h1 := abs_add_le (r.val - x) x
  rw [sub_add_cancel] at h1
  linarith [h.2]

theorem Approx.of_eq {r : F32} {x e y : ℝ} (h : Approx r x e) (hy : x = y) : Approx r y e := hy ▸ h

/-- Moving the target. -/
theorem Approx.trans {r : F32} {x e y d : ℝ} (h : Approx r x e) (hy : |x - y| ≤ d) : Approx r y (e + d) := by
  refine ⟨h.1, ?_⟩
  have h1 := abs_add_le (r.val - x) (x - y)
  rw [sub_add_sub_cancel] at h1
  linarith [h.2]

theorem ulp_max {q M : ℝ} (h : |q| ≤ M) : max (|q| / 2 ^ 24) (1 / 2 ^ 150) ≤ ulp M := by
  unfold ulp
  have h0 : 0 ≤ |q| := abs_nonneg q
  have h1 : |q| / 2 ^ 24 ≤ M / 2 ^ 24 := by gcongr
  have h2 : 0 ≤ |q| / 2 ^ 24 := by positivity
  have h3 : (0 : ℝ) ≤ 1 / 2 ^ 150 := by positivity
  exact max_le (by linarith) (by linarith)

theorem nearest_approx {r : F32} {q M : ℝ} (h : IsNearest r q) (hM : |q| ≤ M) (hb : M < 2 ^ 127) : Approx r q (ulp M) :=
  ⟨h.1, (h.err (lt_of_le_of_lt hM (hb.trans_le maxRat_big))).trans (ulp_max hM)⟩

theorem rat_le_max {q : Rat} {M : ℝ} (h : |(q : ℝ)| ≤ M) (hb : M < 2 ^ 127) : |q| ≤ maxRat := by
  have : ((|q| : Rat) : ℝ) ≤ ((maxRat : Rat) : ℝ) := by
    rw [Rat.cast_abs]; exact (h.trans hb.le).trans maxRat_big
  exact_mod_cast this

theorem fadd_approx {a b : F32} {M : ℝ} (ha : a.isFinite = true) (hb : b.isFinite = true) (h : |a.val + b.val| ≤ M)
    (hM : M < 2 ^ 127) : Approx (fadd a b) (a.val + b.val) (ulp M) := by
  have e : a.val + b.val = ((a.toRat + b.toRat : Rat) : ℝ) := by unfold val; push_cast; rfl
  rw [e] at h ⊢
  exact nearest_approx (fadd_nearest ha hb (rat_le_max h hM)) h hM

theorem fsub_approx {a b : F32} {M : ℝ} (ha : a.isFinite = true) (hb : b.isFinite = true) (h : |a.val - b.val| ≤ M)
    (hM : M < 2 ^ 127) : Approx (fsub a b) (a.val - b.val) (ulp M) := by
  have e : a.val - b.val = ((a.toRat - b.toRat : Rat) : ℝ) := by unfold val; push_cast; rfl
  rw [e] at h ⊢
  exact nearest_approx (fsub_nearest ha hb (rat_le_max h hM)) h hM

theorem fmul_approx {a b : F32} {M : ℝ} (ha : a.isFinite = true) (hb : b.isFinite = true) (h : |a.val * b.val| ≤ M)
    (hM : M < 2 ^ 127) : Approx (fmul a b) (a.val * b.val) (ulp M) := by
  have e : a.val * b.val = ((a.toRat * b.toRat : Rat) : ℝ) := by unfold val; push_cast; rfl
  rw [e] at h ⊢
  exact nearest_approx (fmul_nearest ha hb (rat_le_max h hM)) h hM

theorem fdiv_approx {a b : F32} {M : ℝ} (ha : a.isFinite = true) (hb : b.isFinite = true) (h0 : b.val ≠ 0)
    (h : |a.val / b.val| ≤ M) (hM : M < 2 ^ 127) : Approx (fdiv a b) (a.val / b.val) (ulp M) := by
  have e : a.val / b.val = ((a.toRat / b.toRat : Rat) : ℝ) := by unfold val; push_cast; rfl
  rw [e] at h ⊢
  exact nearest_approx (fdiv_nearest ha hb (fun h => h0 (by unfold val; rw [h]; simp)) (rat_le_max h hM)) h hM

theorem ffma_approx {a b c : F32} {M : ℝ} (ha : a.isFinite = true) (hb : b.isFinite = true) (hc : c.isFinite = true)
    (h : |a.val * b.val + c.val| ≤ M) (hM : M < 2 ^ 127) : Approx (ffma a b c) (a.val * b.val + c.val) (ulp M) := by
  have e : a.val * b.val + c.val = ((a.toRat * b.toRat + c.toRat : Rat) : ℝ) := by unfold val; push_cast; rfl
  rw [e] at h ⊢
  exact nearest_approx (ffma_nearest ha hb hc (rat_le_max h hM)) h hM

/-! ## Rules -/

theorem Approx.add {a b : F32} {x y e1 e2 : ℝ} (ha : Approx a x e1) (hb : Approx b y e2) (M : ℝ)
    (h : |x + y| + e1 + e2 ≤ M) (hM : M < 2 ^ 127) : Approx (fadd a b) (x + y) (e1 + e2 + ulp M) := by
  have h1 : |a.val + b.val - (x + y)| ≤ e1 + e2 := by
    rw [show a.val + b.val - (x + y) = (a.val - x) + (b.val - y) by ring]
    exact (abs_add_le _ _).trans (add_le_add ha.2 hb.2)
  have h2 : |a.val + b.val| ≤ M := by
    have := abs_add_le (a.val + b.val - (x + y)) (x + y); rw [sub_add_cancel] at this; linarith
  exact ((fadd_approx ha.1 hb.1 h2 hM).trans h1).mono (by linarith)

theorem Approx.sub {a b : F32} {x y e1 e2 : ℝ} (ha : Approx a x e1) (hb : Approx b y e2) (M : ℝ)
    (h : |x - y| + e1 + e2 ≤ M) (hM : M < 2 ^ 127) : Approx (fsub a b) (x - y) (e1 + e2 + ulp M) := by
  have h1 : |a.val - b.val - (x - y)| ≤ e1 + e2 := by
    rw [show a.val - b.val - (x - y) = (a.val - x) - (b.val - y) by ring]
    exact (abs_sub _ _).trans (add_le_add ha.2 hb.2)
  have h2 : |a.val - b.val| ≤ M := by
    have := abs_add_le (a.val - b.val - (x - y)) (x - y); rw [sub_add_cancel] at this; linarith
  exact ((fsub_approx ha.1 hb.1 h2 hM).trans h1).mono (by linarith)

theorem mul_close {a b x y e1 e2 X Y : ℝ} (ha : |a - x| ≤ e1) (hb : |b - y| ≤ e2) (hX : |x| ≤ X) (hY : |y| ≤ Y) :
    |a * b - x * y| ≤ X * e2 + Y * e1 + e1 * e2 := by
  have e1' := abs_nonneg (a - x)
  have e2' := abs_nonneg (b - y)
  have : a * b - x * y = x * (b - y) + y * (a - x) + (a - x) * (b - y) := by ring
  rw [this]
  refine (abs_add_le _ _).trans (add_le_add ((abs_add_le _ _).trans (add_le_add ?_ ?_)) ?_)
  · rw [abs_mul]; exact mul_le_mul hX hb e2' ((abs_nonneg x).trans hX)
  · rw [abs_mul]; exact mul_le_mul hY ha e1' ((abs_nonneg y).trans hY)
  · rw [abs_mul]; exact mul_le_mul ha hb e2' (e1'.trans ha)

theorem Approx.mul {a b : F32} {x y e1 e2 : ℝ} (ha : Approx a x e1) (hb : Approx b y e2) (X Y : ℝ)
    (hX : |x| ≤ X) (hY : |y| ≤ Y) (hM : (X + e1) * (Y + e2) < 2 ^ 127) :
    Approx (fmul a b) (x * y) (X * e2 + Y * e1 + e1 * e2 + ulp ((X + e1) * (Y + e2))) := by
  have h2 : |a.val * b.val| ≤ (X + e1) * (Y + e2) := by
    rw [abs_mul]
    exact mul_le_mul (ha.abs_le.trans (by linarith)) (hb.abs_le.trans (by linarith)) (abs_nonneg _)
      (by linarith [(abs_nonneg x), (abs_nonneg _).trans ha.2])
  exact ((fmul_approx ha.1 hb.1 h2 hM).trans (mul_close ha.2 hb.2 hX hY)).mono (by linarith)

theorem ulp_nonneg {M : ℝ} (h : 0 ≤ M) : 0 ≤ ulp M := by unfold ulp; positivity

/-- Multiply-add, fused or not. -/
theorem Approx.fma (t : FTarget) {a b c : F32} {x y z e1 e2 e3 : ℝ} (ha : Approx a x e1) (hb : Approx b y e2) (hc : Approx c z e3)
    (X Y P M : ℝ) (hX : |x| ≤ X) (hY : |y| ≤ Y) (hP : (X + e1) * (Y + e2) ≤ P) (hM : |x * y + z| + (X * e2 + Y * e1 + e1 * e2 + ulp P + e3) ≤ M)
    (hP' : P < 2 ^ 127) (hM' : M < 2 ^ 127) :
    Approx (F32x4.fma1 t a b c) (x * y + z) (X * e2 + Y * e1 + e1 * e2 + e3 + ulp P + ulp M) := by
  have hmc := mul_close ha.2 hb.2 hX hY
  have hab : |a.val * b.val| ≤ P := by
    rw [abs_mul]
    exact (mul_le_mul (ha.abs_le.trans (by linarith)) (hb.abs_le.trans (by linarith)) (abs_nonneg _)
      (by linarith [(abs_nonneg x), (abs_nonneg _).trans ha.2])).trans hP
  have hP0 : 0 ≤ P := (abs_nonneg _).trans hab
  have hu := ulp_nonneg hP0
  have fused : Approx (ffma a b c) (x * y + z) (X * e2 + Y * e1 + e1 * e2 + e3 + ulp P + ulp M) := by
    have h1 : |a.val * b.val + c.val - (x * y + z)| ≤ X * e2 + Y * e1 + e1 * e2 + e3 := by
      rw [show a.val * b.val + c.val - (x * y + z) = (a.val * b.val - x * y) + (c.val - z) by ring]
      exact (abs_add_le _ _).trans (add_le_add hmc hc.2)
    have h2 : |a.val * b.val + c.val| ≤ M := by
      have := abs_add_le (a.val * b.val + c.val - (x * y + z)) (x * y + z); rw [sub_add_cancel] at this; linarith
    exact ((ffma_approx ha.1 hb.1 hc.1 h2 hM').trans h1).mono (by linarith)
  have unfused : Approx (fadd c (fmul a b)) (x * y + z) (X * e2 + Y * e1 + e1 * e2 + e3 + ulp P + ulp M) := by
    have h1 : Approx (fmul a b) (x * y) (X * e2 + Y * e1 + e1 * e2 + ulp P) :=
      ((fmul_approx ha.1 hb.1 hab hP').trans hmc).mono (by linarith)
    have h2 := hc.add h1 M (by rw [add_comm z]; linarith) hM'
    rw [add_comm z] at h2
    exact h2.mono (by linarith)
  rcases t with b | b <;> cases b <;> first | exact fused | exact unfused

/-- A literal with a known exact value. -/
theorem lit_exact {q : Rat} {U : Int} (hf : (ofRat q).isFinite = true) (hu : (ofRat q).units = U) :
    (ofRat q).isFinite = true ∧ (ofRat q).val = (U : ℝ) / 2 ^ 149 := by
  refine ⟨hf, ?_⟩
  unfold val toRat; rw [hu]; push_cast; norm_num

theorem quo_ofRat (q : Rat) : quo (q.num * 2 ^ 149) q.den = q := by
  unfold quo
  have h := Rat.num_div_den q
  have hd : (q.den : Rat) ≠ 0 := by exact_mod_cast q.den_nz
  push_cast
  conv_rhs => rw [← h]
  field_simp
  norm_num

/-- Any literal. -/
theorem lit_approx (q : Rat) (M : ℝ) (h : |(q : ℝ)| ≤ M) (hM : M < 2 ^ 127) : Approx (ofRat q) q (ulp M) := by
  have hd : 0 < q.den := q.den_pos
  have hk : (ofRat q).key = (roundUnits (q.num * 2 ^ 149) q.den).key := rfl
  have := nearest_of_key hd hk (by rw [quo_ofRat]; exact rat_le_max h hM)
  rw [quo_ofRat] at this
  exact nearest_approx this h hM

/-- A multiple of a power of two with at most 24 significant bits is representable. -/
theorem representable' (k : Int) (s : Nat) (hk : k.natAbs ≤ 2 ^ 24) (hs : k.natAbs + s * 2 ^ 23 < 255 * 2 ^ 23) :
    ∃ y : F32, y.isFinite = true ∧ y.units = k * 2 ^ s := by
  obtain ⟨m, hm, hmle⟩ := exists_mag s k.natAbs hk
  have hmlt : m < infMag := by unfold infMag; omega
  have hm31 : m < 2 ^ 31 := by unfold infMag at hmlt; omega
  refine ⟨ofParts (decide (k < 0)) m, ?_, ?_⟩
  · unfold isFinite; rw [ofParts_mag _ _ hm31]; exact decide_eq_true hmlt
  · unfold units; rw [ofParts_mag _ _ hm31, ofParts_signBit _ _ hm31, hm]
    by_cases hneg : k < 0
    · rw [decide_eq_true hneg, if_pos rfl]; push_cast; rw [abs_of_neg hneg]; ring
    · rw [decide_eq_false hneg, if_neg (by simp)]; push_cast; rw [abs_of_nonneg (not_lt.1 hneg)]

theorem representable (k : Int) (s : Nat) (hk : k.natAbs ≤ 2 ^ 24) (hs : s ≤ 252) :
    ∃ y : F32, y.isFinite = true ∧ y.units = k * 2 ^ s := representable' k s hk (by omega)

theorem val_units (x : F32) : x.val = (x.units : ℝ) / 2 ^ 149 := by
  unfold val toRat; push_cast; norm_num

theorem units_val (x : F32) : (x.units : ℝ) = x.val * 2 ^ 149 := by
  rw [val_units]; field_simp

/-- A nearest value to a representable number is that number. -/
theorem nearest_exact {r y : F32} {q : ℝ} (h : IsNearest r q) (hy : y.isFinite = true) (e : y.val = q) : r.val = q := by
  have := h.2 y hy
  change |r.val - q| ≤ |y.val - q| at this
  rw [e, sub_self, abs_zero] at this
  have := abs_nonpos_iff.1 this
  linarith

theorem val_le_max {x : F32} (hx : x.isFinite = true) : |x.toRat| ≤ maxRat := by
  rw [maxRat_eq]
  have hm : x.mag ≤ infMag - 1 := by
    have := of_decide_eq_true hx; unfold infMag at *; omega
  have := magUnits_strictMono.monotone hm
  unfold toRat
  rw [abs_div]
  have h1 : |(x.units : Rat)| = (magUnits x.mag : Nat) := by
    unfold units; split <;> simp
  rw [h1]
  have h2 : |((2 ^ 149 : Nat) : Rat)| = 2 ^ 149 := by push_cast; norm_num
  rw [h2]
  gcongr

theorem fadd_exact {a b y : F32} (ha : a.isFinite = true) (hb : b.isFinite = true) (hy : y.isFinite = true)
    (h : y.val = a.val + b.val) : Approx (fadd a b) (a.val + b.val) 0 := by
  have hq : y.toRat = a.toRat + b.toRat := by unfold val at h; exact_mod_cast h
  have hn := fadd_nearest ha hb (by rw [← hq]; exact val_le_max hy)
  have e : a.val + b.val = ((a.toRat + b.toRat : Rat) : ℝ) := by unfold val; push_cast; rfl
  refine ⟨hn.1, ?_⟩
  rw [e, nearest_exact hn hy (by rw [h, e])]; simp

theorem fsub_exact {a b y : F32} (ha : a.isFinite = true) (hb : b.isFinite = true) (hy : y.isFinite = true)
    (h : y.val = a.val - b.val) : Approx (fsub a b) (a.val - b.val) 0 := by
  have hq : y.toRat = a.toRat - b.toRat := by unfold val at h; exact_mod_cast h
  have hn := fsub_nearest ha hb (by rw [← hq]; exact val_le_max hy)
  have e : a.val - b.val = ((a.toRat - b.toRat : Rat) : ℝ) := by unfold val; push_cast; rfl
  refine ⟨hn.1, ?_⟩
  rw [e, nearest_exact hn hy (by rw [h, e])]; simp

theorem fmul_exact {a b y : F32} (ha : a.isFinite = true) (hb : b.isFinite = true) (hy : y.isFinite = true)
    (h : y.val = a.val * b.val) : Approx (fmul a b) (a.val * b.val) 0 := by
  have hq : y.toRat = a.toRat * b.toRat := by unfold val at h; exact_mod_cast h
  have hn := fmul_nearest ha hb (by rw [← hq]; exact val_le_max hy)
  have e : a.val * b.val = ((a.toRat * b.toRat : Rat) : ℝ) := by unfold val; push_cast; rfl
  refine ⟨hn.1, ?_⟩
  rw [e, nearest_exact hn hy (by rw [h, e])]; simp

theorem Approx.eq {r : F32} {x : ℝ} (h : Approx r x 0) : r.val = x := by
  have := abs_nonpos_iff.1 h.2; linarith

/-- Multiply-add with an exact product. -/
theorem fma_exact_prod (t : FTarget) {a b c y : F32} (ha : a.isFinite = true) (hb : b.isFinite = true) (hc : c.isFinite = true)
    (hy : y.isFinite = true) (h : y.val = a.val * b.val) {M : ℝ} (hM : |a.val * b.val + c.val| ≤ M) (hM' : M < 2 ^ 127) :
    Approx (F32x4.fma1 t a b c) (a.val * b.val + c.val) (ulp M) := by
  have fused := ffma_approx ha hb hc hM hM'
  have unfused : Approx (fadd c (fmul a b)) (a.val * b.val + c.val) (ulp M) := by
    have h1 := fmul_exact ha hb hy h
    have h2 := fadd_approx hc h1.1 (M := M) (by rw [h1.eq, add_comm]; exact hM) hM'
    rw [h1.eq, add_comm] at h2
    exact h2
  rcases t with b | b <;> cases b <;> first | exact fused | exact unfused

/-- Conversion of a small integer is exact. -/
theorem ofInt_exact (z : Int) (hz : z.natAbs ≤ 2 ^ 24) : (ofInt z).isFinite = true ∧ (ofInt z).val = z := by
  unfold ofInt
  by_cases h0 : z = 0
  · rw [if_pos h0, h0]; refine ⟨by decide, ?_⟩
    unfold val; rw [show (zero false).toRat = 0 from (toRat_zero_iff _).2 (by decide)]; simp
  · rw [if_neg h0]
    obtain ⟨y, hyf, hyu⟩ := representable z 149 hz (by norm_num)
    have he := roundUnits_exact y hyf 1 one_pos
    rw [Nat.cast_one, mul_one, hyu] at he
    refine ⟨by rw [key_isFinite he]; exact hyf, ?_⟩
    unfold val
    rw [key_toRat he]
    change y.val = _
    rw [val_units, hyu]; push_cast
    norm_num

/-- The float with biased exponent `n + 127` and no fraction is `2 ^ n`. -/
theorem pow2_val (n : Int) (h1 : -126 ≤ n) (h2 : n ≤ 127) (w : W) (hw : w.toInt = n) :
    (F32.mk ((w + 0x7F#32) <<< 23)).isFinite = true ∧ (F32.mk ((w + 0x7F#32) <<< 23)).val = (2 : ℝ) ^ n := by
  have hn : (w + 0x7F#32).toNat = (n + 127).toNat := by
    rw [BitVec.toNat_add]
    rw [BitVec.toInt_eq_toNat_cond] at hw
    have := w.isLt
    simp only [show (0x7F#32).toNat = 127 from rfl]
    split at hw <;> omega
  obtain ⟨k, hk⟩ : ∃ k : Nat, (n + 127).toNat = k + 1 := ⟨(n + 126).toNat, by omega⟩
  have hk2 : k ≤ 253 := by omega
  have hkn : n = (k : Int) - 126 := by omega
  have hb : ((w + 0x7F#32) <<< 23).toNat = (k + 1) * 2 ^ 23 := by
    rw [BitVec.toNat_shiftLeft, hn, hk, Nat.shiftLeft_eq, Nat.mod_eq_of_lt (by omega)]
  have hmag : (F32.mk ((w + 0x7F#32) <<< 23)).mag = (k + 1) * 2 ^ 23 := by
    unfold mag; rw [hb]; omega
  have hsign : (F32.mk ((w + 0x7F#32) <<< 23)).signBit = false := by
    have h := toNat_eq (F32.mk ((w + 0x7F#32) <<< 23))
    rw [hmag] at h
    change ((w + 0x7F#32) <<< 23).toNat = _ at h
    rw [hb] at h
    by_contra hc
    rw [Bool.not_eq_false] at hc
    rw [hc] at h; simp at h
  refine ⟨by unfold isFinite; rw [hmag]; unfold infMag; exact decide_eq_true (by omega), ?_⟩
  rw [val_units]; unfold units
  rw [hsign, hmag]
  have : magUnits ((k + 1) * 2 ^ 23) = 2 ^ 23 * 2 ^ k := by
    unfold magUnits
    rw [Nat.mul_div_cancel _ (by norm_num), Nat.mul_mod_left, if_neg (by omega)]; simp
  rw [if_neg (by simp), this, hkn, zpow_sub₀ (by norm_num), zpow_natCast]
  push_cast
  rw [show ((2 : ℝ) ^ (126 : Int)) = 2 ^ 126 by norm_cast, div_eq_div_iff (by positivity) (by positivity)]
  generalize (2 : ℝ) ^ k = K
  norm_num; ring

/-- Multiplying by a power of two keeps the significand: representable unless it underflows or overflows. -/
theorem scale_representable {u : F32} (hu : u.isFinite = true) (lo : Int) (hlo : -125 ≤ lo) (h1 : (2 : ℝ) ^ lo ≤ u.val) (n : Int)
    (hn1 : -126 ≤ lo + n) (h2 : u.val * (2 : ℝ) ^ n < (2 : ℝ) ^ (128 : Int)) :
    ∃ y : F32, y.isFinite = true ∧ y.val = u.val * (2 : ℝ) ^ n := by
  obtain ⟨s, k, hm, hk, hs⟩ := mag_decomp u.mag
  have hmu : magUnits u.mag = k * 2 ^ s := by rw [hm]; exact magUnits_eq s k hk.le hs
  have hpos : 0 < u.val := lt_of_lt_of_le (by positivity) h1
  have hval : u.val = (k : ℝ) * (2 : ℝ) ^ ((s : Int) - 149) := by
    have hsg : u.signBit = false := by
      by_contra hc
      rw [Bool.not_eq_false] at hc
      rw [val_units] at hpos
      unfold units at hpos
      rw [if_pos hc] at hpos
      have : (0 : ℝ) ≤ ((magUnits u.mag : Int) : ℝ) := by positivity
      rw [Int.cast_neg] at hpos
      have h2 : -((magUnits u.mag : Int) : ℝ) / 2 ^ 149 ≤ 0 := div_nonpos_of_nonpos_of_nonneg (by linarith) (by positivity)
      linarith
    rw [val_units]; unfold units
    rw [if_neg (by simp [hsg]), hmu, zpow_sub₀ (by norm_num), zpow_natCast, show ((2 : ℝ) ^ (149 : Int)) = 2 ^ 149 by norm_cast,
      Int.cast_natCast, Nat.cast_mul, Nat.cast_pow, Nat.cast_ofNat, mul_div_assoc]
  have hkpos : (0 : ℝ) < k := by
    by_contra hc
    have : (k : ℝ) = 0 := le_antisymm (not_lt.1 hc) (by positivity)
    rw [hval, this, zero_mul] at hpos; exact lt_irrefl _ hpos
  have hk24 : (k : ℝ) < (2 : ℝ) ^ (24 : Int) := by
    have : (k : ℝ) < ((2 ^ 24 : Nat) : ℝ) := Nat.cast_lt.2 hk
    calc (k : ℝ) < _ := this
      _ = _ := by norm_cast
  have hslo : lo < s - 125 := by
    have h3 : (2 : ℝ) ^ lo < (2 : ℝ) ^ (24 + ((s : Int) - 149)) := by
      rw [zpow_add₀ (by norm_num)]
      calc _ ≤ u.val := h1
        _ = _ := hval
        _ < _ := by gcongr
    have := (zpow_lt_zpow_iff_right₀ (by norm_num : (1 : ℝ) < 2)).1 h3
    omega
  have hsn : 0 ≤ (s : Int) + n := by omega
  obtain ⟨e, he⟩ := Int.eq_ofNat_of_zero_le hsn
  have hrep : ∃ y : F32, y.isFinite = true ∧ y.units = (k : Int) * 2 ^ e := by
    by_cases hs0 : 2 ^ 23 ≤ k
    · apply representable' k e (by simpa using hk.le)
      have hk23 : (2 : ℝ) ^ (23 : Int) ≤ k := by
        have : ((2 ^ 23 : Nat) : ℝ) ≤ k := Nat.cast_le.2 hs0
        calc _ = ((2 ^ 23 : Nat) : ℝ) := by norm_cast
          _ ≤ _ := this
      have h3 : (2 : ℝ) ^ (23 + ((s : Int) - 149) + n) < (2 : ℝ) ^ (128 : Int) := by
        rw [zpow_add₀ (by norm_num), zpow_add₀ (by norm_num)]
        calc _ ≤ (k : ℝ) * (2 : ℝ) ^ ((s : Int) - 149) * (2 : ℝ) ^ n := by gcongr
          _ = u.val * (2 : ℝ) ^ n := by rw [hval]
          _ < _ := h2
      have := (zpow_lt_zpow_iff_right₀ (by norm_num : (1 : ℝ) < 2)).1 h3
      simp only [Int.natAbs_natCast]
      omega
    · exact absurd hs (by omega)
  obtain ⟨y, hyf, hyu⟩ := hrep
  refine ⟨y, hyf, ?_⟩
  rw [val_units, hyu, hval, mul_assoc, ← zpow_add₀ (by norm_num), show (s : Int) - 149 + n = (e : Int) - 149 by omega,
    zpow_sub₀ (by norm_num), zpow_natCast, show ((2 : ℝ) ^ (149 : Int)) = 2 ^ 149 by norm_cast, Int.cast_mul, Int.cast_pow,
    Int.cast_ofNat, Int.cast_natCast, mul_div_assoc]

theorem roundMag_overflow {n d : Nat} (hd : 0 < d) (h : 2 ^ 277 * d ≤ n) : roundMag n d = infMag := by
  have h1 : roundMag (2 ^ 277) 1 = infMag := by decide +kernel
  have h2 := roundMag_mono (n1 := 2 ^ 277) (d1 := 1) (n2 := n) (d2 := d) one_pos hd (by rw [mul_one]; exact h)
  have h3 : roundMag n d ≤ infMag := by
    unfold roundMag; dsimp only; split <;> omega
  omega

/-- A product of at least `2 ^ 128` is infinite. -/
theorem fmul_overflow {a b : F32} (ha : a.isFinite = true) (hb : b.isFinite = true) (h : (2 : ℝ) ^ 128 ≤ a.val * b.val) :
    fmul a b = inf false := by
  have hu : (2 : ℝ) ^ 277 * 2 ^ 149 ≤ ((a.units * b.units : Int) : ℝ) := by
    rw [Int.cast_mul, units_val, units_val]
    calc (2 : ℝ) ^ 277 * 2 ^ 149 = 2 ^ 128 * (2 ^ 149 * 2 ^ 149) := by rw [← mul_assoc, ← pow_add, ← pow_add, ← pow_add]
      _ ≤ a.val * b.val * (2 ^ 149 * 2 ^ 149) := by gcongr
      _ = _ := by ring
  have hu' : (2 : Int) ^ 277 * 2 ^ 149 ≤ a.units * b.units := by
    have h2 : (((2 : Int) ^ 277 * 2 ^ 149 : Int) : ℝ) ≤ ((a.units * b.units : Int) : ℝ) := by
      rw [Int.cast_mul, Int.cast_pow, Int.cast_pow, Int.cast_ofNat]; exact hu
    exact Int.cast_le.1 h2
  have hpos : 0 < a.units * b.units := lt_of_lt_of_le (by positivity) hu'
  have hna : a.isNaN = false ∧ a.isInf = false := by
    unfold isFinite at ha; unfold isNaN isInf
    simp only [decide_eq_true_eq] at ha
    exact ⟨decide_eq_false (by omega), decide_eq_false (by omega)⟩
  have hnb : b.isNaN = false ∧ b.isInf = false := by
    unfold isFinite at hb; unfold isNaN isInf
    simp only [decide_eq_true_eq] at hb
    exact ⟨decide_eq_false (by omega), decide_eq_false (by omega)⟩
  unfold fmul
  rw [hna.1, hna.2, hnb.1, hnb.2]
  simp only [Bool.or_self, Bool.false_eq_true, if_false]
  generalize a.units * b.units = z at hu' hpos
  rw [if_neg hpos.ne']
  unfold roundUnits inf
  rw [decide_eq_false (not_lt.2 hpos.le), roundMag_overflow (by positivity)]
  have : ((2 ^ 277 * 2 ^ 149 : Nat) : Int) ≤ (z.natAbs : Int) := by
    rw [Int.natAbs_of_nonneg hpos.le, Nat.cast_mul, Nat.cast_pow, Nat.cast_pow, Nat.cast_ofNat]; exact hu'
  exact Int.ofNat_le.1 this

end Verif
