import Verif.Proofs.F32Err
import Verif.Spec.Float
import Mathlib.Analysis.SpecialFunctions.Pow.Real
import Mathlib.Topology.Algebra.Order.LiminfLimsup

/-! # Rounding of division and square root, and the nearest-value form of the error bounds -/

namespace Verif.F32

theorem mag_pos_units {b : F32} (h : b.mag ≠ 0) : b.units ≠ 0 := by
  have h1 : 0 < magUnits b.mag := by
    have := magUnits_strictMono (Nat.pos_of_ne_zero h); rwa [magUnits_zero] at this
  unfold units; split <;> omega

theorem units_sign {b : F32} (h : b.mag ≠ 0) : b.signBit = decide (b.units < 0) := by
  have h1 : 0 < magUnits b.mag := by
    have := magUnits_strictMono (Nat.pos_of_ne_zero h); rwa [magUnits_zero] at this
  unfold units; cases hb : b.signBit <;> simp <;> omega

theorem units_zero_iff (b : F32) : b.units = 0 ↔ b.mag = 0 := by
  constructor
  · intro h; by_contra h'; exact mag_pos_units h' h
  · intro h; unfold units; rw [h, magUnits_zero]; simp

theorem toRat_zero_iff (b : F32) : b.toRat = 0 ↔ b.mag = 0 := by
  rw [← units_zero_iff]; unfold toRat
  rw [div_eq_zero_iff]; simp

/-- The rational quotient in units. -/
theorem fdiv_finite {a b : F32} (ha : a.isFinite) (hb : b.isFinite) (h0 : b.mag ≠ 0) :
    (fdiv a b).isNaN = false ∧
    (fdiv a b).key = (roundUnits (a.units * 2 ^ 149 * b.units.sign) b.units.natAbs).key := by
  have hbu := mag_pos_units h0
  unfold fdiv
  simp only [finite_not_nan ha, finite_not_nan hb, finite_not_inf ha, finite_not_inf hb, Bool.or_self, Bool.false_eq_true,
    if_false, h0]
  split
  · rename_i hz
    refine ⟨zero_not_nan _, ?_⟩
    rw [zero_key, (units_zero_iff a).2 hz]; simp [roundUnits_zero _ (Int.natAbs_pos.2 hbu)]
  · rename_i hz
    have hau := mag_pos_units hz
    have e : ofParts (a.signBit != b.signBit) (roundMag (a.units.natAbs * 2 ^ 149) b.units.natAbs) =
        roundUnits (a.units * 2 ^ 149 * b.units.sign) b.units.natAbs := by
      unfold roundUnits
      have h1 : (a.units * 2 ^ 149 * b.units.sign).natAbs = a.units.natAbs * 2 ^ 149 := by
        rw [Int.natAbs_mul, Int.natAbs_mul, Int.natAbs_sign_of_ne_zero hbu]; simp
      rw [h1, units_sign hz, units_sign h0]
      congr 1
      rcases lt_or_gt_of_ne hau with h | h <;> rcases lt_or_gt_of_ne hbu with h' | h'
      · simp only [h, h', Int.sign_eq_neg_one_of_neg h', decide_true]; symm; simp; nlinarith
      · simp only [h, h'.not_gt, Int.sign_eq_one_of_pos h', mul_one, decide_true, decide_false]; symm; simp; nlinarith
      · simp only [h', h.not_gt, Int.sign_eq_neg_one_of_neg h', decide_true, decide_false]; symm; simp; nlinarith
      · simp only [h'.not_gt, h.not_gt, Int.sign_eq_one_of_pos h', mul_one, decide_false]; symm; simp; nlinarith
    rw [e]; exact ⟨roundUnits_not_nan _ _, rfl⟩

theorem quo_div (a b : F32) (h0 : b.mag ≠ 0) :
    quo (a.units * 2 ^ 149 * b.units.sign) b.units.natAbs = a.toRat / b.toRat := by
  have hbu := mag_pos_units h0
  unfold quo toRat
  have e : ((b.units.natAbs : Nat) : Rat) = b.units * b.units.sign := by
    have : ((b.units.natAbs : Nat) : Int) = b.units * b.units.sign := by
      rcases lt_or_gt_of_ne hbu with h | h
      · rw [Int.sign_eq_neg_one_of_neg h]; omega
      · rw [Int.sign_eq_one_of_pos h]; omega
    rw [← Int.cast_mul, ← this]; rfl
  rw [e]
  have hb' : (b.units : Rat) ≠ 0 := by exact_mod_cast hbu
  have hs : (b.units.sign : Rat) ≠ 0 := by
    have : b.units.sign ≠ 0 := by rw [ne_eq, Int.sign_eq_zero_iff_zero]; exact hbu
    exact_mod_cast this
  push_cast; field_simp; norm_num

/-- Division of finite values. -/
theorem fdiv_err {a b : F32} (ha : a.isFinite) (hb : b.isFinite) (h0 : b.toRat ≠ 0) (h : |a.toRat / b.toRat| ≤ maxRat) :
    (fdiv a b).isFinite ∧
      |(fdiv a b).toRat - a.toRat / b.toRat| ≤ max (|a.toRat / b.toRat| / 2 ^ 24) (1 / 2 ^ 150) := by
  rw [ne_eq, toRat_zero_iff] at h0
  have hd := Int.natAbs_pos.2 (mag_pos_units h0)
  rw [← quo_div a b h0] at *
  have hf := round_finite hd h
  have hk := (fdiv_finite ha hb h0).2
  refine ⟨by rw [key_isFinite hk]; exact hf, ?_⟩
  rw [key_toRat hk]
  exact round_error hd hf

/-! ### Nearest -/

theorem nearest_of_key {r : F32} {z : Int} {d : Nat} (hd : 0 < d) (hk : r.key = (roundUnits z d).key)
    (h : |quo z d| ≤ maxRat) : IsNearest r ((quo z d : Rat) : ℝ) := by
  have hf := round_finite hd h
  refine ⟨by rw [key_isFinite hk]; exact hf, fun y _ => ?_⟩
  rw [key_toRat hk]; exact_mod_cast round_nearest hd hf y

theorem quo_add' (a b : F32) : quo (a.units + b.units) 1 = a.toRat + b.toRat := by
  unfold quo toRat; push_cast; ring
theorem quo_mul' (a b : F32) : quo (a.units * b.units) (2 ^ 149) = a.toRat * b.toRat := by
  unfold quo toRat; push_cast; field_simp; norm_num
theorem quo_fma' (a b c : F32) :
    quo (a.units * b.units + c.units * 2 ^ 149) (2 ^ 149) = a.toRat * b.toRat + c.toRat := by
  unfold quo toRat; push_cast; field_simp; norm_num; ring

theorem fadd_nearest {a b : F32} (ha : a.isFinite) (hb : b.isFinite) (h : |a.toRat + b.toRat| ≤ maxRat) :
    IsNearest (fadd a b) ((a.toRat + b.toRat : Rat) : ℝ) := by
  rw [← quo_add'] at *; exact nearest_of_key one_pos (fadd_finite ha hb).2 h
theorem fsub_nearest {a b : F32} (ha : a.isFinite) (hb : b.isFinite) (h : |a.toRat - b.toRat| ≤ maxRat) :
    IsNearest (fsub a b) ((a.toRat - b.toRat : Rat) : ℝ) := by
  have e : fsub a b = fadd a (fneg b) := by unfold fsub; rw [finite_not_nan hb]; simp
  rw [e, sub_eq_add_neg a.toRat, ← fneg_toRat] at *
  exact fadd_nearest ha (by rw [fneg_finite]; exact hb) h
theorem fmul_nearest {a b : F32} (ha : a.isFinite) (hb : b.isFinite) (h : |a.toRat * b.toRat| ≤ maxRat) :
    IsNearest (fmul a b) ((a.toRat * b.toRat : Rat) : ℝ) := by
  rw [← quo_mul'] at *; exact nearest_of_key (by positivity) (fmul_finite ha hb).2 h
theorem fdiv_nearest {a b : F32} (ha : a.isFinite) (hb : b.isFinite) (h0 : b.toRat ≠ 0) (h : |a.toRat / b.toRat| ≤ maxRat) :
    IsNearest (fdiv a b) ((a.toRat / b.toRat : Rat) : ℝ) := by
  rw [ne_eq, toRat_zero_iff] at h0
  rw [← quo_div a b h0] at *
  exact nearest_of_key (Int.natAbs_pos.2 (mag_pos_units h0)) (fdiv_finite ha hb h0).2 h
theorem ffma_nearest {a b c : F32} (ha : a.isFinite) (hb : b.isFinite) (hc : c.isFinite)
    (h : |a.toRat * b.toRat + c.toRat| ≤ maxRat) :
    IsNearest (ffma a b c) ((a.toRat * b.toRat + c.toRat : Rat) : ℝ) := by
  rw [← quo_fma'] at *; exact nearest_of_key (by positivity) (ffma_finite ha hb hc).2 h

/-- Every rational is `quo` of something, so rounding is defined for it. -/
theorem exists_round (q : Rat) (h : |q| ≤ maxRat) : ∃ y : F32, y.isFinite ∧ |y.toRat - q| ≤ max (|q| / 2 ^ 24) (1 / 2 ^ 150) := by
  have e : quo (q.num * 2 ^ 149) q.den = q := by
    unfold quo
    have : (q.den : Rat) ≠ 0 := by exact_mod_cast q.den_nz
    rw [eq_comm]; nth_rw 1 [← Rat.num_div_den q]; push_cast; field_simp; norm_num
  have hd : 0 < q.den := q.den_pos
  rw [← e] at h ⊢
  exact ⟨_, round_finite hd h, round_error hd (round_finite hd h)⟩

/-- A nearest value has relative error at most `2^-24` (half an ulp), or absolute error `2^-150` when subnormal. -/
theorem IsNearest.err {r : F32} {ρ : ℝ} (h : IsNearest r ρ) (hρ : |ρ| < maxRat) :
    |(r.toRat : ℝ) - ρ| ≤ max (|ρ| / 2 ^ 24) (1 / 2 ^ 150) := by
  apply le_of_forall_pos_le_add
  intro ε hε
  -- a rational close to ρ, and inside the range
  obtain ⟨q, hq1, hq2⟩ := exists_rat_btwn (show max (ρ - ε / 2) (-(maxRat : ℝ)) < min (ρ + ε / 2) (maxRat : ℝ) by
    have hm : (0 : ℝ) < maxRat := lt_of_le_of_lt (abs_nonneg _) hρ
    rw [abs_lt] at hρ
    rw [max_lt_iff, lt_min_iff, lt_min_iff]; refine ⟨⟨by linarith, by linarith⟩, ⟨by linarith, by linarith⟩⟩)
  rw [max_lt_iff] at hq1
  rw [lt_min_iff] at hq2
  have hqm : |q| ≤ maxRat := by
    rw [abs_le]; constructor
    · have := hq1.2.le; exact_mod_cast this
    · have := hq2.2.le; exact_mod_cast this
  obtain ⟨y, hy, hye⟩ := exists_round q hqm
  have hye' : |(y.toRat : ℝ) - q| ≤ max (|(q : ℝ)| / 2 ^ 24) (1 / 2 ^ 150) := by
    have := (Rat.cast_le (K := ℝ)).2 hye; push_cast at this; exact this
  have hd : |(q : ℝ) - ρ| ≤ ε / 2 := by rw [abs_le]; constructor <;> linarith [hq1.1, hq2.1]
  have h1 := h.2 y hy
  have h2 : |(y.toRat : ℝ) - ρ| ≤ |(y.toRat : ℝ) - q| + |(q : ℝ) - ρ| := abs_sub_le _ _ _
  have h3 : |(q : ℝ)| ≤ |ρ| + ε / 2 := by
    have := abs_sub_abs_le_abs_sub (q : ℝ) ρ; linarith
  have h4 : max (|(q : ℝ)| / 2 ^ 24) (1 / 2 ^ 150) ≤ max (|ρ| / 2 ^ 24) (1 / 2 ^ 150) + ε / 2 := by
    apply max_le
    · have : |(q : ℝ)| / 2 ^ 24 ≤ |ρ| / 2 ^ 24 + ε / 2 := by
        have : |(q : ℝ)| / 2 ^ 24 ≤ (|ρ| + ε / 2) / 2 ^ 24 := by gcongr
        have h5 : (|ρ| + ε / 2) / 2 ^ 24 = |ρ| / 2 ^ 24 + (ε / 2) / 2 ^ 24 := by ring
        have h6 : (ε / 2) / 2 ^ 24 ≤ ε / 2 := div_le_self (by linarith) (by norm_num)
        linarith
      exact this.trans (by gcongr; exact le_max_left _ _)
    · have := le_max_right (|ρ| / 2 ^ 24) ((1 : ℝ) / 2 ^ 150); linarith
  linarith

/-! ### Square root -/

private theorem abs_mid {A Y T : ℝ} (h1 : A < Y → 2 * T ≤ A + Y) (h2 : Y < A → A + Y ≤ 2 * T) : |A - T| ≤ |Y - T| := by
  rcases lt_trichotomy A Y with h | h | h
  · have := h1 h
    rw [← sq_le_sq]; nlinarith
  · rw [h]
  · have := h2 h
    rw [← sq_le_sq]; nlinarith

theorem sqrt_sticky (n r st : Nat) (hr : r = Nat.sqrt n) (hst : st = if r * r = n then 0 else 1) :
    (2 * r : ℝ) ≤ 2 * Real.sqrt n ∧ 2 * Real.sqrt n ≤ 2 * r + 2 * st := by
  have h1 : r * r ≤ n := by rw [hr]; exact Nat.sqrt_le n
  have h2 : n < (r + 1) * (r + 1) := by rw [hr]; exact Nat.lt_succ_sqrt n
  constructor
  · have : (r : ℝ) ≤ Real.sqrt n := Real.le_sqrt_of_sq_le (by rw [sq]; exact_mod_cast h1)
    linarith
  · by_cases h : r * r = n
    · have hs : Real.sqrt n = r := by
        rw [← h]; push_cast; exact Real.sqrt_mul_self (Nat.cast_nonneg r)
      rw [hs]; simp
    · rw [if_neg h] at hst
      have : Real.sqrt n ≤ r + 1 := by
        rw [Real.sqrt_le_left (by positivity), sq]; exact_mod_cast h2.le
      rw [hst]; push_cast; linarith

theorem units_lt {x : F32} (hx : x.isFinite) : x.units.natAbs < 2 ^ 277 := by
  have h1 : x.mag < infMag := by simpa [isFinite] using hx
  have h2 : magUnits x.mag < magUnits infMag := magUnits_strictMono h1
  have h3 : magUnits infMag = 2 ^ 277 := by decide +kernel
  have h4 : x.units.natAbs = magUnits x.mag := by unfold units; split <;> simp
  rw [h4, ← h3]; exact h2

theorem sqrt_range {r st : Nat} (hr : r < 2 ^ 277) (hst : st ≤ 1) :
    |quo ((2 * r + st : Nat) : Int) (2 ^ 65)| ≤ maxRat := by
  unfold quo
  rw [Int.cast_natCast, abs_of_nonneg (by positivity), div_le_iff₀ (by positivity)]
  have h1 : 2 * r + st ≤ 4 * 2 ^ 277 := by omega
  have h2 : ((2 * r + st : Nat) : Rat) ≤ 4 * 2 ^ 277 := by exact_mod_cast h1
  refine h2.trans ?_
  have h3 : (2 : Rat) ^ 277 = 2 ^ 149 * 2 ^ 128 := by rw [← pow_add]
  rw [h3]; unfold maxRat; push_cast; norm_num

theorem sqrt_scale (u : Int) (hu : 0 ≤ u) (n : Nat) (hn : n = u.natAbs * 2 ^ 149 * 2 ^ 128) :
    Real.sqrt ((u : ℝ) / 2 ^ 149) = 2 * Real.sqrt n / (2 * (2 ^ 149 * 2 ^ 64)) := by
  have h2 : ((u.natAbs : Nat) : ℝ) = u := by
    have : ((u.natAbs : Nat) : Int) = u := by omega
    rw [← Int.cast_natCast, this]
  have h1 : (u : ℝ) / 2 ^ 149 = (n : ℝ) / (2 ^ 149 * 2 ^ 64) ^ 2 := by
    rw [hn]; push_cast; rw [h2, mul_pow, ← pow_mul (2 : ℝ) 64 2]
    field_simp; norm_num
  rw [h1, Real.sqrt_div (by positivity), Real.sqrt_sq (by positivity)]
  field_simp

theorem mid_int {A1 Y1 : Int} {r st : Nat} {T : ℝ} (hst1 : st ≤ 1)
    (near : |2 * (2 * A1) - (2 * (r : Int) + st)| ≤ |2 * (2 * Y1) - (2 * (r : Int) + st)|)
    (t1 : 2 * (r : ℝ) ≤ T) (t2 : T ≤ 2 * r + 2 * st) :
    |((2 * (2 * A1) : Int) : ℝ) - T| ≤ |((2 * (2 * Y1) : Int) : ℝ) - T| := by
  apply abs_mid
  · intro h
    have h' : 2 * (2 * A1) < 2 * (2 * Y1) := by exact_mod_cast h
    have h3 : (r : Int) + st ≤ A1 + Y1 := by
      rcases abs_cases (2 * (2 * A1) - (2 * (r : Int) + st)) with ⟨ha, _⟩ | ⟨ha, _⟩ <;>
      rcases abs_cases (2 * (2 * Y1) - (2 * (r : Int) + st)) with ⟨hb, _⟩ | ⟨hb, _⟩ <;> omega
    have h4 : (r : ℝ) + st ≤ A1 + Y1 := by exact_mod_cast h3
    push_cast; linarith
  · intro h
    have h' : 2 * (2 * Y1) < 2 * (2 * A1) := by exact_mod_cast h
    have h3 : A1 + Y1 ≤ (r : Int) := by
      rcases abs_cases (2 * (2 * A1) - (2 * (r : Int) + st)) with ⟨ha, _⟩ | ⟨ha, _⟩ <;>
      rcases abs_cases (2 * (2 * Y1) - (2 * (r : Int) + st)) with ⟨hb, _⟩ | ⟨hb, _⟩ <;> omega
    have h4 : (A1 : ℝ) + Y1 ≤ r := by exact_mod_cast h3
    push_cast; linarith

/-- `std::sqrt` of a finite non-negative value is the value nearest to the exact root. -/
theorem fsqrt_nearest {x : F32} (hx : x.isFinite) (h0 : 0 ≤ x.toRat) : IsNearest (fsqrt x) (Real.sqrt x.toRat) := by
  have hunits : 0 ≤ x.units := by
    have := toRat_mul x
    have h1 : (0 : Rat) ≤ x.units := by rw [← this]; positivity
    exact_mod_cast h1
  by_cases hm : x.mag = 0
  · have e : fsqrt x = x := by unfold fsqrt; simp [finite_not_nan hx, hm]
    rw [e, (toRat_zero_iff x).2 hm]
    refine ⟨hx, fun y _ => ?_⟩
    rw [(toRat_zero_iff x).2 hm]; simp
  have hs : x.signBit = false := by rw [units_sign hm]; simpa using hunits
  obtain ⟨n, hn⟩ : ∃ n, n = x.units.natAbs * 2 ^ 149 * 2 ^ 128 := ⟨_, rfl⟩
  obtain ⟨r, hr⟩ : ∃ r, r = Nat.sqrt n := ⟨_, rfl⟩
  obtain ⟨st, hst⟩ : ∃ st, st = (if r * r = n then 0 else 1) := ⟨_, rfl⟩
  have hst1 : st ≤ 1 := by rw [hst]; split <;> omega
  have e : fsqrt x = roundUnits ((2 * r + st : Nat) : Int) (2 ^ 65) := by
    unfold fsqrt roundUnits
    simp only [finite_not_nan hx, finite_not_inf hx, hs, hm, if_false, Bool.false_eq_true, ← hn, ← hr, ← hst,
      Int.natAbs_natCast]
    congr 1
  have hu : x.units.natAbs < 2 ^ 277 := units_lt hx
  have hrlt : r < 2 ^ 277 := by
    rw [hr, Nat.sqrt_lt, hn, mul_assoc, ← pow_add]
    exact Nat.mul_lt_mul_of_pos_right hu (Nat.pow_pos (by norm_num))
  have hq : |quo ((2 * r + st : Nat) : Int) (2 ^ 65)| ≤ maxRat := sqrt_range hrlt hst1
  have hf := round_finite (z := ((2 * r + st : Nat) : Int)) (d := 2 ^ 65) (by positivity) hq
  rw [e]
  refine ⟨hf, fun y _ => ?_⟩
  have near := roundUnits_nearest (by positivity) hf y
  obtain ⟨A, hA⟩ : ∃ A, A = (roundUnits ((2 * r + st : Nat) : Int) (2 ^ 65)).units := ⟨_, rfl⟩
  rw [← hA] at near
  have hT : Real.sqrt x.toRat = 2 * Real.sqrt n / (2 * (2 ^ 149 * 2 ^ 64)) := by
    rw [← sqrt_scale x.units hunits n hn]; unfold toRat; push_cast; norm_num
  have hA' : ((roundUnits ((2 * r + st : Nat) : Int) (2 ^ 65)).toRat : ℝ) = (A * 2 ^ 65 : ℝ) / (2 * (2 ^ 149 * 2 ^ 64)) := by
    unfold toRat; rw [← hA]; push_cast; rw [pow_succ (2 : ℝ) 64]; field_simp; norm_num
  have hY' : (y.toRat : ℝ) = (y.units * 2 ^ 65 : ℝ) / (2 * (2 ^ 149 * 2 ^ 64)) := by
    unfold toRat; push_cast; rw [pow_succ (2 : ℝ) 64]; field_simp; norm_num
  rw [hA', hY', hT, ← sub_div, ← sub_div, abs_div, abs_div]
  apply div_le_div_of_nonneg_right _ (abs_nonneg _)
  obtain ⟨t1, t2⟩ := sqrt_sticky n r st hr hst
  have c1 : (A * 2 ^ 65 : ℝ) = ((A * 2 ^ 65 : Int) : ℝ) := by push_cast; ring
  have c2 : (y.units * 2 ^ 65 : ℝ) = ((y.units * 2 ^ 65 : Int) : ℝ) := by push_cast; ring
  rw [c1, c2]
  have near : |A * 2 ^ 65 - (2 * (r : Int) + st)| ≤ |y.units * 2 ^ 65 - (2 * (r : Int) + st)| := by
    have := near; push_cast at this ⊢; exact this
  have hAe : A * 2 ^ 65 = 2 * (2 * (A * 2 ^ 63)) := by ring
  have hYe : y.units * 2 ^ 65 = 2 * (2 * (y.units * 2 ^ 63)) := by ring
  generalize A * 2 ^ 63 = A1 at *
  generalize y.units * 2 ^ 63 = Y1 at *
  rw [hAe, hYe] at near ⊢
  exact mid_int hst1 near t1 t2

end Verif.F32
