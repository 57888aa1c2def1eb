import Verif.Spec.BvhSafe
import Verif.Proofs.BvhSafe
import Verif.Props.BvhSah
import Verif.Props.BvhCases
import Verif.Props.Reliable

/-!
# A BVH build over separated primitives never fails (C104)
-/

namespace Verif
open Bvh Spec F32 BvhSah

namespace BvhSafe

theorem rv_val (x : F32) : rv x = x.val := rfl

theorem fmax_fact : (fltMax : F32).isFinite = true ∧ (fltMax : F32).val = (2 ^ 24 - 1) * 2 ^ 104 := by
  have h : (fltMax : F32).isFinite = true ∧ (fltMax : F32).units = (2 ^ 24 - 1) * 2 ^ 104 * 2 ^ 149 := by
    rw [fltMax_eq]; decide +kernel
  refine ⟨h.1, ?_⟩
  rw [val_units, h.2]; push_cast; norm_num

theorem fmin_fact : (minusFltMax : F32).isFinite = true ∧ (minusFltMax : F32).val = -((2 ^ 24 - 1) * 2 ^ 104) := by
  have h : (minusFltMax : F32).isFinite = true ∧ (minusFltMax : F32).units = -((2 ^ 24 - 1) * 2 ^ 104 * 2 ^ 149) := by
    rw [minusFltMax_eq]; decide +kernel
  refine ⟨h.1, ?_⟩
  rw [val_units, h.2]; push_cast; norm_num

theorem finite_of_abs {x : F32} (h : |x.val| ≤ 2 ^ 40) : x.isFinite = true := by
  have h1 := abs_le.1 h
  have k1 : x.key ≤ (fltMax : F32).key := by
    rw [← F32.toRat_le_iff, ← Rat.cast_le (K := ℝ)]
    show x.val ≤ (fltMax : F32).val
    rw [fmax_fact.2]
    refine h1.2.trans ?_
    norm_num
  have k2 : (minusFltMax : F32).key ≤ x.key := by
    rw [← F32.toRat_le_iff, ← Rat.cast_le (K := ℝ)]
    show (minusFltMax : F32).val ≤ x.val
    rw [fmin_fact.2]
    refine le_trans ?_ h1.1
    norm_num
  have f1 := finite_iff_key.1 fmax_fact.1
  have f2 := finite_iff_key.1 fmin_fact.1
  exact finite_iff_key.2 ⟨by omega, by omega⟩

/-! ## The bins -/

theorem scale_real {d H S D : ℝ} (hd : 0 < d) (hd2 : d ≤ 2 ^ 61) (hH : |H - d| ≤ d / 2 ^ 24)
    (hS : |S - 8 / H| ≤ 8 / H / 2 ^ 24 + 1 / 2 ^ 150) (hD0 : 0 ≤ D) (hD : D ≤ d + d / 2 ^ 24) :
    0 ≤ D * S ∧ D * S ≤ 9 := by
  have h1 := abs_le.1 hH
  have h2 := abs_le.1 hS
  have hHp : d / 2 ≤ H := by linarith
  have hHp' : 0 < H := by linarith
  have hq : D / H ≤ 1 + 1 / 2 ^ 20 := by
    rw [div_le_iff₀ hHp']
    have : d ≤ H + d / 2 ^ 24 := by linarith
    nlinarith
  have hq0 : 0 ≤ D / H := by positivity
  have h8 : 1 / 2 ^ 60 ≤ 8 / H := by
    rw [le_div_iff₀ hHp']
    have : H ≤ 2 ^ 62 := by linarith
    linarith
  have hS0 : 0 ≤ S := by
    have : 8 / H / 2 ^ 24 + 1 / 2 ^ 150 ≤ 8 / H := by
      have : (1 : ℝ) / 2 ^ 150 ≤ 1 / 2 ^ 60 / 2 := by norm_num
      linarith
    linarith
  refine ⟨mul_nonneg hD0 hS0, ?_⟩
  have hSu : S ≤ 8 / H * (1 + 1 / 2 ^ 24) + 1 / 2 ^ 150 := by linarith
  have h3 : D * S ≤ D * (8 / H * (1 + 1 / 2 ^ 24) + 1 / 2 ^ 150) := mul_le_mul_of_nonneg_left hSu hD0
  have h4 : D * (8 / H * (1 + 1 / 2 ^ 24) + 1 / 2 ^ 150) = 8 * (1 + 1 / 2 ^ 24) * (D / H) + D / 2 ^ 150 := by
    field_simp
  have h5 : D / 2 ^ 150 ≤ 1 / 2 ^ 80 := by
    have : D ≤ 2 ^ 62 := by linarith
    calc D / 2 ^ 150 ≤ 2 ^ 62 / 2 ^ 150 := by gcongr
      _ ≤ 1 / 2 ^ 80 := by norm_num
  have h6 : (1 : ℝ) / 2 ^ 80 ≤ 1 / 2 ^ 10 := by norm_num
  linarith

theorem eight_fact : (FltB.ofInt 8 : F32).isFinite = true ∧ (FltB.ofInt 8 : F32).val = 8 := by
  have h : (FltB.ofInt 8 : F32).isFinite = true ∧ (FltB.ofInt 8 : F32).units = 8 * 2 ^ 149 := by decide +kernel
  refine ⟨h.1, ?_⟩
  rw [val_units, h.2]; push_cast; norm_num

/-- A coordinate, in range. -/
def Fin60 (x : F32) : Prop := x.isFinite = true ∧ |x.val| ≤ 2 ^ 60

theorem diff_fact {lo hi : F32} (h1 : Fin60 lo) (h2 : Fin60 hi) (hle : lo.val ≤ hi.val) :
    (fsub hi lo).isFinite = true ∧ |(fsub hi lo).val - (hi.val - lo.val)| ≤ (hi.val - lo.val) / 2 ^ 24 ∧
      hi.val - lo.val ≤ 2 ^ 61 := by
  have a1 := abs_le.1 h1.2
  have a2 := abs_le.1 h2.2
  have hd : hi.val - lo.val ≤ 2 ^ 61 := by linarith
  have ha : |hi.val - lo.val| = hi.val - lo.val := abs_of_nonneg (by linarith)
  obtain ⟨f, e⟩ := fsub_err' h2.1 h1.1 (by rw [ha]; refine lt_of_le_of_lt hd ?_; norm_num)
  rw [ha] at e
  refine ⟨f, e.trans (le_of_eq ?_), hd⟩
  unfold uro; ring

theorem binIndex_total {lo hi v : F32} (h1 : Fin60 lo) (h2 : Fin60 hi) (h3 : Fin60 v) (hd : 1 / 2 ^ 100 ≤ hi.val - lo.val)
    (hlv : lo.val ≤ v.val) (hvh : v.val ≤ hi.val) : ∃ k, binIndex v lo (FltB.ofInt 8 /. (hi -. lo)) = .ok k := by
  have hd0 : 0 < hi.val - lo.val := lt_of_lt_of_le (by positivity) hd
  obtain ⟨f1, e1, b1⟩ := diff_fact h1 h2 (by linarith)
  obtain ⟨f2, e2, b2⟩ := diff_fact h1 h3 hlv
  have hH := abs_le.1 e1
  have hHp : 1 / 2 ^ 101 ≤ (fsub hi lo).val := by
    have : (1 : ℝ) / 2 ^ 100 = 2 * (1 / 2 ^ 101) := by norm_num
    linarith
  have hHp0 : 0 < (fsub hi lo).val := lt_of_lt_of_le (by positivity) hHp
  have hq0 : 0 ≤ 8 / (fsub hi lo).val := by positivity
  have hq : 8 / (fsub hi lo).val ≤ 2 ^ 104 := by
    rw [div_le_iff₀ hHp0]
    calc (8 : ℝ) = 2 ^ 104 * (1 / 2 ^ 101) := by norm_num
      _ ≤ _ := by gcongr
  have hS := fdiv_approx eight_fact.1 f1 hHp0.ne' (M := 8 / (fsub hi lo).val)
    (by rw [eight_fact.2, abs_of_nonneg hq0]) (lt_of_le_of_lt hq (by norm_num))
  rw [eight_fact.2] at hS
  have hD := abs_le.1 e2
  obtain ⟨p1, p2⟩ := scale_real hd0 b1 e1 hS.2 (D := (fsub v lo).val) (by linarith) (by linarith)
  have hP := fmul_approx f2 hS.1 (M := 9) (by rw [abs_of_nonneg p1]; exact p2) (by norm_num)
  have hu : ulp 9 ≤ 1 / 2 := by unfold ulp; norm_num
  have hPv := abs_le.1 (hP.2.trans hu)
  have q1 : -1 < (fmul (fsub v lo) (fdiv (FltB.ofInt 8) (fsub hi lo))).val := by linarith
  have q2 : (fmul (fsub v lo) (fdiv (FltB.ofInt 8) (fsub hi lo))).val < 10 := by linarith
  generalize hx : fmul (fsub v lo) (fdiv (FltB.ofInt 8) (fsub hi lo)) = x at hP q1 q2
  have hu1 : -(2 ^ 149) < x.units := by
    have := units_val x
    have : ((-(2 ^ 149) : Int) : ℝ) < (x.units : ℝ) := by
      rw [this]; push_cast; nlinarith
    exact_mod_cast this
  have hu2 : x.units < 10 * 2 ^ 149 := by
    have := units_val x
    have : (x.units : ℝ) < ((10 * 2 ^ 149 : Int) : ℝ) := by
      rw [this]; push_cast; nlinarith
    exact_mod_cast this
  have t1 : 0 ≤ x.truncInt ∧ x.truncInt ≤ 10 := by
    unfold truncInt
    rcases le_or_gt 0 x.units with h | h
    · rw [Int.tdiv_eq_ediv_of_nonneg h]
      omega
    · have : Int.tdiv x.units (2 ^ 149) = 0 := by
        have e : x.units = -(-x.units) := by omega
        rw [e, Int.neg_tdiv, Int.tdiv_eq_ediv_of_nonneg (by omega)]
        omega
      omega
  have ht : FltB.toInt32 ((v -. lo) *. ((FltB.ofInt 8 : F32) /. (hi -. lo))) = some x.truncInt := by
    show FltB.toInt32 (fmul (fsub v lo) (fdiv (FltB.ofInt 8) (fsub hi lo))) = some x.truncInt
    rw [hx]
    show (if x.isFinite && decide (-(2 ^ 31) ≤ x.truncInt) && decide (x.truncInt < 2 ^ 31) then some x.truncInt else none) = _
    rw [if_pos]
    rw [hP.1]
    simp only [Bool.true_and, Bool.and_eq_true, decide_eq_true_eq]
    omega
  unfold binIndex
  rw [ht]
  dsimp only
  rw [if_neg (by omega)]
  exact ⟨_, rfl⟩

/-! ## The split position -/

theorem split_real {lo d H st p k : ℝ} (hd : 1 / 2 ^ 100 ≤ d) (ha : |lo| / 2 ^ 20 ≤ d) (hH : |H - d| ≤ d / 2 ^ 24)
    (hst : |st - H / 8| ≤ H / 8 / 2 ^ 24 + 1 / 2 ^ 150) (hk : 1 ≤ k) (hk7 : k ≤ 7)
    (hp : |p - st * k| ≤ st * k / 2 ^ 24 + 1 / 2 ^ 150) :
    |lo + p| / 2 ^ 24 < p ∧ p ≤ 8 * d ∧ 0 < p := by
  have h1 := abs_le.1 hH
  have h2 := abs_le.1 hst
  have h3 := abs_le.1 hp
  have htiny : (1 : ℝ) / 2 ^ 150 ≤ d / 2 ^ 50 := by
    have : (1 : ℝ) / 2 ^ 150 = 1 / 2 ^ 100 / 2 ^ 50 := by norm_num
    rw [this]; gcongr
  have hd0 : 0 < d := lt_of_lt_of_le (by positivity) hd
  have s1 : d / 8 * (1 - 1 / 2 ^ 20) ≤ st := by nlinarith
  have s2 : st ≤ d / 8 * (1 + 1 / 2 ^ 20) := by nlinarith
  have s0 : 0 ≤ st := le_trans (by positivity) (le_trans (by nlinarith : (0 : ℝ) ≤ d / 8 * (1 - 1 / 2 ^ 20)) s1)
  have k1 : st ≤ st * k := by nlinarith
  have k2 : st * k ≤ st * 7 := by nlinarith
  have p1 : d / 8 * (1 - 1 / 2 ^ 18) ≤ p := by nlinarith
  have p2 : p ≤ 8 * d := by nlinarith
  have p0 : 0 < p := lt_of_lt_of_le (by positivity) (le_trans (by nlinarith : d / 16 ≤ d / 8 * (1 - 1 / 2 ^ 18)) p1)
  refine ⟨?_, p2, p0⟩
  have h4 : |lo + p| ≤ |lo| + p := (abs_add_le _ _).trans (by rw [abs_of_pos p0])
  have h5 : |lo| ≤ d * 2 ^ 20 := by rwa [div_le_iff₀ (by positivity)] at ha
  have h6 : |lo + p| / 2 ^ 24 ≤ (d * 2 ^ 20 + 8 * d) / 2 ^ 24 := by gcongr; linarith
  have h7 : (d * 2 ^ 20 + 8 * d) / 2 ^ 24 < d / 8 * (1 - 1 / 2 ^ 18) := by nlinarith
  linarith

theorem split_gt {lo hi : F32} (h1 : Fin60 lo) (h2 : Fin60 hi) (hd : 1 / 2 ^ 100 ≤ hi.val - lo.val)
    (ha : |lo.val| / 2 ^ 20 ≤ hi.val - lo.val) {k : F32} (hkf : k.isFinite = true) (hk1 : 1 ≤ k.val) (hk7 : k.val ≤ 7) :
    ltb lo (fadd lo (fmul (fdiv (fsub hi lo) (FltB.ofInt 8)) k)) = true := by
  have hd0 : 0 < hi.val - lo.val := lt_of_lt_of_le (by positivity) hd
  obtain ⟨f1, e1, b1⟩ := diff_fact h1 h2 (by linarith)
  have hH := abs_le.1 e1
  have hH0 : 0 ≤ (fsub hi lo).val := by linarith
  have hS := fdiv_approx f1 eight_fact.1 (by rw [eight_fact.2]; norm_num) (M := (fsub hi lo).val / 8)
    (by rw [eight_fact.2, abs_of_nonneg (by positivity)]) (by
      refine lt_of_le_of_lt (b := 2 ^ 62) ?_ (by norm_num)
      linarith)
  rw [eight_fact.2] at hS
  have hst0 : 0 ≤ (fdiv (fsub hi lo) (FltB.ofInt 8)).val := by
    have := abs_le.1 hS.2
    unfold ulp at this
    have h3 : (1 : ℝ) / 2 ^ 150 ≤ 1 / 2 ^ 100 / 64 := by norm_num
    linarith
  have hstu : (fdiv (fsub hi lo) (FltB.ofInt 8)).val ≤ 2 ^ 62 := by
    have := abs_le.1 hS.2
    unfold ulp at this
    have h3 : (1 : ℝ) / 2 ^ 150 ≤ 1 := by norm_num
    linarith
  have hprod0 : 0 ≤ (fdiv (fsub hi lo) (FltB.ofInt 8)).val * k.val := mul_nonneg hst0 (by linarith)
  have hP := fmul_approx hS.1 hkf (M := (fdiv (fsub hi lo) (FltB.ofInt 8)).val * k.val) (by rw [abs_of_nonneg hprod0]) (by
    refine lt_of_le_of_lt (b := 2 ^ 62 * 7) ?_ (by norm_num)
    gcongr)
  obtain ⟨r1, r2, r3⟩ := split_real hd ha e1 hS.2 hk1 hk7 hP.2
  have hlo := abs_le.1 h1.2
  obtain ⟨f3, e3⟩ := fadd_err' h1.1 hP.1 (by
    rw [abs_lt]
    constructor
    · refine lt_of_lt_of_le (b := -2 ^ 60) (by norm_num) (by linarith)
    · refine lt_of_le_of_lt (b := 2 ^ 60 + 8 * 2 ^ 61) (by linarith) (by norm_num))
  rw [Reliable.flt_iff h1.1 f3]
  have e4 := abs_le.1 e3
  have hu : uro * |lo.val + (fmul (fdiv (fsub hi lo) (FltB.ofInt 8)) k).val| =
      |lo.val + (fmul (fdiv (fsub hi lo) (FltB.ofInt 8)) k).val| / 2 ^ 24 := by unfold uro; ring
  rw [hu] at e4
  linarith

/-! ## The search -/

section
variable {src : Source F32} {prims : Array Nat}

theorem bounds_total (a : Fin 4) : ∀ (is : List Nat) (b : F32 × F32), b.1.isFinite = true → b.2.isFinite = true →
    (∀ i ∈ is, ∃ it, fetch src prims i = .ok it ∧ Fin60 (it.centroid.get a)) →
    ∃ r : F32 × F32, is.foldlM (fun b i => (fetch src prims i).map fun it =>
        (Flt.stdMin b.1 (it.centroid.get a), Flt.stdMax b.2 (it.centroid.get a))) b = .ok r ∧
      (r.1 = b.1 ∨ ∃ i ∈ is, ∃ it, fetch src prims i = .ok it ∧ r.1 = it.centroid.get a) ∧
      (r.2 = b.2 ∨ ∃ i ∈ is, ∃ it, fetch src prims i = .ok it ∧ r.2 = it.centroid.get a) ∧
      r.1.val ≤ b.1.val ∧ b.2.val ≤ r.2.val ∧
      ∀ i ∈ is, ∀ it, fetch src prims i = .ok it → r.1.val ≤ (it.centroid.get a).val ∧ (it.centroid.get a).val ≤ r.2.val := by
  intro is
  induction is with
  | nil => intro b h1 h2 _; exact ⟨b, rfl, Or.inl rfl, Or.inl rfl, le_rfl, le_rfl, by simp⟩
  | cons i is ih =>
    intro b h1 h2 hf
    obtain ⟨it, e, c1, -⟩ := hf i (by simp)
    have m1 : (Flt.stdMin b.1 (it.centroid.get a) = b.1 ∧ b.1.val ≤ (it.centroid.get a).val) ∨
        (Flt.stdMin b.1 (it.centroid.get a) = it.centroid.get a ∧ (it.centroid.get a).val ≤ b.1.val) := by
      unfold Flt.stdMin
      by_cases h : ltb (it.centroid.get a) b.1 = true
      · exact Or.inr ⟨if_pos h, ((Reliable.flt_iff c1 h1).1 h).le⟩
      · exact Or.inl ⟨if_neg h, not_lt.1 fun hc => h ((Reliable.flt_iff c1 h1).2 hc)⟩
    have m2 : (Flt.stdMax b.2 (it.centroid.get a) = b.2 ∧ (it.centroid.get a).val ≤ b.2.val) ∨
        (Flt.stdMax b.2 (it.centroid.get a) = it.centroid.get a ∧ b.2.val ≤ (it.centroid.get a).val) := by
      unfold Flt.stdMax
      by_cases h : ltb b.2 (it.centroid.get a) = true
      · exact Or.inr ⟨if_pos h, ((Reliable.flt_iff h2 c1).1 h).le⟩
      · exact Or.inl ⟨if_neg h, not_lt.1 fun hc => h ((Reliable.flt_iff h2 c1).2 hc)⟩
    obtain ⟨r, i1, i2, i3, i4, i5, i6⟩ := ih (Flt.stdMin b.1 (it.centroid.get a), Flt.stdMax b.2 (it.centroid.get a))
      (by rcases m1 with ⟨m, -⟩ | ⟨m, -⟩ <;> dsimp only <;> rw [m] <;> assumption)
      (by rcases m2 with ⟨m, -⟩ | ⟨m, -⟩ <;> dsimp only <;> rw [m] <;> assumption)
      fun j hj => hf j (by simp [hj])
    dsimp only at i2 i3 i4 i5
    refine ⟨r, by rw [List.foldlM_cons, e]; exact i1, ?_, ?_, ?_, ?_, ?_⟩
    · rcases i2 with i2 | ⟨j, hj, it', g1, g2⟩
      · rcases m1 with ⟨m, -⟩ | ⟨m, -⟩
        · exact Or.inl (i2.trans m)
        · exact Or.inr ⟨i, by simp, it, e, i2.trans m⟩
      · exact Or.inr ⟨j, by simp [hj], it', g1, g2⟩
    · rcases i3 with i3 | ⟨j, hj, it', g1, g2⟩
      · rcases m2 with ⟨m, -⟩ | ⟨m, -⟩
        · exact Or.inl (i3.trans m)
        · exact Or.inr ⟨i, by simp, it, e, i3.trans m⟩
      · exact Or.inr ⟨j, by simp [hj], it', g1, g2⟩
    · rcases m1 with ⟨m, g⟩ | ⟨m, g⟩ <;> rw [m] at i4 <;> linarith
    · rcases m2 with ⟨m, g⟩ | ⟨m, g⟩ <;> rw [m] at i5 <;> linarith
    · intro j hj it' g
      rcases List.mem_cons.1 hj with rfl | hj
      · rw [e] at g; cases g
        constructor
        · rcases m1 with ⟨m, g⟩ | ⟨m, g⟩ <;> rw [m] at i4 <;> linarith
        · rcases m2 with ⟨m, g⟩ | ⟨m, g⟩ <;> rw [m] at i5 <;> linarith
      · exact i6 j hj it' g

theorem axis_total (a : Fin 4) {is : List Nat} (hne : is ≠ [])
    (hf : ∀ i ∈ is, ∃ it, fetch src prims i = .ok it ∧ Fin60 (it.centroid.get a)) :
    ∃ lo hi : F32, axisBounds src prims a is = .ok (lo, hi) ∧
      (∃ i ∈ is, ∃ it, fetch src prims i = .ok it ∧ lo = it.centroid.get a) ∧
      (∃ i ∈ is, ∃ it, fetch src prims i = .ok it ∧ hi = it.centroid.get a) ∧
      ∀ i ∈ is, ∀ it, fetch src prims i = .ok it → lo.val ≤ (it.centroid.get a).val ∧ (it.centroid.get a).val ≤ hi.val := by
  obtain ⟨⟨lo, hi⟩, e, h1, h2, -, -, h5⟩ := bounds_total (src := src) (prims := prims) a is (fltMax, minusFltMax)
    fmax_fact.1 fmin_fact.1 hf
  dsimp only at h1 h2 h5
  obtain ⟨i, hi'⟩ := List.exists_mem_of_ne_nil is hne
  obtain ⟨it, g1, g2, g3⟩ := hf i hi'
  have g4 := h5 i hi' it g1
  have g5 := abs_le.1 g3
  refine ⟨lo, hi, e, ?_, ?_, h5⟩
  · rcases h1 with rfl | h1
    · exfalso
      rw [fmax_fact.2] at g4
      have : ((2 : ℝ) ^ 24 - 1) * 2 ^ 104 ≤ 2 ^ 60 := by linarith
      norm_num at this
    · exact h1
  · rcases h2 with rfl | h2
    · exfalso
      rw [fmin_fact.2] at g4
      have : ((2 : ℝ) ^ 24 - 1) * 2 ^ 104 ≤ 2 ^ 60 := by linarith
      norm_num at this
    · exact h2

theorem bins_total (a : Fin 4) (lo sc : F32) : ∀ (is : List Nat) (bins : List (Bin F32)),
    (∀ i ∈ is, ∃ it, fetch src prims i = .ok it ∧ ∃ k, binIndex (it.centroid.get a) lo sc = .ok k) →
    ∃ r, is.foldlM (binItem src prims a lo sc) bins = .ok r := by
  intro is
  induction is with
  | nil => intro bins _; exact ⟨bins, rfl⟩
  | cons i is ih =>
    intro bins hf
    obtain ⟨it, e, k, hk⟩ := hf i (by simp)
    have hb : binItem src prims a lo sc bins i = .ok (bins.modify k (·.add it)) := by
      unfold binItem; rw [e]; dsimp only; rw [hk]
    rw [List.foldlM_cons, hb]
    exact ih _ fun j hj => hf j (by simp [hj])

theorem sweep_length : ∀ (bs : List (Bin F32)) (n : BitVec 32) (lo hi : V4 F32), (sweep bs n lo hi).length = bs.length := by
  intro bs
  induction bs with
  | nil => intro n lo hi; rfl
  | cons b bs ih => intro n lo hi; unfold sweep; dsimp only; rw [List.length_cons, ih, List.length_cons]

theorem plane_index {bins : List (Bin F32)} {p : ((BitVec 32 × F32) × (BitVec 32 × F32)) × Nat}
    (h : p ∈ ((leftTotals bins).zip (rightTotals bins)).zipIdx) : p.2 < 7 := by
  have h1 := (List.mem_zipIdx (x := p.1) (i := p.2) (k := 0) h).2.1
  have h2 : ((leftTotals bins).zip (rightTotals bins)).length ≤ 7 := by
    rw [List.length_zip]
    refine (min_le_left _ _).trans ?_
    unfold leftTotals
    rw [sweep_length, List.length_take]
    exact min_le_left _ _
  omega

/-- The best plane is the starting one, or some primitive is below it. -/
def SplitOk (src : Source F32) (prims : Array Nat) (is : List Nat) (best : Best F32) : Prop :=
  (best.cost = fltMax) ∨ ∃ i ∈ is, ∃ it, fetch src prims i = .ok it ∧ ltb (it.centroid.get best.axis) best.split = true

theorem try_ok {is : List Nat} (a : Fin 4) (lo step : F32) (l : List (((BitVec 32 × F32) × (BitVec 32 × F32)) × Nat))
    (hl : ∀ p ∈ l, ∃ i ∈ is, ∃ it, fetch src prims i = .ok it ∧
      ltb (it.centroid.get a) (lo +. step *. FltB.ofInt (p.2 + 1)) = true) :
    ∀ best, SplitOk src prims is best → SplitOk src prims is (l.foldl (tryPlane a lo step) best) := by
  induction l with
  | nil => intro best h; exact h
  | cons p l ih =>
    intro best h
    rw [List.foldl_cons]
    refine ih (fun q hq => hl q (by simp [hq])) _ ?_
    unfold tryPlane
    dsimp only
    split_ifs with hc
    · exact Or.inr (hl p (by simp))
    · exact h

theorem searchAxis_total {a : Fin 4} {is : List Nat} {best : Best F32} (hne : is ≠ [])
    (hf : ∀ i ∈ is, ∃ it, fetch src prims i = .ok it ∧ Fin60 (it.centroid.get a))
    (hap : ∀ i ∈ is, ∀ j ∈ is, ∀ x y, fetch src prims i = .ok x → fetch src prims j = .ok y →
      Apart (x.centroid.get a).val (y.centroid.get a).val) (hb : SplitOk src prims is best) :
    ∃ r, searchAxis src prims is best a = .ok r ∧ SplitOk src prims is r := by
  obtain ⟨lo, hi, e, ⟨i, mi, x, ex, hx⟩, ⟨j, mj, y, ey, hy⟩, hall⟩ := axis_total a hne hf
  unfold searchAxis
  rw [e]
  dsimp only
  by_cases heq : eqb lo hi = true
  · have heq' : (lo ==. hi) = true := heq
    rw [if_pos heq']; exact ⟨best, rfl, hb⟩
  · have heq' : ¬ (lo ==. hi) = true := heq
    rw [if_neg heq']
    have flo : Fin60 lo := by
      obtain ⟨x', ex', fx⟩ := hf i mi
      rw [ex] at ex'; cases ex'; rw [hx]; exact fx
    have fhi : Fin60 hi := by
      obtain ⟨y', ey', fy⟩ := hf j mj
      rw [ey] at ey'; cases ey'; rw [hy]; exact fy
    have hle : lo.val ≤ hi.val := by rw [hy]; exact (hall j mj y ey).1
    have hlt : lo.val < hi.val := by
      refine lt_of_le_of_ne hle fun hv => heq ?_
      rw [eqb_iff]
      refine ⟨(finite_notNaN flo.1).1, (finite_notNaN fhi.1).1, ?_⟩
      have h1 : lo.toRat = hi.toRat := by unfold val at hv; exact_mod_cast hv
      exact le_antisymm ((F32.toRat_le_iff _ _).1 h1.le) ((F32.toRat_le_iff _ _).1 h1.ge)
    obtain ⟨ap1, ap2⟩ := hap i mi j mj x y ex ey (by rw [← hx, ← hy]; exact hlt)
    rw [← hx, ← hy] at ap1 ap2
    obtain ⟨bins, eb⟩ := bins_total (src := src) (prims := prims) a lo (FltB.ofInt 8 /. (hi -. lo)) is
      (List.replicate binCount Bin.empty) fun k mk => by
        obtain ⟨it, ei, fi⟩ := hf k mk
        obtain ⟨b1, b2⟩ := hall k mk it ei
        exact ⟨it, ei, binIndex_total flo fhi fi ap2 b1 b2⟩
    rw [eb]
    dsimp only
    refine ⟨_, rfl, try_ok a lo _ _ ?_ best hb⟩
    intro p hp
    have h7 := plane_index hp
    refine ⟨i, mi, x, ex, ?_⟩
    rw [← hx]
    obtain ⟨k1, k2⟩ := ofInt_exact ((p.2 : Int) + 1) (by omega)
    have ko : F32.ofInt ((p.2 : Int) + 1) = (FltB.ofInt ((p.2 : Int) + 1) : F32) := if_neg (by omega)
    rw [ko] at k1 k2
    have k2' : (FltB.ofInt ((p.2 : Int) + 1) : F32).val = (p.2 : ℝ) + 1 := by rw [k2]; push_cast; ring
    have h7' : (p.2 : ℝ) ≤ 6 := by exact_mod_cast (by omega : p.2 ≤ 6)
    have h0 : (0 : ℝ) ≤ p.2 := by positivity
    exact split_gt flo fhi ap2 ap1 k1 (by rw [k2']; linarith) (by rw [k2']; linarith)

end

/-! ## The boxes of the nodes -/

theorem ordered_of {lo hi : V4 F32} (h1 : Within (2 ^ 40) lo) (h2 : Within (2 ^ 40) hi) (h : Below3 lo hi) :
    Aabb.ordered lo hi = true := by
  obtain ⟨f1, -⟩ := h1
  obtain ⟨f2, -⟩ := h2
  have o1 : Ok3 lo := ⟨(finite_notNaN (f1 _ (by simp))).1, (finite_notNaN (f1 _ (by simp))).1, (finite_notNaN (f1 _ (by simp))).1⟩
  have o2 : Ok3 hi := ⟨(finite_notNaN (f2 _ (by simp))).1, (finite_notNaN (f2 _ (by simp))).1, (finite_notNaN (f2 _ (by simp))).1⟩
  exact (set_checks lo hi o1 o2 ⟨lo, hi⟩).1.2 h

/-- A usable box. -/
def GoodBox (lo hi : V4 F32) : Prop := Within (2 ^ 40) lo ∧ Within (2 ^ 40) hi ∧ Below3 lo hi

theorem within_of {v : V4 F32} (h1 : |v.x.val| ≤ 2 ^ 40) (h2 : |v.y.val| ≤ 2 ^ 40) (h3 : |v.z.val| ≤ 2 ^ 40) :
    Within (2 ^ 40) v := by
  refine ⟨?_, h1, h2, h3⟩
  intro x hx
  simp only [List.mem_cons, List.not_mem_nil, or_false] at hx
  rcases hx with rfl | rfl | rfl
  · exact finite_of_abs h1
  · exact finite_of_abs h2
  · exact finite_of_abs h3

theorem fold_good {its : List (Item F32)} (hne : its ≠ [])
    (hc : ∀ it ∈ its, (∀ q ∈ it.mins, Within (2 ^ 40) q) ∧ ∀ q ∈ it.maxs, Within (2 ^ 40) q)
    (ho : ∀ it ∈ its, ∃ p ∈ it.mins, ∃ q ∈ it.maxs, Below3 p q) {lo hi : V4 F32}
    (h : (lo.xyz, hi.xyz) = corners3 (cornersOf its emptyCorners)) : GoodBox lo hi := by
  have hok3 : ∀ q : V4 F32, Within (2 ^ 40) q → Ok3 q := fun q hq =>
    ⟨(finite_notNaN (hq.1 _ (by simp))).1, (finite_notNaN (hq.1 _ (by simp))).1, (finite_notNaN (hq.1 _ (by simp))).1⟩
  obtain ⟨-, g1, g2, g3, g4⟩ := corners_bounds okLimits_f32
    (fun it hi => ⟨fun q hq => hok3 q ((hc it hi).1 q hq), fun q hq => hok3 q ((hc it hi).2 q hq)⟩) h
  obtain ⟨it, hit⟩ := List.exists_mem_of_ne_nil its hne
  obtain ⟨p, hp, q, hq, hpq⟩ := ho it hit
  have bp := g1 it hit p hp
  have bq := g2 it hit q hq
  have wp := (hc it hit).1 p hp
  have wq := (hc it hit).2 q hq
  have lb : Le3 ⟨-2 ^ 40, -2 ^ 40, -2 ^ 40⟩ (pt lo) := by
    refine g3 _ ?_ fun it hi q hq => ?_
    · have : -2 ^ 40 ≤ (fltMax : F32).val := by rw [fmax_fact.2]; norm_num
      exact ⟨this, this, this⟩
    · have := (hc it hi).1 q hq
      exact ⟨(abs_le.1 this.2.1).1, (abs_le.1 this.2.2.1).1, (abs_le.1 this.2.2.2).1⟩
  have ub : Le3 (pt hi) ⟨2 ^ 40, 2 ^ 40, 2 ^ 40⟩ := by
    refine g4 _ ?_ fun it hi q hq => ?_
    · have : (minusFltMax : F32).val ≤ 2 ^ 40 := by rw [fmin_fact.2]; norm_num
      exact ⟨this, this, this⟩
    · have := (hc it hi).2 q hq
      exact ⟨(abs_le.1 this.2.1).2, (abs_le.1 this.2.2.1).2, (abs_le.1 this.2.2.2).2⟩
  have p1 := abs_le.1 wp.2.1
  have p2 := abs_le.1 wp.2.2.1
  have p3 := abs_le.1 wp.2.2.2
  have q1 := abs_le.1 wq.2.1
  have q2 := abs_le.1 wq.2.2.1
  have q3 := abs_le.1 wq.2.2.2
  obtain ⟨l1, l2, l3⟩ := lb
  obtain ⟨u1, u2, u3⟩ := ub
  obtain ⟨b1, b2, b3⟩ := bp
  obtain ⟨c1, c2, c3⟩ := bq
  obtain ⟨d1, d2, d3⟩ := hpq
  change -2 ^ 40 ≤ lo.x.val at l1
  change -2 ^ 40 ≤ lo.y.val at l2
  change -2 ^ 40 ≤ lo.z.val at l3
  change hi.x.val ≤ 2 ^ 40 at u1
  change hi.y.val ≤ 2 ^ 40 at u2
  change hi.z.val ≤ 2 ^ 40 at u3
  change lo.x.val ≤ rv p.x at b1
  change lo.y.val ≤ rv p.y at b2
  change lo.z.val ≤ rv p.z at b3
  change rv q.x ≤ hi.x.val at c1
  change rv q.y ≤ hi.y.val at c2
  change rv q.z ≤ hi.z.val at c3
  refine ⟨within_of (abs_le.2 ⟨l1, by linarith⟩) (abs_le.2 ⟨l2, by linarith⟩) (abs_le.2 ⟨l3, by linarith⟩),
    within_of (abs_le.2 ⟨by linarith, u1⟩) (abs_le.2 ⟨by linarith, u2⟩) (abs_le.2 ⟨by linarith, u3⟩), ?_, ?_, ?_⟩
  · show lo.x.val ≤ hi.x.val; linarith
  · show lo.y.val ≤ hi.y.val; linarith
  · show lo.z.val ≤ hi.z.val; linarith

/-! ## The cost of a node -/

theorem sub_small {a b : F32} (h1 : a.isFinite = true) (h2 : b.isFinite = true) (h3 : |a.val| ≤ 2 ^ 40) (h4 : |b.val| ≤ 2 ^ 40) :
    (fsub a b).isFinite = true ∧ |(fsub a b).val| ≤ 2 ^ 42 := by
  have h : |a.val - b.val| ≤ 2 ^ 41 := by
    refine (abs_sub _ _).trans ?_
    linarith
  have := fsub_approx h1 h2 h (by norm_num)
  refine ⟨this.1, this.abs_le.trans ?_⟩
  have : ulp (2 ^ 41) ≤ 2 ^ 41 := by unfold ulp; norm_num
  linarith

theorem mul_small {a b : F32} {m n : ℕ} (h1 : a.isFinite = true) (h2 : b.isFinite = true) (h3 : |a.val| ≤ 2 ^ m) (h4 : |b.val| ≤ 2 ^ n)
    (hmn : m + n < 127) : (fmul a b).isFinite = true ∧ |(fmul a b).val| ≤ 2 ^ (m + n + 1) := by
  have h : |a.val * b.val| ≤ 2 ^ (m + n) := by
    rw [abs_mul, pow_add]
    exact mul_le_mul h3 h4 (abs_nonneg _) (by positivity)
  have := fmul_approx h1 h2 h (pow_lt_pow_right₀ (by norm_num) hmn)
  refine ⟨this.1, this.abs_le.trans ?_⟩
  have h1 : (1 : ℝ) ≤ 2 ^ (m + n) := one_le_pow₀ (by norm_num)
  have : ulp (2 ^ (m + n)) ≤ 2 ^ (m + n) := by
    unfold ulp
    have : (1 : ℝ) / 2 ^ 150 ≤ 1 / 2 := by norm_num
    generalize (2 : ℝ) ^ (m + n) = z at *
    linarith
  rw [pow_succ]
  linarith

theorem add_small {a b : F32} {m : ℕ} (h1 : a.isFinite = true) (h2 : b.isFinite = true) (h3 : |a.val| ≤ 2 ^ m) (h4 : |b.val| ≤ 2 ^ m)
    (hm : m + 1 < 127) : (fadd a b).isFinite = true ∧ |(fadd a b).val| ≤ 2 ^ (m + 2) := by
  have h : |a.val + b.val| ≤ 2 ^ (m + 1) := by
    refine (abs_add_le _ _).trans ?_
    rw [pow_succ]; linarith
  have := fadd_approx h1 h2 h (pow_lt_pow_right₀ (by norm_num) hm)
  refine ⟨this.1, this.abs_le.trans ?_⟩
  have h1 : (1 : ℝ) ≤ 2 ^ (m + 1) := one_le_pow₀ (by norm_num)
  have : ulp (2 ^ (m + 1)) ≤ 2 ^ (m + 1) := by
    unfold ulp
    have : (1 : ℝ) / 2 ^ 150 ≤ 1 / 2 := by norm_num
    generalize (2 : ℝ) ^ (m + 1) = z at *
    linarith
  have e : (2 : ℝ) ^ (m + 2) = 2 * 2 ^ (m + 1) := by ring
  rw [e]; linarith

theorem count_small {c : Nat} (h : c ≤ 2 ^ 31) : (FltB.ofInt (c : Int) : F32).isFinite = true ∧ |(FltB.ofInt (c : Int) : F32).val| ≤ 2 ^ 32 := by
  rw [ofInt_ofRat]
  have h' : (c : ℝ) ≤ 2 ^ 31 := by exact_mod_cast h
  have hq : |(((c : Int) : Rat) : ℝ)| ≤ 2 ^ 31 := by
    push_cast
    rw [abs_of_nonneg (by positivity)]
    exact h'
  have := lit_approx ((c : Int) : Rat) (2 ^ 31) hq (by norm_num)
  refine ⟨this.1, this.abs_le.trans ?_⟩
  have : ulp (2 ^ 31) ≤ 2 ^ 31 := by unfold ulp; norm_num
  linarith

theorem nodeCost_le {lo hi : V4 F32} (h : GoodBox lo hi) {c : Nat} (hc : c ≤ 2 ^ 31) :
    leb (fmul (halfArea lo hi) (FltB.ofInt (c : Int))) (fltMax : F32) = true := by
  obtain ⟨⟨f1, a1, a2, a3⟩, ⟨f2, b1, b2, b3⟩, -⟩ := h
  obtain ⟨x1, x2⟩ := sub_small (f2 hi.x (by simp)) (f1 lo.x (by simp)) b1 a1
  obtain ⟨y1, y2⟩ := sub_small (f2 hi.y (by simp)) (f1 lo.y (by simp)) b2 a2
  obtain ⟨z1, z2⟩ := sub_small (f2 hi.z (by simp)) (f1 lo.z (by simp)) b3 a3
  obtain ⟨p1, p2⟩ := mul_small x1 y1 x2 y2 (by norm_num)
  obtain ⟨q1, q2⟩ := mul_small x1 z1 x2 z2 (by norm_num)
  obtain ⟨r1, r2⟩ := mul_small y1 z1 y2 z2 (by norm_num)
  obtain ⟨s1, s2⟩ := add_small p1 q1 p2 q2 (by norm_num)
  obtain ⟨t1, t2⟩ := add_small r1 Reliable.zero_lit.1 r2 (by rw [Reliable.zero_lit.2]; simp) (by norm_num)
  obtain ⟨u1, u2⟩ := add_small s1 t1 s2 t2 (by norm_num)
  obtain ⟨c1, c2⟩ := count_small hc
  have e : halfArea lo hi = fadd (fadd (fmul (fsub hi.x lo.x) (fsub hi.y lo.y)) (fmul (fsub hi.x lo.x) (fsub hi.z lo.z)))
      (fadd (fmul (fsub hi.y lo.y) (fsub hi.z lo.z)) (ofRat 0)) := rfl
  rw [← e] at u1 u2
  obtain ⟨v1, v2⟩ := mul_small u1 c1 u2 c2 (by norm_num)
  rw [Reliable.fle_iff v1 fmax_fact.1, fmax_fact.2]
  refine (le_abs_self _).trans (v2.trans ?_)
  norm_num

/-! ## A step -/

theorem lane60 {v : V4 F32} (h : Within (2 ^ 60) v) {a : Fin 4} (ha : a ∈ ([0, 1, 2] : List (Fin 4))) : Fin60 (v.get a) := by
  simp only [List.mem_cons, List.not_mem_nil, or_false] at ha
  rcases ha with rfl | rfl | rfl
  · exact ⟨h.1 _ (by simp [V4.get]), h.2.1⟩
  · exact ⟨h.1 _ (by simp [V4.get]), h.2.2.1⟩
  · exact ⟨h.1 _ (by simp [V4.get]), h.2.2.2⟩

theorem step_total {src : Source F32} {root : Aabb F32} (hr : Roomy src) (hroot : GoodBox root.min root.max)
    (hn : src.count ≤ 2 ^ 31) (s : State F32) (hc : Core src root s) (hw : Work s) : ∃ r, step src s = .ok r := by
  obtain ⟨hcn, nd, hnd, hleaf⟩ := hw.2 s.cur List.mem_cons_self
  obtain ⟨rs, t1, t2, t3⟩ := hc.tree
  have hmem : s.cur ∈ rs.map (·.1) := by rw [t2.mem_iff, List.mem_range]; exact hcn
  obtain ⟨e, he, hec⟩ := List.mem_map.mp hmem
  have hnd' : s.nodes[e.1]? = some nd := by rw [hec]; exact hnd
  obtain ⟨nd2, hn2, hrg⟩ := t1.node_of_mem e he
  rw [hnd'] at hn2; cases hn2
  obtain ⟨r1, r2⟩ := hrg hleaf
  have hsub := t1.range_sub e he
  have hlen := t1.length_leaf e he hnd' hleaf
  have hlen2 : rs.length = s.nodeCount := by simpa using t2.length_eq
  have hcpos := IsTree.leaf_count_pos hleaf
  rw [r1, r2] at hsub
  rw [r2] at hlen
  have hps := hc.prims_size
  have hsz := hc.size
  -- every position holds a primitive
  have fetchOk : ∀ prims : Array Nat, prims.toList.Perm (List.range src.count) → ∀ k, k < src.count →
      ∃ p it, fetch src prims k = .ok it ∧ src.item p = some it := by
    intro prims hperm k hk
    have hs : prims.size = src.count := by simpa using hperm.length_eq
    have hk' : k < prims.size := by omega
    have hm : prims[k] ∈ prims.toList := by simp
    have hp : prims[k] < src.count := by
      have := (hperm.mem_iff).1 hm
      rwa [List.mem_range] at this
    obtain ⟨it, hit⟩ := hr.items _ hp
    refine ⟨prims[k], it, ?_, hit⟩
    unfold fetch
    rw [Array.getElem?_eq_getElem hk']
    dsimp only
    rw [hit]
  have fetchItem : ∀ (prims : Array Nat) k it, fetch src prims k = .ok it → ∃ p, src.item p = some it := by
    intro prims k it h
    rw [fetch_ok_iff] at h
    unfold itemAt at h
    rw [Option.bind_eq_some_iff] at h
    obtain ⟨p, -, h⟩ := h
    exact ⟨p, h⟩
  -- boxes of ranges of primitives
  have rangeGood : ∀ (prims : Array Nat) f c its, 1 ≤ c → (its.map some).Perm ((List.range' f c).map (itemAt src prims)) →
      ∀ lo hi : V4 F32, (lo.xyz, hi.xyz) = corners3 (cornersOf its emptyCorners) → GoodBox lo hi := by
    intro prims f c its hc1 hp lo hi h
    have hmem : ∀ it ∈ its, ∃ p, src.item p = some it := by
      intro it hit
      have h1 := (hp.mem_iff).1 (List.mem_map_of_mem (f := some) hit)
      obtain ⟨k, -, hk⟩ := List.mem_map.1 h1
      exact fetchItem prims k it ((fetch_ok_iff _ _ _ _).2 hk)
    refine fold_good ?_ (fun it hit => ?_) (fun it hit => ?_) h
    · rintro rfl
      have := hp.length_eq
      simp at this
      omega
    · obtain ⟨p, h⟩ := hmem it hit
      exact hr.corners p it h
    · obtain ⟨p, h⟩ := hmem it hit
      exact hr.ordered p it h
  have hbox : GoodBox nd.aabb.min nd.aabb.max := by
    obtain ⟨nd3, h3, h4⟩ := t3 e he
    rw [hnd'] at h3; cases h3
    rcases h4 with ⟨-, m1, m2⟩ | ⟨-, its, p1, p2⟩
    · have hx : ∀ a b : V4 F32, a.xyz = b.xyz → a.x = b.x ∧ a.y = b.y ∧ a.z = b.z := by
        rintro ⟨a1, a2, a3, a4⟩ ⟨b1, b2, b3, b4⟩ h
        simp only [V4.xyz] at h
        injection h with h1 h2 h3
        exact ⟨h1, h2, h3⟩
      obtain ⟨x1, x2, x3⟩ := hx _ _ m1
      obtain ⟨y1, y2, y3⟩ := hx _ _ m2
      unfold GoodBox Within Below3
      rw [x1, x2, x3, y1, y2, y3]
      exact hroot
    · exact rangeGood s.prims _ _ its (by omega) p1 _ _ p2
  have hord : Aabb.ordered nd.aabb.min nd.aabb.max = true := ordered_of hbox.1 hbox.2.1 hbox.2.2
  generalize hfirst : nd.getFirstPrimitive = first at *
  generalize hcount : nd.getPrimitiveCount = count at *
  have hne : List.range' first count ≠ [] := by
    intro h
    have := congrArg List.length h
    simp at this
    omega
  have hsearch : ∃ best, findBestSplitPlane src s.prims first count = .ok best ∧
      SplitOk src s.prims (List.range' first count) best := by
    have hall : ∀ (axes : List (Fin 4)) (best : Best F32), (∀ a ∈ axes, a ∈ ([0, 1, 2] : List (Fin 4))) →
        SplitOk src s.prims (List.range' first count) best →
        ∃ r, axes.foldlM (searchAxis src s.prims (List.range' first count)) best = .ok r ∧
          SplitOk src s.prims (List.range' first count) r := by
      intro axes
      induction axes with
      | nil => intro best _ h; exact ⟨best, rfl, h⟩
      | cons a axes ih =>
        intro best hax h
        have ha := hax a (by simp)
        obtain ⟨r, g1, g2⟩ := searchAxis_total (src := src) (prims := s.prims) (a := a) hne (fun i hi => by
            rw [List.mem_range'_1] at hi
            obtain ⟨p, it, q1, q2⟩ := fetchOk s.prims hc.prims i (by omega)
            exact ⟨it, q1, lane60 (hr.cents p it q2) ha⟩)
          (fun i _ j _ x y q1 q2 => by
            obtain ⟨p, hp⟩ := fetchItem _ _ _ q1
            obtain ⟨q, hq⟩ := fetchItem _ _ _ q2
            have := hr.apart p q x y hp hq
            simp only [List.mem_cons, List.not_mem_nil, or_false] at ha
            rcases ha with rfl | rfl | rfl
            · exact this.1
            · exact this.2.1
            · exact this.2.2) h
        rw [List.foldlM_cons, g1]
        exact ih r (fun b hb => hax b (by simp [hb])) g2
    exact hall [0, 1, 2] ⟨0, Flt.lit 0, fltMax⟩ (fun a h => h) (Or.inl rfl)
  obtain ⟨best, hbest, hsplit⟩ := hsearch
  unfold step
  rw [hnd]
  dsimp only
  rw [hfirst, hcount, hbest]
  dsimp only
  by_cases hcost : Flt.le (Flt.mul (halfArea nd.aabb.min nd.aabb.max) (FltB.ofInt (count : Int))) best.cost = true
  · rw [if_pos hcost]; exact ⟨_, rfl⟩
  · rw [if_neg hcost]
    rcases hsplit with h | ⟨i0, hi0, it0, g1, g2⟩
    · exfalso
      apply hcost
      rw [h]
      exact nodeCost_le hbox (by omega)
    · have hj : (first + count + (2 ^ 32 - 1)) % 2 ^ 32 = (first + count) - 1 := by omega
      rw [hj]
      rw [List.mem_range'_1] at hi0
      rcases partition_spec src best.axis best.split first (first + count) (count + 2) first (first + count) s.prims
        le_rfl (by omega) le_rfl (by omega) (by omega) (by omega) (by omega) (fun k h1 h2 => by omega)
        (fun k h1 h2 => by omega) with ⟨⟨i, prims⟩, hp, ok⟩ | ⟨hp, hbad⟩
      · rw [hp]
        dsimp only
        by_cases hz : i - first = 0 ∨ i - first = count
        · rw [if_pos hz]; exact ⟨_, rfl⟩
        · rw [if_neg hz]
          obtain ⟨σ, hs1, hs2⟩ := ok.perm
          have hlo := ok.lo
          have hhi := ok.hi
          dsimp only at hlo hhi
          have hperm : prims.toList.Perm (List.range src.count) :=
            (toList_perm σ first (first + count) ok.size (by omega) hs1 hs2).trans hc.prims
          have child : ∀ f c, 1 ≤ c → f + c ≤ src.count → ∃ n, makeChild src prims f c = .ok n := by
            intro f c hc1 hfc
            refine makeChild_total (fun k h1 h2 => ?_) fun its hits => ?_
            · obtain ⟨p, it, q1, -⟩ := fetchOk prims hperm k (by omega)
              exact ⟨it, q1⟩
            · have := rangeGood prims f c its hc1 (by rw [hits]) _ _ (rfl : ((cornersOf its emptyCorners).1.xyz,
                (cornersOf its emptyCorners).2.xyz) = corners3 (cornersOf its emptyCorners))
              exact ordered_of this.1 this.2.1 this.2.2
          exact splitNode_total hord (by omega) (by omega) (child _ _ (by omega) (by omega)) (child _ _ (by omega) (by omega))
      · exfalso
        rcases hbad with ⟨h0, hnb⟩ | ⟨k, h1, h2, h3⟩
        · obtain ⟨it', q1, q2⟩ := hnb i0 (by omega)
          rw [g1] at q1; cases q1
          have : ltb (it0.centroid.get best.axis) best.split = false := q2
          rw [g2] at this; cases this
        · obtain ⟨p, it, q1, -⟩ := fetchOk s.prims hc.prims k (by omega)
          rw [h3] at q1; cases q1

end BvhSafe
open BvhSafe

/-- C104: over at most `2^31` primitives that are in range, in order and separated (`Roomy`), and with an ordered box in range
for the first node, a build never reads or writes outside an array, never converts a number that does not fit and never
fails an assertion: it returns a tree. -/
theorem bvh_build_total (old : Bvh.Tree F32) (src : Source F32) (root : Aabb F32) (hr : Roomy src) (h0 : 1 ≤ src.count)
    (hn : src.count ≤ 2 ^ 31) (h1 : Within (2 ^ 40) root.min) (h2 : Within (2 ^ 40) root.max) (h3 : Below3 root.min root.max) :
    ∃ t, recreate old src root = .ok t ∧ WellFormed t src.count := by
  obtain ⟨t, ht⟩ := recreate_total old h0 hn (ordered_of h1 h2 h3) (step_total hr ⟨h1, h2, h3⟩ hn)
  obtain ⟨-, p, rs, q1, q2, -⟩ := (recreate_result old src root hn).2 t ht
  exact ⟨t, ht, p, rs, q1, q2⟩

/-! ## Primitives on a grid -/

namespace BvhSafe

/-- Whole multiples of a power of two are represented exactly. -/
theorem grid_rep {s : ℤ} (hs1 : -90 ≤ s) (hs2 : s ≤ 20) (k : ℤ) (hk : k.natAbs ≤ 2 ^ 24) :
    ∃ y : F32, y.isFinite = true ∧ y.val = k * (2 : ℝ) ^ s := by
  obtain ⟨y, h1, h2⟩ := representable k (s + 149).toNat hk (by omega)
  refine ⟨y, h1, ?_⟩
  rw [val_units, h2]
  push_cast
  have : ((2 : ℝ) ^ (s + 149).toNat) = 2 ^ s * 2 ^ 149 := by
    rw [← zpow_natCast, show (((s + 149).toNat : ℕ) : ℤ) = s + 149 by omega, zpow_add₀ (by norm_num)]
    norm_num
  rw [this]
  field_simp

theorem grid_add {s : ℤ} (hs1 : -90 ≤ s) (hs2 : s ≤ 20) {a b : F32} {i j : ℤ} (ha : a.isFinite = true) (hb : b.isFinite = true)
    (hi : a.val = i * (2 : ℝ) ^ s) (hj : b.val = j * (2 : ℝ) ^ s) (h : (i + j).natAbs ≤ 2 ^ 24) :
    (fadd a b).isFinite = true ∧ (fadd a b).val = (i + j : ℤ) * (2 : ℝ) ^ s := by
  obtain ⟨y, y1, y2⟩ := grid_rep hs1 hs2 (i + j) h
  have e : a.val + b.val = (i + j : ℤ) * (2 : ℝ) ^ s := by rw [hi, hj]; push_cast; ring
  have := fadd_exact ha hb y1 (by rw [y2, e])
  exact ⟨this.1, by rw [← e]; exact this.eq⟩

theorem half_fact : (ofRat (1 / 2)).isFinite = true ∧ (ofRat (1 / 2)).val = 1 / 2 := by
  have h : (ofRat (1 / 2)).isFinite = true ∧ (ofRat (1 / 2)).units = 2 ^ 148 := by decide +kernel
  refine ⟨h.1, ?_⟩
  rw [val_units, h.2]; push_cast; norm_num

theorem grid_bound {s : ℤ} (hs2 : s ≤ 20) {m : ℕ} {i : ℤ} (h : i.natAbs ≤ m) : |(i : ℝ) * (2 : ℝ) ^ s| ≤ m * 2 ^ 20 := by
  rw [abs_mul, abs_of_pos (by positivity : (0 : ℝ) < 2 ^ s)]
  have h1 : |(i : ℝ)| ≤ m := by
    rw [← Int.cast_abs, Int.abs_eq_natAbs]
    exact_mod_cast h
  have h2 : (2 : ℝ) ^ s ≤ 2 ^ 20 := by
    rw [← zpow_natCast]
    exact zpow_le_zpow_right₀ (by norm_num) (by exact_mod_cast hs2)
  exact mul_le_mul h1 h2 (by positivity) (by positivity)

theorem grid_within {s : ℤ} (hs2 : s ≤ 20) {m : ℕ} (hm : m ≤ 2 ^ 20) {v : V4 F32} (h : OnGrid s m v) : Within (2 ^ 40) v := by
  have hm' : (m : ℝ) * 2 ^ 20 ≤ 2 ^ 40 := by
    have : (m : ℝ) ≤ 2 ^ 20 := by exact_mod_cast hm
    calc (m : ℝ) * 2 ^ 20 ≤ 2 ^ 20 * 2 ^ 20 := by gcongr
      _ = 2 ^ 40 := by norm_num
  have lane : ∀ x, GridC s m x → |x.val| ≤ 2 ^ 40 := by
    rintro x ⟨-, i, h1, h2⟩
    rw [rv_val] at h2
    rw [h2]
    exact (grid_bound hs2 h1).trans hm'
  exact within_of (lane _ h.1) (lane _ h.2.1) (lane _ h.2.2)

theorem cell_big {s : ℤ} (hs1 : -90 ≤ s) : (1 : ℝ) / 2 ^ 90 ≤ 2 ^ s := by
  have : ((2 : ℝ) ^ (-90 : ℤ)) ≤ 2 ^ s := zpow_le_zpow_right₀ (by norm_num) hs1
  refine le_trans (le_of_eq ?_) this
  rw [zpow_neg]; norm_num

theorem cell_small {s : ℤ} (hs2 : s ≤ 20) : (2 : ℝ) ^ s ≤ 2 ^ 20 := by
  rw [← zpow_natCast]
  exact zpow_le_zpow_right₀ (by norm_num) (by exact_mod_cast hs2)

/-- A middle of two grid coordinates. -/
def Mid (s : ℤ) (x : F32) : Prop := x.isFinite = true ∧ ∃ n : ℤ, n.natAbs ≤ 2 ^ 20 ∧ x.val = n / 2 * (2 : ℝ) ^ s

theorem mid_of {s : ℤ} (hs1 : -90 ≤ s) (hs2 : s ≤ 20) {a b : F32} (ha : GridC s (2 ^ 19) a) (hb : GridC s (2 ^ 19) b) :
    Mid s (fmul (fadd a b) (ofRat (1 / 2))) := by
  obtain ⟨fa, i, i1, i2⟩ := ha
  obtain ⟨fb, j, j1, j2⟩ := hb
  rw [rv_val] at i2 j2
  have hn : (i + j).natAbs ≤ 2 ^ 20 := by omega
  obtain ⟨f, e⟩ := grid_add hs1 hs2 fa fb i2 j2 (by omega)
  obtain ⟨y, y1, y2⟩ := representable (i + j) (s + 148).toNat (by omega) (by omega)
  have e2 : (fadd a b).val * (ofRat (1 / 2)).val = ((i + j : ℤ) : ℝ) / 2 * (2 : ℝ) ^ s := by rw [e, half_fact.2]; ring
  have yv : y.val = ((i + j : ℤ) : ℝ) / 2 * (2 : ℝ) ^ s := by
    rw [val_units, y2]
    push_cast
    have : ((2 : ℝ) ^ (s + 148).toNat) = 2 ^ s * 2 ^ 148 := by
      rw [← zpow_natCast, show (((s + 148).toNat : ℕ) : ℤ) = s + 148 by omega, zpow_add₀ (by norm_num)]
      norm_num
    rw [this, show (2 : ℝ) ^ 149 = 2 ^ 148 * 2 by norm_num]
    field_simp
  have := fmul_exact f half_fact.1 y1 (by rw [yv, e2])
  exact ⟨this.1, i + j, hn, by rw [← e2]; exact this.eq⟩

theorem mid_real {n m t : ℝ} (ht : 0 < t) (hn : |n| ≤ 2 ^ 20) (hm : n + 1 ≤ m) :
    |n / 2 * t| / 2 ^ 20 ≤ m / 2 * t - n / 2 * t ∧ t / 2 ≤ m / 2 * t - n / 2 * t := by
  have h1 : t / 2 ≤ m / 2 * t - n / 2 * t := by nlinarith
  refine ⟨?_, h1⟩
  rw [abs_mul, abs_of_pos ht, abs_div, abs_of_pos (by norm_num : (0 : ℝ) < 2)]
  have : |n| / 2 * t / 2 ^ 20 ≤ 2 ^ 20 / 2 * t / 2 ^ 20 := by gcongr
  have h2 : (2 : ℝ) ^ 20 / 2 * t / 2 ^ 20 = t / 2 := by field_simp
  linarith

theorem mid_apart {s : ℤ} (hs1 : -90 ≤ s) {x y : F32} (hx : Mid s x) (hy : Mid s y) : Apart x.val y.val := by
  obtain ⟨-, n, n1, n2⟩ := hx
  obtain ⟨-, m, m1, m2⟩ := hy
  intro hlt
  have ht : (0 : ℝ) < 2 ^ s := by positivity
  rw [n2, m2] at hlt ⊢
  have hnm : (n : ℝ) < m := by
    by_contra hc
    rw [not_lt] at hc
    have : (m : ℝ) / 2 * 2 ^ s ≤ n / 2 * 2 ^ s := by gcongr
    linarith
  have hnm' : (n : ℝ) + 1 ≤ m := by
    have : n < m := by exact_mod_cast hnm
    exact_mod_cast (by omega : n + 1 ≤ m)
  have hn : |(n : ℝ)| ≤ 2 ^ 20 := by
    rw [← Int.cast_abs, Int.abs_eq_natAbs]
    exact_mod_cast n1
  obtain ⟨r1, r2⟩ := mid_real ht hn hnm'
  refine ⟨r1, le_trans ?_ r2⟩
  have h1 := cell_big hs1
  have h2 : (1 : ℝ) / 2 ^ 100 ≤ 1 / 2 ^ 90 / 2 := by norm_num
  linarith

theorem mid_range {s : ℤ} (hs2 : s ≤ 20) {x : F32} (hx : Mid s x) : |x.val| ≤ 2 ^ 60 := by
  obtain ⟨-, n, n1, n2⟩ := hx
  have h1 := grid_bound hs2 n1
  rw [n2, show (n : ℝ) / 2 * 2 ^ s = (n * 2 ^ s) / 2 by ring, abs_div, abs_of_pos (by norm_num : (0 : ℝ) < 2)]
  have h2 : ((2 ^ 20 : ℕ) : ℝ) * 2 ^ 20 ≤ 2 ^ 60 := by norm_num
  linarith [abs_nonneg ((n : ℝ) * 2 ^ s)]

/-! ### Triangles -/

theorem third_fact : (fdiv (ofRat 1) (ofRat 3)).isFinite = true ∧ (fdiv (ofRat 1) (ofRat 3)).val = 11184811 / 2 ^ 25 := by
  have h : (fdiv (ofRat 1) (ofRat 3)).isFinite = true ∧ (fdiv (ofRat 1) (ofRat 3)).units = 11184811 * 2 ^ 124 := by decide +kernel
  refine ⟨h.1, ?_⟩
  rw [val_units, h.2]; push_cast; norm_num

/-- A rounded third of a grid coordinate. -/
def Third (s : ℤ) (x : F32) : Prop :=
  ∃ (n : ℤ) (S : F32), n.natAbs ≤ 3 * 2 ^ 17 ∧ S.isFinite = true ∧ S.val = n * (2 : ℝ) ^ s ∧ x = fmul S (fdiv (ofRat 1) (ofRat 3))

theorem third_of {s : ℤ} (hs1 : -90 ≤ s) (hs2 : s ≤ 20) {a b c : F32} (ha : GridC s (2 ^ 17) a) (hb : GridC s (2 ^ 17) b)
    (hc : GridC s (2 ^ 17) c) : Third s (fmul (fadd (fadd a b) c) (fdiv (ofRat 1) (ofRat 3))) := by
  obtain ⟨fa, i, i1, i2⟩ := ha
  obtain ⟨fb, j, j1, j2⟩ := hb
  obtain ⟨fc, k, k1, k2⟩ := hc
  rw [rv_val] at i2 j2 k2
  obtain ⟨f, e⟩ := grid_add hs1 hs2 fa fb i2 j2 (by omega)
  obtain ⟨g, h⟩ := grid_add hs1 hs2 f fc e k2 (by omega)
  exact ⟨i + j + k, _, by omega, g, h, rfl⟩

theorem third_val {s : ℤ} (hs1 : -90 ≤ s) (hs2 : s ≤ 20) {n : ℤ} {S : F32} (hn : n.natAbs ≤ 3 * 2 ^ 17) (hS : S.isFinite = true)
    (hv : S.val = n * (2 : ℝ) ^ s) : (fmul S (fdiv (ofRat 1) (ofRat 3))).isFinite = true ∧
      |(fmul S (fdiv (ofRat 1) (ofRat 3))).val - n * 2 ^ s * (11184811 / 2 ^ 25)| ≤ 2 ^ s / 50 := by
  have hb := grid_bound hs2 hn
  have hn' : |(n : ℝ)| ≤ 3 * 2 ^ 17 := by
    rw [← Int.cast_abs, Int.abs_eq_natAbs]
    exact_mod_cast hn
  have hp : |S.val * (fdiv (ofRat 1) (ofRat 3)).val| ≤ |(n : ℝ)| * 2 ^ s * (11184811 / 2 ^ 25) := by
    rw [hv, third_fact.2, abs_mul, abs_mul, abs_of_pos (by positivity : (0 : ℝ) < 2 ^ s),
      abs_of_pos (by norm_num : (0 : ℝ) < 11184811 / 2 ^ 25)]
  have hc := cell_big hs1
  have hc2 := cell_small hs2
  have hM : |(n : ℝ)| * 2 ^ s * (11184811 / 2 ^ 25) ≤ 2 ^ s * 2 ^ 18 := by
    have : |(n : ℝ)| * 2 ^ s ≤ 3 * 2 ^ 17 * 2 ^ s := by gcongr
    nlinarith
  have := fmul_approx hS third_fact.1 (hp.trans hM) (lt_of_le_of_lt (b := 2 ^ 20 * 2 ^ 18) (by gcongr) (by norm_num))
  refine ⟨this.1, ?_⟩
  have h2 := this.2
  rw [hv, third_fact.2] at h2
  refine h2.trans ?_
  unfold ulp
  have : (1 : ℝ) / 2 ^ 150 ≤ 1 / 2 ^ 90 / 1000 := by norm_num
  linarith

theorem third_real {n m t c d : ℝ} (ht : 0 < t) (hn : |n| ≤ 3 * 2 ^ 17) (hm : n + 1 ≤ m)
    (hc : |c - n * t * (11184811 / 2 ^ 25)| ≤ t / 50) (hd : |d - m * t * (11184811 / 2 ^ 25)| ≤ t / 50) :
    |c| / 2 ^ 20 ≤ d - c ∧ t / 4 ≤ d - c := by
  have h1 := abs_le.1 hc
  have h2 := abs_le.1 hd
  have h3 : n * t + t ≤ m * t := by nlinarith
  have h4 : t / 4 ≤ d - c := by linarith
  refine ⟨?_, h4⟩
  have h5 : |n * t| ≤ 3 * 2 ^ 17 * t := by rw [abs_mul, abs_of_pos ht]; gcongr
  have h6 := abs_le.1 h5
  have h7 : |c| ≤ t * 2 ^ 18 := abs_le.2 ⟨by linarith, by linarith⟩
  have h8 : |c| / 2 ^ 20 ≤ t * 2 ^ 18 / 2 ^ 20 := by gcongr
  have h9 : t * 2 ^ 18 / 2 ^ 20 = t / 4 := by ring
  linarith

theorem third_apart {s : ℤ} (hs1 : -90 ≤ s) (hs2 : s ≤ 20) {x y : F32} (hx : Third s x) (hy : Third s y) : Apart x.val y.val := by
  obtain ⟨n, S, n1, n2, n3, rfl⟩ := hx
  obtain ⟨m, T, m1, m2, m3, rfl⟩ := hy
  intro hlt
  have ht : (0 : ℝ) < 2 ^ s := by positivity
  obtain ⟨-, v1⟩ := third_val hs1 hs2 n1 n2 n3
  obtain ⟨-, v2⟩ := third_val hs1 hs2 m1 m2 m3
  have hn : |(n : ℝ)| ≤ 3 * 2 ^ 17 := by
    rw [← Int.cast_abs, Int.abs_eq_natAbs]
    exact_mod_cast n1
  have hm : |(m : ℝ)| ≤ 3 * 2 ^ 17 := by
    rw [← Int.cast_abs, Int.abs_eq_natAbs]
    exact_mod_cast m1
  rcases lt_trichotomy n m with h | h | h
  · obtain ⟨r1, r2⟩ := third_real ht hn (by exact_mod_cast (by omega : n + 1 ≤ m)) v1 v2
    refine ⟨r1, le_trans ?_ r2⟩
    have h1 := cell_big hs1
    have h2 : (1 : ℝ) / 2 ^ 100 ≤ 1 / 2 ^ 90 / 4 := by norm_num
    linarith
  · exfalso
    subst h
    have hu : S.units = T.units := by
      have h1 := units_val S
      have h2 := units_val T
      rw [n3] at h1; rw [m3, ← h1] at h2
      exact_mod_cast h2.symm
    have hk : (fmul S (fdiv (ofRat 1) (ofRat 3))).key = (fmul T (fdiv (ofRat 1) (ofRat 3))).key := by
      rw [(fmul_finite n2 third_fact.1).2, (fmul_finite m2 third_fact.1).2, hu]
    have hle : (fmul T (fdiv (ofRat 1) (ofRat 3))).toRat ≤ (fmul S (fdiv (ofRat 1) (ofRat 3))).toRat :=
      (F32.toRat_le_iff _ _).2 hk.ge
    have : (fmul T (fdiv (ofRat 1) (ofRat 3))).val ≤ (fmul S (fdiv (ofRat 1) (ofRat 3))).val := (Rat.cast_le (K := ℝ)).2 hle
    linarith
  · exfalso
    obtain ⟨-, r2⟩ := third_real ht hm (by exact_mod_cast (by omega : m + 1 ≤ n)) v2 v1
    linarith

theorem third_range {s : ℤ} (hs1 : -90 ≤ s) (hs2 : s ≤ 20) {x : F32} (hx : Third s x) : x.isFinite = true ∧ |x.val| ≤ 2 ^ 60 := by
  obtain ⟨n, S, n1, n2, n3, rfl⟩ := hx
  obtain ⟨f, v⟩ := third_val hs1 hs2 n1 n2 n3
  refine ⟨f, ?_⟩
  have hb := abs_le.1 (grid_bound hs2 n1)
  have h := abs_le.1 v
  have hc := cell_small hs2
  have hm : (((3 * 2 ^ 17 : ℕ)) : ℝ) * 2 ^ 20 ≤ 2 ^ 50 := by norm_num
  have h50 : (2 : ℝ) ^ 50 + 2 ^ 20 ≤ 2 ^ 60 := by norm_num
  refine abs_le.2 ⟨by linarith, by linarith⟩

end BvhSafe

/-- C104, boxes on a grid: with corners on a grid of cells of size `2^s` (`-90 ≤ s ≤ 20`), at most `2^19` cells from zero
along each axis, a build over ordered boxes and with the default centroids never fails. -/
theorem bvh_build_boxes (old : Bvh.Tree F32) (boxes : Array (Aabb F32)) (root : Aabb F32) (s : ℤ) (hs1 : -90 ≤ s) (hs2 : s ≤ 20)
    (h0 : 1 ≤ boxes.size) (hn : boxes.size ≤ 2 ^ 31)
    (hb : ∀ b ∈ boxes, OnGrid s (2 ^ 19) b.min ∧ OnGrid s (2 ^ 19) b.max ∧ Below3 b.min b.max)
    (h1 : Within (2 ^ 40) root.min) (h2 : Within (2 ^ 40) root.max) (h3 : Below3 root.min root.max) :
    ∃ t, recreate old (Source.ofAabbs boxes none) root = .ok t ∧ WellFormed t boxes.size := by
  have item : ∀ k it, (Source.ofAabbs boxes none).item k = some it → ∃ b ∈ boxes, it = ⟨[b.min], [b.max], b.getPosition⟩ := by
    intro k it h
    unfold Source.ofAabbs at h
    dsimp only at h
    cases hk : boxes[k]? with
    | none => rw [hk] at h; cases h
    | some b =>
      rw [hk] at h
      cases h
      exact ⟨b, Array.mem_of_getElem? hk, rfl⟩
  have mids : ∀ b ∈ boxes, Mid s b.getPosition.x ∧ Mid s b.getPosition.y ∧ Mid s b.getPosition.z := by
    intro b hm
    obtain ⟨⟨a1, a2, a3⟩, ⟨c1, c2, c3⟩, -⟩ := hb b hm
    exact ⟨mid_of hs1 hs2 a1 c1, mid_of hs1 hs2 a2 c2, mid_of hs1 hs2 a3 c3⟩
  refine bvh_build_total old _ root ⟨?_, ?_, ?_, ?_, ?_⟩ h0 hn h1 h2 h3
  · intro k hk
    have hk' : k < boxes.size := hk
    refine ⟨⟨[boxes[k].min], [boxes[k].max], boxes[k].getPosition⟩, ?_⟩
    unfold Source.ofAabbs
    dsimp only
    rw [Array.getElem?_eq_getElem hk']
  · intro k it h
    obtain ⟨b, hm, rfl⟩ := item k it h
    obtain ⟨a, c, -⟩ := hb b hm
    refine ⟨?_, ?_⟩ <;> intro q hq <;> rw [List.mem_singleton] at hq <;> subst hq
    · exact grid_within hs2 (by norm_num) a
    · exact grid_within hs2 (by norm_num) c
  · intro k it h
    obtain ⟨b, hm, rfl⟩ := item k it h
    exact ⟨b.min, by simp, b.max, by simp, (hb b hm).2.2⟩
  · intro k it h
    obtain ⟨b, hm, rfl⟩ := item k it h
    obtain ⟨m1, m2, m3⟩ := mids b hm
    refine ⟨?_, mid_range hs2 m1, mid_range hs2 m2, mid_range hs2 m3⟩
    intro x hx
    simp only [List.mem_cons, List.not_mem_nil, or_false] at hx
    rcases hx with rfl | rfl | rfl
    · exact m1.1
    · exact m2.1
    · exact m3.1
  · intro j k x y hx hy
    obtain ⟨b, hm, rfl⟩ := item j x hx
    obtain ⟨c, hm', rfl⟩ := item k y hy
    obtain ⟨m1, m2, m3⟩ := mids b hm
    obtain ⟨n1, n2, n3⟩ := mids c hm'
    exact ⟨mid_apart hs1 m1 n1, mid_apart hs1 m2 n2, mid_apart hs1 m3 n3⟩

/-- C104, triangles on a grid: with vertices on a grid of cells of size `2^s` (`-90 ≤ s ≤ 20`), at most `2^17` cells from
zero along each axis, a build with the default centroids never fails. -/
theorem bvh_build_triangles (old : Bvh.Tree F32) (tris : Array (Triangle F32)) (root : Aabb F32) (s : ℤ) (hs1 : -90 ≤ s)
    (hs2 : s ≤ 20) (h0 : 1 ≤ tris.size) (hn : tris.size ≤ 2 ^ 31)
    (hb : ∀ t ∈ tris, OnGrid s (2 ^ 17) t.p0 ∧ OnGrid s (2 ^ 17) t.p1 ∧ OnGrid s (2 ^ 17) t.p2)
    (h1 : Within (2 ^ 40) root.min) (h2 : Within (2 ^ 40) root.max) (h3 : Below3 root.min root.max) :
    ∃ t, recreate old (Source.ofTriangles tris none) root = .ok t ∧ WellFormed t tris.size := by
  have item : ∀ k it, (Source.ofTriangles tris none).item k = some it →
      ∃ b ∈ tris, it = ⟨[b.p0, b.p1, b.p2], [b.p0, b.p1, b.p2], triCentroid b⟩ := by
    intro k it h
    unfold Source.ofTriangles at h
    dsimp only at h
    cases hk : tris[k]? with
    | none => rw [hk] at h; cases h
    | some b =>
      rw [hk] at h
      cases h
      exact ⟨b, Array.mem_of_getElem? hk, rfl⟩
  have thirds : ∀ b ∈ tris, Third s (triCentroid b).x ∧ Third s (triCentroid b).y ∧ Third s (triCentroid b).z := by
    intro b hm
    obtain ⟨⟨a1, a2, a3⟩, ⟨c1, c2, c3⟩, d1, d2, d3⟩ := hb b hm
    exact ⟨third_of hs1 hs2 a1 c1 d1, third_of hs1 hs2 a2 c2 d2, third_of hs1 hs2 a3 c3 d3⟩
  refine bvh_build_total old _ root ⟨?_, ?_, ?_, ?_, ?_⟩ h0 hn h1 h2 h3
  · intro k hk
    have hk' : k < tris.size := hk
    refine ⟨⟨[tris[k].p0, tris[k].p1, tris[k].p2], [tris[k].p0, tris[k].p1, tris[k].p2], triCentroid tris[k]⟩, ?_⟩
    unfold Source.ofTriangles
    dsimp only
    rw [Array.getElem?_eq_getElem hk']
  · intro k it h
    obtain ⟨b, hm, rfl⟩ := item k it h
    obtain ⟨a, c, d⟩ := hb b hm
    have : ∀ q ∈ [b.p0, b.p1, b.p2], Within (2 ^ 40) q := by
      intro q hq
      simp only [List.mem_cons, List.not_mem_nil, or_false] at hq
      rcases hq with rfl | rfl | rfl
      · exact grid_within hs2 (by norm_num) a
      · exact grid_within hs2 (by norm_num) c
      · exact grid_within hs2 (by norm_num) d
    exact ⟨this, this⟩
  · intro k it h
    obtain ⟨b, hm, rfl⟩ := item k it h
    exact ⟨b.p0, by simp, b.p0, by simp, le_rfl, le_rfl, le_rfl⟩
  · intro k it h
    obtain ⟨b, hm, rfl⟩ := item k it h
    obtain ⟨m1, m2, m3⟩ := thirds b hm
    refine ⟨?_, (third_range hs1 hs2 m1).2, (third_range hs1 hs2 m2).2, (third_range hs1 hs2 m3).2⟩
    intro x hx
    simp only [List.mem_cons, List.not_mem_nil, or_false] at hx
    rcases hx with rfl | rfl | rfl
    · exact (third_range hs1 hs2 m1).1
    · exact (third_range hs1 hs2 m2).1
    · exact (third_range hs1 hs2 m3).1
  · intro j k x y hx hy
    obtain ⟨b, hm, rfl⟩ := item j x hx
    obtain ⟨c, hm', rfl⟩ := item k y hy
    obtain ⟨m1, m2, m3⟩ := thirds b hm
    obtain ⟨n1, n2, n3⟩ := thirds c hm'
    exact ⟨third_apart hs1 hs2 m1 n1, third_apart hs1 hs2 m2 n2, third_apart hs1 hs2 m3 n3⟩

/-! ## Concrete builds -/

namespace BvhSafe

/-- A whole number, checked on the bits. -/
def gridB (m : ℕ) (x : F32) : Bool :=
  x.isFinite && decide (x.units % 2 ^ 149 = 0) && decide ((x.units / 2 ^ 149).natAbs ≤ m)

theorem grid_of {m : ℕ} {x : F32} (h : gridB m x = true) : GridC 0 m x := by
  unfold gridB at h
  simp only [Bool.and_eq_true, decide_eq_true_eq] at h
  obtain ⟨⟨h1, h2⟩, h3⟩ := h
  refine ⟨h1, x.units / 2 ^ 149, h3, ?_⟩
  have e : x.units = (x.units / 2 ^ 149) * 2 ^ 149 := by omega
  rw [rv_val, val_units]
  have e' : (x.units : ℝ) = ((x.units / 2 ^ 149 : ℤ) : ℝ) * 2 ^ 149 := by exact_mod_cast e
  rw [e']
  field_simp

/-- A point with whole coordinates, checked on the bits. -/
def pointB (m : ℕ) (v : V4 F32) : Bool := gridB m v.x && gridB m v.y && gridB m v.z

theorem point_of {m : ℕ} {v : V4 F32} (h : pointB m v = true) : OnGrid 0 m v := by
  unfold pointB at h
  simp only [Bool.and_eq_true] at h
  exact ⟨grid_of h.1.1, grid_of h.1.2, grid_of h.2⟩

theorem below_of {p q : V4 F32} (h : (decide (p.x.units ≤ q.x.units) && decide (p.y.units ≤ q.y.units) &&
    decide (p.z.units ≤ q.z.units)) = true) : Below3 p q := by
  simp only [Bool.and_eq_true, decide_eq_true_eq] at h
  have lane : ∀ a b : F32, a.units ≤ b.units → rv a ≤ rv b := by
    intro a b h
    rw [rv_val, rv_val, val_units, val_units]
    have : (a.units : ℝ) ≤ b.units := by exact_mod_cast h
    gcongr
  exact ⟨lane _ _ h.1.1, lane _ _ h.1.2, lane _ _ h.2⟩

/-- A box with whole coordinates, checked on the bits. -/
def boxB (m : ℕ) (b : Aabb F32) : Bool := pointB m b.min && pointB m b.max &&
  (decide (b.min.x.units ≤ b.max.x.units) && decide (b.min.y.units ≤ b.max.y.units) && decide (b.min.z.units ≤ b.max.z.units))

theorem box_of {m : ℕ} {b : Aabb F32} (h : boxB m b = true) : OnGrid 0 m b.min ∧ OnGrid 0 m b.max ∧ Below3 b.min b.max := by
  unfold boxB at h
  rw [Bool.and_eq_true, Bool.and_eq_true] at h
  exact ⟨point_of h.1.1, point_of h.1.2, below_of h.2⟩

end BvhSafe
open BvhCases

/-- Non-vacuity: five boxes with whole coordinates, some of them overlapping, meet the hypotheses. -/
example : ∃ t, recreate fresh (Source.ofAabbs row none) (box 0 0 0 22 1 1) = .ok t ∧ WellFormed t 5 := by
  have hrow : (row.toList.all (boxB (2 ^ 19))) = true := by decide +kernel
  have hroot : boxB (2 ^ 19) (box 0 0 0 22 1 1) = true := by decide +kernel
  obtain ⟨r1, r2, r3⟩ := box_of hroot
  refine bvh_build_boxes fresh row _ 0 (by norm_num) (by norm_num) (by decide) (by decide) (fun b hb => ?_)
    (grid_within (by norm_num) (by norm_num) r1) (grid_within (by norm_num) (by norm_num) r2) r3
  exact box_of (List.all_eq_true.1 hrow b (Array.mem_toList_iff.2 hb))

/-- Non-vacuity: two triangles with whole coordinates meet the hypotheses. -/
example : ∃ t, recreate fresh (Source.ofTriangles #[⟨vec 0 0 0, vec 1 0 0, vec 0 1 (-3)⟩, ⟨vec 7 5 0, vec 1 9 0, vec 0 1 2⟩] none)
    (box 0 0 (-4) 22 10 10) = .ok t ∧ WellFormed t 2 := by
  have hp : ([vec 0 0 0, vec 1 0 0, vec 0 1 (-3), vec 7 5 0, vec 1 9 0, vec 0 1 2].all (pointB (2 ^ 17))) = true := by decide +kernel
  have hroot : boxB (2 ^ 19) (box 0 0 (-4) 22 10 10) = true := by decide +kernel
  obtain ⟨r1, r2, r3⟩ := box_of hroot
  have hp' := List.all_eq_true.1 hp
  refine bvh_build_triangles fresh _ _ 0 (by norm_num) (by norm_num) (by decide) (by decide) (fun b hb => ?_)
    (grid_within (by norm_num) (by norm_num) r1) (grid_within (by norm_num) (by norm_num) r2) r3
  have hb' : b = ⟨vec 0 0 0, vec 1 0 0, vec 0 1 (-3)⟩ ∨ b = ⟨vec 7 5 0, vec 1 9 0, vec 0 1 2⟩ := by
    rw [← Array.mem_toList_iff] at hb
    rcases List.mem_cons.1 hb with h | h
    · exact Or.inl h
    · exact Or.inr (List.mem_singleton.1 h)
  rcases hb' with rfl | rfl
  · exact ⟨point_of (hp' _ (by simp)), point_of (hp' _ (by simp)), point_of (hp' _ (by simp))⟩
  · exact ⟨point_of (hp' _ (by simp)), point_of (hp' _ (by simp)), point_of (hp' _ (by simp))⟩

/-- The separation is needed: the two boxes of `bvh_partition_underflow` are in range and in order, but their centers are
neighbouring numbers, and the build leaves the index array. -/
theorem bvh_build_needs_apart : recreate fresh (Source.ofAabbs close none) (box 0 0 0 3 1 1) = .error .outOfRange ∧
    ∀ k it, (Source.ofAabbs close none).item k = some it → (∀ q ∈ it.mins, Within (2 ^ 40) q) ∧ (∀ q ∈ it.maxs, Within (2 ^ 40) q) ∧
      Within (2 ^ 60) it.centroid := by
  refine ⟨bvh_partition_underflow.1, ?_⟩
  have hB : ∀ (n : ℕ) (v : V4 F32), (v.x.isFinite && v.y.isFinite && v.z.isFinite && decide (v.x.units.natAbs ≤ 2 ^ (149 + n)) &&
      decide (v.y.units.natAbs ≤ 2 ^ (149 + n)) && decide (v.z.units.natAbs ≤ 2 ^ (149 + n))) = true → Within (2 ^ n) v := by
    intro n v h
    simp only [Bool.and_eq_true, decide_eq_true_eq] at h
    obtain ⟨⟨⟨⟨⟨f1, f2⟩, f3⟩, b1⟩, b2⟩, b3⟩ := h
    have lane : ∀ x : F32, x.units.natAbs ≤ 2 ^ (149 + n) → |rv x| ≤ 2 ^ n := by
      intro x hx
      rw [rv_val, val_units, abs_div, abs_of_pos (by positivity : (0 : ℝ) < 2 ^ 149), div_le_iff₀ (by positivity), ← pow_add,
        add_comm n 149, ← Int.cast_abs, Int.abs_eq_natAbs]
      exact_mod_cast hx
    refine ⟨?_, lane _ b1, lane _ b2, lane _ b3⟩
    intro x hx
    simp only [List.mem_cons, List.not_mem_nil, or_false] at hx
    rcases hx with rfl | rfl | rfl <;> assumption
  intro k it h
  have h2 : it = ⟨[vec 0 0 0], [vec 2 1 1], (box 0 0 0 2 1 1).getPosition⟩ ∨
      it = ⟨[vec 0 0 0], [vec (2 + 1 / 2 ^ 22) 1 1], (box 0 0 0 (2 + 1 / 2 ^ 22) 1 1).getPosition⟩ := by
    match k with
    | 0 => exact Or.inl (Option.some.inj h).symm
    | 1 => exact Or.inr (Option.some.inj h).symm
    | k + 2 => cases h
  rcases h2 with rfl | rfl
  · refine ⟨?_, ?_, ?_⟩
    · intro q hq; rw [List.mem_singleton] at hq; subst hq; exact hB 40 _ (by decide +kernel)
    · intro q hq; rw [List.mem_singleton] at hq; subst hq; exact hB 40 _ (by decide +kernel)
    · exact hB 60 _ (by decide +kernel)
  · refine ⟨?_, ?_, ?_⟩
    · intro q hq; rw [List.mem_singleton] at hq; subst hq; exact hB 40 _ (by decide +kernel)
    · intro q hq; rw [List.mem_singleton] at hq; subst hq; exact hB 40 _ (by decide +kernel)
    · exact hB 60 _ (by decide +kernel)

end Verif
