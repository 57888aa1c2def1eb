import Mathlib.Analysis.Convex.SpecificFunctions.Deriv
import Mathlib.Analysis.Real.Pi.Bounds
import Mathlib.Tactic.IntervalCases
import Verif.Model.Sh

/-!
# Windowing and deringing of spherical harmonics (C75)
-/

namespace Verif
open Sh

private theorem ofIntR (z : Int) : (FltB.ofInt z : ℝ) = (z : ℝ) := rfl

theorem sincWindow_real (l : Int) (w : ℝ) :
    sincWindow l w = if l = 0 then 1 else if w ≤ l then 0 else
      (Real.sin (Real.pi * l / w) / (Real.pi * l / w)) ^ 4 := by
  unfold sincWindow
  simp only [ofIntR, Flt.real_lit, Flt.real_le, Flt.real_mul, Flt.real_div, FltC.real_pi, FltT.real_sin,
    decide_eq_true_eq]
  split_ifs <;> push_cast <;> ring

theorem sinc_anti {x y : ℝ} (hx : 0 < x) (hxy : x ≤ y) (hy : y ≤ Real.pi) :
    Real.sin y / y ≤ Real.sin x / x := by
  have hy0 : 0 < y := by linarith
  have c := strictConcaveOn_sin_Icc.concaveOn.2 (Set.mem_Icc.2 ⟨le_rfl, Real.pi_pos.le⟩)
    (Set.mem_Icc.2 ⟨hy0.le, hy⟩) (show 0 ≤ 1 - x / y by rw [sub_nonneg, div_le_one hy0]; exact hxy)
    (show 0 ≤ x / y by positivity) (by ring)
  simp only [Real.sin_zero, smul_eq_mul, mul_zero, zero_add] at c
  rw [div_mul_cancel₀ _ hy0.ne'] at c
  rw [div_le_div_iff₀ hy0 hx]
  have := mul_le_mul_of_nonneg_right c hy0.le
  have e : x / y * Real.sin y * y = Real.sin y * x := by field_simp
  linarith

private theorem window_arg {l : Int} {w : ℝ} (hl : 0 < l) (h : (l : ℝ) < w) :
    0 < Real.pi * l / w ∧ Real.pi * l / w < Real.pi := by
  have hl' : (0 : ℝ) < l := by exact_mod_cast hl
  have hw : 0 < w := by linarith
  have hp := Real.pi_pos
  refine ⟨by positivity, ?_⟩
  rw [div_lt_iff₀ hw]
  exact mul_lt_mul_of_pos_left h hp

/-- C75: the window is exactly one for the constant band and for it alone, zero from the cutoff on, and in between
it is the fourth power of `sin x / x` at `x = pi l / cutoff`, strictly between zero and one. -/
theorem sincWindow_value (l : Int) (w : ℝ) (hl : 0 ≤ l) :
    (l = 0 → sincWindow l w = 1) ∧ (l ≠ 0 → w ≤ l → sincWindow l w = 0) ∧
    (l ≠ 0 → (l : ℝ) < w →
      sincWindow l w = (Real.sin (Real.pi * l / w) / (Real.pi * l / w)) ^ 4 ∧
      0 < sincWindow l w ∧ sincWindow l w < 1) := by
  rw [sincWindow_real]
  refine ⟨fun h => if_pos h, fun h h' => by rw [if_neg h, if_pos h'], fun h h' => ?_⟩
  rw [if_neg h, if_neg (not_le.2 h')]
  obtain ⟨a, b⟩ := window_arg (by omega : 0 < l) h'
  have s0 := Real.sin_pos_of_pos_of_lt_pi a b
  have s1 := Real.sin_lt a
  refine ⟨rfl, by positivity, ?_⟩
  apply pow_lt_one₀ (by positivity) _ (by norm_num)
  rw [div_lt_one a]
  exact s1

/-- C75: the factor is in [0, 1], never grows with the band and never shrinks when the cutoff grows. -/
theorem sincWindow_mono (l l' : Int) (w w' : ℝ) (hl : 0 ≤ l) (hll : l ≤ l') (hw : w ≤ w') :
    0 ≤ sincWindow l' w ∧ sincWindow l' w ≤ sincWindow l w' ∧ sincWindow l w' ≤ 1 := by
  have rng : ∀ (l : Int) (w : ℝ), 0 ≤ l → 0 ≤ sincWindow l w ∧ sincWindow l w ≤ 1 := by
    intro l w hl
    obtain ⟨a, b, c⟩ := sincWindow_value l w hl
    by_cases h : l = 0
    · rw [a h]; norm_num
    · rcases le_or_gt w l with h' | h'
      · rw [b h h']; norm_num
      · exact ⟨(c h h').2.1.le, (c h h').2.2.le⟩
  refine ⟨(rng l' w (by omega)).1, ?_, (rng l w' hl).2⟩
  by_cases h0 : l = 0
  · rw [(sincWindow_value l w' hl).1 h0]; exact (rng l' w (by omega)).2
  have h0' : l' ≠ 0 := by omega
  rcases le_or_gt w l' with h' | h'
  · rw [(sincWindow_value l' w (by omega)).2.1 h0' h']; exact (rng l w' hl).1
  have hlr : (l : ℝ) ≤ l' := by exact_mod_cast hll
  have h2 : (l : ℝ) < w' := by linarith
  rw [((sincWindow_value l' w (by omega)).2.2 h0' h').1, ((sincWindow_value l w' hl).2.2 h0 h2).1]
  obtain ⟨a, b⟩ := window_arg (by omega : 0 < l') h'
  obtain ⟨a2, b2⟩ := window_arg (by omega : 0 < l) h2
  have s0 := Real.sin_pos_of_pos_of_lt_pi a b
  have s2 := Real.sin_pos_of_pos_of_lt_pi a2 b2
  have l0 : (0 : ℝ) < l := by exact_mod_cast (by omega : 0 < l)
  apply pow_le_pow_left₀ (by positivity)
  apply sinc_anti a2 _ b.le
  have hp := Real.pi_pos
  have hw0 : 0 < w := by linarith
  have l1 : (0 : ℝ) < l' := by linarith
  apply div_le_div₀ (by positivity) _ hw0 hw
  exact mul_le_mul_of_nonneg_left hlr hp.le

/-- C75: `windowing` never leaves the nine-element array and multiplies every coefficient of band `l` by the window
of band `l`, and changes nothing else; for every float semantics. -/
theorem windowing_bands {F : Type} [Flt F] [FltT F] [FltB F] [FltC F] (a : List F) (h : a.length = 9) (cutoff : F) :
    ∃ b, windowing a cutoff = some b ∧ b.length = 9 ∧
      ∀ (l : Nat) (m : Int), l < 3 → |m| ≤ l →
        b[(shIndex m l).toNat]? = (a[(shIndex m l).toNat]?).map (fun x => x *. sincWindow (l : Int) cutoff) := by
  match a, h with
  | [b0, b1, b2, b3, b4, b5, b6, b7, b8], _ =>
    refine ⟨_, rfl, rfl, ?_⟩
    intro l m hl hm
    rw [abs_le] at hm
    interval_cases l
    · obtain rfl : m = 0 := by omega
      rfl
    · obtain rfl | rfl | rfl : m = -1 ∨ m = 0 ∨ m = 1 := by omega
      all_goals rfl
    · obtain rfl | rfl | rfl | rfl | rfl : m = -2 ∨ m = -1 ∨ m = 0 ∨ m = 1 ∨ m = 2 := by omega
      all_goals rfl

/-- The result `out` of scaling all bands of `sh` with the window of a common cutoff. -/
def WindowedBy {F : Type} [Flt F] [FltT F] [FltB F] [FltC F] (cutoff : F) (sh out : List (V4 F)) : Prop :=
  out.length = 9 ∧ ∀ (l : Nat) (m : Int), l < 3 → |m| ≤ l →
    out[(shIndex m l).toNat]? = (sh[(shIndex m l).toNat]?).map (fun v => V4.smul v (sincWindow (l : Int) cutoff))

theorem windowed {F : Type} [Flt F] [FltT F] [FltB F] [FltC F] (sh : List (V4 F)) (h : sh.length = 9)
    (cutoff : F) :
    ∃ out, (List.range Ibl.shBandCount).foldlM (windowLoop scale4 cutoff) sh = some out ∧ WindowedBy cutoff sh out := by
  match sh, h with
  | [b0, b1, b2, b3, b4, b5, b6, b7, b8], _ =>
    refine ⟨_, rfl, rfl, ?_⟩
    intro l m hl hm
    rw [abs_le] at hm
    interval_cases l
    · obtain rfl : m = 0 := by omega
      rfl
    · obtain rfl | rfl | rfl : m = -1 ∨ m = 0 ∨ m = 1 := by omega
      all_goals rfl
    · obtain rfl | rfl | rfl | rfl | rfl : m = -2 ∨ m = -1 ∨ m = 0 ∨ m = 1 ∨ m = 2 := by omega
      all_goals rfl

/-- `shmin` succeeds on nine coefficients and returns nine coefficients. -/
def KeepsNine {F : Type} (shmin : List F → Option (List F × F)) : Prop :=
  ∀ a, a.length = 9 → ∃ p, shmin a = some p ∧ p.1.length = 9

private theorem step_some {F : Type} [Flt F] [FltT F] [FltB F] [FltC F] {shmin : List F → Option (List F × F)}
    (hk : KeepsNine shmin) {st : List F × F × F × F} (h : st.1.length = 9) :
    ∃ st', deringStep shmin st = some st' ∧ st'.1.length = 9 := by
  obtain ⟨b, hb, hb9, -⟩ := windowing_bands st.1 h (Flt.lit 0.5 *. (st.2.1 +. st.2.2.1))
  obtain ⟨p, hp, hp9⟩ := hk b hb9
  unfold deringStep
  simp only [hb, hp, Option.bind_some, Option.map_some]
  exact ⟨_, rfl, hp9⟩

private theorem search_some {F : Type} [Flt F] [FltT F] [FltB F] [FltC F] {shmin : List F → Option (List F × F)}
    (hk : KeepsNine shmin) (n : Nat) : ∀ {st : List F × F × F × F}, st.1.length = 9 →
    ∃ st', deringSearch shmin n st = some st' := by
  induction n with
  | zero => intro st _; exact ⟨st, rfl⟩
  | succ n ih =>
    intro st h
    unfold deringSearch
    split
    · obtain ⟨st', e, h'⟩ := step_some hk h
      rw [e, Option.bind_some]
      exact ih h'
    · exact ⟨_, rfl⟩

private theorem channel_some {F : Type} [Flt F] [FltT F] [FltB F] [FltC F] {shmin : List F → Option (List F × F)}
    (hk : KeepsNine shmin) (sh : List (V4 F)) (h : sh.length = 9) (c : F) (ch : Fin 4) :
    ∃ c', deringChannel shmin sh c ch = some c' := by
  unfold deringChannel
  obtain ⟨st, e⟩ := search_some hk 16 (st := (sh.map (fun v => v.get ch), FltB.ofInt Ibl.shBandCount, c, c))
    (by simpa using h)
  simp only [e, Option.map_some]
  exact ⟨_, rfl⟩

/-- C75: for every float semantics and every way of computing the minimum, `deringingSH` finishes within the array
and scales every band of all channels with the window of one common cutoff. -/
theorem dering_scales {F : Type} [Flt F] [FltT F] [FltB F] [FltC F] (shmin : List F → Option (List F × F))
    (hk : KeepsNine shmin) (sh : List (V4 F)) (h : sh.length = 9) :
    ∃ cutoff out, deringingSH shmin sh = some out ∧ WindowedBy cutoff sh out := by
  unfold deringingSH
  obtain ⟨c0, e0⟩ := channel_some hk sh h (FltB.ofInt ((Ibl.shBandCount : Int) * 4 + 1)) 0
  obtain ⟨c1, e1⟩ := channel_some hk sh h c0 1
  obtain ⟨c2, e2⟩ := channel_some hk sh h c1 2
  obtain ⟨out, eo, ho⟩ := windowed sh h c2
  refine ⟨c2, out, ?_, ho⟩
  simp only [List.foldlM_cons, List.foldlM_nil, e0, e1, e2, Option.bind_eq_bind, Option.bind_some, Option.pure_def]
  exact eo

private theorem step_real {shmin : List ℝ → Option (List ℝ × ℝ)} {st st' : List ℝ × ℝ × ℝ × ℝ}
    (e : deringStep shmin st = some st') :
    (st'.2.1 = st.2.1 ∧ st'.2.2.1 = (st.2.1 + st.2.2.1) / 2 ∨
      st'.2.1 = (st.2.1 + st.2.2.1) / 2 ∧ st'.2.2.1 = st.2.2.1) ∧ st'.2.2.2 = min st.2.2.2 st'.2.1 := by
  unfold deringStep at e
  obtain ⟨b, -, e⟩ := Option.bind_eq_some_iff.1 e
  obtain ⟨p, -, e⟩ := Option.map_eq_some_iff.1 e
  subst e
  simp only [Flt.real_stdMin, Flt.real_lt, Flt.real_lit, Flt.real_mul, Flt.real_add, decide_eq_true_eq]
  push_cast
  refine ⟨?_, trivial⟩
  split_ifs
  · left; exact ⟨rfl, by ring⟩
  · right; exact ⟨by ring, rfl⟩

private theorem search_real {shmin : List ℝ → Option (List ℝ × ℝ)} (n : Nat) :
    ∀ {st st' : List ℝ × ℝ × ℝ × ℝ}, deringSearch shmin n st = some st' →
      3 ≤ st.2.1 → 3 ≤ st.2.2.1 → 3 ≤ st.2.2.2 → 3 ≤ st'.2.2.2 ∧ st'.2.2.2 ≤ st.2.2.2 := by
  induction n with
  | zero => intro st st' e h1 h2 h3; cases e; exact ⟨h3, le_rfl⟩
  | succ n ih =>
    intro st st' e h1 h2 h3
    unfold deringSearch at e
    split at e
    · obtain ⟨s1, e1, e2⟩ := Option.bind_eq_some_iff.1 e
      obtain ⟨a, b⟩ := step_real e1
      have : 3 ≤ s1.2.1 ∧ 3 ≤ s1.2.2.1 := by rcases a with ⟨p, q⟩ | ⟨p, q⟩ <;> rw [p, q] <;> constructor <;> linarith
      obtain ⟨c, d⟩ := ih e2 this.1 this.2 (by rw [b]; exact le_min h3 this.1)
      exact ⟨c, d.trans (by rw [b]; exact min_le_left _ _)⟩
    · cases e; exact ⟨h3, le_rfl⟩

private theorem channel_real {shmin : List ℝ → Option (List ℝ × ℝ)} {sh : List (V4 ℝ)} {c c' : ℝ} {ch : Fin 4}
    (e : deringChannel shmin sh c ch = some c') (hc : 3 ≤ c) : 3 ≤ c' ∧ (c' ≤ 3.1 ∨ c' ≤ (3 + c) / 2) := by
  unfold deringChannel at e
  obtain ⟨st, e', hst⟩ := Option.map_eq_some_iff.1 e
  subst hst
  clear e
  rename' e' => e
  have b3 : (FltB.ofInt Ibl.shBandCount : ℝ) = 3 := by rw [ofIntR]; norm_num [Ibl.shBandCount]
  rw [b3] at e
  refine ⟨(search_real 16 e (by norm_num) hc hc).1, ?_⟩
  unfold deringSearch at e
  split at e
  · right
    obtain ⟨s1, e1, e2⟩ := Option.bind_eq_some_iff.1 e
    obtain ⟨a, b⟩ := step_real e1
    simp only at a b
    have h1 : 3 ≤ s1.2.1 ∧ 3 ≤ s1.2.2.1 ∧ s1.2.1 ≤ (3 + c) / 2 := by
      rcases a with ⟨p, q⟩ | ⟨p, q⟩ <;> rw [p, q] <;> refine ⟨?_, ?_, ?_⟩ <;> linarith
    have := (search_real 15 e2 h1.1 h1.2.1 (by rw [b]; exact le_min hc h1.1)).2
    rw [b] at this
    exact this.trans ((min_le_right _ _).trans h1.2.2)
  · rename_i hn
    left
    have h2 := (search_real 16 (shmin := shmin) (st := ([], 3, c, c)) (st' := ([], 3, c, c))
      (by unfold deringSearch; rw [if_neg hn]) (by norm_num) hc hc)
    simp only [Flt.real_lt, Flt.real_add, Flt.real_lit, decide_eq_true_eq] at hn
    push_cast at hn
    cases e
    norm_num at hn ⊢
    linarith

/-- C75, what the code does: whatever the coefficients are and however the minimum is computed, the common cutoff
ends between 3 and 4.25, far below the initial 13, because the search narrows the cutoff at its first step even when
the channel does not ring. -/
theorem dering_cutoff (shmin : List ℝ → Option (List ℝ × ℝ)) (sh out : List (V4 ℝ)) (h : sh.length = 9)
    (e : deringingSH shmin sh = some out) :
    ∃ cutoff, 3 ≤ cutoff ∧ cutoff ≤ 4.25 ∧ WindowedBy cutoff sh out := by
  unfold deringingSH at e
  obtain ⟨c2, e2, eo⟩ := Option.bind_eq_some_iff.1 e
  have i13 : (FltB.ofInt ((Ibl.shBandCount : Int) * 4 + 1) : ℝ) = 13 := by rw [ofIntR]; norm_num [Ibl.shBandCount]
  rw [i13] at e2
  simp only [List.foldlM_cons, List.foldlM_nil, Option.bind_eq_bind, Option.pure_def] at e2
  obtain ⟨c0, e0, e2⟩ := Option.bind_eq_some_iff.1 e2
  obtain ⟨c1, e1, e2⟩ := Option.bind_eq_some_iff.1 e2
  obtain ⟨c2', e2, e3⟩ := Option.bind_eq_some_iff.1 e2
  cases e3
  obtain ⟨a0, b0⟩ := channel_real e0 (by norm_num)
  obtain ⟨a1, b1⟩ := channel_real e1 a0
  obtain ⟨a2, b2⟩ := channel_real e2 a1
  obtain ⟨out', eo', ho⟩ := windowed sh h c2
  rw [eo'] at eo
  cases eo
  refine ⟨c2, a2, ?_, ho⟩
  have k0 : c0 ≤ 8 := by rcases b0 with b | b <;> norm_num at b ⊢ <;> linarith
  have k1 : c1 ≤ 5.5 := by rcases b1 with b | b <;> norm_num at b ⊢ <;> linarith
  rcases b2 with b | b <;> norm_num at b k1 ⊢ <;> linarith

theorem window2_small {c : ℝ} (h : 3 ≤ c) (hc : c ≤ 4.25) : sincWindow 2 c < 1 / 4 := by
  obtain ⟨e, -, -⟩ := (sincWindow_value 2 c (by norm_num)).2.2 (by norm_num) (by push_cast; linarith)
  rw [e]
  have hp := Real.pi_gt_d2
  have hx : (1.477 : ℝ) ≤ Real.pi * (2 : Int) / c := by
    rw [le_div_iff₀ (by linarith)]
    push_cast
    nlinarith
  set x := Real.pi * (2 : Int) / c with hxd
  have hx0 : 0 < x := by linarith
  have s1 := Real.sin_le_one x
  obtain ⟨-, xp⟩ := window_arg (l := 2) (w := c) (by norm_num) (by push_cast; linarith)
  have s0 := Real.sin_pos_of_pos_of_lt_pi hx0 xp
  have k : Real.sin x / x ≤ 1 / 1.477 := by
    rw [div_le_div_iff₀ hx0 (by norm_num)]
    linarith
  calc (Real.sin x / x) ^ 4 ≤ (1 / 1.477) ^ 4 := pow_le_pow_left₀ (by positivity) k 4
    _ < 1 / 4 := by norm_num

/-- C75, the code violates the claim: even when no minimum is ever negative, every band-2 coefficient loses more than
three quarters of its value; here for every nine coefficients, every lane and every `m`. -/
theorem dering_attenuates_clean (shmin : List ℝ → Option (List ℝ × ℝ)) (hk : KeepsNine shmin)
    (_clean : ∀ a p, shmin a = some p → 0 ≤ p.2) (sh : List (V4 ℝ)) (h : sh.length = 9) :
    ∃ out k, deringingSH shmin sh = some out ∧ 0 ≤ k ∧ k < 1 / 4 ∧
      ∀ m : Int, |m| ≤ 2 → out[(shIndex m 2).toNat]? = (sh[(shIndex m 2).toNat]?).map (fun v => V4.smul v k) := by
  obtain ⟨_, out, e, -⟩ := dering_scales shmin hk sh h
  obtain ⟨c, h1, h2, -, hw⟩ := dering_cutoff shmin sh out h e
  exact ⟨out, sincWindow 2 c, e, (sincWindow_mono 2 2 c c (by norm_num) le_rfl le_rfl).1, window2_small h1 h2,
    fun m hm => hw 2 m (by norm_num) hm⟩

/-- C75, partial: `deringingSH` keeps the constant band exactly, and scales the other coefficients of all four lanes
towards zero by one factor per band, which shrinks with the band. What is missing: that a function without negative
values is left alone (false, `dering_attenuates_clean`), and that the result has no negative values (the search
reuses already windowed and rotated coefficients; nothing of the kind holds for an arbitrary `shmin`). -/
theorem dering_partial (shmin : List ℝ → Option (List ℝ × ℝ)) (sh out : List (V4 ℝ)) (h : sh.length = 9)
    (e : deringingSH shmin sh = some out) :
    out.length = 9 ∧ out[0]? = sh[0]? ∧
    ∃ k : Nat → ℝ, k 0 = 1 ∧ 0 < k 1 ∧ k 1 < 1 ∧ 0 < k 2 ∧ k 2 ≤ k 1 ∧
      ∀ (l : Nat) (m : Int), l < 3 → |m| ≤ l →
        out[(shIndex m l).toNat]? = (sh[(shIndex m l).toNat]?).map (fun v => V4.smul v (k l)) := by
  obtain ⟨c, h1, h2, h9, hw⟩ := dering_cutoff shmin sh out h e
  have k0 : sincWindow 0 c = 1 := (sincWindow_value 0 c le_rfl).1 rfl
  obtain ⟨-, p1, p2⟩ := (sincWindow_value 1 c (by norm_num)).2.2 (by norm_num) (by push_cast; linarith)
  obtain ⟨-, q1, q2⟩ := (sincWindow_value 2 c (by norm_num)).2.2 (by norm_num) (by push_cast; linarith)
  refine ⟨h9, ?_, fun l => sincWindow (l : Int) c, k0, p1, p2, q1,
    (sincWindow_mono 1 2 c c (by norm_num) (by norm_num) le_rfl).2.1, hw⟩
  have := hw 0 0 (by norm_num) (by norm_num)
  simp only [shIndex] at this
  norm_num at this
  rw [this, k0]
  cases sh[0]? with
  | none => rfl
  | some v => simp [V4.smul, V4.mul, V4.map2, V4.splat]

/-- Concrete case: nine coefficients and a `shmin` that always answers `1`. -/
example : KeepsNine (fun a : List ℝ => some (a, (1 : ℝ))) ∧
    (∀ (a : List ℝ) p, (fun a : List ℝ => some (a, (1 : ℝ))) a = some p → 0 ≤ p.2) ∧
    (List.replicate 9 (⟨1, 2, 3, 4⟩ : V4 ℝ)).length = 9 := by
  refine ⟨fun a h => ⟨_, rfl, h⟩, ?_, rfl⟩
  intro a p h
  simp only [Option.some.injEq] at h
  rw [← h]; norm_num

end Verif
