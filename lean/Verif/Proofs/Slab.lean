import Verif.Spec.Slab
import Mathlib.Data.Fin.VecNotation
import Mathlib.Tactic.FinCases
import Verif.Props.BoxTest
import Verif.Proofs.F32Rel
import Verif.Proofs.SatF32

/-!
# The ray test against a box, lane by lane, in binary32
-/

namespace Verif.Slab
open Spec F32 BoxTest Reliable

/-- Where the ray crosses a face: `i` is the reciprocal of the direction the code stands for, `g` the one it holds. -/
theorem crossing {m o g : F32} {i e E : ℝ} (fm : m.isFinite = true) (fo : o.isFinite = true) (fg : g.isFinite = true)
    (bm : |m.val| ≤ 2 ^ 60) (bo : |o.val| ≤ 2 ^ 60) (bi : |i| ≤ 2 ^ 60) (hg : |g.val - i| ≤ e * |i|) (h0 : 0 ≤ e)
    (he : e ≤ 1 / 2 ^ 20) (hE : e + 2 * uro + 1 / 2 ^ 40 ≤ E) :
    (fmul (fsub m o) g).isFinite = true ∧
      |(fmul (fsub m o) g).val - (m.val - o.val) * i| ≤ E * |(m.val - o.val) * i| + 1 / 2 ^ 150 := by
  have bs : |m.val - o.val| ≤ 2 ^ 61 := (abs_sub _ _).trans (by linarith)
  obtain ⟨f1, r1⟩ := fsub_err' fm fo (lt_of_le_of_lt bs (by norm_num))
  have R1 : F32.Rel (fsub m o).val (m.val - o.val) uro 0 := by unfold F32.Rel; linarith
  have R2 : F32.Rel g.val i e 0 := by unfold F32.Rel; linarith
  have b1 := R1.abs_le
  have b2 := R2.abs_le
  have u0 : (0 : ℝ) ≤ uro := by unfold uro; positivity
  have u1 : uro = 1 / 2 ^ 24 := rfl
  have c1 : |(fsub m o).val| ≤ 2 ^ 62 := by
    have : (1 + uro) * |m.val - o.val| ≤ 2 * 2 ^ 61 := mul_le_mul (by rw [u1]; norm_num) bs (abs_nonneg _) (by norm_num)
    linarith
  have c2 : |g.val| ≤ 2 ^ 61 := by
    have : (1 + e) * |i| ≤ 2 * 2 ^ 60 := mul_le_mul (by linarith [show (1:ℝ) / 2 ^ 20 ≤ 1 by norm_num]) bi (abs_nonneg _) (by norm_num)
    linarith
  have c3 : |(fsub m o).val * g.val| < 2 ^ 127 := by
    rw [abs_mul]
    calc _ ≤ (2 : ℝ) ^ 62 * 2 ^ 61 := mul_le_mul c1 c2 (abs_nonneg _) (by norm_num)
      _ < _ := by norm_num
  obtain ⟨f2, r2⟩ := fmul_rel f1 fg c3
  refine ⟨f2, ?_⟩
  have R := ((R1.mul R2).round r2 u0)
  refine R.mono ?_ (by linarith)
  have h1 : uro * e ≤ 1 / 2 ^ 24 * (1 / 2 ^ 20) := mul_le_mul (le_of_eq u1) he h0 (by norm_num)
  have h2 : (uro + e + uro * e) * uro ≤ (1 / 2 ^ 19) * (1 / 2 ^ 24) := by
    refine mul_le_mul ?_ (le_of_eq u1) u0 (by norm_num)
    rw [u1] at *; norm_num at *; linarith
  norm_num at h1 h2 hE ⊢
  linarith

/-- One axis: the times between the two crossings lie between those of the box moved in and of the box moved out. -/
theorem axis {lo hi o i t1 t2 E a s : ℝ} (hlh : lo ≤ hi) (hi0 : 1 / 2 ^ 60 ≤ |i|) (hE0 : 0 ≤ E) (hE : E ≤ 1)
    (h1 : |t1 - (lo - o) * i| ≤ E * |(lo - o) * i| + 1 / 2 ^ 150) (h2 : |t2 - (hi - o) * i| ≤ E * |(hi - o) * i| + 1 / 2 ^ 150)
    (ha : 1 / 2 ^ 90 ≤ a) :
    (lo - moved (-E) (-a) o lo ≤ o + s / i ∧ o + s / i ≤ hi + moved (-E) (-a) o hi → min t1 t2 ≤ s ∧ s ≤ max t1 t2) ∧
    (min t1 t2 ≤ s ∧ s ≤ max t1 t2 → lo - moved E a o lo ≤ o + s / i ∧ o + s / i ≤ hi + moved E a o hi) := by
  have ip : 0 < |i| := lt_of_lt_of_le (by norm_num) hi0
  have in0 : i ≠ 0 := abs_pos.1 ip
  have conv : ∀ {t m : ℝ}, |t - (m - o) * i| ≤ E * |(m - o) * i| + 1 / 2 ^ 150 → |t / i - (m - o)| ≤ E * |m - o| + a := by
    intro t m h
    have e : t / i - (m - o) = (t - (m - o) * i) / i := by field_simp
    rw [e, abs_div, div_le_iff₀ ip]
    rw [abs_mul] at h
    have : (1 : ℝ) / 2 ^ 150 ≤ a * |i| :=
      calc (1 : ℝ) / 2 ^ 150 = 1 / 2 ^ 90 * (1 / 2 ^ 60) := by norm_num
        _ ≤ a * |i| := mul_le_mul ha hi0 (by norm_num) (le_trans (by norm_num) ha)
    linarith [mul_assoc E |m - o| |i|, add_mul (E * |m - o|) a |i|]
  have k1 := abs_le.1 (conv h1)
  have k2 := abs_le.1 (conv h2)
  have l1 : E * |lo - o| ≤ E * |hi - o| + (hi - lo) := by
    have : |lo - o| ≤ |hi - o| + (hi - lo) := by
      have := abs_sub_abs_le_abs_sub (lo - o) (hi - o)
      rw [show lo - o - (hi - o) = -(hi - lo) by ring, abs_neg, abs_of_nonneg (by linarith : (0:ℝ) ≤ hi - lo)] at this
      linarith
    have h3 := mul_le_mul_of_nonneg_left this hE0
    have h4 := mul_le_mul_of_nonneg_right hE (by linarith : (0:ℝ) ≤ hi - lo)
    linarith
  have l2 : E * |hi - o| ≤ E * |lo - o| + (hi - lo) := by
    have : |hi - o| ≤ |lo - o| + (hi - lo) := by
      have := abs_sub_abs_le_abs_sub (hi - o) (lo - o)
      rw [show hi - o - (lo - o) = hi - lo by ring, abs_of_nonneg (by linarith : (0:ℝ) ≤ hi - lo)] at this
      linarith
    have h3 := mul_le_mul_of_nonneg_left this hE0
    have h4 := mul_le_mul_of_nonneg_right hE (by linarith : (0:ℝ) ≤ hi - lo)
    linarith
  unfold moved
  rcases lt_or_gt_of_ne in0 with hn | hp
  · have d : ∀ {x y : ℝ}, x / i ≤ y / i ↔ y ≤ x := fun {x y} => div_le_div_right_of_neg hn
    constructor
    · rintro ⟨h3, h4⟩
      have a1 : t1 / i ≤ s / i := by linarith
      have a2 : s / i ≤ t2 / i := by linarith
      exact ⟨(min_le_right _ _).trans (d.1 a2), (d.1 a1).trans (le_max_left _ _)⟩
    · rintro ⟨h3, h4⟩
      rw [min_le_iff] at h3
      rw [le_max_iff] at h4
      have h3' : s / i ≤ t1 / i ∨ s / i ≤ t2 / i := h3.imp d.2 d.2
      have h4' : t1 / i ≤ s / i ∨ t2 / i ≤ s / i := h4.imp d.2 d.2
      constructor
      · rcases h4' with h | h <;> linarith
      · rcases h3' with h | h <;> linarith
  · have d : ∀ {x y : ℝ}, x / i ≤ y / i ↔ x ≤ y := fun {x y} => div_le_div_iff_of_pos_right hp
    constructor
    · rintro ⟨h3, h4⟩
      have a1 : t1 / i ≤ s / i := by linarith
      have a2 : s / i ≤ t2 / i := by linarith
      exact ⟨(min_le_left _ _).trans (d.1 a1), (d.1 a2).trans (le_max_right _ _)⟩
    · rintro ⟨h3, h4⟩
      rw [min_le_iff] at h3
      rw [le_max_iff] at h4
      have h3' : t1 / i ≤ s / i ∨ t2 / i ≤ s / i := h3.imp d.2 d.2
      have h4' : s / i ≤ t1 / i ∨ s / i ≤ t2 / i := h4.imp d.2 d.2
      constructor
      · rcases h3' with h | h <;> linarith
      · rcases h4' with h | h <;> linarith

/-- The three lanes combined as the code combines them. -/
theorem combine {nx ny nz mx my mz : F32} (n1 : nx.isFinite = true) (n2 : ny.isFinite = true) (n3 : nz.isFinite = true)
    (m1 : mx.isFinite = true) (m2 : my.isFinite = true) (m3 : mz.isFinite = true) {T U : ℝ}
    (hT : T = max (max nx.val ny.val) nz.val) (hU : U = min (min mx.val my.val) mz.val) {t u : Fin 3 → F32}
    (ht : t = ![Flt.mmMax (Flt.mmMax nx ny) (Flt.mmMax nz nx), Flt.mmMax (Flt.mmMax ny nz) (Flt.mmMax nx ny),
      Flt.mmMax (Flt.mmMax nz nx) (Flt.mmMax ny nz)])
    (hu : u = ![Flt.mmMin (Flt.mmMin mx my) (Flt.mmMin mz mx), Flt.mmMin (Flt.mmMin my mz) (Flt.mmMin mx my),
      Flt.mmMin (Flt.mmMin mz mx) (Flt.mmMin my mz)]) :
    ∀ k, ((t k).isFinite = true ∧ (t k).val = T) ∧ (u k).isFinite = true ∧ (u k).val = U := by
  have a := fun {x y : F32} (hx : x.isFinite = true) (hy : y.isFinite = true) => SatF32.mmMax_val hx hy
  have c := fun {x y : F32} (hx : x.isFinite = true) (hy : y.isFinite = true) => SatF32.mmMin_val hx hy
  obtain ⟨p1, q1⟩ := a n1 n2
  obtain ⟨p2, q2⟩ := a n2 n3
  obtain ⟨p3, q3⟩ := a n3 n1
  obtain ⟨r1, s1⟩ := c m1 m2
  obtain ⟨r2, s2⟩ := c m2 m3
  obtain ⟨r3, s3⟩ := c m3 m1
  obtain ⟨P1, Q1⟩ := a p1 p3
  obtain ⟨P2, Q2⟩ := a p2 p1
  obtain ⟨P3, Q3⟩ := a p3 p2
  obtain ⟨R1, S1⟩ := c r1 r3
  obtain ⟨R2, S2⟩ := c r2 r1
  obtain ⟨R3, S3⟩ := c r3 r2
  rw [q1, q3] at Q1
  rw [q2, q1] at Q2
  rw [q3, q2] at Q3
  rw [s1, s3] at S1
  rw [s2, s1] at S2
  rw [s3, s2] at S3
  have e1 : T = max (max nx.val ny.val) (max nz.val nx.val) := by
    rw [hT, max_comm nz.val nx.val, ← max_assoc, max_right_comm nx.val ny.val nx.val, max_self]
  have e2 : T = max (max ny.val nz.val) (max nx.val ny.val) := by
    rw [hT, max_comm ny.val nz.val, max_comm (max nz.val ny.val), max_comm nz.val ny.val, ← max_assoc,
      max_assoc nx.val ny.val ny.val, max_self]
  have e3 : T = max (max nz.val nx.val) (max ny.val nz.val) := by
    rw [hT, max_comm ny.val nz.val, ← max_assoc, max_right_comm nz.val nx.val nz.val, max_self,
      max_comm nz.val nx.val, max_right_comm]
  have f1 : U = min (min mx.val my.val) (min mz.val mx.val) := by
    rw [hU, min_comm mz.val mx.val, ← min_assoc, min_right_comm mx.val my.val mx.val, min_self]
  have f2 : U = min (min my.val mz.val) (min mx.val my.val) := by
    rw [hU, min_comm my.val mz.val, min_comm (min mz.val my.val), min_comm mz.val my.val, ← min_assoc,
      min_assoc mx.val my.val my.val, min_self]
  have f3 : U = min (min mz.val mx.val) (min my.val mz.val) := by
    rw [hU, min_comm my.val mz.val, ← min_assoc, min_right_comm mz.val mx.val mz.val, min_self,
      min_comm mz.val mx.val, min_right_comm]
  subst ht hu
  intro k
  fin_cases k
  · exact ⟨⟨P1, Q1.trans e1.symm⟩, R1, S1.trans f1.symm⟩
  · exact ⟨⟨P2, Q2.trans e2.symm⟩, R2, S2.trans f2.symm⟩
  · exact ⟨⟨P3, Q3.trans e3.symm⟩, R3, S3.trans f3.symm⟩

/-- What the test returns, from the three values `t` of the entry and `u` of the exit. -/
def verdict (t u : Fin 3 → F32) : V2 F32 :=
  let no := fun k => gt (t k) (u k) || u k <. Flt.lit 0
  let miss := (no 0 || no 1) || (no 2 || no 1)
  ⟨if miss then fltMax else t 0, if miss then minusFltMax else u 0⟩

theorem raycast2I_verdict (b : Aabb F32) (r : Ray F32) (hx : top r.isParallel.x = false) (hy : top r.isParallel.y = false)
    (hz : top r.isParallel.z = false) {nx ny nz mx my mz : F32}
    (h1 : nx = Flt.mmMin ((b.min.x -. r.origin.x) *. r.direction.x) ((b.max.x -. r.origin.x) *. r.direction.x))
    (h2 : ny = Flt.mmMin ((b.min.y -. r.origin.y) *. r.direction.y) ((b.max.y -. r.origin.y) *. r.direction.y))
    (h3 : nz = Flt.mmMin ((b.min.z -. r.origin.z) *. r.direction.z) ((b.max.z -. r.origin.z) *. r.direction.z))
    (h4 : mx = Flt.mmMax ((b.min.x -. r.origin.x) *. r.direction.x) ((b.max.x -. r.origin.x) *. r.direction.x))
    (h5 : my = Flt.mmMax ((b.min.y -. r.origin.y) *. r.direction.y) ((b.max.y -. r.origin.y) *. r.direction.y))
    (h6 : mz = Flt.mmMax ((b.min.z -. r.origin.z) *. r.direction.z) ((b.max.z -. r.origin.z) *. r.direction.z)) :
    b.raycast2I r = verdict
      ![Flt.mmMax (Flt.mmMax nx ny) (Flt.mmMax nz nx), Flt.mmMax (Flt.mmMax ny nz) (Flt.mmMax nx ny),
        Flt.mmMax (Flt.mmMax nz nx) (Flt.mmMax ny nz)]
      ![Flt.mmMin (Flt.mmMin mx my) (Flt.mmMin mz mx), Flt.mmMin (Flt.mmMin my mz) (Flt.mmMin mx my),
        Flt.mmMin (Flt.mmMin mz mx) (Flt.mmMin my mz)] := by
  subst h1 h2 h3 h4 h5 h6
  simp only [Aabb.raycast2I, Aabb.slabs, V4.select, V4.cmp, V4.map2, V4.bor, V4.band, V4.mul, V4.sub,
    Simd.min, Simd.max, V4.swizzle, V4.get, V4.splat, top_or, top_and, top_mask, verdict, hx, hy, hz, Bool.false_and, Bool.or_false,
    Bool.false_eq_true, if_false]
  rfl

theorem verdict_spec {t u : Fin 3 → F32} {T U : ℝ}
    (h : ∀ k, ((t k).isFinite = true ∧ (t k).val = T) ∧ (u k).isFinite = true ∧ (u k).val = U) :
    (Aabb.hit (verdict t u) = true ↔ T ≤ U ∧ 0 ≤ U) ∧ (Aabb.hit (verdict t u) = true → verdict t u = ⟨t 0, u 0⟩) ∧
    (Aabb.hit (verdict t u) = false → verdict t u = ⟨fltMax, minusFltMax⟩) := by
  have z := SatF32.lit0
  have one : ∀ k, (gt (t k) (u k) || u k <. Flt.lit 0) = true ↔ U < T ∨ U < 0 := by
    intro k
    obtain ⟨⟨a1, a2⟩, a3, a4⟩ := h k
    rw [Bool.or_eq_true]
    change ltb (u k) (t k) = true ∨ ltb (u k) (ofRat 0) = true ↔ _
    rw [flt_iff a3 a1, flt_iff a3 z.1, a2, a4, z.2]
  have cond : (((gt (t 0) (u 0) || u 0 <. Flt.lit 0) || (gt (t 1) (u 1) || u 1 <. Flt.lit 0)) ||
      ((gt (t 2) (u 2) || u 2 <. Flt.lit 0) || (gt (t 1) (u 1) || u 1 <. Flt.lit 0))) = true ↔ U < T ∨ U < 0 := by
    rw [Bool.or_eq_true, Bool.or_eq_true, Bool.or_eq_true (gt (t 2) (u 2) || _), one 0, one 1, one 2]
    simp only [or_self]
  by_cases hc : U < T ∨ U < 0
  · have e : verdict t u = ⟨fltMax, minusFltMax⟩ := by
      unfold verdict
      dsimp only
      rw [if_pos (cond.2 hc), if_pos (cond.2 hc)]
    have hm : Aabb.hit (verdict t u) = false := by
      rw [e]
      exact miss_consts
    refine ⟨?_, ?_, fun _ => e⟩
    · rw [hm]
      constructor
      · intro h; cases h
      · rintro ⟨k1, k2⟩; rcases hc with hc | hc <;> linarith
    · rw [hm]; intro h; cases h
  · have e : verdict t u = ⟨t 0, u 0⟩ := by
      unfold verdict
      dsimp only
      rw [if_neg (fun h => hc (cond.1 h)), if_neg (fun h => hc (cond.1 h))]
    push Not at hc
    have hm : Aabb.hit (verdict t u) = true := by
      rw [e]
      obtain ⟨⟨a1, a2⟩, a3, a4⟩ := h 0
      unfold Aabb.hit
      rw [Bool.and_eq_true]
      exact ⟨(fle_iff a1 a3).2 (by rw [a2, a4]; exact hc.1), (fle_iff z.1 a3).2 (by rw [z.2, a4]; exact hc.2)⟩
    exact ⟨⟨fun _ => hc, fun _ => hm⟩, fun _ => e, fun h => by rw [hm] at h; cases h⟩

/-- The direction the code holds, up to the common factor `k` and the relative error `e`. -/
structure Held (g : V4 F32) (d : V3 ℝ) (k e : ℝ) : Prop where
  fin : AllFinite [g.x, g.y, g.z]
  x : ∃ i : ℝ, d.x * i = k ∧ 1 / 2 ^ 60 ≤ |i| ∧ |i| ≤ 2 ^ 60 ∧ |g.x.val - i| ≤ e * |i|
  y : ∃ i : ℝ, d.y * i = k ∧ 1 / 2 ^ 60 ≤ |i| ∧ |i| ≤ 2 ^ 60 ∧ |g.y.val - i| ≤ e * |i|
  z : ∃ i : ℝ, d.z * i = k ∧ 1 / 2 ^ 60 ≤ |i| ∧ |i| ≤ 2 ^ 60 ∧ |g.z.val - i| ≤ e * |i|

theorem lane_both {lo hi o g : F32} {d k e E : ℝ} (l : Lane (2 ^ 60) lo hi) (fo : o.isFinite = true) (bo : |o.val| ≤ 2 ^ 60)
    (fg : g.isFinite = true) (hg : ∃ i : ℝ, d * i = k ∧ 1 / 2 ^ 60 ≤ |i| ∧ |i| ≤ 2 ^ 60 ∧ |g.val - i| ≤ e * |i|) (h0 : 0 ≤ e)
    (he : e ≤ 1 / 2 ^ 20) (hE : e + 2 * uro + 1 / 2 ^ 40 ≤ E) (hE1 : E ≤ 1) :
    ∃ n m : F32, n = Flt.mmMin (fmul (fsub lo o) g) (fmul (fsub hi o) g) ∧ m = Flt.mmMax (fmul (fsub lo o) g) (fmul (fsub hi o) g) ∧
      n.isFinite = true ∧ m.isFinite = true ∧ ∀ t,
      (lo.val - moved (-E) (-(1 / 2 ^ 80)) o.val lo.val ≤ o.val + t * d ∧ o.val + t * d ≤ hi.val + moved (-E) (-(1 / 2 ^ 80)) o.val hi.val →
        n.val ≤ t * k ∧ t * k ≤ m.val) ∧
      (n.val ≤ t * k ∧ t * k ≤ m.val →
        lo.val - moved E (1 / 2 ^ 80) o.val lo.val ≤ o.val + t * d ∧ o.val + t * d ≤ hi.val + moved E (1 / 2 ^ 80) o.val hi.val) := by
  obtain ⟨i, hk, i1, i2, hi⟩ := hg
  obtain ⟨f1, r1⟩ := crossing l.flo fo fg l.blo bo i2 hi h0 he hE
  obtain ⟨f2, r2⟩ := crossing l.fhi fo fg l.bhi bo i2 hi h0 he hE
  obtain ⟨fn, vn⟩ := SatF32.mmMin_val f1 f2
  obtain ⟨fm, vm⟩ := SatF32.mmMax_val f1 f2
  have ip : 0 < |i| := lt_of_lt_of_le (by norm_num) i1
  have in0 : i ≠ 0 := abs_pos.1 ip
  have u0 : (0 : ℝ) ≤ uro := by unfold uro; positivity
  refine ⟨_, _, rfl, rfl, fn, fm, fun t => ?_⟩
  rw [vn, vm]
  have e1 : t * k / i = t * d := by rw [← hk]; field_simp
  have := axis (s := t * k) ((val_le_key _ _).2 l.ord) i1 (by linarith [show (0:ℝ) ≤ 1 / 2 ^ 40 by positivity]) hE1 r1 r2
    (a := 1 / 2 ^ 80) (by norm_num)
  rw [e1] at this
  exact this

/-- The whole test: the times it reports, times the common factor, are between those of the two boxes. -/
theorem test_spec {b : Aabb F32} {r : Ray F32} {d : V3 ℝ} {k e E : ℝ} (hb : InRange (2 ^ 60) b) (ho : Within (2 ^ 60) r.origin)
    (hx : top r.isParallel.x = false) (hy : top r.isParallel.y = false) (hz : top r.isParallel.z = false)
    (hg : Held r.direction d k e) (h0 : 0 ≤ e) (he : e ≤ 1 / 2 ^ 20) (hE : e + 2 * uro + 1 / 2 ^ 40 ≤ E) (hE1 : E ≤ 1) :
    ∃ T U : ℝ, (b.raycastI r = true ↔ T ≤ U ∧ 0 ≤ U) ∧
      (b.raycastI r = true → ((b.raycast2I r).x.isFinite = true ∧ (b.raycast2I r).x.val = T) ∧
        (b.raycast2I r).y.isFinite = true ∧ (b.raycast2I r).y.val = U) ∧
      (b.raycastI r = false → b.raycast2I r = ⟨fltMax, minusFltMax⟩) ∧
      ∀ t, (along (pt r.origin) d t ∈ FacesMoved b (pt r.origin) (-E) (-(1 / 2 ^ 80)) → T ≤ t * k ∧ t * k ≤ U) ∧
        (T ≤ t * k ∧ t * k ≤ U → along (pt r.origin) d t ∈ FacesMoved b (pt r.origin) E (1 / 2 ^ 80)) := by
  obtain ⟨lx, ly, lz⟩ := lanes hb
  obtain ⟨f, b1, b2, b3⟩ := ho
  have g := hg.fin
  simp only [AllFinite, List.mem_cons, List.not_mem_nil, or_false, forall_eq_or_imp, forall_eq] at f g
  obtain ⟨f1, f2, f3⟩ := f
  obtain ⟨g1, g2, g3⟩ := g
  obtain ⟨nx, mx, n1, m1, fn1, fm1, X⟩ := lane_both lx f1 b1 g1 hg.x h0 he hE hE1
  obtain ⟨ny, my, n2, m2, fn2, fm2, Y⟩ := lane_both ly f2 b2 g2 hg.y h0 he hE hE1
  obtain ⟨nz, mz, n3, m3, fn3, fm3, Z⟩ := lane_both lz f3 b3 g3 hg.z h0 he hE hE1
  have v := raycast2I_verdict b r hx hy hz n1 n2 n3 m1 m2 m3
  have c := combine fn1 fn2 fn3 fm1 fm2 fm3 rfl rfl rfl rfl
  obtain ⟨s1, s2, s3⟩ := verdict_spec c
  refine ⟨max (max nx.val ny.val) nz.val, min (min mx.val my.val) mz.val, ?_, ?_, ?_, fun t => ?_⟩
  · change Aabb.hit (b.raycast2I r) = true ↔ _
    rw [v]; exact s1
  · intro h
    change Aabb.hit (b.raycast2I r) = true at h
    rw [v] at h ⊢
    rw [s2 h]
    exact c 0
  · intro h
    change Aabb.hit (b.raycast2I r) = false at h
    rw [v] at h ⊢
    exact s3 h
  · rw [max_le_iff, max_le_iff, le_min_iff, le_min_iff]
    constructor
    · rintro ⟨p1, p2, p3⟩
      have q1 := (X t).1 p1
      have q2 := (Y t).1 p2
      have q3 := (Z t).1 p3
      exact ⟨⟨⟨q1.1, q2.1⟩, q3.1⟩, ⟨q1.2, q2.2⟩, q3.2⟩
    · rintro ⟨⟨⟨p1, p2⟩, p3⟩, ⟨q1, q2⟩, q3⟩
      exact ⟨(X t).2 ⟨p1, q1⟩, (Y t).2 ⟨p2, q2⟩, (Z t).2 ⟨p3, q3⟩⟩

end Verif.Slab
