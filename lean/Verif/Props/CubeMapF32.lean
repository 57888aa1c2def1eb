import Verif.Props.Ibl
import Verif.Props.LengthAccuracy
import Verif.Props.RayBoxF32
import Verif.Proofs.F32Rel

/-!
# Cube map addressing in binary32 (C122)
-/

namespace Verif
open Spec F32 Ibl Reliable

namespace CubeF32

theorem half_val : (ofRat 0.5).isFinite = true ∧ (ofRat 0.5).val = 1 / 2 := by
  refine ⟨by decide +kernel, ?_⟩
  have := SatF32.rv_at (q := 0.5) 1 1 (by decide +kernel) (by decide +kernel) (by norm_num)
  exact this.trans (by norm_num)
theorem two_val : (ofRat 2).isFinite = true ∧ (ofRat 2).val = 2 := ⟨by decide +kernel, Slab.r2⟩
theorem mone_val : (ofRat (-1)).isFinite = true ∧ (ofRat (-1)).val = -1 := by
  refine ⟨by decide +kernel, ?_⟩
  have := SatF32.rv_at (q := -1) (-1) 0 (by decide +kernel) (by decide +kernel) (by norm_num)
  exact this.trans (by norm_num)

/-- The reciprocal of the size. -/
theorem inv_val {n : ℕ} (h0 : 0 < n) (hn : n ≤ 2 ^ 19) : (fdiv (ofRat 1) (ofInt n)).isFinite = true ∧
    |(fdiv (ofRat 1) (ofInt n)).val - 1 / n| ≤ 101 / 100 / 2 ^ 24 * (1 / n) := by
  obtain ⟨f, v⟩ := ofInt_exact (n : ℤ) (by simp only [Int.natAbs_natCast]; omega)
  push_cast at v
  have hp : (0 : ℝ) < n := by exact_mod_cast h0
  have hn' : (n : ℝ) ≤ 2 ^ 19 := by exact_mod_cast hn
  have h1 : (1 : ℝ) / n ≤ 1 := by rw [div_le_one hp]; exact_mod_cast h0
  have h2 : (1 : ℝ) / 2 ^ 19 ≤ 1 / n := one_div_le_one_div_of_le hp hn'
  have hpos : (0 : ℝ) < 1 / n := by positivity
  obtain ⟨g, r⟩ := fdiv_rel (a := ofRat 1) BoxTest.one_val.1 f (by rw [v]; exact hp.ne') (by
    rw [BoxTest.one_val.2, v, abs_of_pos hpos]; exact lt_of_le_of_lt h1 (by norm_num))
  rw [BoxTest.one_val.2, v, abs_of_pos hpos] at r
  refine ⟨g, r.trans ?_⟩
  unfold uro
  norm_num at h2 ⊢
  linarith

/-- One coordinate of `coordsToST`. -/
theorem st_val {c n : ℕ} (hc : c < n) (hn : n ≤ 2 ^ 19) {s : F32}
    (hs : s = ffma (fsub (ofRat 1) (fmul (fadd (ofInt c) (ofRat 0.5)) (fdiv (ofRat 1) (ofInt n)))) (ofRat 2) (ofRat (-1))) :
    s.isFinite = true ∧ |s.val - (1 - 2 * ((c + 1 / 2) / n))| ≤ 8 / 2 ^ 24 := by
  obtain ⟨fi, ri⟩ := inv_val (by omega) hn
  obtain ⟨f, v⟩ := ofInt_exact (c : ℤ) (by simp only [Int.natAbs_natCast]; omega)
  push_cast at v
  have hp : (0 : ℝ) < n := by exact_mod_cast (by omega : 0 < n)
  have hn' : (n : ℝ) ≤ 2 ^ 19 := by exact_mod_cast hn
  have hc' : (c : ℝ) + 1 ≤ n := by exact_mod_cast hc
  have c0 : (0 : ℝ) ≤ c := by positivity
  -- `c + 0.5` is exact
  obtain ⟨fa, va⟩ : (fadd (ofInt c) (ofRat 0.5)).isFinite = true ∧ (fadd (ofInt c) (ofRat 0.5)).val = c + 1 / 2 := by
    obtain ⟨w, fw, vw⟩ : ∃ w : F32, w.isFinite = true ∧ w.val = c + 1 / 2 := by
      refine F32x4.rep_of_bound (r := (c : ℝ) + 1 / 2) (2 * c + 1) 148 (by push_cast; norm_num; ring) ?_ (by norm_num)
      rw [abs_of_nonneg (by positivity)]
      have : (c : ℝ) + 1 / 2 ≤ 2 ^ 19 := by linarith
      refine this.trans ?_
      norm_num
    have := fadd_exact f half_val.1 fw (by rw [v, half_val.2, vw])
    exact ⟨this.1, by rw [this.eq, v, half_val.2]⟩
  set a : ℝ := (c + 1 / 2) / n with ha
  have a0 : 0 ≤ a := by positivity
  have a1 : a ≤ 1 := by rw [ha, div_le_one hp]; linarith
  set q := fdiv (ofRat 1) (ofInt n) with hq
  have R1 : F32.Rel ((fadd (ofInt c) (ofRat 0.5)).val * q.val) a (101 / 100 / 2 ^ 24) 0 := by
    unfold F32.Rel
    rw [va, show ((c : ℝ) + 1 / 2) * q.val - a = (c + 1 / 2) * (q.val - 1 / n) by rw [ha]; field_simp, abs_mul,
      abs_of_nonneg (by positivity : (0 : ℝ) ≤ c + 1 / 2), abs_of_nonneg a0, add_zero, ha]
    calc _ ≤ ((c : ℝ) + 1 / 2) * (101 / 100 / 2 ^ 24 * (1 / n)) := by gcongr
      _ = _ := by ring
  have b1 := R1.abs_le
  rw [abs_of_nonneg a0] at b1
  obtain ⟨f2, r2⟩ := fmul_rel fa fi (lt_of_le_of_lt (b := (2 : ℝ)) (by norm_num at b1 ⊢; linarith) (by norm_num))
  have R2 := R1.round r2 (by unfold uro; positivity)
  generalize fmul (fadd (ofInt c) (ofRat 0.5)) q = p at *
  have R2' : |p.val - a| ≤ 21 / 10 / 2 ^ 24 := by
    unfold F32.Rel at R2
    rw [abs_of_nonneg a0] at R2
    refine R2.trans ?_
    unfold uro
    norm_num; linarith
  obtain ⟨p1, p2⟩ := abs_le.1 R2'
  have e1 : |(ofRat 1).val - p.val| ≤ 11 / 10 := by
    rw [BoxTest.one_val.2, abs_le]; constructor <;> norm_num at p1 p2 ⊢ <;> linarith
  obtain ⟨f3, r3⟩ := fsub_err' BoxTest.one_val.1 f2 (lt_of_le_of_lt e1 (by norm_num))
  generalize fsub (ofRat 1) p = w at *
  have r3' : |w.val - (1 - p.val)| ≤ 11 / 10 / 2 ^ 24 := by
    rw [BoxTest.one_val.2] at r3 e1
    refine r3.trans ?_
    unfold uro
    norm_num at e1 ⊢; linarith
  obtain ⟨w1, w2⟩ := abs_le.1 r3'
  have e2 : |w.val * (ofRat 2).val + (ofRat (-1)).val| ≤ 11 / 10 := by
    rw [two_val.2, mone_val.2, abs_le]; constructor <;> norm_num at p1 p2 w1 w2 ⊢ <;> linarith
  have r4 := ffma_approx f3 two_val.1 mone_val.1 e2 (by norm_num)
  rw [← hs, two_val.2, mone_val.2] at r4
  refine ⟨r4.1, ?_⟩
  obtain ⟨s1, s2⟩ := abs_le.1 r4.2
  unfold ulp at s1 s2
  rw [abs_le]
  constructor <;> norm_num at p1 p2 w1 w2 s1 s2 ⊢ <;> linarith

theorem ofInt_eq (z : ℤ) : (FltB.ofInt z : F32) = ofInt z := by
  unfold ofInt
  by_cases h : z = 0
  · rw [if_pos h, h]; decide +kernel
  · rw [if_neg h]; rfl

/-- The quotient of a component and the major one, both divided by the length `L` with rounding. -/
theorem ratio {m p : F32} {σ x L : ℝ} (hL : 1 ≤ L) (hL' : L ≤ 2) (hσ : |σ| = 1) (hx : |x| ≤ 1001 / 1000)
    (hm : |m.val - σ / L| ≤ 6 / 2 ^ 24 * |σ / L| + 1 / 2 ^ 149) (hp : |p.val - x / L| ≤ 6 / 2 ^ 24 * |x / L| + 1 / 2 ^ 149) :
    0 < σ * m.val ∧ |p.val / |m.val| - x| ≤ 13 / 2 ^ 24 := by
  have L0 : 0 < L := by linarith
  have sc : ∀ {t y : ℝ}, |t - y / L| ≤ 6 / 2 ^ 24 * |y / L| + 1 / 2 ^ 149 → |t * L - y| ≤ 6 / 2 ^ 24 * |y| + 1 / 2 ^ 148 := by
    intro t y h
    rw [abs_div, abs_of_pos L0] at h
    have e : t * L - y = (t - y / L) * L := by field_simp
    rw [e, abs_mul, abs_of_pos L0]
    calc _ ≤ (6 / 2 ^ 24 * (|y| / L) + 1 / 2 ^ 149) * L := by gcongr
      _ = 6 / 2 ^ 24 * |y| + 1 / 2 ^ 149 * L := by field_simp
      _ ≤ 6 / 2 ^ 24 * |y| + 1 / 2 ^ 149 * 2 := by gcongr
      _ = _ := by norm_num
  have m1 := sc hm
  have p1 := sc hp
  rw [hσ] at m1
  have sg : σ * σ = 1 := by
    have := congrArg (· ^ 2) hσ
    simp only [sq_abs] at this
    nlinarith
  have m2 : |σ * m.val * L - 1| ≤ 61 / 10 / 2 ^ 24 := by
    have e : σ * m.val * L - 1 = σ * (m.val * L - σ) := by rw [← sg]; ring
    rw [e, abs_mul, hσ, one_mul]
    refine m1.trans ?_; norm_num
  obtain ⟨b1, b2⟩ := abs_le.1 m2
  have mp : 0 < σ * m.val := by
    by_contra h
    push Not at h
    have := mul_nonpos_of_nonpos_of_nonneg h L0.le
    norm_num at b1; linarith
  have am : |m.val| = σ * m.val := by
    rw [← abs_of_pos mp, abs_mul, hσ, one_mul]
  refine ⟨mp, ?_⟩
  rw [am]
  set B := σ * m.val * L with hB
  have B0 : 0 < B := by positivity
  have e : p.val / (σ * m.val) - x = (p.val * L - x - x * (B - 1)) / B := by
    rw [hB]
    have := mp.ne'
    generalize σ * m.val = μ at *
    field_simp; ring
  rw [e, abs_div, abs_of_pos B0, div_le_iff₀ B0]
  have t1 := abs_sub (p.val * L - x) (x * (B - 1))
  rw [abs_mul] at t1
  have t2 : |x| * |B - 1| ≤ 1001 / 1000 * (61 / 10 / 2 ^ 24) := mul_le_mul hx m2 (abs_nonneg _) (by norm_num)
  norm_num at p1 t2 b1 ⊢
  linarith

/-- Length of a face direction. -/
theorem len_range {s t : ℝ} (hs : |s| ≤ 1001 / 1000) (ht : |t| ≤ 1001 / 1000) :
    (1 ≤ 1 + s ^ 2 + t ^ 2 ∧ 1 + s ^ 2 + t ^ 2 ≤ 4) ∧ 1 ≤ Real.sqrt (1 + s ^ 2 + t ^ 2) ∧ Real.sqrt (1 + s ^ 2 + t ^ 2) ≤ 2 := by
  have a : s ^ 2 ≤ (1001 / 1000) ^ 2 := sq_le_sq' (abs_le.1 hs).1 (abs_le.1 hs).2
  have b : t ^ 2 ≤ (1001 / 1000) ^ 2 := sq_le_sq' (abs_le.1 ht).1 (abs_le.1 ht).2
  have h1 : 1 ≤ 1 + s ^ 2 + t ^ 2 := by nlinarith [sq_nonneg s, sq_nonneg t]
  have h2 : 1 + s ^ 2 + t ^ 2 ≤ 4 := by norm_num at a b; linarith
  refine ⟨⟨h1, h2⟩, Real.one_le_sqrt.2 h1, ?_⟩
  rw [Real.sqrt_le_left (by norm_num)]; linarith

theorem unit3 {v : V3 F32} (fv : AllFinite v.toList) {N : ℝ} (hN : normSq v.toList = N) (h1 : 1 ≤ N) (h2 : N ≤ 4) :
    let d := V3.normalize v
    AllFinite d.toList ∧ |d.x.val - v.x.val / Real.sqrt N| ≤ 6 / 2 ^ 24 * |v.x.val / Real.sqrt N| + 1 / 2 ^ 149 ∧
    |d.y.val - v.y.val / Real.sqrt N| ≤ 6 / 2 ^ 24 * |v.y.val / Real.sqrt N| + 1 / 2 ^ 149 ∧
    |d.z.val - v.z.val / Real.sqrt N| ≤ 6 / 2 ^ 24 * |v.z.val / Real.sqrt N| + 1 / 2 ^ 149 := by
  intro d
  have u := normalize_accuracy.2.1 v fv (by rw [hN]; exact le_trans (by norm_num) h1) (by rw [hN]; exact h2.trans (by norm_num))
  rw [hN] at u
  have u' : List.Forall₂ _ [d.x, d.y, d.z] [v.x, v.y, v.z] := u
  rw [List.forall₂_cons, List.forall₂_cons, List.forall₂_cons] at u'
  obtain ⟨⟨f1, a1⟩, ⟨f2, a2⟩, ⟨f3, a3⟩, -⟩ := u'
  refine ⟨?_, a1, a2, a3⟩
  intro w hw
  have : w = d.x ∨ w = d.y ∨ w = d.z := by simpa [V3.toList] using hw
  rcases this with rfl | rfl | rfl
  exacts [f1, f2, f3]

/-- What is found on a face at the position `(s, t)`, for a direction `r` given by its coordinates on the face. -/
theorem texel {a b n : ℝ} {w x : ℝ} (hn : 0 < n) (hn' : n ≤ 2 ^ 19) (hw : |w - x| ≤ 13 / 2 ^ 24)
    (hx : |x - (1 - 2 * ((a + 1 / 2) / n))| ≤ 8 / 2 ^ 24) (hb : b = -w) :
    |(b + 1) / 2 - (a + 1 / 2) / n| ≤ 11 / 2 ^ 24 ∧ a / n < (b + 1) / 2 ∧ (b + 1) / 2 < (a + 1) / n := by
  obtain ⟨w1, w2⟩ := abs_le.1 hw
  obtain ⟨x1, x2⟩ := abs_le.1 hx
  have h : |(b + 1) / 2 - (a + 1 / 2) / n| ≤ 11 / 2 ^ 24 := by
    rw [hb, abs_le]
    constructor <;> norm_num at w1 w2 x1 x2 ⊢ <;> linarith
  have hh : (1 : ℝ) / 2 ^ 20 ≤ 1 / 2 / n := by
    rw [le_div_iff₀ hn]; norm_num at hn' ⊢; linarith
  have e1 : a / n = (a + 1 / 2) / n - 1 / 2 / n := by field_simp; ring
  have e2 : (a + 1) / n = (a + 1 / 2) / n + 1 / 2 / n := by field_simp; ring
  obtain ⟨k1, k2⟩ := abs_le.1 h
  refine ⟨h, ?_, ?_⟩
  · rw [e1]; norm_num at k1 k2 hh ⊢; linarith
  · rw [e2]; norm_num at k1 k2 hh ⊢; linarith

theorem st_bound {x y n : ℝ} (hn : 0 < n) (h0 : 0 ≤ y) (hy : y + 1 ≤ n) (hx : |x - (1 - 2 * ((y + 1 / 2) / n))| ≤ 8 / 2 ^ 24) :
    |x| ≤ 1001 / 1000 := by
  have h1 : 0 ≤ (y + 1 / 2) / n := by positivity
  have h2 : (y + 1 / 2) / n ≤ 1 := by rw [div_le_one hn]; linarith
  obtain ⟨x1, x2⟩ := abs_le.1 hx
  rw [abs_le]
  constructor <;> norm_num at x1 x2 ⊢ <;> linarith

/-- The same as `texel` for a component that holds the position or its negative. -/
theorem found {m p : F32} {σ ε S L a b n : ℝ} (hn : 0 < n) (hn' : n ≤ 2 ^ 19) (hL : 1 ≤ L) (hL' : L ≤ 2) (hσ : |σ| = 1)
    (hε : ε = 1 ∨ ε = -1) (hS : |S| ≤ 1001 / 1000) (hS' : |S - (1 - 2 * ((a + 1 / 2) / n))| ≤ 8 / 2 ^ 24)
    (hm : |m.val - σ / L| ≤ 6 / 2 ^ 24 * |σ / L| + 1 / 2 ^ 149)
    (hp : |p.val - ε * S / L| ≤ 6 / 2 ^ 24 * |ε * S / L| + 1 / 2 ^ 149) (hb : b = -(ε * p.val) / |m.val|) :
    0 < σ * m.val ∧ |(b + 1) / 2 - (a + 1 / 2) / n| ≤ 11 / 2 ^ 24 ∧ a / n < (b + 1) / 2 ∧ (b + 1) / 2 < (a + 1) / n := by
  have ae : |ε| = 1 := by rcases hε with rfl | rfl <;> simp
  obtain ⟨k1, k2⟩ := ratio hL hL' hσ (by rw [abs_mul, ae, one_mul]; exact hS) hm hp
  refine ⟨k1, texel hn hn' (w := ε * p.val / |m.val|) ?_ hS' (by rw [hb, neg_div])⟩
  have e : ε * p.val / |m.val| - S = ε * (p.val / |m.val| - ε * S) := by
    rcases hε with rfl | rfl <;> ring
  rw [e, abs_mul, ae, one_mul]
  exact k2

end CubeF32
open CubeF32

/-- C122: the direction `coordsToDir` returns for texel `(x, y)` of a face of a cube map of size up to `2^19`, with the
reciprocal `1.0f / size`, is finite, has the axis of the face as its major axis, and looks up a point inside that texel,
within `11 / 2^24` of its centre in texture coordinates. -/
theorem coordsToDir_texel (c : V3 (BitVec 32)) (n : ℕ) (hn : n ≤ 2 ^ 19) (hx : c.x.toNat < n) (hy : c.y.toNat < n)
    (hz : c.z.toNat < 6) :
    ∃ d : V3 F32, coordsToDir c (fdiv (ofRat 1) (FltB.ofInt n)) = some d ∧ AllFinite d.toList ∧
      let r : V3 ℝ := ⟨rv d.x, rv d.y, rv d.z⟩
      let u := (cubeS c.z.toNat r / |cubeMajor c.z.toNat r| + 1) / 2
      let v := (cubeT c.z.toNat r / |cubeMajor c.z.toNat r| + 1) / 2
      0 < alongAxis r (faceNormal c.z.toNat) ∧
      (|u - (c.x.toNat + 1 / 2) / n| ≤ 11 / 2 ^ 24 ∧ c.x.toNat / n < u ∧ u < (c.x.toNat + 1) / n) ∧
      (|v - (c.y.toNat + 1 / 2) / n| ≤ 11 / 2 ^ 24 ∧ c.y.toNat / n < v ∧ v < (c.y.toNat + 1) / n) := by
  have n0 : (0 : ℝ) < n := by exact_mod_cast (by omega : 0 < n)
  have n1 : (n : ℝ) ≤ 2 ^ 19 := by exact_mod_cast hn
  obtain ⟨sf, sv⟩ := st_val hx hn rfl
  obtain ⟨tf, tv⟩ := st_val hy hn rfl
  have sb := st_bound n0 (by positivity) (by exact_mod_cast hx) sv
  have tb := st_bound n0 (by positivity) (by exact_mod_cast hy) tv
  have e : coordsToST ⟨c.x, c.y⟩ (fdiv (ofRat 1) (FltB.ofInt n)) = (⟨
      ffma (fsub (ofRat 1) (fmul (fadd (ofInt c.x.toNat) (ofRat 0.5)) (fdiv (ofRat 1) (ofInt n)))) (ofRat 2) (ofRat (-1)),
      ffma (fsub (ofRat 1) (fmul (fadd (ofInt c.y.toNat) (ofRat 0.5)) (fdiv (ofRat 1) (ofInt n)))) (ofRat 2) (ofRat (-1))⟩ : V2 F32) := by
    rw [← ofInt_eq, ← ofInt_eq, ← ofInt_eq]; rfl
  unfold coordsToDir
  rw [e]
  generalize ffma (fsub (ofRat 1) (fmul (fadd (ofInt c.x.toNat) (ofRat 0.5)) (fdiv (ofRat 1) (ofInt n)))) (ofRat 2) (ofRat (-1)) = s at *
  generalize ffma (fsub (ofRat 1) (fmul (fadd (ofInt c.y.toNat) (ofRat 0.5)) (fdiv (ofRat 1) (ofInt n)))) (ofRat 2) (ofRat (-1)) = t at *
  obtain ⟨⟨N1, N2⟩, L1, L2⟩ := len_range sb tb
  have fn : ∀ {a : F32}, a.isFinite = true → (fneg a).isFinite = true := fun {a} h => (fneg_finite a).trans h
  have a1 : |(1 : ℝ)| = 1 := abs_one
  have a2 : |(-1 : ℝ)| = 1 := by rw [abs_neg, abs_one]
  have ov := BoxTest.one_val.2
  have of := BoxTest.one_val.1
  have mv := mone_val.2
  have mf := mone_val.1
  have all3 : ∀ {a b c : F32}, a.isFinite = true → b.isFinite = true → c.isFinite = true → AllFinite (⟨a, b, c⟩ : V3 F32).toList := by
    intro a b c ha hb hc w hw
    have : w = a ∨ w = b ∨ w = c := by simpa [V3.toList] using hw
    rcases this with rfl | rfl | rfl
    exacts [ha, hb, hc]
  have norm3 : ∀ a b c : F32, normSq (⟨a, b, c⟩ : V3 F32).toList = a.val ^ 2 + (b.val ^ 2 + c.val ^ 2) := by
    intro a b c
    simp [normSq, V3.toList, rv, F32.val]
  have dirs : ∀ {face : BitVec 32}, stToDir (⟨s, t⟩ : V2 F32) face = (if face = 0 then some (V3.normalize ⟨ofRat 1, t, s⟩)
      else if face = 1 then some (V3.normalize ⟨ofRat (-1), t, fneg s⟩)
      else if face = 2 then some (V3.normalize ⟨fneg s, ofRat 1, fneg t⟩)
      else if face = 3 then some (V3.normalize ⟨fneg s, ofRat (-1), t⟩)
      else if face = 4 then some (V3.normalize ⟨fneg s, t, ofRat 1⟩)
      else if face = 5 then some (V3.normalize ⟨s, t, ofRat (-1)⟩) else none) := by
    intro face
    unfold stToDir faceDir
    split_ifs <;> rfl
  have hf : c.z = 0 ∨ c.z = 1 ∨ c.z = 2 ∨ c.z = 3 ∨ c.z = 4 ∨ c.z = 5 := by
    have e : c.z = BitVec.ofNat 32 c.z.toNat := by simp
    rw [e]
    generalize c.z.toNat = n at hz
    interval_cases n <;> simp
  rw [dirs]
  generalize ofRat 1 = o at *
  generalize ofRat (-1) = mo at *
  clear dirs e
  obtain ⟨cx, cy, cz⟩ := c
  dsimp only at *
  rcases hf with rfl | rfl | rfl | rfl | rfl | rfl
  · refine ⟨V3.normalize ⟨o, t, s⟩, rfl, ?_⟩
    obtain ⟨f, A, B, C⟩ := unit3 (v := ⟨o, t, s⟩) (all3 of tf sf) (N := 1 + s.val ^ 2 + t.val ^ 2)
      (by rw [norm3]; simp only [SatF32.neg_val, ov, mv]; ring) N1 N2
    generalize V3.normalize (⟨o, t, s⟩ : V3 F32) = d at *
    simp only [SatF32.neg_val, ov, mv] at A B C
    refine ⟨f, ?_⟩
    have hs := found (σ := 1) (ε := 1) (b := cubeS 0 ⟨d.x.val, d.y.val, d.z.val⟩ / |cubeMajor 0 ⟨d.x.val, d.y.val, d.z.val⟩|) n0 n1 L1 L2
      a1 (Or.inl rfl) sb sv A (by simpa using C) (by simp [cubeS, cubeMajor])
    have ht := found (σ := 1) (ε := 1) (b := cubeT 0 ⟨d.x.val, d.y.val, d.z.val⟩ / |cubeMajor 0 ⟨d.x.val, d.y.val, d.z.val⟩|) n0 n1 L1 L2
      a1 (Or.inl rfl) tb tv A (by simpa using B) (by simp [cubeT, cubeMajor])
    refine ⟨?_, hs.2, ht.2⟩
    have := hs.1
    simp only [alongAxis, faceNormal, rv]
    simpa [F32.val] using this
  · refine ⟨V3.normalize ⟨mo, t, (fneg s)⟩, rfl, ?_⟩
    obtain ⟨f, A, B, C⟩ := unit3 (v := ⟨mo, t, (fneg s)⟩) (all3 mf tf (fn sf)) (N := 1 + s.val ^ 2 + t.val ^ 2)
      (by rw [norm3]; simp only [SatF32.neg_val, ov, mv]; ring) N1 N2
    generalize V3.normalize (⟨mo, t, (fneg s)⟩ : V3 F32) = d at *
    simp only [SatF32.neg_val, ov, mv] at A B C
    refine ⟨f, ?_⟩
    have hs := found (σ := -1) (ε := -1) (b := cubeS 1 ⟨d.x.val, d.y.val, d.z.val⟩ / |cubeMajor 1 ⟨d.x.val, d.y.val, d.z.val⟩|) n0 n1 L1 L2
      a2 (Or.inr rfl) sb sv A (by simpa using C) (by simp [cubeS, cubeMajor])
    have ht := found (σ := -1) (ε := 1) (b := cubeT 1 ⟨d.x.val, d.y.val, d.z.val⟩ / |cubeMajor 1 ⟨d.x.val, d.y.val, d.z.val⟩|) n0 n1 L1 L2
      a2 (Or.inl rfl) tb tv A (by simpa using B) (by simp [cubeT, cubeMajor])
    refine ⟨?_, hs.2, ht.2⟩
    have := hs.1
    simp only [alongAxis, faceNormal, rv]
    simpa [F32.val] using this
  · refine ⟨V3.normalize ⟨(fneg s), o, (fneg t)⟩, rfl, ?_⟩
    obtain ⟨f, A, B, C⟩ := unit3 (v := ⟨(fneg s), o, (fneg t)⟩) (all3 (fn sf) of (fn tf)) (N := 1 + s.val ^ 2 + t.val ^ 2)
      (by rw [norm3]; simp only [SatF32.neg_val, ov, mv]; ring) N1 N2
    generalize V3.normalize (⟨(fneg s), o, (fneg t)⟩ : V3 F32) = d at *
    simp only [SatF32.neg_val, ov, mv] at A B C
    refine ⟨f, ?_⟩
    have hs := found (σ := 1) (ε := -1) (b := cubeS 2 ⟨d.x.val, d.y.val, d.z.val⟩ / |cubeMajor 2 ⟨d.x.val, d.y.val, d.z.val⟩|) n0 n1 L1 L2
      a1 (Or.inr rfl) sb sv B (by simpa using A) (by simp [cubeS, cubeMajor])
    have ht := found (σ := 1) (ε := -1) (b := cubeT 2 ⟨d.x.val, d.y.val, d.z.val⟩ / |cubeMajor 2 ⟨d.x.val, d.y.val, d.z.val⟩|) n0 n1 L1 L2
      a1 (Or.inr rfl) tb tv B (by simpa using C) (by simp [cubeT, cubeMajor])
    refine ⟨?_, hs.2, ht.2⟩
    have := hs.1
    simp only [alongAxis, faceNormal, rv]
    simpa [F32.val] using this
  · refine ⟨V3.normalize ⟨(fneg s), mo, t⟩, rfl, ?_⟩
    obtain ⟨f, A, B, C⟩ := unit3 (v := ⟨(fneg s), mo, t⟩) (all3 (fn sf) mf tf) (N := 1 + s.val ^ 2 + t.val ^ 2)
      (by rw [norm3]; simp only [SatF32.neg_val, ov, mv]; ring) N1 N2
    generalize V3.normalize (⟨(fneg s), mo, t⟩ : V3 F32) = d at *
    simp only [SatF32.neg_val, ov, mv] at A B C
    refine ⟨f, ?_⟩
    have hs := found (σ := -1) (ε := -1) (b := cubeS 3 ⟨d.x.val, d.y.val, d.z.val⟩ / |cubeMajor 3 ⟨d.x.val, d.y.val, d.z.val⟩|) n0 n1 L1 L2
      a2 (Or.inr rfl) sb sv B (by simpa using A) (by simp [cubeS, cubeMajor])
    have ht := found (σ := -1) (ε := 1) (b := cubeT 3 ⟨d.x.val, d.y.val, d.z.val⟩ / |cubeMajor 3 ⟨d.x.val, d.y.val, d.z.val⟩|) n0 n1 L1 L2
      a2 (Or.inl rfl) tb tv B (by simpa using C) (by simp [cubeT, cubeMajor])
    refine ⟨?_, hs.2, ht.2⟩
    have := hs.1
    simp only [alongAxis, faceNormal, rv]
    simpa [F32.val] using this
  · refine ⟨V3.normalize ⟨(fneg s), t, o⟩, rfl, ?_⟩
    obtain ⟨f, A, B, C⟩ := unit3 (v := ⟨(fneg s), t, o⟩) (all3 (fn sf) tf of) (N := 1 + s.val ^ 2 + t.val ^ 2)
      (by rw [norm3]; simp only [SatF32.neg_val, ov, mv]; ring) N1 N2
    generalize V3.normalize (⟨(fneg s), t, o⟩ : V3 F32) = d at *
    simp only [SatF32.neg_val, ov, mv] at A B C
    refine ⟨f, ?_⟩
    have hs := found (σ := 1) (ε := -1) (b := cubeS 4 ⟨d.x.val, d.y.val, d.z.val⟩ / |cubeMajor 4 ⟨d.x.val, d.y.val, d.z.val⟩|) n0 n1 L1 L2
      a1 (Or.inr rfl) sb sv C (by simpa using A) (by simp [cubeS, cubeMajor])
    have ht := found (σ := 1) (ε := 1) (b := cubeT 4 ⟨d.x.val, d.y.val, d.z.val⟩ / |cubeMajor 4 ⟨d.x.val, d.y.val, d.z.val⟩|) n0 n1 L1 L2
      a1 (Or.inl rfl) tb tv C (by simpa using B) (by simp [cubeT, cubeMajor])
    refine ⟨?_, hs.2, ht.2⟩
    have := hs.1
    simp only [alongAxis, faceNormal, rv]
    simpa [F32.val] using this
  · refine ⟨V3.normalize ⟨s, t, mo⟩, rfl, ?_⟩
    obtain ⟨f, A, B, C⟩ := unit3 (v := ⟨s, t, mo⟩) (all3 sf tf mf) (N := 1 + s.val ^ 2 + t.val ^ 2)
      (by rw [norm3]; simp only [SatF32.neg_val, ov, mv]; ring) N1 N2
    generalize V3.normalize (⟨s, t, mo⟩ : V3 F32) = d at *
    simp only [SatF32.neg_val, ov, mv] at A B C
    refine ⟨f, ?_⟩
    have hs := found (σ := -1) (ε := 1) (b := cubeS 5 ⟨d.x.val, d.y.val, d.z.val⟩ / |cubeMajor 5 ⟨d.x.val, d.y.val, d.z.val⟩|) n0 n1 L1 L2
      a2 (Or.inl rfl) sb sv C (by simpa using A) (by simp [cubeS, cubeMajor])
    have ht := found (σ := -1) (ε := 1) (b := cubeT 5 ⟨d.x.val, d.y.val, d.z.val⟩ / |cubeMajor 5 ⟨d.x.val, d.y.val, d.z.val⟩|) n0 n1 L1 L2
      a2 (Or.inl rfl) tb tv C (by simpa using B) (by simp [cubeT, cubeMajor])
    refine ⟨?_, hs.2, ht.2⟩
    have := hs.1
    simp only [alongAxis, faceNormal, rv]
    simpa [F32.val] using this

/-- A texel of a face of a cube map with seven texels on a side: it looks up itself. -/
example : ∃ d : V3 F32, coordsToDir ⟨3, 5, 2⟩ (fdiv (ofRat 1) (FltB.ofInt (7 : ℕ))) = some d ∧
    (3 / 7 : ℝ) < (rv d.x / |rv d.y| + 1) / 2 ∧ (rv d.x / |rv d.y| + 1) / 2 < 4 / 7 := by
  obtain ⟨d, h1, -, -, ⟨-, h2, h3⟩, -⟩ := coordsToDir_texel ⟨3, 5, 2⟩ 7 (by norm_num) (by decide) (by decide) (by decide)
  refine ⟨d, h1, ?_, ?_⟩
  · simpa [cubeS, cubeMajor] using h2
  · have h4 : (rv d.x / |rv d.y| + 1) / 2 < ((3 : ℕ) + 1 : ℝ) / 7 := h3
    norm_num at h4 ⊢
    exact h4

end Verif
