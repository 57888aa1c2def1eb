import Verif.Proofs.F32Bound
import Verif.Spec.ShF32
import Verif.Props.Sh
import Verif.Props.ShRotate

/-!
# C127: spherical harmonics in binary32
-/

namespace Verif
open F32 Sh Spec

namespace ShF32

/-- The nine stored expressions. -/
theorem basis_eq {F : Type} [Flt F] [FltB F] (s : V3 F) (a0 : List F) (h : a0.length = 9) :
    computeShBasis s a0 = some
      (let one := Flt.lit (F := F) 1
       let p1 := (FltB.ofInt 1 *. one *. s.z -. FltB.ofInt 0 *. Flt.lit 0) /. FltB.ofInt 1
       let q1 := FltB.ofInt (-1) *. one
       let q2 := FltB.ofInt (-3) *. q1
       let w := FltB.ofInt 3 *. q1 *. s.z
       [one, q1 *. s.y, p1, q1 *. s.x, q2 *. (s.y *. s.x +. s.x *. s.y), w *. s.y,
        (FltB.ofInt 3 *. p1 *. s.z -. FltB.ofInt 1 *. one) /. FltB.ofInt 2, w *. s.x, q2 *. (s.x *. s.x -. s.y *. s.y)]) := by
  match a0, h with
  | [b0, b1, b2, b3, b4, b5, b6, b7, b8], _ =>
    simp [computeShBasis, store, load, scale, basisLoop0, basisLoop1, basisLoop2, basisScale, shIndex,
      Ibl.shBandCount, List.range']

theorem unit_coords {d : V3 ℝ} (h : inner3 d d = 1) : |d.x| ≤ 1 ∧ |d.y| ≤ 1 ∧ |d.z| ≤ 1 := by
  simp only [inner3] at h
  refine ⟨?_, ?_, ?_⟩ <;> rw [← sq_le_one_iff_abs_le_one] <;> nlinarith [sq_nonneg d.x, sq_nonneg d.y, sq_nonneg d.z]

variable {e δ B : ℝ}

theorem ok (e0 : 0 ≤ e) (e1 : e ≤ 1 / 2048) : BdOk (e + 1 / 2 ^ 24) 1 :=
  ⟨by linarith, by have : (1 : ℝ) / 2048 + 1 / 2 ^ 24 ≤ 1 / 1024 := by norm_num
                   linarith, by norm_num, by norm_num⟩

theorem inp {r : F32} {x : ℝ} (h : Near r x e) (hx : |x| ≤ 1) : Bd (e + 1 / 2 ^ 24) 1 r x 1 1 := by
  refine ⟨h.1, h.2.trans ?_, by simpa using hx⟩
  have : (0 : ℝ) ≤ 1 / 2 ^ 24 := by positivity
  have : (0 : ℝ) ≤ 1 / 2 ^ 100 := by positivity
  linarith

/-- Integer constants. -/
theorem c1 (o : BdOk δ 1) : Bd δ 1 (FltB.ofInt 1 : F32) 1 1 0 :=
  Bd.cst o (U := 2 ^ 149) (e := 0) (by decide +kernel) (by decide +kernel) (by norm_num) (by norm_num) (by norm_num)
theorem l1 (o : BdOk δ 1) : Bd δ 1 (Flt.lit 1 : F32) 1 1 0 :=
  Bd.cst o (U := 2 ^ 149) (e := 0) (by decide +kernel) (by decide +kernel) (by norm_num) (by norm_num) (by norm_num)
theorem c11 (o : BdOk δ 1) : Bd δ 1 (FltB.ofInt 1 *. Flt.lit 1 : F32) 1 1 0 :=
  Bd.cst o (U := 2 ^ 149) (e := 0) (by decide +kernel) (by decide +kernel) (by norm_num) (by norm_num) (by norm_num)
theorem c00 (o : BdOk δ 1) : Bd δ 1 (FltB.ofInt 0 *. Flt.lit 0 : F32) 0 0 0 :=
  Bd.cst o (U := 0) (e := 0) (by decide +kernel) (by decide +kernel) (by norm_num) (by norm_num) (by norm_num)
theorem c3 (o : BdOk δ 1) : Bd δ 1 (FltB.ofInt 3 : F32) 3 3 0 :=
  Bd.cst o (U := 3 * 2 ^ 149) (e := 0) (by decide +kernel) (by decide +kernel) (by norm_num) (by norm_num) (by norm_num)
theorem q1 (o : BdOk δ 1) : Bd δ 1 (FltB.ofInt (-1) *. Flt.lit 1 : F32) (-1) 1 0 :=
  Bd.cst o (U := -2 ^ 149) (e := 0) (by decide +kernel) (by decide +kernel) (by norm_num) (by norm_num) (by norm_num)
theorem q2 (o : BdOk δ 1) : Bd δ 1 (FltB.ofInt (-3) *. (FltB.ofInt (-1) *. Flt.lit 1) : F32) 3 3 0 :=
  Bd.cst o (U := 3 * 2 ^ 149) (e := 0) (by decide +kernel) (by decide +kernel) (by norm_num) (by norm_num) (by norm_num)
theorem q3 (o : BdOk δ 1) : Bd δ 1 (FltB.ofInt 3 *. (FltB.ofInt (-1) *. Flt.lit 1) : F32) (-3) 3 0 :=
  Bd.cst o (U := -3 * 2 ^ 149) (e := 0) (by decide +kernel) (by decide +kernel) (by norm_num) (by norm_num) (by norm_num)
theorem v1 : (FltB.ofInt 1 : F32).isFinite = true ∧ (FltB.ofInt 1 : F32).val = 1 := by
  refine ⟨by decide +kernel, ?_⟩
  rw [val_units, show (FltB.ofInt 1 : F32).units = 2 ^ 149 by decide +kernel]; norm_num
theorem v2 : (FltB.ofInt 2 : F32).isFinite = true ∧ (FltB.ofInt 2 : F32).val = 2 := by
  refine ⟨by decide +kernel, ?_⟩
  rw [val_units, show (FltB.ofInt 2 : F32).units = 2 * 2 ^ 149 by decide +kernel]; norm_num

/-- `n` is the exact list and `r` is close to it. -/
theorem basis_bd (s : V3 F32) (d : V3 ℝ) (hd : inner3 d d = 1) (e0 : 0 ≤ e) (e1 : e ≤ 1 / 2048) (hx : Near s.x d.x e)
    (hy : Near s.y d.y e) (hz : Near s.z d.z e) (a0 : List F32) (h : a0.length = 9) :
    ∃ b, computeShBasis s a0 = some b ∧ List.Forall₂ (fun r x => Bd (e + 1 / 2 ^ 24) 1 r x 6 32) b
      [1, -d.y, d.z, -d.x, 6 * d.x * d.y, -3 * d.y * d.z, (3 * d.z ^ 2 - 1) / 2, -3 * d.x * d.z, 3 * (d.x ^ 2 - d.y ^ 2)] := by
  have o := ok e0 e1
  obtain ⟨ux, uy, uz⟩ := unit_coords hd
  have x := inp hx ux
  have y := inp hy uy
  have z := inp hz uz
  refine ⟨_, basis_eq s a0 h, ?_⟩
  simp only
  generalize e + 1 / 2 ^ 24 = δ at *
  have p1 := (((c11 o).mul z o (C := 2.1) (E := 1) (by norm_num) (by norm_num) (by norm_num) (by norm_num) (by norm_num) (by norm_num)).sub
    (c00 o) o (C := 3.2) (by norm_num) (by norm_num) (by norm_num) (by norm_num)).quot v1.1 v1.2 (by norm_num) o (C := 4.3)
      (by norm_num) (by norm_num) (by norm_num) (by norm_num)
  have p2 := ((((c3 o).mul p1 o (C := 16.2) (E := 13) (by norm_num) (by norm_num) (by norm_num) (by norm_num) (by norm_num) (by norm_num)).mul
    z o (C := 22.6) (E := 19.4) (by norm_num) (by norm_num) (by norm_num) (by norm_num) (by norm_num) (by norm_num)).sub (c11 o) o (C := 26.8)
      (by norm_num) (by norm_num) (by norm_num) (by norm_num)).quot v2.1 v2.2 (by norm_num) o (C := 16)
      (by norm_num) (by norm_num) (by norm_num) (by norm_num)
  have xx := x.mul x o (C := 3.1) (E := 2.01) (by norm_num) (by norm_num) (by norm_num) (by norm_num) (by norm_num) (by norm_num)
  have yy := y.mul y o (C := 3.1) (E := 2.01) (by norm_num) (by norm_num) (by norm_num) (by norm_num) (by norm_num) (by norm_num)
  have xy := x.mul y o (C := 3.1) (E := 2.01) (by norm_num) (by norm_num) (by norm_num) (by norm_num) (by norm_num) (by norm_num)
  have yx := y.mul x o (C := 3.1) (E := 2.01) (by norm_num) (by norm_num) (by norm_num) (by norm_num) (by norm_num) (by norm_num)
  have e4 := (q2 o).mul (yx.add xy o (C := 8.3) (by norm_num) (by norm_num) (by norm_num) (by norm_num)) o (C := 32) (E := 25)
    (by norm_num) (by norm_num) (by norm_num) (by norm_num) (by norm_num) (by norm_num)
  have e8 := (q2 o).mul (xx.sub yy o (C := 8.3) (by norm_num) (by norm_num) (by norm_num) (by norm_num)) o (C := 32) (E := 25)
    (by norm_num) (by norm_num) (by norm_num) (by norm_num) (by norm_num) (by norm_num)
  have w := (q3 o).mul z o (C := 6.1) (E := 3) (by norm_num) (by norm_num) (by norm_num) (by norm_num) (by norm_num) (by norm_num)
  have e5 := w.mul y o (C := 12.3) (E := 9.2) (by norm_num) (by norm_num) (by norm_num) (by norm_num) (by norm_num) (by norm_num)
  have e7 := w.mul x o (C := 12.3) (E := 9.2) (by norm_num) (by norm_num) (by norm_num) (by norm_num) (by norm_num) (by norm_num)
  have e2 := (q1 o).mul y o (C := 2.1) (E := 1) (by norm_num) (by norm_num) (by norm_num) (by norm_num) (by norm_num) (by norm_num)
  have e3 := (q1 o).mul x o (C := 2.1) (E := 1) (by norm_num) (by norm_num) (by norm_num) (by norm_num) (by norm_num) (by norm_num)
  refine .cons ((l1 o).mono o (by norm_num) (by norm_num)) (.cons ((e2.mono o (by norm_num) (by norm_num)).of_eq (by ring))
    (.cons ((p1.mono o (by norm_num) (by norm_num)).of_eq (by ring)) (.cons ((e3.mono o (by norm_num) (by norm_num)).of_eq (by ring))
    (.cons ((e4.mono o (by norm_num) (by norm_num)).of_eq (by ring)) (.cons ((e5.mono o (by norm_num) (by norm_num)).of_eq (by ring))
    (.cons ((p2.mono o (by norm_num) (by norm_num)).of_eq (by ring)) (.cons ((e7.mono o (by norm_num) (by norm_num)).of_eq (by ring))
    (.cons ((e8.mono o (by norm_num) (by norm_num)).of_eq (by ring)) .nil))))))))

/-! ## Rotation -/

theorem l0 (o : BdOk δ 1) : Bd δ 1 (Flt.lit 0 : F32) 0 2 1 :=
  Bd.cst o (U := 0) (e := 0) (by decide +kernel) (by decide +kernel) (by norm_num) (by norm_num) (by norm_num)
theorem lm1 (o : BdOk δ 1) : Bd δ 1 (Flt.lit (-1) : F32) (-1) 2 1 :=
  Bd.cst o (U := -2 ^ 149) (e := 0) (by decide +kernel) (by decide +kernel) (by norm_num) (by norm_num) (by norm_num)
theorem l2 (o : BdOk δ 1) : Bd δ 1 (Flt.lit 2 : F32) 2 2 1 :=
  Bd.cst o (U := 2 * 2 ^ 149) (e := 0) (by decide +kernel) (by decide +kernel) (by norm_num) (by norm_num) (by norm_num)
theorem lm2 (o : BdOk δ 1) : Bd δ 1 (Flt.lit (-2) : F32) (-2) 2 1 :=
  Bd.cst o (U := -2 * 2 ^ 149) (e := 0) (by decide +kernel) (by decide +kernel) (by norm_num) (by norm_num) (by norm_num)
theorem l3 (o : BdOk δ 1) : Bd δ 1 (Flt.lit 3 : F32) 3 3 0 :=
  Bd.cst o (U := 3 * 2 ^ 149) (e := 0) (by decide +kernel) (by decide +kernel) (by norm_num) (by norm_num) (by norm_num)
theorem lh (o : BdOk δ 1) : Bd δ 1 (Flt.lit 0.5 : F32) (1 / 2) (1 / 2) 0 :=
  Bd.cst o (U := 2 ^ 148) (e := 0) (by decide +kernel) (by decide +kernel) (by norm_num) (by norm_num) (by norm_num)

theorem s3_bounds : 1.73205080 ≤ Real.sqrt 3 ∧ Real.sqrt 3 ≤ 1.73205081 :=
  ⟨Real.le_sqrt_of_sq_le (by norm_num), by rw [Real.sqrt_le_left (by norm_num)]; norm_num⟩
theorem sh_bounds : 0.70710678 ≤ Real.sqrt (1 / 2) ∧ Real.sqrt (1 / 2) ≤ 0.70710679 :=
  ⟨Real.le_sqrt_of_sq_le (by norm_num), by rw [Real.sqrt_le_left (by norm_num)]; norm_num⟩

theorem b3 (o : BdOk δ 1) : Bd δ 1 (FltC.sqrt3 : F32) (Real.sqrt 3) 2 1 := by
  have := s3_bounds
  refine Bd.cst o (U := 1236032737191485200049696010451709767377223680) (e := 1 / 2 ^ 24) (by decide +kernel) (by decide +kernel) ?_
    (by norm_num) (by rw [abs_of_nonneg (Real.sqrt_nonneg _)]; linarith)
  rw [abs_le]
  generalize Real.sqrt 3 = t at *
  push_cast; norm_num at *; constructor <;> linarith
theorem bh (o : BdOk δ 1) : Bd δ 1 (FltC.sqrtHalf : F32) (Real.sqrt (1 / 2)) 0.71 1 := by
  have := sh_bounds
  refine Bd.cst o (U := 504608252336616452206396637872121185363296256) (e := 1 / 2 ^ 24) (by decide +kernel) (by decide +kernel) ?_
    (by norm_num) (by rw [abs_of_nonneg (Real.sqrt_nonneg _)]; linarith)
  rw [abs_le]
  generalize Real.sqrt (1 / 2) = t at *
  push_cast; norm_num at *; constructor <;> linarith
theorem bk (o : BdOk δ 1) : Bd δ 1 (Flt.lit 1 /. (Flt.lit 2 *. FltC.sqrt3) : F32) (1 / (2 * Real.sqrt 3)) 0.3 1 := by
  obtain ⟨h1, h2⟩ := s3_bounds
  have h0 : Real.sqrt 3 * Real.sqrt 3 = 3 := Real.mul_self_sqrt (by norm_num)
  have e : 1 / (2 * Real.sqrt 3) = Real.sqrt 3 / 6 := by
    rw [div_eq_div_iff (by positivity) (by norm_num)]; linarith
  rw [e]
  refine Bd.cst o (U := 206005456198580866674949335075284961229537280) (e := 1 / 2 ^ 24) (by decide +kernel) (by decide +kernel) ?_
    (by norm_num) (by rw [abs_of_nonneg (by positivity)]; linarith)
  rw [abs_le]
  generalize Real.sqrt 3 = t at *
  push_cast; norm_num at *; constructor <;> linarith

/-- Five projected components and their exact values. -/
def P5 (δ : ℝ) (p : V5 F32) (h : V5 ℝ) : Prop :=
  Bd δ 1 p.a0 h.a0 1 17 ∧ Bd δ 1 p.a1 h.a1 1 17 ∧ Bd δ 1 p.a2 h.a2 1 17 ∧ Bd δ 1 p.a3 h.a3 1 17 ∧ Bd δ 1 p.a4 h.a4 1 17

/-- Unit vectors and their harmonics. -/
theorem proj_bd (o : BdOk δ 1) {s : V3 F32} {D : V3 ℝ} (hD : inner3 D D = 1) (x : Bd δ 1 s.x D.x 1 6) (y : Bd δ 1 s.y D.y 1 6)
    (z : Bd δ 1 s.z D.z 1 6) :
    P5 δ (projectVecToSH2K s) (harmonics2 D) := by
  obtain ⟨ux, uy, uz⟩ := unit_coords hD
  have prod : ∀ {r t : F32} {a b : ℝ}, Bd δ 1 r a 1 6 → Bd δ 1 t b 1 6 → Bd δ 1 (fmul r t) (a * b) 1 13.2 := fun ha hb =>
    (ha.mul hb o (C := 13.2) (E := 12.1) (by norm_num) (by norm_num) (by norm_num) (by norm_num) (by norm_num) (by norm_num)).mono o
      (by norm_num) (by norm_num)
  refine ⟨?_, ?_, ?_, ?_, ?_⟩
  · exact ((prod y x).mono o le_rfl (by norm_num)).of_eq (by simp only [harmonics2]; ring)
  · exact ((prod y z).neg.mono o le_rfl (by norm_num)).of_eq (by simp only [harmonics2])
  · have e : (projectVecToSH2K s).a2 =
        Flt.mul (Flt.lit 1 /. (Flt.lit 2 *. FltC.sqrt3)) (Flt.sub (Flt.mul (Flt.mul (Flt.lit 3) s.z) s.z) (Flt.lit 1)) := rfl
    rw [e]
    have K := bk o
    have k1 := l1 o
    have k3 := l3 o
    generalize (Flt.lit 1 /. (Flt.lit 2 *. FltC.sqrt3) : F32) = K' at *
    generalize (Flt.lit 1 : F32) = K1 at *
    generalize (Flt.lit 3 : F32) = K3 at *
    have z3 := ((k3.mul z o (C := 21.1) (E := 18) (by norm_num) (by norm_num) (by norm_num) (by norm_num) (by norm_num) (by norm_num)).mul z o
      (C := 42.4) (E := 39.3) (by norm_num) (by norm_num) (by norm_num) (by norm_num) (by norm_num) (by norm_num)).sub k1 o (C := 46.6)
      (by norm_num) (by norm_num) (by norm_num) (by norm_num)
    have z4 : Bd δ 1 _ (3 * D.z * D.z - 1) 2 46.6 := z3.sharp (by
      rw [abs_le] at uz ⊢
      have := mul_nonneg (by linarith : 0 ≤ D.z + 1) (by linarith : 0 ≤ 1 - D.z)
      have := mul_self_nonneg D.z
      constructor <;> linarith)
    have z5 := K.mul z4 o (C := 16.9) (E := 16.1) (by norm_num) (by norm_num) (by norm_num) (by norm_num) (by norm_num) (by norm_num)
    exact (z5.mono o (by norm_num) (by norm_num)).of_eq (by simp only [harmonics2]; ring)
  · exact ((prod z x).neg.mono o le_rfl (by norm_num)).of_eq (by simp only [harmonics2]; ring)
  · have e : (projectVecToSH2K s).a4 = Flt.mul (Flt.lit 0.5) (Flt.sub (Flt.mul s.x s.x) (Flt.mul s.y s.y)) := rfl
    rw [e]
    have k := lh o
    generalize (Flt.lit 0.5 : F32) = K at *
    have q := k.mul ((prod x x).sub (prod y y) o (C := 28.6) (by norm_num) (by norm_num) (by norm_num) (by norm_num)) o (C := 16) (E := 14.4)
      (by norm_num) (by norm_num) (by norm_num) (by norm_num) (by norm_num) (by norm_num)
    exact (q.mono o (by norm_num) (by norm_num)).of_eq (by simp only [harmonics2]; ring)

/-- A scaled sum of two columns. -/
theorem half_bd (o : BdOk δ 1) {a b : F32} {α β : ℝ} (ha : Bd δ 1 a α 1 1) (hb : Bd δ 1 b β 1 1)
    (H : Bd δ 1 (FltC.sqrtHalf : F32) (Real.sqrt (1 / 2)) 0.71 1) (h : |(α + β) * Real.sqrt (1 / 2)| ≤ 1) :
    Bd δ 1 (fmul (fadd a b) FltC.sqrtHalf) ((α + β) * Real.sqrt (1 / 2)) 1 6 := by
  have h1 : |α + β| ≤ 1.5 * 1 := by
    rw [abs_mul, abs_of_nonneg (Real.sqrt_nonneg _)] at h
    have := sh_bounds.1
    by_contra hc
    have h3 := mul_lt_mul (not_le.1 hc) this (by norm_num) (abs_nonneg _)
    have h4 : (1 : ℝ) < 1.5 * 1 * 0.70710678 := by norm_num
    linarith
  have q := ((ha.add hb o (C := 4.1) (by norm_num) (by norm_num) (by norm_num) (by norm_num)).sharp h1).mul H o (C := 5.9) (E := 4.6)
    (by norm_num) (by norm_num) (by norm_num) (by norm_num) (by norm_num) (by norm_num)
  exact (q.mono o le_rfl (by norm_num)).sharp (by simpa using h)

/-- A row of the first product. -/
theorem row1 (o : BdOk δ B) {m0 m1 m2 m3 m4 : F32} {v : V5 F32} {M0 M1 M2 M3 M4 : ℝ} {V : V5 ℝ} (h0 : Bd δ 1 m0 M0 2 1)
    (h1 : Bd δ 1 m1 M1 2 1) (h2 : Bd δ 1 m2 M2 2 1) (h3 : Bd δ 1 m3 M3 2 1) (h4 : Bd δ 1 m4 M4 2 1) (k0 : Bd δ B v.a0 V.a0 1 0)
    (k1 : Bd δ B v.a1 V.a1 1 0) (k2 : Bd δ B v.a2 V.a2 1 0) (k3 : Bd δ B v.a3 V.a3 1 0) (k4 : Bd δ B v.a4 V.a4 1 0) :
    Bd δ B (mulRow m0 m1 m2 m3 m4 v) (mulRow M0 M1 M2 M3 M4 V) 10 44 := by
  have prod : ∀ {r t : F32} {a b : ℝ}, Bd δ 1 r a 2 1 → Bd δ B t b 1 0 → Bd δ B (fmul r t) (a * b) 2 3.1 := fun ha hb =>
    (ha.mul hb o (C := 3.1) (E := 1.01) (by norm_num) (by norm_num) (by norm_num) (by norm_num) (by norm_num) (by norm_num)).mono o
      (by norm_num) (by norm_num)
  have q := ((((prod h0 k0).add (prod h1 k1) o (C := 10.3) (by norm_num) (by norm_num) (by norm_num) (by norm_num)).add (prod h2 k2) o (C := 19.5)
    (by norm_num) (by norm_num) (by norm_num) (by norm_num)).add (prod h3 k3) o (C := 30.7) (by norm_num) (by norm_num) (by norm_num)
    (by norm_num)).add (prod h4 k4) o (C := 44) (by norm_num) (by norm_num) (by norm_num) (by norm_num)
  exact q.mono o (by norm_num) (by norm_num)

/-- A row of the second product. -/
theorem row2 (o : BdOk δ B) {m0 m1 m2 m3 m4 : F32} {v : V5 F32} {M0 M1 M2 M3 M4 : ℝ} {V : V5 ℝ} (h0 : Bd δ 1 m0 M0 1 17)
    (h1 : Bd δ 1 m1 M1 1 17) (h2 : Bd δ 1 m2 M2 1 17) (h3 : Bd δ 1 m3 M3 1 17) (h4 : Bd δ 1 m4 M4 1 17) (k0 : Bd δ B v.a0 V.a0 5 44)
    (k1 : Bd δ B v.a1 V.a1 5 44) (k2 : Bd δ B v.a2 V.a2 2 44) (k3 : Bd δ B v.a3 V.a3 2 44) (k4 : Bd δ B v.a4 V.a4 2 44) :
    Bd δ B (mulRow m0 m1 m2 m3 m4 v) (mulRow M0 M1 M2 M3 M4 V) 16 600 := by
  have prod : ∀ {r t : F32} {a b : ℝ}, Bd δ 1 r a 1 17 → Bd δ B t b 5 44 → Bd δ B (fmul r t) (a * b) 5 135.2 := fun ha hb =>
    (ha.mul hb o (C := 135.2) (E := 130) (by norm_num) (by norm_num) (by norm_num) (by norm_num) (by norm_num) (by norm_num)).mono o
      (by norm_num) (by norm_num)
  have prod2 : ∀ {r t : F32} {a b : ℝ}, Bd δ 1 r a 1 17 → Bd δ B t b 2 44 → Bd δ B (fmul r t) (a * b) 2 81.1 := fun ha hb =>
    (ha.mul hb o (C := 81.1) (E := 79) (by norm_num) (by norm_num) (by norm_num) (by norm_num) (by norm_num) (by norm_num)).mono o
      (by norm_num) (by norm_num)
  have q := ((((prod h0 k0).add (prod h1 k1) o (C := 280.8) (by norm_num) (by norm_num) (by norm_num) (by norm_num)).add (prod2 h2 k2) o (C := 374.4)
    (by norm_num) (by norm_num) (by norm_num) (by norm_num)).add (prod2 h3 k3) o (C := 470.2) (by norm_num) (by norm_num) (by norm_num)
    (by norm_num)).add (prod2 h4 k4) o (C := 600) (by norm_num) (by norm_num) (by norm_num) (by norm_num)
  exact q.mono o (by norm_num) (by norm_num)

/-- The first product of `rotateBand2`. -/
def pre {F : Type} [Flt F] [FltC F] (b : V5 F) : V5 F :=
  multiply ⟨Flt.lit 0, Flt.lit 1, Flt.lit 2, Flt.lit 0, Flt.lit 0⟩ ⟨Flt.lit (-1), Flt.lit 0, Flt.lit 0, Flt.lit 0, Flt.lit (-2)⟩
    ⟨Flt.lit 0, FltC.sqrt3, Flt.lit 0, Flt.lit 0, Flt.lit 0⟩ ⟨Flt.lit 1, Flt.lit 1, Flt.lit 0, Flt.lit (-2), Flt.lit 0⟩
    ⟨Flt.lit 2, Flt.lit 1, Flt.lit 0, Flt.lit 0, Flt.lit 0⟩ b

theorem rotate_pre {F : Type} [Flt F] [FltC F] (b : V5 F) (m : M3 F) : rotateBand2 b m =
    multiply (projectVecToSH2K m.c0) (projectVecToSH2K m.c2) (projectVecToSH2K (V3.smul (V3.add m.c0 m.c1) FltC.sqrtHalf))
    (projectVecToSH2K (V3.smul (V3.add m.c0 m.c2) FltC.sqrtHalf))
    (projectVecToSH2K (V3.smul (V3.add m.c1 m.c2) FltC.sqrtHalf)) (pre b) := rfl

theorem pre_bd (o1 : BdOk δ 1) (o : BdOk δ B) {b : V5 F32} {V : V5 ℝ}
    (k0 : Bd δ B b.a0 V.a0 1 0) (k1 : Bd δ B b.a1 V.a1 1 0) (k2 : Bd δ B b.a2 V.a2 1 0) (k3 : Bd δ B b.a3 V.a3 1 0)
    (k4 : Bd δ B b.a4 V.a4 1 0) :
    Bd δ B (pre b).a0 (pre V).a0 5 44 ∧ Bd δ B (pre b).a1 (pre V).a1 5 44 ∧ Bd δ B (pre b).a2 (pre V).a2 2 44 ∧
    Bd δ B (pre b).a3 (pre V).a3 2 44 ∧ Bd δ B (pre b).a4 (pre V).a4 2 44 := by
  have z := l0 o1
  have u := (l1 o1).mono o1 (X' := 2) (c' := 1) (by norm_num) (by norm_num)
  have mu := lm1 o1
  have t := l2 o1
  have mt := lm2 o1
  have r := b3 o1
  have a0 := k0.big
  have a1 := k1.big
  have a2 := k2.big
  have a3 := k3.big
  have a4 := k4.big
  have s3 := s3_bounds
  have c3 : |Real.sqrt 3 * V.a2| ≤ 2 * B := by
    rw [abs_mul, abs_of_nonneg (Real.sqrt_nonneg _)]
    exact mul_le_mul (by linarith [s3.2]) (by linarith) (abs_nonneg _) (by norm_num)
  have e0 : (pre V).a0 = -V.a1 + V.a3 + 2 * V.a4 := by simp only [pre, vec]; push_cast; ring
  have e1 : (pre V).a1 = V.a0 + Real.sqrt 3 * V.a2 + V.a3 + V.a4 := by simp only [pre, vec]; push_cast; ring
  have e2 : (pre V).a2 = 2 * V.a0 := by simp only [pre, vec]; push_cast; ring
  have e3 : (pre V).a3 = -(2 * V.a3) := by simp only [pre, vec]; push_cast; ring
  have e4 : (pre V).a4 = -(2 * V.a1) := by simp only [pre, vec]; push_cast; ring
  have q0 := row1 o z mu z u t k0 k1 k2 k3 k4
  have q1 := row1 o u z r u u k0 k1 k2 k3 k4
  have q2 := row1 o t z z z z k0 k1 k2 k3 k4
  have q3 := row1 o z z z mt z k0 k1 k2 k3 k4
  have q4 := row1 o z mt z z z k0 k1 k2 k3 k4
  have tie : ∀ {m0 m1 m2 m3 m4 : F32} {x y X : ℝ}, Bd δ B (mulRow m0 m1 m2 m3 m4 b) x 10 44 → x = y → |y| ≤ X * B →
      Bd δ B (mulRow m0 m1 m2 m3 m4 b) y X 44 := fun h e g => (h.of_eq e).sharp g
  refine ⟨tie q0 (by rw [e0]; simp only [mulRow, vec]; push_cast; ring) ?_, tie q1 (by rw [e1]; simp only [mulRow, vec]; push_cast; ring) ?_,
    tie q2 (by rw [e2]; simp only [mulRow, vec]; push_cast; ring) ?_, tie q3 (by rw [e3]; simp only [mulRow, vec]; push_cast; ring) ?_,
    tie q4 (by rw [e4]; simp only [mulRow, vec]; push_cast; ring) ?_⟩
  · rw [e0, abs_le]; rw [abs_le] at *; constructor <;> linarith [a1.1, a1.2, a3.1, a3.2, a4.1, a4.2, o.pos]
  · rw [e1, abs_le]; rw [abs_le] at *; constructor <;> linarith [a0.1, a0.2, a3.1, a3.2, a4.1, a4.2, c3.1, c3.2]
  · rw [e2, abs_le]; rw [abs_le] at *; constructor <;> linarith [a0.1, a0.2]
  · rw [e3, abs_le]; rw [abs_le] at *; constructor <;> linarith [a3.1, a3.2]
  · rw [e4, abs_le]; rw [abs_le] at *; constructor <;> linarith [a1.1, a1.2]

/-- All five rotated coefficients. -/
theorem rotate_bd (o1 : BdOk δ 1) (o : BdOk δ B) {b : V5 F32} {V : V5 ℝ} {m : M3 F32} {M : M3 ℝ} (hM : Orthonormal3 M)
    (k0 : Bd δ B b.a0 V.a0 1 0) (k1 : Bd δ B b.a1 V.a1 1 0) (k2 : Bd δ B b.a2 V.a2 1 0) (k3 : Bd δ B b.a3 V.a3 1 0)
    (k4 : Bd δ B b.a4 V.a4 1 0)
    (x0 : Bd δ 1 m.c0.x M.c0.x 1 1) (y0 : Bd δ 1 m.c0.y M.c0.y 1 1) (z0 : Bd δ 1 m.c0.z M.c0.z 1 1)
    (x1 : Bd δ 1 m.c1.x M.c1.x 1 1) (y1 : Bd δ 1 m.c1.y M.c1.y 1 1) (z1 : Bd δ 1 m.c1.z M.c1.z 1 1)
    (x2 : Bd δ 1 m.c2.x M.c2.x 1 1) (y2 : Bd δ 1 m.c2.y M.c2.y 1 1) (z2 : Bd δ 1 m.c2.z M.c2.z 1 1) :
    Bd δ B (rotateBand2 b m).a0 (rotateBand2 V M).a0 16 600 ∧ Bd δ B (rotateBand2 b m).a1 (rotateBand2 V M).a1 16 600 ∧
    Bd δ B (rotateBand2 b m).a2 (rotateBand2 V M).a2 16 600 ∧ Bd δ B (rotateBand2 b m).a3 (rotateBand2 V M).a3 16 600 ∧
    Bd δ B (rotateBand2 b m).a4 (rotateBand2 V M).a4 16 600 := by
  obtain ⟨n0, n1, n2, n01, n02, n12⟩ := hM
  have sq : Real.sqrt (1 / 2) * Real.sqrt (1 / 2) = 1 / 2 := Real.mul_self_sqrt (by norm_num)
  have unit : ∀ {U W : V3 ℝ}, inner3 U U = 1 → inner3 W W = 1 → inner3 U W = 0 →
      inner3 (V3.smul (V3.add U W) (Real.sqrt (1 / 2))) (V3.smul (V3.add U W) (Real.sqrt (1 / 2))) = 1 := by
    intro U W h1 h2 h3
    simp only [inner3, vec] at *
    linear_combination (1 / 2) * h1 + (1 / 2) * h2 + h3 + ((U.x + W.x) ^ 2 + (U.y + W.y) ^ 2 + (U.z + W.z) ^ 2) * sq
  have pair : ∀ {u w : V3 F32} {U W : V3 ℝ}, inner3 U U = 1 → inner3 W W = 1 → inner3 U W = 0 → Bd δ 1 u.x U.x 1 1 → Bd δ 1 u.y U.y 1 1 →
      Bd δ 1 u.z U.z 1 1 → Bd δ 1 w.x W.x 1 1 → Bd δ 1 w.y W.y 1 1 → Bd δ 1 w.z W.z 1 1 →
      P5 δ (projectVecToSH2K (V3.smul (V3.add u w) FltC.sqrtHalf)) (harmonics2 (V3.smul (V3.add U W) (Real.sqrt (1 / 2)))) := by
    intro u w U W h1 h2 h3 a1 a2 a3 b1 b2 b3
    have hu := unit h1 h2 h3
    obtain ⟨g1, g2, g3⟩ := unit_coords hu
    exact proj_bd o1 (s := V3.smul (V3.add u w) FltC.sqrtHalf) hu (half_bd o1 a1 b1 (bh o1) g1) (half_bd o1 a2 b2 (bh o1) g2)
      (half_bd o1 a3 b3 (bh o1) g3)
  have six : ∀ {r : F32} {x : ℝ}, Bd δ 1 r x 1 1 → Bd δ 1 r x 1 6 := fun h => h.mono o1 le_rfl (by norm_num)
  have p0 := proj_bd o1 n0 (six x0) (six y0) (six z0)
  have p1 := proj_bd o1 n2 (six x2) (six y2) (six z2)
  have p2 := pair n0 n1 n01 x0 y0 z0 x1 y1 z1
  have p3 := pair n0 n2 n02 x0 y0 z0 x2 y2 z2
  have p4 := pair n1 n2 n12 x1 y1 z1 x2 y2 z2
  obtain ⟨v0, v1, v2, v3, v4⟩ := pre_bd o1 o k0 k1 k2 k3 k4
  rw [rotate_pre, rotate_pre]
  simp only [proj_eq, FltC.real_sqrtHalf]
  generalize pre b = v at *
  generalize pre V = v' at *
  generalize projectVecToSH2K m.c0 = f0 at *
  generalize projectVecToSH2K m.c2 = f1 at *
  generalize projectVecToSH2K (V3.smul (V3.add m.c0 m.c1) FltC.sqrtHalf) = f2 at *
  generalize projectVecToSH2K (V3.smul (V3.add m.c0 m.c2) FltC.sqrtHalf) = f3 at *
  generalize projectVecToSH2K (V3.smul (V3.add m.c1 m.c2) FltC.sqrtHalf) = f4 at *
  exact ⟨row2 o p0.1 p1.1 p2.1 p3.1 p4.1 v0 v1 v2 v3 v4, row2 o p0.2.1 p1.2.1 p2.2.1 p3.2.1 p4.2.1 v0 v1 v2 v3 v4,
    row2 o p0.2.2.1 p1.2.2.1 p2.2.2.1 p3.2.2.1 p4.2.2.1 v0 v1 v2 v3 v4,
    row2 o p0.2.2.2.1 p1.2.2.2.1 p2.2.2.2.1 p3.2.2.2.1 p4.2.2.2.1 v0 v1 v2 v3 v4,
    row2 o p0.2.2.2.2 p1.2.2.2.2 p2.2.2.2.2 p3.2.2.2.2 p4.2.2.2.2 v0 v1 v2 v3 v4⟩

/-- The sum of the absolute harmonics of a unit vector. -/
theorem sum_harm {d : V3 ℝ} (hd : inner3 d d = 1) :
    |(harmonics2 d).a0| + |(harmonics2 d).a1| + |(harmonics2 d).a2| + |(harmonics2 d).a3| + |(harmonics2 d).a4| ≤ 4 / 3 := by
  have h := add2 hd hd
  rw [hd] at h
  simp only [inner5] at h
  generalize (harmonics2 d).a0 = a at *
  generalize (harmonics2 d).a1 = b at *
  generalize (harmonics2 d).a2 = c at *
  generalize (harmonics2 d).a3 = u at *
  generalize (harmonics2 d).a4 = v at *
  rw [← abs_mul_abs_self a, ← abs_mul_abs_self b, ← abs_mul_abs_self c, ← abs_mul_abs_self u, ← abs_mul_abs_self v] at h
  generalize |a| = a at *
  generalize |b| = b at *
  generalize |c| = c at *
  generalize |u| = u at *
  generalize |v| = v at *
  have : (a + b + c + u + v) ^ 2 ≤ (4 / 3) ^ 2 := by
    nlinarith [sq_nonneg (a - b), sq_nonneg (a - c), sq_nonneg (a - u), sq_nonneg (a - v), sq_nonneg (b - c), sq_nonneg (b - u), sq_nonneg (b - v),
      sq_nonneg (c - u), sq_nonneg (c - v), sq_nonneg (u - v)]
  exact abs_le_of_sq_le_sq' this (by norm_num) |>.2

theorem inner_close {p q h : V5 ℝ} {T : ℝ} (T0 : 0 ≤ T) (h0 : |p.a0 - q.a0| ≤ T) (h1 : |p.a1 - q.a1| ≤ T) (h2 : |p.a2 - q.a2| ≤ T)
    (h3 : |p.a3 - q.a3| ≤ T) (h4 : |p.a4 - q.a4| ≤ T) (hs : |h.a0| + |h.a1| + |h.a2| + |h.a3| + |h.a4| ≤ 4 / 3) :
    |inner5 p h - inner5 q h| ≤ 4 / 3 * T := by
  have e : inner5 p h - inner5 q h = (p.a0 - q.a0) * h.a0 + (p.a1 - q.a1) * h.a1 + (p.a2 - q.a2) * h.a2 + (p.a3 - q.a3) * h.a3 +
      (p.a4 - q.a4) * h.a4 := by simp only [inner5]; ring
  have m : ∀ {u v : ℝ}, |u| ≤ T → |u * v| ≤ T * |v| := fun hu => by
    rw [abs_mul]; exact mul_le_mul_of_nonneg_right hu (abs_nonneg _)
  rw [e]
  have g1 := abs_add_le ((p.a0 - q.a0) * h.a0 + (p.a1 - q.a1) * h.a1 + (p.a2 - q.a2) * h.a2 + (p.a3 - q.a3) * h.a3) ((p.a4 - q.a4) * h.a4)
  have g2 := abs_add_le ((p.a0 - q.a0) * h.a0 + (p.a1 - q.a1) * h.a1 + (p.a2 - q.a2) * h.a2) ((p.a3 - q.a3) * h.a3)
  have g3 := abs_add_le ((p.a0 - q.a0) * h.a0 + (p.a1 - q.a1) * h.a1) ((p.a2 - q.a2) * h.a2)
  have g4 := abs_add_le ((p.a0 - q.a0) * h.a0) ((p.a1 - q.a1) * h.a1)
  have l := mul_le_mul_of_nonneg_left hs T0
  linarith [m h0 (v := h.a0), m h1 (v := h.a1), m h2 (v := h.a2), m h3 (v := h.a3), m h4 (v := h.a4)]

end ShF32

open ShF32

/-- C127: for every direction and every binary32 vector whose coordinates are within `e` of it, `computeShBasis` stays inside
its array, does not depend on what the array held, and stores at the position of every order `m` of every band `l < 3` a
finite value within `33 (e + 2^-24)` of the spherical harmonic of the direction. -/
theorem shBasis_f32 (θ φ e : ℝ) (e0 : 0 ≤ e) (e1 : e ≤ 1 / 2048) (s : V3 F32) (hs : NearV3 s (sphericalDir θ φ) e) (a0 : List F32)
    (h : a0.length = 9) :
    ∃ b, computeShBasis s a0 = some b ∧ b.length = 9 ∧ ∀ (l : Nat) (m : Int), l < 3 → |m| ≤ l →
      ∃ r, b[(shIndex m l).toNat]? = some r ∧ Near r (shValue l m θ φ) (33 * (e + 1 / 2 ^ 24)) := by
  have hd : inner3 (sphericalDir θ φ) (sphericalDir θ φ) = 1 := by
    simp only [inner3, sphericalDir]
    linear_combination Real.sin θ ^ 2 * Real.sin_sq_add_cos_sq φ + Real.sin_sq_add_cos_sq θ
  obtain ⟨b, hb, hf⟩ := basis_bd s _ hd e0 e1 hs.1 hs.2.1 hs.2.2 a0 h
  obtain ⟨b', hb', -, hv⟩ := shBasis_spherical θ φ (List.replicate 9 0) (by simp)
  rw [shBasis_polynomials _ _ (by simp), Option.some.injEq] at hb'
  rw [hb'] at hf
  refine ⟨b, hb, by rw [hf.length_eq, ← hb']; rfl, ?_⟩
  intro l m hl hm
  have hi := hv l m hl hm
  generalize (shIndex m l).toNat = i at hi ⊢
  obtain ⟨hi1, hi2⟩ := List.getElem?_eq_some_iff.1 hi
  have hi3 : i < b.length := by rw [hf.length_eq]; exact hi1
  refine ⟨b[i], List.getElem?_eq_getElem hi3, ?_⟩
  have g := hf.get hi3 hi1
  simp only [List.get_eq_getElem, hi2] at g
  refine ⟨g.fin, g.err.trans ?_⟩
  have : (32 : ℝ) / 2 ^ 100 ≤ 1 / 2 ^ 24 := by norm_num
  have q : (32 : ℝ) * (1 * (e + 1 / 2 ^ 24) + 1 / 2 ^ 100) = 32 * (e + 1 / 2 ^ 24) + 32 / 2 ^ 100 := by ring
  rw [q]
  linarith

/-- C127: for every orthonormal matrix `M`, every binary32 matrix `m` whose entries are within `e` of it and all coefficients of
absolute value at most `B`, `rotateSh3Bands` keeps band 0 and stores finite band-2 coefficients that give, at every rotated
direction, the value of the original band-2 function at the direction, up to `1024 (B (e + 2^-24) + 2^-100)`. -/
theorem rotateBand2_f32 (s0 s1 s2 s3 s4 s5 s6 s7 s8 : F32) (m : M3 F32) (M : M3 ℝ) (hM : Orthonormal3 M) (e B : ℝ) (e0 : 0 ≤ e)
    (e1 : e ≤ 1 / 2048) (B0 : 0 ≤ B) (B1 : B ≤ 2 ^ 100) (hm : NearM3 m M e) (hs : CoeffsLe B [s4, s5, s6, s7, s8]) :
    ∃ t1 t2 t3 t4 t5 t6 t7 t8,
      rotateSh3Bands [s0, s1, s2, s3, s4, s5, s6, s7, s8] m = some [s0, t1, t2, t3, t4, t5, t6, t7, t8] ∧
      AllFinite [t4, t5, t6, t7, t8] ∧ ∀ d : V3 ℝ, inner3 d d = 1 →
        |inner5 (rv5 ⟨t4, t5, t6, t7, t8⟩) (harmonics2 (apply3 M d)) - inner5 (rv5 ⟨s4, s5, s6, s7, s8⟩) (harmonics2 d)| ≤
          1024 * (B * (e + 1 / 2 ^ 24) + 1 / 2 ^ 100) := by
  have o1 := ok e0 e1
  have o : BdOk (e + 1 / 2 ^ 24) B := ⟨o1.lo, o1.hi, B0, B1⟩
  have cf : ∀ c ∈ [s4, s5, s6, s7, s8], Bd (e + 1 / 2 ^ 24) B c (rv c) 1 0 := fun c hc =>
    ⟨(hs c hc).1, by simp [val, rv], by rw [one_mul]; exact (hs c hc).2⟩
  obtain ⟨⟨a1, a2, a3⟩, ⟨b1, b2, b3⟩, ⟨c1, c2, c3⟩⟩ := hm
  obtain ⟨u1, u2, u3⟩ := unit_coords hM.1
  obtain ⟨v1, v2, v3⟩ := unit_coords hM.2.1
  obtain ⟨w1, w2, w3⟩ := unit_coords hM.2.2.1
  obtain ⟨r0, r1, r2, r3, r4⟩ := rotate_bd o1 o (b := ⟨s4, s5, s6, s7, s8⟩) (V := rv5 ⟨s4, s5, s6, s7, s8⟩) hM (cf s4 (by simp))
    (cf s5 (by simp)) (cf s6 (by simp)) (cf s7 (by simp)) (cf s8 (by simp)) (inp a1 u1) (inp a2 u2) (inp a3 u3) (inp b1 v1) (inp b2 v2)
    (inp b3 v3) (inp c1 w1) (inp c2 w2) (inp c3 w3)
  have un : rotateSh3Bands [s0, s1, s2, s3, s4, s5, s6, s7, s8] m = some
      [s0, (rotateBand1 ⟨s1, s2, s3⟩ m).x, (rotateBand1 ⟨s1, s2, s3⟩ m).y, (rotateBand1 ⟨s1, s2, s3⟩ m).z,
        (rotateBand2 ⟨s4, s5, s6, s7, s8⟩ m).a0, (rotateBand2 ⟨s4, s5, s6, s7, s8⟩ m).a1, (rotateBand2 ⟨s4, s5, s6, s7, s8⟩ m).a2,
        (rotateBand2 ⟨s4, s5, s6, s7, s8⟩ m).a3, (rotateBand2 ⟨s4, s5, s6, s7, s8⟩ m).a4] := by simp only [rotateSh3Bands]
  refine ⟨_, _, _, _, _, _, _, _, un, ?_, ?_⟩
  · generalize rotateBand2 ⟨s4, s5, s6, s7, s8⟩ m = r at *
    intro x hx
    simp only [List.mem_cons, List.not_mem_nil, or_false] at hx
    rcases hx with h | h | h | h | h <;> rw [h]
    exacts [r0.fin, r1.fin, r2.fin, r3.fin, r4.fin]
  · intro d hd
    rw [← rotateBand2_correct _ M hM d hd]
    have t0 := o.tpos
    generalize rotateBand2 ⟨s4, s5, s6, s7, s8⟩ m = r at *
    have q := inner_close (p := rv5 r) (q := rotateBand2 (rv5 ⟨s4, s5, s6, s7, s8⟩) M) (h := harmonics2 (apply3 M d))
      (T := 600 * (B * (e + 1 / 2 ^ 24) + 1 / 2 ^ 100)) (by positivity) r0.err r1.err r2.err r3.err r4.err
      (sum_harm (by rw [apply3_inner hM, hd]))
    exact q.trans (by linarith)

/-- A concrete case: the direction `(3/5, 4/5, 0)`, whose coordinates are not binary32 numbers, and the quarter turn about z. -/
example : NearV3 ⟨F32.ofRat 0.6, F32.ofRat 0.8, F32.ofRat 0⟩ ⟨3 / 5, 4 / 5, 0⟩ (1 / 2 ^ 24) ∧
    NearM3 ⟨⟨F32.ofRat 0, F32.ofRat 1, F32.ofRat 0⟩, ⟨F32.ofRat (-1), F32.ofRat 0, F32.ofRat 0⟩, ⟨F32.ofRat 0, F32.ofRat 0, F32.ofRat 1⟩⟩
      ⟨⟨0, 1, 0⟩, ⟨-1, 0, 0⟩, ⟨0, 0, 1⟩⟩ 0 ∧ Orthonormal3 ⟨⟨0, 1, 0⟩, ⟨-1, 0, 0⟩, ⟨0, 0, 1⟩⟩ ∧
    CoeffsLe 2 [F32.ofRat 1, F32.ofRat 0, F32.ofRat 2, F32.ofRat 0, F32.ofRat (-1)] := by
  have z := SatF32.lit0
  have p : (ofRat 1).isFinite = true ∧ (ofRat 1).val = 1 := by
    obtain ⟨a, b⟩ := lit_exact (q := 1) (U := 2 ^ 149) (by decide +kernel) (by decide +kernel)
    exact ⟨a, b.trans (by norm_num)⟩
  have n : (ofRat (-1)).isFinite = true ∧ (ofRat (-1)).val = -1 := by
    obtain ⟨a, b⟩ := lit_exact (q := -1) (U := -2 ^ 149) (by decide +kernel) (by decide +kernel)
    exact ⟨a, b.trans (by norm_num)⟩
  have t : (ofRat 2).isFinite = true ∧ (ofRat 2).val = 2 := by
    obtain ⟨a, b⟩ := lit_exact (q := 2) (U := 2 ^ 150) (by decide +kernel) (by decide +kernel)
    exact ⟨a, b.trans (by norm_num)⟩
  have lit : ∀ q : ℚ, |(q : ℝ)| ≤ 0.9 → Near (F32.ofRat q) q (1 / 2 ^ 24) := fun q hq => by
    have := lit_approx q 0.9 hq (by norm_num)
    exact ⟨this.1, this.2.trans (by unfold ulp; norm_num)⟩
  have ex : ∀ {c : F32} {x : ℝ}, c.isFinite = true ∧ c.val = x → ∀ e, 0 ≤ e → Near c x e := fun h e he => by
    refine ⟨h.1, ?_⟩
    change |(_ : F32).val - _| ≤ _
    rw [h.2, sub_self, abs_zero]; exact he
  refine ⟨⟨?_, ?_, ex z _ (by positivity)⟩, ⟨⟨ex z _ le_rfl, ex p _ le_rfl, ex z _ le_rfl⟩, ⟨ex n _ le_rfl, ex z _ le_rfl, ex z _ le_rfl⟩,
    ⟨ex z _ le_rfl, ex z _ le_rfl, ex p _ le_rfl⟩⟩, by simp [Orthonormal3, inner3], ?_⟩
  · have e : ((0.6 : ℚ) : ℝ) = 3 / 5 := by norm_num
    simp only [← e]; exact lit 0.6 (by rw [e]; norm_num [abs_le])
  · have e : ((0.8 : ℚ) : ℝ) = 4 / 5 := by norm_num
    simp only [← e]; exact lit 0.8 (by rw [e]; norm_num [abs_le])
  · have sz : ∀ {c : F32} {x : ℝ}, c.isFinite = true ∧ c.val = x → |x| ≤ 2 → c.isFinite = true ∧ |rv c| ≤ 2 := fun h hx => by
      refine ⟨h.1, ?_⟩
      change |(_ : F32).val| ≤ _
      rw [h.2]; exact hx
    intro c hc
    simp only [List.mem_cons, List.not_mem_nil, or_false] at hc
    rcases hc with rfl | rfl | rfl | rfl | rfl
    exacts [sz p (by norm_num), sz z (by norm_num), sz t (by norm_num), sz z (by norm_num), sz n (by norm_num)]

/-- This direction is `sphericalDir` of a right angle and `arcsin (4/5)`. -/
example : sphericalDir (Real.pi / 2) (Real.arcsin (4 / 5)) = ⟨3 / 5, 4 / 5, 0⟩ := by
  have h : Real.sqrt (1 - (4 / 5) ^ 2) = 3 / 5 := by
    rw [show (1 : ℝ) - (4 / 5) ^ 2 = (3 / 5) ^ 2 by norm_num, Real.sqrt_sq (by norm_num)]
  simp only [sphericalDir, Real.sin_pi_div_two, Real.cos_pi_div_two, Real.cos_arcsin, h, one_mul,
    Real.sin_arcsin (by norm_num : (-1 : ℝ) ≤ 4 / 5) (by norm_num : (4 / 5 : ℝ) ≤ 1)]

end Verif
