import Mathlib.Tactic.LinearCombination
import Verif.Model.Sh
import Verif.Spec.Sh
import Verif.Spec.Linear
import Verif.Props.Sh

/-!
# Rotation of spherical harmonics (C73)

A list of coefficients stands for the function "sum of coefficient times basis value" on directions. Rotating the
coefficients by a rotation matrix `M` must give the coefficients of the rotated function: its value at `M d` is the
value of the original function at `d`.
-/

namespace Verif
open Sh Spec

/-- The normalised harmonics of band 1 at direction `d`, up to the common factor `sqrt(3 / 4 pi)`. -/
def harmonics1 (d : V3 ℝ) : V3 ℝ := ⟨-d.y, d.z, -d.x⟩
/-- The normalised harmonics of band 2 at direction `d`, up to the common factor `sqrt(15 / 4 pi)`. -/
noncomputable def harmonics2 (d : V3 ℝ) : V5 ℝ :=
  ⟨d.x * d.y, -(d.y * d.z), (3 * d.z ^ 2 - 1) / (2 * Real.sqrt 3), -(d.x * d.z), (d.x ^ 2 - d.y ^ 2) / 2⟩
/-- Inner product of five components. -/
def inner5 (a b : V5 ℝ) : ℝ := a.a0 * b.a0 + a.a1 * b.a1 + a.a2 * b.a2 + a.a3 * b.a3 + a.a4 * b.a4
/-- The image of a direction under a matrix, by columns. -/
def apply3 (m : M3 ℝ) (d : V3 ℝ) : V3 ℝ :=
  ⟨m.c0.x * d.x + m.c1.x * d.y + m.c2.x * d.z, m.c0.y * d.x + m.c1.y * d.y + m.c2.y * d.z,
   m.c0.z * d.x + m.c1.z * d.y + m.c2.z * d.z⟩
/-- The columns are orthonormal: a rotation or a reflection. -/
def Orthonormal3 (m : M3 ℝ) : Prop :=
  inner3 m.c0 m.c0 = 1 ∧ inner3 m.c1 m.c1 = 1 ∧ inner3 m.c2 m.c2 = 1 ∧
  inner3 m.c0 m.c1 = 0 ∧ inner3 m.c0 m.c2 = 0 ∧ inner3 m.c1 m.c2 = 0

theorem apply3_inner {m : M3 ℝ} (h : Orthonormal3 m) (u v : V3 ℝ) :
    inner3 (apply3 m u) (apply3 m v) = inner3 u v := by
  obtain ⟨h1, h2, h3, h4, h5, h6⟩ := h
  simp only [inner3, apply3] at *
  linear_combination u.x * v.x * h1 + u.y * v.y * h2 + u.z * v.z * h3 + (u.x * v.y + u.y * v.x) * h4 +
    (u.x * v.z + u.z * v.x) * h5 + (u.y * v.z + u.z * v.y) * h6

private theorem s3 : Real.sqrt 3 ^ 2 = 3 := Real.sq_sqrt (by norm_num)
private theorem s3ne : Real.sqrt 3 ≠ 0 := by positivity
private theorem sh2 : Real.sqrt (1/2) ^ 2 = 1/2 := Real.sq_sqrt (by norm_num)

/-- Addition theorem of band 2. -/
theorem add2 {u v : V3 ℝ} (hu : inner3 u u = 1) (hv : inner3 v v = 1) :
    inner5 (harmonics2 u) (harmonics2 v) = inner3 u v ^ 2 / 2 - 1 / 6 := by
  have e : (3 * u.z ^ 2 - 1) / (2 * Real.sqrt 3) * ((3 * v.z ^ 2 - 1) / (2 * Real.sqrt 3)) =
      (3 * u.z ^ 2 - 1) * (3 * v.z ^ 2 - 1) / 12 := by
    rw [div_mul_div_comm]
    congr 1
    linear_combination 4 * s3
  simp only [inner5, harmonics2, e, inner3] at *
  grind

theorem proj_eq (s : V3 ℝ) : projectVecToSH2K s = harmonics2 s := by
  apply V5.ext <;> simp only [vec, harmonics2] <;> push_cast <;> ring

/-- Every vector of five coefficients is a combination of the harmonics of five fixed unit directions. -/
private theorem decompose (b : V5 ℝ) (d : V3 ℝ) (hd : inner3 d d = 1) :
    let r := Real.sqrt (1/2)
    inner5 b (harmonics2 d) =
      (-b.a1 + b.a3 + 2 * b.a4) * (d.x ^ 2 / 2 - 1 / 6) +
      (b.a0 + Real.sqrt 3 * b.a2 + b.a3 + b.a4) * (d.z ^ 2 / 2 - 1 / 6) +
      (2 * b.a0) * ((r * d.x + r * d.y) ^ 2 / 2 - 1 / 6) +
      (-2 * b.a3) * ((r * d.x + r * d.z) ^ 2 / 2 - 1 / 6) +
      (-2 * b.a1) * ((r * d.y + r * d.z) ^ 2 / 2 - 1 / 6) := by
  intro r
  have hr : r ^ 2 = 1 / 2 := sh2
  have h3 := s3
  have e : (3 * d.z ^ 2 - 1) / (2 * Real.sqrt 3) = Real.sqrt 3 * (3 * d.z ^ 2 - 1) / 6 := by
    rw [div_eq_div_iff (by have := s3ne; positivity) (by norm_num)]
    linear_combination (-2 * (3 * d.z ^ 2 - 1)) * s3
  simp only [inner5, harmonics2, e, inner3] at *
  generalize Real.sqrt 3 = t at *
  grind

/-- C73, band 2 (and band 0): for every set of coefficients, every orthonormal matrix and every unit direction, the
rotated band-2 coefficients evaluated at the rotated direction give the original value. -/
theorem rotateBand2_correct (b : V5 ℝ) (m : M3 ℝ) (hm : Orthonormal3 m) (d : V3 ℝ) (hd : inner3 d d = 1) :
    inner5 (rotateBand2 b m) (harmonics2 (apply3 m d)) = inner5 b (harmonics2 d) := by
  have hmd : inner3 (apply3 m d) (apply3 m d) = 1 := by rw [apply3_inner hm, hd]
  have hr := sh2
  set r := Real.sqrt (1/2) with hrdef
  -- the five sample directions and their images
  have img : ∀ n : V3 ℝ, inner3 n n = 1 →
      inner5 (harmonics2 (apply3 m n)) (harmonics2 (apply3 m d)) = inner3 n d ^ 2 / 2 - 1 / 6 := by
    intro n hn
    rw [add2 (by rw [apply3_inner hm, hn]) hmd, apply3_inner hm]
  have i0 := img ⟨1, 0, 0⟩ (by simp [inner3])
  have i1 := img ⟨0, 0, 1⟩ (by simp [inner3])
  have i2 := img ⟨r, r, 0⟩ (by simp only [inner3]; linarith [hr])
  have i3 := img ⟨r, 0, r⟩ (by simp only [inner3]; linarith [hr])
  have i4 := img ⟨0, r, r⟩ (by simp only [inner3]; linarith [hr])
  have e0 : apply3 m ⟨1, 0, 0⟩ = m.c0 := by simp [apply3]
  have e1 : apply3 m ⟨0, 0, 1⟩ = m.c2 := by simp [apply3]
  have e2 : apply3 m ⟨r, r, 0⟩ = V3.smul (V3.add m.c0 m.c1) r := by
    simp only [apply3, vec, V3.mk.injEq]; refine ⟨by ring, by ring, by ring⟩
  have e3 : apply3 m ⟨r, 0, r⟩ = V3.smul (V3.add m.c0 m.c2) r := by
    simp only [apply3, vec, V3.mk.injEq]; refine ⟨by ring, by ring, by ring⟩
  have e4 : apply3 m ⟨0, r, r⟩ = V3.smul (V3.add m.c1 m.c2) r := by
    simp only [apply3, vec, V3.mk.injEq]; refine ⟨by ring, by ring, by ring⟩
  rw [e0] at i0; rw [e1] at i1; rw [e2] at i2; rw [e3] at i3; rw [e4] at i4
  have dec := decompose b d hd
  simp only [← hrdef] at dec
  rw [dec]
  unfold rotateBand2
  simp only [proj_eq, FltC.real_sqrtHalf, FltC.real_sqrt3, ← hrdef]
  simp only [inner3] at i0 i1 i2 i3 i4
  generalize harmonics2 m.c0 = p0 at *
  generalize harmonics2 m.c2 = p1 at *
  generalize harmonics2 (V3.smul (V3.add m.c0 m.c1) r) = p2 at *
  generalize harmonics2 (V3.smul (V3.add m.c0 m.c2) r) = p3 at *
  generalize harmonics2 (V3.smul (V3.add m.c1 m.c2) r) = p4 at *
  generalize harmonics2 (apply3 m d) = q at *
  simp only [inner5, multiply, mulRow, vec] at *
  push_cast
  linear_combination (-b.a1 + b.a3 + 2 * b.a4) * i0 + (b.a0 + Real.sqrt 3 * b.a2 + b.a3 + b.a4) * i1 +
    2 * b.a0 * i2 - 2 * b.a3 * i3 - 2 * b.a1 * i4

/-- C73, what the code does for band 1: it multiplies the coefficients by the transposed matrix. -/
theorem rotateBand1_transposed (b : V3 ℝ) (m : M3 ℝ) :
    rotateBand1 b m = ⟨inner3 m.c0 b, inner3 m.c1 b, inner3 m.c2 b⟩ := by
  simp only [vec, inner3, V3.mk.injEq]
  push_cast
  refine ⟨by ring, by ring, by ring⟩

/-- C73, the code violates the claim for band 1: a quarter turn about the z axis (an orthonormal matrix of
determinant one) applied to a band-1 function does not rotate it. The function is `1` at the +x axis and must be `1`
at the +y axis after the rotation; the code's coefficients give `0`. -/
theorem rotateBand1_wrong :
    let m : M3 ℝ := ⟨⟨0, 1, 0⟩, ⟨-1, 0, 0⟩, ⟨0, 0, 1⟩⟩
    let b : V3 ℝ := ⟨0, 0, -1⟩
    Orthonormal3 m ∧ (mat3 m).det = 1 ∧ apply3 m ⟨1, 0, 0⟩ = ⟨0, 1, 0⟩ ∧
    inner3 b (harmonics1 ⟨1, 0, 0⟩) = 1 ∧
    inner3 (rotateBand1 b m) (harmonics1 (apply3 m ⟨1, 0, 0⟩)) = 0 := by
  refine ⟨?_, ?_, ?_, ?_, ?_⟩
  · simp [Orthonormal3, inner3]
  · simp [mat3, Matrix.det_fin_three]
  · simp [apply3]
  · simp [inner3, harmonics1]
  · rw [rotateBand1_transposed]; simp [inner3, harmonics1, apply3]

/-- C73, the claim as stated is false: there are coefficients, a rotation and a unit direction for which the
function read from `rotateSh3Bands`' output at the rotated direction differs from the original. -/
theorem rotateSh3Bands_not_rotation :
    ¬ ∀ (b : V3 ℝ) (m : M3 ℝ) (d : V3 ℝ), Orthonormal3 m → inner3 d d = 1 →
      inner3 (rotateBand1 b m) (harmonics1 (apply3 m d)) = inner3 b (harmonics1 d) := by
  intro h
  have w := rotateBand1_wrong
  simp only at w
  have := h ⟨0, 0, -1⟩ ⟨⟨0, 1, 0⟩, ⟨-1, 0, 0⟩, ⟨0, 0, 1⟩⟩ ⟨1, 0, 0⟩ w.1 (by simp [inner3])
  rw [w.2.2.2.2, w.2.2.2.1] at this
  norm_num at this

/-- C73, partial: `rotateSh3Bands` keeps the band-0 coefficient, and rotates bands 0 and 2 correctly, for all
coefficients, all orthonormal matrices and all unit directions; it also reads and writes only the nine entries. What
is missing: band 1, which is wrong (`rotateBand1_wrong`). -/
theorem rotateSh3Bands_partial (s0 s1 s2 s3 s4 s5 s6 s7 s8 : ℝ) (m : M3 ℝ) (hm : Orthonormal3 m) :
    ∃ t1 t2 t3 t4 t5 t6 t7 t8,
      rotateSh3Bands [s0, s1, s2, s3, s4, s5, s6, s7, s8] m = some [s0, t1, t2, t3, t4, t5, t6, t7, t8] ∧
      ∀ d : V3 ℝ, inner3 d d = 1 →
        inner5 ⟨t4, t5, t6, t7, t8⟩ (harmonics2 (apply3 m d)) = inner5 ⟨s4, s5, s6, s7, s8⟩ (harmonics2 d) :=
  ⟨_, _, _, _, _, _, _, _, rfl, fun d hd => rotateBand2_correct ⟨s4, s5, s6, s7, s8⟩ m hm d hd⟩

/-- The harmonics used above are the entries of the computed basis, up to the normalisation: bands 1 and 2. -/
theorem harmonics_are_basis (s : V3 ℝ) (a0 : List ℝ) (h : a0.length = 9) :
    ∃ b, computeShBasis s a0 = some b ∧
      b = [1, (harmonics1 s).x, (harmonics1 s).y, (harmonics1 s).z, 6 * (harmonics2 s).a0, 3 * (harmonics2 s).a1,
        Real.sqrt 3 * (harmonics2 s).a2, 3 * (harmonics2 s).a3, 6 * (harmonics2 s).a4] := by
  refine ⟨_, shBasis_polynomials s a0 h, ?_⟩
  have h3 := s3ne
  have e : Real.sqrt 3 * ((3 * s.z ^ 2 - 1) / (2 * Real.sqrt 3)) = (3 * s.z ^ 2 - 1) / 2 := by field_simp
  simp only [harmonics1, harmonics2, e, List.cons.injEq, and_true, true_and]
  refine ⟨?_, ?_, ?_, ?_⟩ <;> ring

/-- Concrete case: the quarter turn about z is orthonormal and turns `xy` into `-xy`. -/
example : Orthonormal3 ⟨⟨0, 1, 0⟩, ⟨-1, 0, 0⟩, ⟨0, 0, 1⟩⟩ ∧
    inner5 ⟨1, 0, 0, 0, 0⟩ (harmonics2 ⟨3/5, 4/5, 0⟩) = 12/25 := by
  constructor
  · simp [Orthonormal3, inner3]
  · norm_num [inner5, harmonics2]

end Verif
