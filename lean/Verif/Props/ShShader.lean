import Verif.Props.Sh

/-!
# Shader form of spherical harmonics (C76)
-/

namespace Verif
open Sh Spec

/-- What a shader evaluates for each coefficient: plain polynomials of the direction, without any constant. -/
def shaderPoly (d : V3 ℝ) : List ℝ :=
  [1, d.y, d.z, d.x, d.x * d.y, d.y * d.z, 3 * d.z ^ 2 - 1, d.x * d.z, d.x ^ 2 - d.y ^ 2]

/-- The exact values of the constants the table is written with. -/
noncomputable def shaderTable : List ℝ :=
  shaderCa (Real.sqrt 3) (Real.sqrt 5) (Real.sqrt 15) (Real.sqrt Real.pi) (1 / Real.pi)

/-- C76: `shaderPreprocessSH` stays inside the array and multiplies coefficient `i` by entry `i` of its table, for
every float semantics and every table of nine entries. -/
theorem shaderPreprocess_scales {F : Type} [Flt F] (ca : List F) (hc : ca.length = 9) (sh : List (V4 F))
    (h : sh.length = 9) :
    ∃ out, shaderPreprocessSH ca sh = some out ∧ out.length = 9 ∧
      ∀ i : Nat, i < 9 → ∃ c v, ca[i]? = some c ∧ sh[i]? = some v ∧ out[i]? = some (V4.smul v c) := by
  match ca, hc, sh, h with
  | [c0, c1, c2, c3, c4, c5, c6, c7, c8], _, [b0, b1, b2, b3, b4, b5, b6, b7, b8], _ =>
    refine ⟨_, rfl, rfl, ?_⟩
    intro i hi
    interval_cases i <;> exact ⟨_, _, rfl, rfl, rfl⟩

/-- C76: with the preprocessed coefficients, the shader's plain polynomials give exactly the sum of coefficient times
normalised spherical harmonic, divided by pi: term by term, for every direction. -/
theorem shaderTable_exact (d : V3 ℝ) (a0 : List ℝ) (h : a0.length = 9) (l : Nat) (m : Int) (hl : l < 3)
    (hm : |m| ≤ l) :
    ∃ b c p y, computeShBasis d a0 = some b ∧ shaderTable[(shIndex m l).toNat]? = some c ∧
      (shaderPoly d)[(shIndex m l).toNat]? = some p ∧ b[(shIndex m l).toNat]? = some y ∧
      c * p = Real.sqrt (shNormSq l m) * y / Real.pi := by
  have hp := Real.pi_pos
  have hs : 0 < Real.sqrt Real.pi := Real.sqrt_pos.2 hp
  have hs2 : Real.sqrt Real.pi ^ 2 = Real.pi := Real.sq_sqrt hp.le
  -- sqrt of the squared norm as `sqrt k / (q sqrt pi)`
  have key : ∀ (n k q : ℝ), 0 ≤ k → 0 < q → n = k / (q ^ 2 * Real.pi) →
      Real.sqrt n = Real.sqrt k / (q * Real.sqrt Real.pi) := by
    intro n k q hk hq e
    rw [e, Real.sqrt_div hk, Real.sqrt_mul (by positivity), Real.sqrt_sq hq.le]
  rw [abs_le] at hm
  interval_cases l
  · obtain rfl : m = 0 := by omega
    refine ⟨_, _, _, _, shBasis_polynomials d a0 h, rfl, rfl, rfl, ?_⟩
    rw [key (shNormSq _ _) 1 2 (by norm_num) (by norm_num) (by simp [shNormSq]; field_simp; try norm_num)]
    simp only [vec]
    push_cast
    rw [Real.sqrt_one]
    generalize Real.sqrt Real.pi = t at *
    field_simp
  · obtain rfl | rfl | rfl : m = -1 ∨ m = 0 ∨ m = 1 := by omega
    all_goals
      refine ⟨_, _, _, _, shBasis_polynomials d a0 h, rfl, rfl, rfl, ?_⟩
      rw [key (shNormSq _ _) 3 2 (by norm_num) (by norm_num)
        (by simp [shNormSq, Nat.factorial]; field_simp; try norm_num)]
      simp only [vec]
      push_cast
      generalize Real.sqrt Real.pi = t at *
      field_simp
  · obtain rfl | rfl | rfl | rfl | rfl : m = -2 ∨ m = -1 ∨ m = 0 ∨ m = 1 ∨ m = 2 := by omega
    · refine ⟨_, _, _, _, shBasis_polynomials d a0 h, rfl, rfl, rfl, ?_⟩
      rw [key (shNormSq _ _) 15 12 (by norm_num) (by norm_num)
        (by simp [shNormSq, Nat.factorial]; field_simp; try norm_num)]
      simp only [vec]
      push_cast
      generalize Real.sqrt Real.pi = t at *
      field_simp; try ring
    · refine ⟨_, _, _, _, shBasis_polynomials d a0 h, rfl, rfl, rfl, ?_⟩
      rw [key (shNormSq _ _) 15 6 (by norm_num) (by norm_num)
        (by simp [shNormSq, Nat.factorial]; field_simp; try norm_num)]
      simp only [vec]
      push_cast
      generalize Real.sqrt Real.pi = t at *
      field_simp; try ring
    · refine ⟨_, _, _, _, shBasis_polynomials d a0 h, rfl, rfl, rfl, ?_⟩
      rw [key (shNormSq _ _) 5 2 (by norm_num) (by norm_num)
        (by simp [shNormSq, Nat.factorial]; field_simp; try norm_num)]
      simp only [vec]
      push_cast
      generalize Real.sqrt Real.pi = t at *
      field_simp; try ring
    · refine ⟨_, _, _, _, shBasis_polynomials d a0 h, rfl, rfl, rfl, ?_⟩
      rw [key (shNormSq _ _) 15 6 (by norm_num) (by norm_num)
        (by simp [shNormSq, Nat.factorial]; field_simp; try norm_num)]
      simp only [vec]
      push_cast
      generalize Real.sqrt Real.pi = t at *
      field_simp; try ring
    · refine ⟨_, _, _, _, shBasis_polynomials d a0 h, rfl, rfl, rfl, ?_⟩
      rw [key (shNormSq _ _) 15 12 (by norm_num) (by norm_num)
        (by simp [shNormSq, Nat.factorial]; field_simp; try norm_num)]
      simp only [vec]
      push_cast
      generalize Real.sqrt Real.pi = t at *
      field_simp; try ring

/-- Concrete case: nine coefficients and the exact table. -/
example : shaderTable.length = 9 ∧ (shaderPoly ⟨3/5, 0, 4/5⟩)[7]? = some (12/25) := by
  refine ⟨rfl, ?_⟩
  norm_num [shaderPoly]

end Verif
