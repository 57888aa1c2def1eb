import Mathlib.Algebra.Polynomial.Derivative
import Mathlib.Analysis.SpecialFunctions.Trigonometric.Basic
import Mathlib.Data.Nat.Factorial.Basic
import Verif.Model.Vec

/-!
# Spherical harmonics specification

Legendre polynomials by Rodrigues' formula, and the real spherical harmonics (with the Condon-Shortley phase,
without normalisation) in spherical coordinates.
-/

namespace Verif.Spec
open Polynomial

/-- The Legendre polynomial of degree `l`: `1 / (2^l l!) d^l/dx^l (x^2 - 1)^l`. -/
noncomputable def legendre (l : Nat) : ℝ[X] :=
  C (1 / (2 ^ l * (l.factorial : ℝ))) * derivative^[l] ((X ^ 2 - 1) ^ l)

/-- The unnormalised real spherical harmonic of degree `l` and order `m` at polar angle `θ` and azimuth `φ`:
`(-1)^|m| sin^|m| θ (d/dx)^|m| P_l (cos θ)` times `cos (m φ)` for `m ≥ 0` and `sin (|m| φ)` for `m < 0`. -/
noncomputable def shValue (l : Nat) (m : Int) (θ φ : ℝ) : ℝ :=
  (-1) ^ m.natAbs * Real.sin θ ^ m.natAbs * (derivative^[m.natAbs] (legendre l)).eval (Real.cos θ) *
    if 0 ≤ m then Real.cos (m * φ) else Real.sin (m.natAbs * φ)

/-- The square of the normalisation constant of degree `l` and order `m`. -/
noncomputable def shNormSq (l : Nat) (m : Int) : ℝ :=
  (if m = 0 then 1 else 2) * (2 * l + 1) / (4 * Real.pi) * ((l - m.natAbs).factorial / (l + m.natAbs).factorial)

/-- The direction with polar angle `θ` (from +z) and azimuth `φ`. -/
noncomputable def sphericalDir (θ φ : ℝ) : V3 ℝ :=
  ⟨Real.sin θ * Real.cos φ, Real.sin θ * Real.sin φ, Real.cos θ⟩

/-- Inner product. -/
def inner3 (u v : V3 ℝ) : ℝ := u.x * v.x + u.y * v.y + u.z * v.z

/-- The coefficients of the clamped cosine lobe for the first three bands. -/
noncomputable def cosineLobe (l : Nat) : ℝ :=
  match l with
  | 0 => Real.pi
  | 1 => 2 * Real.pi / 3
  | _ => Real.pi / 4

end Verif.Spec
