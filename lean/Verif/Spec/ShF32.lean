import Verif.Spec.Accuracy
import Verif.Model.Sh

/-!
# Spherical harmonics in binary32
-/

namespace Verif.Spec

/-- The real values of five coefficients. -/
noncomputable def rv5 (b : Sh.V5 F32) : Sh.V5 ℝ := ⟨rv b.a0, rv b.a1, rv b.a2, rv b.a3, rv b.a4⟩

/-- Each coordinate of the computed vector is within `e` of the exact one. -/
def NearV3 (s : V3 F32) (d : V3 ℝ) (e : ℝ) : Prop := Near s.x d.x e ∧ Near s.y d.y e ∧ Near s.z d.z e

/-- Each entry of the computed matrix is within `e` of the exact one. -/
def NearM3 (m : M3 F32) (M : M3 ℝ) (e : ℝ) : Prop := NearV3 m.c0 M.c0 e ∧ NearV3 m.c1 M.c1 e ∧ NearV3 m.c2 M.c2 e

/-- Every listed coefficient is finite and at most `B` in absolute value. -/
def CoeffsLe (B : ℝ) (l : List F32) : Prop := ∀ c ∈ l, c.isFinite = true ∧ |rv c| ≤ B

end Verif.Spec
