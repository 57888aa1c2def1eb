import Verif.Spec.Rigid
import Verif.Spec.Accuracy

/-!
# How far the matrix of a camera may be from the exact one
-/

namespace Verif.Spec

/-- The first three entries of a column are within `e` of the exact ones. -/
def NearCol (c : V4 F32) (x : V4 ℝ) (e : ℝ) : Prop := Near c.x x.x e ∧ Near c.y x.y e ∧ Near c.z x.z e

/-- The entries of the rotation are within `e` of the exact ones, those of the translation within `g`, and the last row is
exactly `0 0 0 1`. -/
def NearRigid (m : M4 F32) (x : M4 ℝ) (e g : ℝ) : Prop :=
  NearCol m.c0 x.c0 e ∧ NearCol m.c1 x.c1 e ∧ NearCol m.c2 x.c2 e ∧ NearCol m.c3 x.c3 g ∧
  m.c0.w = F32.ofRat 0 ∧ m.c1.w = F32.ofRat 0 ∧ m.c2.w = F32.ofRat 0 ∧ m.c3.w = F32.ofRat 1

/-- The distance of a point from the origin. -/
noncomputable def lengthOf (v : V3 ℝ) : ℝ := Spec.dist ⟨0, 0, 0⟩ v

/-- The direction `up` is not too close to the line from `f` to `t`: the sine of the angle between them is at least `s`. -/
def UpClear (f t up : V3 ℝ) (s : ℝ) : Prop := dot up (diff t f) ^ 2 ≤ (1 - s ^ 2) * (dot up up * dist2 f t)

/-- What is asked of a camera at `f` that looks at `t`, with upward direction `up`: the positions are neither too close nor too
far from each other, `up` is neither too short nor too long, and the sine of its angle with the line of sight is at least `s`. -/
structure CameraOk (f t up : V3 ℝ) (s : ℝ) : Prop where
  near : 1 / 2 ^ 49 ≤ Spec.dist f t
  far : Spec.dist f t ≤ 2 ^ 60
  long : 1 / 2 ^ 26 ≤ lengthOf up
  short : lengthOf up ≤ 2 ^ 60
  sine : 1 / 2 ^ 20 ≤ s
  clear : UpClear f t up s

end Verif.Spec
