import Verif.Model.FltT
import Verif.Model.TransformTargets
import Verif.Spec.Accuracy

/-!
# What a projection in binary32 should do
-/

namespace Verif.Spec

/-- The library tangent is right up to one unit in the last place, for angles from `2^-31` to just below a quarter turn. -/
def TanOk (tan : F32 → F32) : Prop :=
  ∀ x : F32, x.isFinite = true → 1 / 2 ^ 31 ≤ rv x → rv x ≤ 1.57075 →
    Near (tan x) (Real.tan (rv x)) (2 / 2 ^ 24 * |Real.tan (rv x)|)

/-- A usable perspective camera: a field of view of at most 179.99 degrees, an aspect ratio between `2^-30` and `2^30` and
a near plane between `2^-30` and `2^30`. -/
def LensOk (fov aspect near : F32) : Prop :=
  AllFinite [fov, aspect, near] ∧ (1 / 2 ^ 30 ≤ rv fov ∧ rv fov ≤ 3.1415) ∧ (1 / 2 ^ 30 ≤ rv aspect ∧ rv aspect ≤ 2 ^ 30) ∧
    (1 / 2 ^ 30 ≤ rv near ∧ rv near ≤ 2 ^ 30)

/-- A far plane behind the near plane, at most `2^40` away. -/
def FarOk (near far : F32) : Prop := far.isFinite = true ∧ rv near < rv far ∧ rv far ≤ 2 ^ 40

/-- `r` is the matrix times the point `p`, by the scalar code or on some SIMD target. -/
def ProductOf (m : M4 F32) (p : V3 F32) (r : V4 F32) : Prop :=
  r = M4.mulV m ⟨p.x, p.y, p.z, Flt.lit 1⟩ ∨ ∃ k t, r = F32x4.mulVOn k t m ⟨p.x, p.y, p.z, Flt.lit 1⟩

/-- The point is finite and at most `2^40` in every coordinate. -/
def PointOk (p : V3 F32) : Prop := ∀ x ∈ p.toList, x.isFinite = true ∧ |rv x| ≤ 2 ^ 40

/-- `r` is `x` up to `c` half units in the last place of `s`, and `2^-146`. -/
def UpTo (c : ℝ) (r : F32) (x s : ℝ) : Prop := Near r x (c / 2 ^ 24 * s + 1 / 2 ^ 146)

/-- The clip volume `-w ≤ x ≤ w`, `-w ≤ y ≤ w`, `0 ≤ z ≤ w`. -/
def Clipped (r : V4 F32) : Prop := |rv r.x| ≤ rv r.w ∧ |rv r.y| ≤ rv r.w ∧ 0 ≤ rv r.z ∧ rv r.z ≤ rv r.w

/-- Inside the sides of the view of a camera with half-angle tangent `t`, by the fraction `e`. -/
def InSides (e t aspect : ℝ) (p : V3 F32) : Prop :=
  |rv p.x| ≤ (1 - e) * (aspect * t * rv p.z) ∧ |rv p.y| ≤ (1 - e) * (t * rv p.z)

/-- Outside one of the sides by the fraction `e`. -/
def OutSides (e t aspect : ℝ) (p : V3 F32) : Prop :=
  (1 + e) * (aspect * t * rv p.z) ≤ |rv p.x| ∨ (1 + e) * (t * rv p.z) ≤ |rv p.y|

/-- `a` is below `b` by the fraction `e` of their size. -/
def BelowBy (e a b : ℝ) : Prop := e * (|a| + |b|) ≤ b - a

/-- A usable extent of an orthographic camera along one axis: at most `2^40` away and at least `2^-30` long. -/
def ExtentOk (w : V2 F32) : Prop :=
  (∀ x ∈ w.toList, x.isFinite = true ∧ |rv x| ≤ 2 ^ 40) ∧ 1 / 2 ^ 30 ≤ rv w.y - rv w.x

/-- `v` lies between the ends of `w`, away from both by the fraction `e` of the sizes involved. -/
def BetweenBy (e : ℝ) (w : V2 F32) (v : F32) : Prop :=
  e * (|rv v| + |rv w.x| + |rv w.y|) ≤ rv v - rv w.x ∧ e * (|rv v| + |rv w.x| + |rv w.y|) ≤ rv w.y - rv v

/-- `v` lies outside `w`, by the fraction `e` of the sizes involved. -/
def OutsideBy (e : ℝ) (w : V2 F32) (v : F32) : Prop :=
  e * (|rv v| + |rv w.x| + |rv w.y|) ≤ rv w.x - rv v ∨ e * (|rv v| + |rv w.x| + |rv w.y|) ≤ rv v - rv w.y

end Verif.Spec
