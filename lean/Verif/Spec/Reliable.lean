import Verif.Spec.Accuracy
import Verif.Spec.Geom
import Verif.Model.Geom

/-!
# Reliability of the geometric tests in binary32

How near the boundary an input may be before rounding decides the answer.
-/

namespace Verif.Spec

/-- The margin allowed for quantities of total size `w`: about eight units in the last place, and a few of the smallest
positive binary32 value for what underflows. -/
noncomputable def slack (w : ℝ) : ℝ := w / 2 ^ 21 + 1 / 2 ^ 147

/-- The exact point a binary32 vector stands for. -/
noncomputable def pos (v : V4 F32) : V3 ℝ := ⟨rv v.x, rv v.y, rv v.z⟩

/-- The exact value of the plane function `n . p + d`. -/
noncomputable def planeAt (pl : Plane F32) (p : V3 ℝ) : ℝ :=
  rv pl.normDist.x * p.x + rv pl.normDist.y * p.y + rv pl.normDist.z * p.z + rv pl.normDist.w

/-- The sum of the absolute values of its four terms. -/
noncomputable def planeSize (pl : Plane F32) (p : V3 ℝ) : ℝ :=
  |rv pl.normDist.x| * |p.x| + |rv pl.normDist.y| * |p.y| + |rv pl.normDist.z| * |p.z| + |rv pl.normDist.w|

/-- The points of a binary32 box. -/
noncomputable def boxPts (b : Aabb F32) : Set (V3 ℝ) := Box (pos b.min) (pos b.max)

/-- The largest absolute coordinates in a binary32 box. -/
noncomputable def farthest (b : Aabb F32) : V3 ℝ :=
  ⟨max |rv b.min.x| |rv b.max.x|, max |rv b.min.y| |rv b.max.y|, max |rv b.min.z| |rv b.max.z|⟩

/-- A box with finite corners in the right order. -/
def FiniteBox (b : Aabb F32) : Prop :=
  AllFinite [b.min.x, b.min.y, b.min.z, b.max.x, b.max.y, b.max.z] ∧
  rv b.min.x ≤ rv b.max.x ∧ rv b.min.y ≤ rv b.max.y ∧ rv b.min.z ≤ rv b.max.z

/-- `m` sends the point `p` here (first three rows). -/
noncomputable def sends (m : M4 F32) (p : V3 ℝ) : V3 ℝ :=
  ⟨rv m.c0.x * p.x + rv m.c1.x * p.y + rv m.c2.x * p.z + rv m.c3.x,
   rv m.c0.y * p.x + rv m.c1.y * p.y + rv m.c2.y * p.z + rv m.c3.y,
   rv m.c0.z * p.x + rv m.c1.z * p.y + rv m.c2.z * p.z + rv m.c3.z⟩

/-- The sums of the absolute values of the terms of `sends`. -/
noncomputable def sendsSize (m : M4 F32) (p : V3 ℝ) : V3 ℝ :=
  ⟨|rv m.c0.x| * |p.x| + |rv m.c1.x| * |p.y| + |rv m.c2.x| * |p.z| + |rv m.c3.x|,
   |rv m.c0.y| * |p.x| + |rv m.c1.y| * |p.y| + |rv m.c2.y| * |p.z| + |rv m.c3.y|,
   |rv m.c0.z| * |p.x| + |rv m.c1.z| * |p.y| + |rv m.c2.z| * |p.z| + |rv m.c3.z|⟩

/-- The margin of a plane test on a placed box: twice the relative margin, and the underflow of every placed coordinate
scaled by the normal. -/
noncomputable def slackM (pl : Plane F32) (w : ℝ) : ℝ :=
  w / 2 ^ 20 + (1 + |rv pl.normDist.x| + |rv pl.normDist.y| + |rv pl.normDist.z|) / 2 ^ 146

end Verif.Spec
