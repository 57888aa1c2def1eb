import Verif.Spec.AngleQuat
import Verif.Spec.Rigid

/-!
# Matrices near rigid motions
-/

namespace Verif.Spec

/-- The sum of the sizes of the first three coordinates. -/
noncomputable def size3 (v : V4 F32) : ℝ := |rv v.x| + |rv v.y| + |rv v.z|

/-- A matrix of finite binary32 numbers whose upper left block is within `e` of the rotation `Q` in every entry. -/
structure NearMotion (m : M4 F32) (Q : Matrix (Fin 3) (Fin 3) ℝ) (e : ℝ) : Prop where
  finite : FinM m
  rotation : IsRotation Q
  col0 : NearV m.c0 (fun i => Q i 0) e
  col1 : NearV m.c1 (fun i => Q i 1) e
  col2 : NearV m.c2 (fun i => Q i 2) e

/-- `f32x4(v, 1)`: the first three lanes of `v` as a point. -/
def pointOf (v : V4 F32) : V4 F32 := ⟨v.x, v.y, v.z, F32.ofRat 1⟩

end Verif.Spec
