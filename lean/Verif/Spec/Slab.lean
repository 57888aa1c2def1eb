import Verif.Spec.Accuracy
import Verif.Spec.Geom
import Verif.Proofs.Geom

/-!
# A box with its faces moved

Rounding moves the place where a ray crosses a face by a part of the distance between the face and the origin of the ray.
-/

namespace Verif.Spec

/-- How far a face at `face` moves along its axis: the part `e` of its distance from `o`, and `a` more. -/
def moved (e a o face : ℝ) : ℝ := e * |face - o| + a

/-- The box with every face moved out by the part `e` of its distance from the point `o`, and by `a` more. With negative `e`
and `a` the faces move inwards. -/
def FacesMoved (b : Aabb F32) (o : V3 ℝ) (e a : ℝ) : Set (V3 ℝ) :=
  Box ⟨(pt b.min).x - moved e a o.x (pt b.min).x, (pt b.min).y - moved e a o.y (pt b.min).y,
       (pt b.min).z - moved e a o.z (pt b.min).z⟩
      ⟨(pt b.max).x + moved e a o.x (pt b.max).x, (pt b.max).y + moved e a o.y (pt b.max).y,
       (pt b.max).z + moved e a o.z (pt b.max).z⟩

end Verif.Spec
