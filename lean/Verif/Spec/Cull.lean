import Verif.Spec.Reliable

/-!
# The clip volume of a matrix, exactly
-/

namespace Verif.Spec

/-- The clip coordinates `x y z w` of a point: the matrix with the exact values of its entries times the point. -/
noncomputable def clipAt (m : M4 F32) (p : V3 ℝ) : Fin 4 → ℝ :=
  ![rv m.c0.x * p.x + rv m.c1.x * p.y + rv m.c2.x * p.z + rv m.c3.x,
    rv m.c0.y * p.x + rv m.c1.y * p.y + rv m.c2.y * p.z + rv m.c3.y,
    rv m.c0.z * p.x + rv m.c1.z * p.y + rv m.c2.z * p.z + rv m.c3.z,
    rv m.c0.w * p.x + rv m.c1.w * p.y + rv m.c2.w * p.z + rv m.c3.w]

/-- The six faces of the clip volume `-w ≤ x ≤ w`, `-w ≤ y ≤ w`, `0 ≤ z ≤ w`: how far inside each a point is. -/
def faces : List ((Fin 4 → ℝ) → ℝ) :=
  [fun c => c 3 + c 0, fun c => c 3 - c 0, fun c => c 3 - c 1, fun c => c 3 + c 1, fun c => c 2, fun c => c 3 - c 2]

/-- The largest sum of the sizes of the terms of a clip coordinate. -/
noncomputable def clipSize (m : M4 F32) (p : V3 ℝ) : ℝ :=
  max (max (|rv m.c0.x| * |p.x| + |rv m.c1.x| * |p.y| + |rv m.c2.x| * |p.z| + |rv m.c3.x|)
      (|rv m.c0.y| * |p.x| + |rv m.c1.y| * |p.y| + |rv m.c2.y| * |p.z| + |rv m.c3.y|))
    (max (|rv m.c0.z| * |p.x| + |rv m.c1.z| * |p.y| + |rv m.c2.z| * |p.z| + |rv m.c3.z|)
      (|rv m.c0.w| * |p.x| + |rv m.c1.w| * |p.y| + |rv m.c2.w| * |p.z| + |rv m.c3.w|))

/-- All entries are finite and at most `B` in size. -/
def EntriesLe (m : M4 F32) (B : ℝ) : Prop :=
  ∀ x ∈ m.c0.toList ++ m.c1.toList ++ m.c2.toList ++ m.c3.toList, x.isFinite = true ∧ |rv x| ≤ B

/-- The sum of the sizes of the coordinates of a point. -/
noncomputable def size1 (p : V3 ℝ) : ℝ := |p.x| + |p.y| + |p.z|

end Verif.Spec
