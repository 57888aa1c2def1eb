import Verif.Spec.BvhSafe
import Verif.Spec.Geom
import Verif.Spec.Bvh
import Verif.Proofs.Geom

/-!
# Tests on boxes, and what a query must not lose
-/

namespace Verif.Spec
open Bvh

/-- A box whose corners are finite, in order and at most `m` from zero along each axis. Nothing is said of the fourth
lanes, which hold the links of a tree node. -/
def InRange (m : ℝ) (b : Aabb F32) : Prop := Within m b.min ∧ Within m b.max ∧ Below3 b.min b.max

/-- A test that accepts a box also accepts every box that contains it. -/
def Grows (m : ℝ) (test : Aabb F32 → Bool) : Prop :=
  ∀ a c, InRange m a → InRange m c → boxOf a ⊆ boxOf c → test a = true → test c = true

/-- The box `a` is inside every box that holds the set `S`. -/
def InHull (a : Aabb F32) (S : Set (V3 ℝ)) : Prop := ∀ lo hi, S ⊆ Box lo hi → boxOf a ⊆ Box lo hi

/-- Primitive `q` is in one of the ranges a traversal reported. -/
def Reported (t : Bvh.Tree F32) (tr : Trace) (q : ℕ) : Prop :=
  ∃ first count pos, (first, count) ∈ tr.leaves ∧ first ≤ pos ∧ pos < first + count ∧ t.prims[pos]? = some q

/-- A plane with finite coefficients of at most `m`. -/
def PlaneWithin (m : ℝ) (pl : Plane F32) : Prop := Within m pl.normDist ∧ pl.normDist.w.isFinite = true ∧ |rv pl.normDist.w| ≤ m

end Verif.Spec
