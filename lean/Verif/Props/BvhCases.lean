import Verif.Props.BvhBounds

/-!
# Bounding volume hierarchy: builds on concrete boxes

Counterexamples to C46, and builds that meet the hypotheses of C43-C47.
-/

namespace Verif
open Bvh Spec

deriving instance DecidableEq for Except

namespace BvhCases
/-- A SIMD vector from rationals (exactly representable ones). -/
def vec (x y z : Rat) : V4 F32 := ⟨F32.ofRat x, F32.ofRat y, F32.ofRat z, F32.ofRat 0⟩
/-- A box. -/
def box (x0 y0 z0 x1 y1 z1 : Rat) : Aabb F32 := ⟨vec x0 y0 z0, vec x1 y1 z1⟩
/-- Two boxes whose centers are neighbouring numbers, 1 and `1 + 2^-23`. -/
def close : Array (Aabb F32) := #[box 0 0 0 2 1 1, box 0 0 0 (2 + 1 / 2 ^ 22) 1 1]
/-- Two boxes whose centers are `2^-141` apart. -/
def tiny : Array (Aabb F32) := #[box 0 0 0 0 0 0, box 0 0 0 (1 / 2 ^ 140) 0 0]
/-- Five boxes in a row. -/
def row : Array (Aabb F32) :=
  #[box 0 0 0 2 1 1, box 4 0 0 6 1 1, box 8 0 0 10 1 1, box 3 0 0 5 1 1, box 20 0 0 22 1 1]
/-- A tree built earlier, or none. -/
def fresh : Bvh.Tree F32 := ⟨#[], #[]⟩
end BvhCases
open BvhCases

/-- C46 does not hold: building over two ordered, finite boxes inside the given root box, one a unit box and the other
larger by one part in 2^22, accesses the index array out of bounds. The split position rounds to the smallest centroid, so
no primitive is below it. -/
theorem bvh_partition_underflow : recreate fresh (Source.ofAabbs close none) (box 0 0 0 3 1 1) = .error .outOfRange ∧
    ∀ b ∈ close, Aabb.ordered b.min b.max = true ∧ Aabb.isInsideB (box 0 0 0 3 1 1) b = true := by
  refine ⟨by decide +kernel, ?_⟩
  intro b hb
  have : b = box 0 0 0 2 1 1 ∨ b = box 0 0 0 (2 + 1 / 2 ^ 22) 1 1 := by simpa [close] using hb
  rcases this with rfl | rfl <;>
  decide +kernel

/-- C46 does not hold for another reason: for two boxes whose centers are closer than `2^-125` the scale of the bins
overflows, and zero times infinity is converted to an integer, which is undefined. -/
theorem bvh_bin_overflow : recreate fresh (Source.ofAabbs tiny none) (box 0 0 0 1 1 1) = .error .badCast := by
  decide +kernel

/-- Non-vacuity of C43, C44, C45 and C47: five boxes make a tree with interior nodes. -/
theorem row_builds : ∃ t, recreate fresh (Source.ofAabbs row none) (box 0 0 0 22 1 1) = .ok t ∧ 3 ≤ t.nodes.size ∧
    t.prims.size = 5 := by
  have h : ((recreate fresh (Source.ofAabbs row none) (box 0 0 0 22 1 1)).toOption.any fun t =>
      decide (3 ≤ t.nodes.size) && decide (t.prims.size = 5)) = true := by decide +kernel
  cases hr : recreate fresh (Source.ofAabbs row none) (box 0 0 0 22 1 1) with
  | error e => rw [hr] at h; cases h
  | ok t =>
    rw [hr] at h
    have h' : (decide (3 ≤ t.nodes.size) && decide (t.prims.size = 5)) = true := h
    rw [Bool.and_eq_true, decide_eq_true_eq, decide_eq_true_eq] at h'
    exact ⟨t, rfl, h'⟩

example : ∃ t, recreate fresh (Source.ofAabbs row none) (box 0 0 0 22 1 1) = .ok t ∧ t.nodes.size ≤ 9 ∧
    t.prims.toList.Perm (List.range 5) := by
  obtain ⟨t, h, _⟩ := row_builds
  exact ⟨t, h, ((bvh_terminates fresh _ _ (by decide)).2 t h).2, bvh_permutation fresh _ _ (by decide) t h⟩

end Verif
