import Verif.Spec.Accuracy
import Verif.Model.Bvh

/-!
# Primitives over which a build cannot fail
-/

namespace Verif.Spec
open Bvh

/-- The first three coordinates are finite and at most `m` in absolute value. -/
def Within (m : ℝ) (v : V4 F32) : Prop :=
  AllFinite [v.x, v.y, v.z] ∧ |rv v.x| ≤ m ∧ |rv v.y| ≤ m ∧ |rv v.z| ≤ m

/-- Every coordinate of `p` is at most that of `q`. -/
def Below3 (p q : V4 F32) : Prop := rv p.x ≤ rv q.x ∧ rv p.y ≤ rv q.y ∧ rv p.z ≤ rv q.z

/-- Coordinates that differ at all differ by a millionth of their size, and by `2^-100`. -/
def Apart (a b : ℝ) : Prop := a < b → |a| / 2 ^ 20 ≤ b - a ∧ 1 / 2 ^ 100 ≤ b - a

/-- What a caller has to see to: all primitives exist, their corners are in range and in order, and so are their
centroids, no two of which are nearly equal along an axis without being equal. -/
structure Roomy (src : Source F32) : Prop where
  items : ∀ k, k < src.count → ∃ it, src.item k = some it
  corners : ∀ k it, src.item k = some it → (∀ q ∈ it.mins, Within (2 ^ 40) q) ∧ ∀ q ∈ it.maxs, Within (2 ^ 40) q
  ordered : ∀ k it, src.item k = some it → ∃ p ∈ it.mins, ∃ q ∈ it.maxs, Below3 p q
  cents : ∀ k it, src.item k = some it → Within (2 ^ 60) it.centroid
  apart : ∀ j k a b, src.item j = some a → src.item k = some b →
    Apart (rv a.centroid.x) (rv b.centroid.x) ∧ Apart (rv a.centroid.y) (rv b.centroid.y) ∧
      Apart (rv a.centroid.z) (rv b.centroid.z)

/-- A coordinate that is a whole multiple, at most `m` in absolute value, of `2^s`. -/
def GridC (s : ℤ) (m : ℕ) (x : F32) : Prop := x.isFinite = true ∧ ∃ i : ℤ, i.natAbs ≤ m ∧ rv x = i * (2 : ℝ) ^ s

/-- A point of a grid of cells of size `2^s`, at most `m` cells from zero along each axis. -/
def OnGrid (s : ℤ) (m : ℕ) (v : V4 F32) : Prop := GridC s m v.x ∧ GridC s m v.y ∧ GridC s m v.z

end Verif.Spec
