import Verif.Model.Bvh

/-!
# Surface area heuristic, specification

The cost of a candidate plane as a function of the primitives on its two sides, in binary32.
-/

namespace Verif.Spec.Sah
open F32

/-- Finite and not the negative zero: on such numbers equal values have equal bits. -/
def Plain (x : F32) : Prop := x.isFinite = true ∧ x ≠ ⟨0x80000000#32⟩

/-- The least element of a list. -/
def Least (x : F32) (l : List F32) : Prop := x ∈ l ∧ ∀ y ∈ l, leb x y = true
/-- The greatest element of a list. -/
def Greatest (x : F32) (l : List F32) : Prop := x ∈ l ∧ ∀ y ∈ l, leb y x = true

/-- `lo` and `hi` are the corners of the smallest box around the primitives. -/
def Bounds (its : List (Bvh.Item F32)) (lo hi : V3 F32) : Prop :=
  Least lo.x (its.flatMap fun it => it.mins.map (·.x)) ∧ Least lo.y (its.flatMap fun it => it.mins.map (·.y)) ∧
  Least lo.z (its.flatMap fun it => it.mins.map (·.z)) ∧
  Greatest hi.x (its.flatMap fun it => it.maxs.map (·.x)) ∧ Greatest hi.y (its.flatMap fun it => it.maxs.map (·.y)) ∧
  Greatest hi.z (its.flatMap fun it => it.maxs.map (·.z))

/-- Half the surface of a box, the three products added as in a four-term dot product. -/
def area (lo hi : V3 F32) : F32 :=
  let e : V3 F32 := ⟨fsub hi.x lo.x, fsub hi.y lo.y, fsub hi.z lo.z⟩
  fadd (fadd (fmul e.x e.y) (fmul e.x e.z)) (fadd (fmul e.y e.z) (ofRat 0))

/-- Which of the eight equal slots between `lo` and `hi` the coordinate `c` is in. -/
def slot (lo hi c : F32) : Nat :=
  (min 7 (truncInt (fmul (fsub c lo) (fdiv (ofRat 8) (fsub hi lo))))).toNat

/-- The primitives in slots up to `i`, and the others. -/
def left (its : List (Bvh.Item F32)) (a : Fin 4) (lo hi : F32) (i : Nat) : List (Bvh.Item F32) :=
  its.filter fun it => decide (slot lo hi (it.centroid.get a) ≤ i)
@[inherit_doc left]
def right (its : List (Bvh.Item F32)) (a : Fin 4) (lo hi : F32) (i : Nat) : List (Bvh.Item F32) :=
  its.filter fun it => decide (i < slot lo hi (it.centroid.get a))

/-- How many of the slots `ks` hold no primitive. -/
def gaps (its : List (Bvh.Item F32)) (a : Fin 4) (lo hi : F32) (ks : List Nat) : Nat :=
  (ks.filter fun k => its.all fun it => decide (slot lo hi (it.centroid.get a) ≠ k)).length

/-- The cost of a plane: the areas of the two sides, weighted with `nl` and `nr`. The heuristic asks for the numbers of
primitives as weights. -/
def cost (nl : Int) (loL hiL : V3 F32) (nr : Int) (loR hiR : V3 F32) : F32 :=
  fadd (fmul (ofRat nl) (area loL hiL)) (fmul (ofRat nr) (area loR hiR))

end Verif.Spec.Sah
