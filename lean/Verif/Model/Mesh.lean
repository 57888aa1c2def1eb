import Verif.Model.Bvh

/-!
# A hierarchy over a triangle mesh in memory

The first overload of `Bvh::recreate` reads triangles from two byte arrays. The machine is little-endian; alignment and the
aliasing rules of the pointer casts are not modelled. A read outside an array is the outcome `none`.
-/

namespace Verif
namespace Bvh

/-- A byte array. -/
abbrev Bytes := Array (BitVec 8)

/-- `*(const uint16*)data` converted to `uint32`. -/
def read16 (m : Bytes) (o : Nat) : Option (BitVec 32) := do
  let b0 ← m[o]?
  let b1 ← m[o + 1]?
  some ((b1 ++ b0).setWidth 32)
/-- `*(const uint32*)data`, and the bits of a `float`. -/
def read32 (m : Bytes) (o : Nat) : Option (BitVec 32) := do
  let b0 ← m[o]?
  let b1 ← m[o + 1]?
  let b2 ← m[o + 2]?
  let b3 ← m[o + 3]?
  some (b3 ++ b2 ++ b1 ++ b0)
/-- `*(const float3*)data`. -/
def readFloat3 (m : Bytes) (o : Nat) : Option (V3 F32) := do
  let x ← read32 m o
  let y ← read32 m (o + 4)
  let z ← read32 m (o + 8)
  some ⟨⟨x⟩, ⟨y⟩, ⟨z⟩⟩

/-- The function `getIndex` is set to: `getIndex16` or `getIndex32`; `none` when the code calls `abort`.
/repo/source/bvh.cpp:267-273. -/
def getIndex? (indexSize : BitVec 32) : Option (Bytes → Nat → Option (BitVec 32)) :=
  if indexSize = 2#32 then some read16 else if indexSize ≠ 4#32 then none else some read32

/-- The triangle of primitive `k`; products and sums are of type `uint32`. /repo/source/bvh.cpp:34-40, 109-115, 283-289. -/
def meshTri (getIndex : Bytes → Nat → Option (BitVec 32)) (vertices indices : Bytes) (vertexSize indexSize k : BitVec 32) :
    Option (Triangle F32) := do
  let offset := k * 3#32
  let i0 ← getIndex indices (offset * indexSize).toNat
  let i1 ← getIndex indices ((offset + 1#32) * indexSize).toNat
  let i2 ← getIndex indices ((offset + 2#32) * indexSize).toNat
  let v0 ← readFloat3 vertices (i0 * vertexSize).toNat
  let v1 ← readFloat3 vertices (i1 * vertexSize).toNat
  let v2 ← readFloat3 vertices (i2 * vertexSize).toNat
  some ⟨V4.ofV3 v0, V4.ofV3 v1, V4.ofV3 v2⟩

/-- All triangles, in order; `none` when one of them is outside the memory. /repo/source/bvh.cpp:260, 281-291. -/
def meshTris (getIndex : Bytes → Nat → Option (BitVec 32)) (vertices indices : Bytes) (vertexSize indexSize indexCount : BitVec 32) :
    Option (List (Triangle F32)) :=
  (List.range (indexCount / 3#32).toNat).mapM fun k => meshTri getIndex vertices indices vertexSize indexSize (BitVec.ofNat 32 k)

/-- `recreate` over a mesh, /repo/source/bvh.cpp:250-399. `none`: the code calls `abort`. A failed assertion is the fault
`assertion`. With given centroids the code reads the triangles later, while it searches split planes and computes boxes; here
they are always read first. -/
def recreateMesh (old : Tree F32) (vertices indices : Bytes) (root : Aabb F32) (indexCount vertexSize indexSize : BitVec 32)
    (cents : Option (Array (V4 F32))) : Option (Except Fault (Tree F32)) :=
  if indexCount = 0 ∨ vertexSize = 0 ∨ indexSize = 0 then some (.error .assertion)
  else match getIndex? indexSize with
    | none => none
    | some getIndex => match meshTris getIndex vertices indices vertexSize indexSize indexCount with
      | none => some (.error .outOfRange)
      | some tris => some (recreate old (Source.ofTriangles tris.toArray cents) root)

/-- A `Bvh` object with its three arrays (`getNodes`, `getPrimitives`, `getCentroids`),
/repo/include/math/bvh.hpp:103-106, 138-148. -/
structure Object (F : Type) where
  tree : Tree F
  cents : Array (V4 F)

/-- The default constructor, /repo/include/math/bvh.hpp:133. -/
def Object.new {F : Type} : Object F := ⟨⟨#[], #[]⟩, #[]⟩

/-- The array `centroids` after `recreate`: resized and filled when no centroids are given, untouched otherwise.
/repo/source/bvh.cpp:275-296, 414-430. -/
def Object.centroids {F : Type} [Flt F] (old : Object F) (computed : Array (V4 F)) (cents : Option (Array (V4 F))) : Array (V4 F) :=
  match cents with
  | none => computed
  | some _ => old.cents

/-- `recreate` over boxes, /repo/source/bvh.cpp:402-530, and the constructor, 245-248, which calls it on a new object. -/
def Object.ofBoxes {F : Type} [Flt F] [FltB F] (old : Object F) (boxes : Array (Aabb F)) (root : Aabb F)
    (cents : Option (Array (V4 F))) : Except Fault (Object F) := do
  let t ← recreate old.tree (Source.ofAabbs boxes cents) root
  .ok ⟨t, old.centroids (boxes.map (·.getPosition)) cents⟩

/-- `recreate` over triangles, /repo/source/bvh.cpp:250-399, and the constructor, 240-244. -/
def Object.ofTriangles {F : Type} [Flt F] [FltB F] (old : Object F) (tris : Array (Triangle F)) (root : Aabb F)
    (cents : Option (Array (V4 F))) : Except Fault (Object F) := do
  let t ← recreate old.tree (Source.ofTriangles tris cents) root
  .ok ⟨t, old.centroids (tris.map triCentroid) cents⟩

end Bvh
end Verif
