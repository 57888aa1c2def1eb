import Verif.Model.Geom
import Verif.Model.F32

/-!
# Bounding volume hierarchy

Models /repo/include/math/bvh.hpp and /repo/source/bvh.cpp, function by function. Node pointers are node
indices. Reads and writes outside an array, conversions of a float that does not fit an `int32`, and failed
assertions are distinct outcomes (`Fault`). `while (true)` loops are functions of an iteration budget whose
exhaustion is the outcome `Fault.diverges`; the theorems show that it never occurs.

The two overloads of `findBestSplitPlane`, `calculateNodeAabb` and `recreate` (triangles: bvh.cpp:26-45, 83-162,
250-399; boxes: bvh.cpp:47-59, 165-237, 402-530) differ only in how a primitive contributes points to a box
and where its centroid comes from; both are instances of `Source`.
-/

namespace Verif

/-- What the code needs of `float` beyond `Flt`: reinterpreting a lane as a 32-bit integer (the unions
`f32x4::uints`, `f32x4::ints`, /repo/include/math/simd/vector/float.hpp:40-50) and conversions between `int32`
and `float`. -/
class FltB (F : Type) where
  /-- store a 32-bit pattern in a float lane -/
  ofBits : BitVec 32 → F
  /-- read a float lane as a 32-bit pattern -/
  toBits : F → BitVec 32
  /-- a stored pattern is read back -/
  toBits_ofBits : ∀ b, toBits (ofBits b) = b
  /-- `(int32)x`; `none` when the truncated value does not fit (undefined behaviour) -/
  toInt32 : F → Option Int
  /-- conversion of an integer to `float` -/
  ofInt : Int → F

/-- binary32: lanes are bit patterns. -/
instance : FltB F32 where
  ofBits := F32.mk
  toBits := F32.bits
  toBits_ofBits _ := rfl
  toInt32 x := if x.isFinite && decide (-(2 ^ 31) ≤ x.truncInt) && decide (x.truncInt < 2 ^ 31) then some x.truncInt else none
  ofInt z := F32.roundUnits (z * 2 ^ 149) 1

namespace Bvh
open FltB
variable {F : Type} [Flt F] [FltB F]

/-- Ways a build or a traversal can go wrong. -/
inductive Fault
  /-- access outside an array -/
  | outOfRange
  /-- conversion of a float to an integer it does not fit -/
  | badCast
  /-- failed assertion -/
  | assertion
  /-- the iteration budget is used up -/
  | diverges
deriving DecidableEq, Repr

/-! ## Nodes -/

/-- `Bvh::Node`, /repo/include/math/bvh.hpp:53-55. -/
structure Node (F : Type) where
  aabb : Aabb F
deriving DecidableEq, Repr

namespace Node
/-- `getPrimitiveCount`, /repo/include/math/bvh.hpp:60. -/
def getPrimitiveCount (n : Node F) : Nat := (toBits n.aabb.min.w).toNat
/-- `setPrimitiveCount`, /repo/include/math/bvh.hpp:65-70. -/
def setPrimitiveCount (n : Node F) (c : Nat) : Except Fault (Node F) :=
  match n.aabb.setMin (n.aabb.min.withW (ofBits (BitVec.ofNat 32 c))) with
  | some b => .ok ⟨b⟩
  | none => .error .assertion
/-- `getLeftNode`, /repo/include/math/bvh.hpp:75. -/
def getLeftNode (n : Node F) : Nat := (toBits n.aabb.max.w).toNat
/-- `setLeftNode`, /repo/include/math/bvh.hpp:80-85. -/
def setLeftNode (n : Node F) (k : Nat) : Except Fault (Node F) :=
  match n.aabb.setMax (n.aabb.max.withW (ofBits (BitVec.ofNat 32 k))) with
  | some b => .ok ⟨b⟩
  | none => .error .assertion
/-- `getFirstPrimitive`, /repo/include/math/bvh.hpp:90. -/
def getFirstPrimitive (n : Node F) : Nat := n.getLeftNode
/-- `setFirstPrimitive`, /repo/include/math/bvh.hpp:95. -/
def setFirstPrimitive (n : Node F) (k : Nat) : Except Fault (Node F) := n.setLeftNode k
/-- `isLeaf`, /repo/include/math/bvh.hpp:100. -/
def isLeaf (n : Node F) : Bool := toBits n.aabb.min.w != 0
end Node

/-! ## Primitives -/

/-- What the build reads of one primitive: the points it adds to the lower and to the upper corner of a box, in
order, and its centroid. -/
structure Item (F : Type) where
  mins : List (V4 F)
  maxs : List (V4 F)
  centroid : V4 F

/-- The arrays a tree is built from. `item k = none` when `k` is outside them. -/
structure Source (F : Type) where
  count : Nat
  item : Nat → Option (Item F)

/-- The box arrays of the second overload; `cents` is the optional centroid array.
/repo/source/bvh.cpp:190-195, 402-430. -/
def Source.ofAabbs (boxes : Array (Aabb F)) (cents : Option (Array (V4 F))) : Source F where
  count := boxes.size
  item k := match boxes[k]?, cents with
    | some b, none => some ⟨[b.min], [b.max], b.getPosition⟩
    | some b, some cs => cs[k]?.map fun c => ⟨[b.min], [b.max], c⟩
    | none, _ => none

/-- The centroid of a triangle, /repo/source/bvh.cpp:290. -/
def triCentroid (t : Triangle F) : V4 F :=
  V4.smul (V4.add (V4.add t.p0 t.p1) t.p2) (Flt.lit 1 /. Flt.lit 3)

/-- The triangles of the first overload. `tris` stands for the vertex and index memory: `Model/Mesh` reads them
from bytes. /repo/source/bvh.cpp:109-121, 276-296. -/
def Source.ofTriangles (tris : Array (Triangle F)) (cents : Option (Array (V4 F))) : Source F where
  count := tris.size
  item k := match tris[k]?, cents with
    | some t, none => some ⟨[t.p0, t.p1, t.p2], [t.p0, t.p1, t.p2], triCentroid t⟩
    | some t, some cs => cs[k]?.map fun c => ⟨[t.p0, t.p1, t.p2], [t.p0, t.p1, t.p2], c⟩
    | none, _ => none

/-- `centroidData[primitives[i]]`, `aabbs[primitives[i]]`: read the primitive at position `i` of the index
array. -/
def fetch (src : Source F) (prims : Array Nat) (i : Nat) : Except Fault (Item F) :=
  match prims[i]? with
  | none => .error .outOfRange
  | some p => match src.item p with
    | none => .error .outOfRange
    | some it => .ok it

/-- Extend the corners `(lo, hi)` by a primitive: `lo = min(min(min(lo, v0), v1), v2)` or
`lo = min(lo, aabb.getMin())`. /repo/source/bvh.cpp:41-42, 55-56, 120-121, 194-195. -/
def growItem (it : Item F) (c : V4 F × V4 F) : V4 F × V4 F :=
  (it.mins.foldl Simd.min c.1, it.maxs.foldl Simd.max c.2)

/-- The corners before any primitive is added: `f32x4::max`, `f32x4::minusMax`. /repo/source/bvh.cpp:50, 68-69. -/
def emptyCorners : V4 F × V4 F := (V4.splat fltMax, V4.splat minusFltMax)

/-- The loop of `calculateNodeAabb`, /repo/source/bvh.cpp:52-57. -/
def growRange (src : Source F) (prims : Array Nat) (is : List Nat) (c : V4 F × V4 F) :
    Except Fault (V4 F × V4 F) :=
  is.foldlM (fun c i => (fetch src prims i).map (growItem · c)) c

/-- `calculateNodeAabb`, /repo/source/bvh.cpp:26-59. -/
def calculateNodeAabb (src : Source F) (prims : Array Nat) (first count : Nat) : Except Fault (Aabb F) :=
  match growRange src prims (List.range' first count) emptyCorners with
  | .error e => .error e
  | .ok c => match Aabb.ctor c.1 c.2 with
    | some b => .ok b
    | none => .error .assertion

/-! ## Split search -/

/-- `Bin`, /repo/source/bvh.cpp:66-72. The counter is the fourth lane of `max`, read as an integer. -/
structure Bin (F : Type) where
  min : V4 F
  max : V4 F

/-- A fresh bin, /repo/source/bvh.cpp:68-69. -/
def Bin.empty : Bin F := ⟨V4.splat fltMax, V4.splat minusFltMax⟩
/-- `primitiveCount()`, /repo/source/bvh.cpp:71. -/
def Bin.primitiveCount (b : Bin F) : BitVec 32 := toBits b.max.w
/-- Add a primitive to a bin, /repo/source/bvh.cpp:119-122, 193-196. -/
def Bin.add (b : Bin F) (it : Item F) : Bin F :=
  let c := growItem it (b.min, b.max)
  ⟨c.1, c.2.withW (ofBits (toBits c.2.w + 1))⟩

/-- `calcArea` of bvh.cpp (half the surface area), /repo/source/bvh.cpp:75-81. -/
def halfArea (lo hi : V4 F) : F :=
  let e := V4.sub hi lo
  Simd.dot3 (e.swizzle 0 0 1 2) (e.swizzle 1 2 2 2)

/-- Bounds of the centroids along an axis, /repo/source/bvh.cpp:92-98, 173-179. -/
def axisBounds (src : Source F) (prims : Array Nat) (a : Fin 4) (is : List Nat) : Except Fault (F × F) :=
  is.foldlM (fun b i => (fetch src prims i).map fun it =>
    (Flt.stdMin b.1 (it.centroid.get a), Flt.stdMax b.2 (it.centroid.get a))) (fltMax, minusFltMax)

/-- `BIN_COUNT`, /repo/source/bvh.cpp:62. -/
def binCount : Nat := 8

/-- The bin of a centroid coordinate, /repo/source/bvh.cpp:117-119, 191-193; faults when the conversion is undefined or
the index is not a bin. -/
def binIndex (value boundsMin scale : F) : Except Fault Nat :=
  match toInt32 ((value -. boundsMin) *. scale) with
  | none => .error .badCast
  | some t =>
    let k := min 7 t
    if k < 0 then .error .outOfRange else .ok k.toNat

/-- One iteration of the binning loop, /repo/source/bvh.cpp:106-123, 187-197. -/
def binItem (src : Source F) (prims : Array Nat) (a : Fin 4) (boundsMin scale : F) (bins : List (Bin F)) (i : Nat) :
    Except Fault (List (Bin F)) :=
  match fetch src prims i with
  | .error e => .error e
  | .ok it => match binIndex (it.centroid.get a) boundsMin scale with
    | .error e => .error e
    | .ok k => .ok (bins.modify k (·.add it))

/-- Running totals over bins: the number of primitives so far and the area of their bounds. Signed overflow of
the totals is modelled as wrapping. /repo/source/bvh.cpp:127-143, 202-218. -/
def sweep : List (Bin F) → BitVec 32 → V4 F → V4 F → List (BitVec 32 × F)
  | [], _, _, _ => []
  | b :: bs, n, lo, hi =>
    let n' := n + b.primitiveCount
    let lo' := Simd.min lo b.min
    let hi' := Simd.max hi b.max
    (n', halfArea lo' hi') :: sweep bs n' lo' hi'

/-- `leftCount`, `leftArea`: totals of bins `0..i`. /repo/source/bvh.cpp:133-137, 208-212. -/
def leftTotals (bins : List (Bin F)) : List (BitVec 32 × F) :=
  sweep (bins.take 7) 0 (V4.splat fltMax) (V4.splat minusFltMax)
/-- `rightCount`, `rightArea`: totals of bins `i+1..7`. /repo/source/bvh.cpp:138-142, 213-217. -/
def rightTotals (bins : List (Bin F)) : List (BitVec 32 × F) :=
  (sweep (bins.reverse.take 7) 0 (V4.splat fltMax) (V4.splat minusFltMax)).reverse

/-- The cost of a plane, /repo/source/bvh.cpp:148-149, 223-224. -/
def planeCost (l r : BitVec 32 × F) : F := ofInt l.1.toInt *. l.2 +. ofInt r.1.toInt *. r.2

/-- The best plane so far, /repo/source/bvh.cpp:87-88. -/
structure Best (F : Type) where
  axis : Fin 4
  split : F
  cost : F

/-- One iteration of the plane loop, /repo/source/bvh.cpp:148-155, 223-230; `i` is the loop variable. -/
def tryPlane (a : Fin 4) (boundsMin scale : F) (best : Best F) (p : ((BitVec 32 × F) × (BitVec 32 × F)) × Nat) :
    Best F :=
  let c := planeCost p.1.1 p.1.2
  if c <. best.cost then ⟨a, boundsMin +. scale *. ofInt (p.2 + 1), c⟩ else best

/-- One iteration of the loop over the axes, /repo/source/bvh.cpp:90-157, 171-232. -/
def searchAxis (src : Source F) (prims : Array Nat) (is : List Nat) (best : Best F) (a : Fin 4) :
    Except Fault (Best F) :=
  match axisBounds src prims a is with
  | .error e => .error e
  | .ok (lo, hi) =>
    if lo ==. hi then .ok best
    else
      let scale := ofInt 8 /. (hi -. lo)
      match is.foldlM (binItem src prims a lo scale) (List.replicate binCount Bin.empty) with
      | .error e => .error e
      | .ok bins =>
        let step := (hi -. lo) /. ofInt 8
        .ok (((leftTotals bins).zip (rightTotals bins)).zipIdx.foldl (tryPlane a lo step) best)

/-- `findBestSplitPlane`, /repo/source/bvh.cpp:83-162, 165-237. -/
def findBestSplitPlane (src : Source F) (prims : Array Nat) (first count : Nat) : Except Fault (Best F) :=
  ([0, 1, 2] : List (Fin 4)).foldlM (searchAxis src prims (List.range' first count)) ⟨0, Flt.lit 0, fltMax⟩

/-! ## Build -/

/-- The partition loop: `i`, `j` are `uint32`, so `j--` wraps at zero. Returns the final `i` and the index array.
/repo/source/bvh.cpp:329-336, 462-469. -/
def partition (src : Source F) (axis : Fin 4) (split : F) :
    Nat → Nat → Nat → Array Nat → Except Fault (Nat × Array Nat)
  | 0, _, _, _ => .error .diverges
  | fuel + 1, i, j, prims =>
    if i ≤ j then
      match fetch src prims i with
      | .error e => .error e
      | .ok it =>
        if it.centroid.get axis <. split then partition src axis split fuel (i + 1) j prims
        else if j < prims.size then
          partition src axis split fuel i ((j + (2 ^ 32 - 1)) % 2 ^ 32) (prims.swapIfInBounds i j)
        else .error .outOfRange
    else .ok (i, prims)

/-- The members and locals the build loop works on: `nodes`, `primitives`, `nodeCount`, `nodeStack` and `node`.
/repo/include/math/bvh.hpp:103-106, /repo/source/bvh.cpp:298-299. -/
structure State (F : Type) where
  nodes : Array (Node F)
  prims : Array Nat
  nodeCount : Nat
  stack : List Nat
  cur : Nat

/-- Take the next node from the stack, or stop (`false`). /repo/source/bvh.cpp:317-326, 341-350, 386-395. -/
def pop (s : State F) : State F × Bool :=
  match s.stack with
  | [] => (s, false)
  | t :: rest => ({ s with cur := t, stack := rest }, true)

/-- Store a node. -/
def writeNode (nodes : Array (Node F)) (k : Nat) (n : Node F) : Except Fault (Array (Node F)) :=
  if k < nodes.size then .ok (nodes.setIfInBounds k n) else .error .outOfRange

/-- A child: its box, then the two integers. /repo/source/bvh.cpp:360-370, 493-501. -/
def makeChild (src : Source F) (prims : Array Nat) (first count : Nat) : Except Fault (Node F) := do
  let box ← calculateNodeAabb src prims first count
  let n ← (Node.mk box).setFirstPrimitive first
  n.setPrimitiveCount count

/-- The split of the current node into the nodes `nodeCount` and `nodeCount + 1`, and the choice of the next node.
`i` is the first primitive of the right child. /repo/source/bvh.cpp:353-395, 486-526. -/
def splitNode (src : Source F) (s : State F) (node : Node F) (prims : Array Nat) (first count i : Nat) :
    Except Fault (State F × Bool) := do
  let count1 := i - first
  let count2 := count - count1
  let left := s.nodeCount
  let right := s.nodeCount + 1
  let node ← node.setLeftNode left
  let node ← node.setPrimitiveCount 0
  let nodes ← writeNode s.nodes s.cur node
  let node1 ← makeChild src prims first count1
  let nodes ← writeNode nodes left node1
  let node2 ← makeChild src prims i count2
  let nodes ← writeNode nodes right node2
  let s := { s with nodes := nodes, prims := prims, nodeCount := s.nodeCount + 2 }
  let (big, small, nbig, nsmall) :=
    if count2 > count1 then (right, left, count2, count1) else (left, right, count1, count2)
  if nbig > 2 then
    .ok ({ s with cur := big, stack := if nsmall > 2 then small :: s.stack else s.stack }, true)
  else .ok (pop s)

/-- One iteration of the build loop; the flag tells whether the loop goes on.
/repo/source/bvh.cpp:304-396, 439-527. -/
def step (src : Source F) (s : State F) : Except Fault (State F × Bool) :=
  match s.nodes[s.cur]? with
  | none => .error .outOfRange
  | some node =>
    let first := node.getFirstPrimitive
    let count := node.getPrimitiveCount
    match findBestSplitPlane src s.prims first count with
    | .error e => .error e
    | .ok best =>
      let nodeCost := halfArea node.aabb.min node.aabb.max *. ofInt count
      if nodeCost <=. best.cost then .ok (pop s)
      else
        match partition src best.axis best.split (count + 2) first ((first + count + (2 ^ 32 - 1)) % 2 ^ 32) s.prims with
        | .error e => .error e
        | .ok (i, prims) =>
          if i - first = 0 ∨ i - first = count then .ok (pop { s with prims := prims })
          else splitNode src s node prims first count i

/-- The build loop with an iteration budget. /repo/source/bvh.cpp:304-396, 439-527. -/
def loop (src : Source F) : Nat → State F → Except Fault (State F)
  | 0, _ => .error .diverges
  | fuel + 1, s =>
    match step src s with
    | .error e => .error e
    | .ok (s', true) => loop src fuel s'
    | .ok (s', false) => .ok s'

/-- A tree: `getNodes()` and `getPrimitives()`. /repo/include/math/bvh.hpp:103-104, 138-142. -/
structure Tree (F : Type) where
  nodes : Array (Node F)
  prims : Array Nat
deriving DecidableEq

/-- `std::vector::resize`. -/
def resize {α : Type} (a : Array α) (n : Nat) (d : α) : Array α := a.extract 0 n ++ Array.replicate (n - a.size) d

/-- `recreate` over the previous contents `old`. With no primitive (an empty box array, or fewer than three
indices) the code sizes the node array to `2^32 - 1` and reads the empty index array; that is the outcome
`outOfRange` here. /repo/source/bvh.cpp:250-399, 402-530. -/
def recreate (old : Tree F) (src : Source F) (root : Aabb F) : Except Fault (Tree F) := do
  if src.count = 0 then .error .outOfRange
  else
    let nodes := resize old.nodes (2 * src.count - 1) ⟨⟨V4.splat (Flt.lit 0), V4.splat (Flt.lit 0)⟩⟩
    let prims := (List.range src.count).toArray
    let n ← (Node.mk root).setPrimitiveCount src.count
    let n ← n.setFirstPrimitive 0
    let nodes ← writeNode nodes 0 n
    let s ← loop src (2 * src.count - 1) ⟨nodes, prims, 1, [], 0⟩
    .ok ⟨s.nodes.extract 0 s.nodeCount, s.prims⟩

/-! ## Queries -/

/-- What `traverse` did: the nodes it asked the predicate about and the `(first, count)` ranges it reported, both in
order. -/
structure Trace where
  visited : List Nat
  leaves : List (Nat × Nat)
deriving DecidableEq, Repr

/-- The loop of `traverse`; `p` is the predicate, a function of the node. /repo/include/math/bvh.hpp:205-230. -/
def traverseLoop (nodes : Array (Node F)) (p : Nat → Node F → Bool) :
    Nat → Nat → List Nat → Trace → Except Fault Trace
  | 0, _, _, _ => .error .diverges
  | fuel + 1, cur, stack, tr =>
    match nodes[cur]? with
    | none => .error .outOfRange
    | some node =>
      let tr := { tr with visited := tr.visited ++ [cur] }
      let next := fun tr : Trace => match stack with
        | [] => .ok tr
        | t :: rest => traverseLoop nodes p fuel t rest tr
      if !p cur node then next tr
      else if node.isLeaf then
        next { tr with leaves := tr.leaves ++ [(node.getFirstPrimitive, node.getPrimitiveCount)] }
      else traverseLoop nodes p fuel node.getLeftNode ((node.getLeftNode + 1) :: stack) tr

/-- `traverse`, /repo/include/math/bvh.hpp:192-231. The budget is the number of nodes. -/
def traverse (t : Tree F) (p : Nat → Node F → Bool) : Except Fault Trace :=
  if t.nodes.size = 0 then .ok ⟨[], []⟩ else traverseLoop t.nodes p t.nodes.size 0 [] ⟨[], []⟩

/-- Copy the primitives of a leaf to the output, /repo/source/bvh.cpp:562-566. -/
def copyRange (prims : Array Nat) (is : List Nat) (out : List Nat) : Except Fault (List Nat) :=
  is.foldlM (fun out i => match prims[i]? with | none => .error .outOfRange | some p => .ok (out ++ [p])) out

/-- The loop of `collectInFrustum`, /repo/source/bvh.cpp:549-578. -/
def collectLoop (t : Tree F) (planes : List (Plane F)) : Nat → Nat → List Nat → List Nat → Except Fault (List Nat)
  | 0, _, _, _ => .error .diverges
  | fuel + 1, cur, stack, out =>
    match t.nodes[cur]? with
    | none => .error .outOfRange
    | some node =>
      let next := fun out : List Nat => match stack with
        | [] => .ok out
        | k :: rest => collectLoop t planes fuel k rest out
      if node.aabb.isBehindFrustum planes then next out
      else if node.isLeaf then
        match copyRange t.prims (List.range' node.getFirstPrimitive node.getPrimitiveCount) out with
        | .error e => .error e
        | .ok out => next out
      else collectLoop t planes fuel node.getLeftNode ((node.getLeftNode + 1) :: stack) out

/-- `collectInFrustum`: the primitives written to the output array. /repo/source/bvh.cpp:533-581. -/
def collectInFrustum (t : Tree F) (planes : List (Plane F)) : Except Fault (List Nat) :=
  if t.nodes.size = 0 then .ok [] else collectLoop t planes t.nodes.size 0 [] []

end Bvh
end Verif
