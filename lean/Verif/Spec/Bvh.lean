import Verif.Model.Bvh
import Verif.Spec.Geom

/-!
# Bounding volume hierarchy specification

Written with the public accessors of a node only.
-/

namespace Verif.Spec
open Bvh
variable {F : Type} [Flt F] [FltB F]

/-- `nodes` holds, from node `id` down, a binary tree over the positions `first .. first + count - 1` of the
primitive array. A leaf holds its whole range; the children of an interior node are stored next to each other, after
the node, and split its range. `rs` lists the nodes of the tree with their ranges `(id, first, count)`. -/
inductive IsTree (nodes : Array (Node F)) : Nat → Nat → Nat → List (Nat × Nat × Nat) → Prop
  | leaf {id : Nat} {nd : Node F} (h : nodes[id]? = some nd) (hl : nd.isLeaf = true) :
      IsTree nodes id nd.getFirstPrimitive nd.getPrimitiveCount [(id, nd.getFirstPrimitive, nd.getPrimitiveCount)]
  | inner {id f c1 c2 : Nat} {nd : Node F} {r1 r2 : List (Nat × Nat × Nat)} (h : nodes[id]? = some nd)
      (hl : nd.isLeaf = false) (hlt : id < nd.getLeftNode) (h1 : IsTree nodes nd.getLeftNode f c1 r1)
      (h2 : IsTree nodes (nd.getLeftNode + 1) (f + c1) c2 r2) :
      IsTree nodes id f (c1 + c2) ((id, f, c1 + c2) :: (r1 ++ r2))

/-- Nodes reached from node `id` by going to children. -/
inductive Reach (nodes : Array (Node F)) (id : Nat) : Nat → Prop
  | here : Reach nodes id id
  | left {k : Nat} {nd : Node F} (h : Reach nodes id k) (hn : nodes[k]? = some nd) (hl : nd.isLeaf = false) :
      Reach nodes id nd.getLeftNode
  | right {k : Nat} {nd : Node F} (h : Reach nodes id k) (hn : nodes[k]? = some nd) (hl : nd.isLeaf = false) :
      Reach nodes id (nd.getLeftNode + 1)

/-- Nodes reached from node `id` through nodes the predicate accepts: every node on the way, `id` included and the
last one excluded, is accepted. -/
inductive Passed (nodes : Array (Node F)) (p : Nat → Node F → Bool) (id : Nat) : Nat → Prop
  | here : Passed nodes p id id
  | left {k : Nat} {nd : Node F} (h : Passed nodes p id k) (hn : nodes[k]? = some nd) (hp : p k nd = true)
      (hl : nd.isLeaf = false) : Passed nodes p id nd.getLeftNode
  | right {k : Nat} {nd : Node F} (h : Passed nodes p id k) (hn : nodes[k]? = some nd) (hp : p k nd = true)
      (hl : nd.isLeaf = false) : Passed nodes p id (nd.getLeftNode + 1)

/-- The tree is well formed over `n` primitives: the first node is the root of a binary tree over all positions, and
the nodes of that tree are exactly the stored nodes. -/
def WellFormed (t : Bvh.Tree F) (n : Nat) : Prop :=
  t.prims.toList.Perm (List.range n) ∧
    ∃ rs, IsTree t.nodes 0 0 n rs ∧ (rs.map (·.1)).Perm (List.range t.nodes.size)

/-- Primitive `p` is in a leaf at or below node `id`. -/
def Under (t : Bvh.Tree F) (id p : Nat) : Prop :=
  ∃ (l : Nat) (nd : Node F) (k : Nat), Reach t.nodes id l ∧ t.nodes[l]? = some nd ∧ nd.isLeaf = true ∧
    nd.getFirstPrimitive ≤ k ∧ k < nd.getFirstPrimitive + nd.getPrimitiveCount ∧ t.prims[k]? = some p

/-- Every coordinate of `p` is at most that of `q`. -/
def Le3 (p q : V3 ℝ) : Prop := p.x ≤ q.x ∧ p.y ≤ q.y ∧ p.z ≤ q.z

end Verif.Spec
