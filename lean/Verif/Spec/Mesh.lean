import Verif.Model.F32
import Verif.Model.Vec

/-!
# A triangle mesh as numbers in memory
-/

namespace Verif.Spec

/-- The `n` bytes of `m` from `o` on hold the number `v`, least significant byte first. -/
def Stores (m : Array (BitVec 8)) (o n v : ℕ) : Prop :=
  ∃ b : Fin n → BitVec 8, (∀ i, m[o + i.val]? = some (b i)) ∧ v = (List.ofFn fun i => (b i).toNat * 256 ^ i.val).sum

/-- `vertices` holds the positions `pos` at the start of records of `vertexSize` bytes, and `indices` the numbers `idx` of
`indexSize` bytes each. -/
structure MeshOf (vertices indices : Array (BitVec 8)) (vertexSize indexSize : ℕ) (pos : List (V3 F32)) (idx : List ℕ) : Prop where
  vertex : ∀ j p, pos[j]? = some p → Stores vertices (j * vertexSize) 4 p.x.bits.toNat ∧
    Stores vertices (j * vertexSize + 4) 4 p.y.bits.toNat ∧ Stores vertices (j * vertexSize + 8) 4 p.z.bits.toNat
  index : ∀ j v, idx[j]? = some v → Stores indices (j * indexSize) indexSize v

end Verif.Spec
