import Verif.Model.FltC

/-!
# Cube map addressing

Models /repo/include/math/ibl.hpp.
-/

namespace Verif.Ibl
open Flt

/-- `shBandCount`, /repo/include/math/ibl.hpp:47. -/
def shBandCount : Nat := 3
/-- `shCoeffCount`, /repo/include/math/ibl.hpp:51. -/
def shCoeffCount : Nat := 9

/-- `coordsToST`, /repo/include/math/ibl.hpp:59-62. -/
@[vec] def coordsToST {F : Type} [Flt F] [FltB F] (coords : V2 (BitVec 32)) (invDim : F) : V2 F :=
  let one (c : BitVec 32) : F :=
    Flt.fma (lit 1 -. (FltB.ofInt c.toNat +. lit 0.5) *. invDim) (lit 2) (lit (-1))
  ⟨one coords.x, one coords.y⟩

/-- The direction before normalisation, /repo/include/math/ibl.hpp:71-81. `none`: `abort()`. -/
@[vec] def faceDir {F : Type} [Flt F] (st : V2 F) (face : BitVec 32) : Option (V3 F) :=
  if face = 0 then some ⟨lit 1, st.y, st.x⟩
  else if face = 1 then some ⟨lit (-1), st.y, -. st.x⟩
  else if face = 2 then some ⟨-. st.x, lit 1, -. st.y⟩
  else if face = 3 then some ⟨-. st.x, lit (-1), st.y⟩
  else if face = 4 then some ⟨-. st.x, st.y, lit 1⟩
  else if face = 5 then some ⟨st.x, st.y, lit (-1)⟩
  else none

/-- `stToDir`, /repo/include/math/ibl.hpp:69-83. `none`: `abort()`. -/
@[vec] def stToDir {F : Type} [Flt F] (st : V2 F) (face : BitVec 32) : Option (V3 F) :=
  (faceDir st face).map V3.normalize

/-- `coordsToDir`, /repo/include/math/ibl.hpp:90-94. -/
@[vec] def coordsToDir {F : Type} [Flt F] [FltB F] (coords : V3 (BitVec 32)) (invDim : F) : Option (V3 F) :=
  stToDir (coordsToST ⟨coords.x, coords.y⟩ invDim) coords.z

end Verif.Ibl
