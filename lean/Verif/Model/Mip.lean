import Verif.Model.F32
import Verif.Model.IntVec

/-!
# Mip chain arithmetic

Models the mip functions of /repo/include/math/vector/uint.hpp and /repo/include/math/simd/vector/uint.hpp.
`std::log2` and `std::exp2` are library functions: they are parameters `L` and `E`. `none` is undefined behaviour.
-/

namespace Verif.Mip

/-- `(uint8)std::floor(x)`; `none` when the value does not fit. Models the cast in
/repo/include/math/vector/uint.hpp:906. -/
def floorToUint8 (x : F32) : Option (BitVec 8) :=
  let v := x.units / 2 ^ 149
  if x.isFinite = true ∧ 0 ≤ v ∧ v < 256 then some (BitVec.ofInt 8 v) else none
/-- `(uint32)x`; `none` when the truncated value does not fit. Models the cast in
/repo/include/math/vector/uint.hpp:919. -/
def toUint32 (x : F32) : Option (BitVec 32) :=
  if x.isFinite = true ∧ 0 ≤ x.truncInt ∧ x.truncInt < 2 ^ 32 then some (BitVec.ofInt 32 x.truncInt) else none

/-- `calcMipCount(uint32)`. Models /repo/include/math/vector/uint.hpp:904-907. -/
def calcMipCount (L : F32 → F32) (size : BitVec 32) : Option (BitVec 8) :=
  (floorToUint8 (L (F32.ofNat size.toNat))).map (· + 1)
/-- `calcMipCount(uint2)`. Models /repo/include/math/vector/uint.hpp:908-911. -/
def calcMipCount2 (L : F32 → F32) (size : V2 (BitVec 32)) : Option (BitVec 8) :=
  calcMipCount L (maxBy BitVec.ult size.x size.y)
/-- `calcMipCount(uint3)`. Models /repo/include/math/vector/uint.hpp:912-915. -/
def calcMipCount3 (L : F32 → F32) (size : V3 (BitVec 32)) : Option (BitVec 8) :=
  calcMipCount L (maxBy BitVec.ult (maxBy BitVec.ult size.x size.y) size.z)
/-- `calcMipCount3(u32x4)`. Models /repo/include/math/simd/vector/uint.hpp:898-901. -/
def calcMipCount3Simd (k : Backend) (L : F32 → F32) (size : V4 (BitVec 32)) : Option (BitVec 8) :=
  calcMipCount L (Backend.max3U k size)

/-- The divisor `(uint32)std::exp2((float)mip)`; division by zero is undefined. Models
/repo/include/math/vector/uint.hpp:919. -/
def mipDivisor (E : F32 → F32) (mip : BitVec 8) : Option (BitVec 32) :=
  (toUint32 (E (F32.ofNat mip.toNat))).bind fun d => if d = 0 then none else some d
/-- `calcSizeAtMip(uint32, uint8)`. Models /repo/include/math/vector/uint.hpp:917-920. -/
def calcSizeAtMip (E : F32 → F32) (s : BitVec 32) (mip : BitVec 8) : Option (BitVec 32) :=
  (mipDivisor E mip).map fun d => maxBy BitVec.ult (s / d) 1
/-- `calcSizeAtMip(uint2, uint8)`. Models /repo/include/math/vector/uint.hpp:921-924. -/
def calcSizeAtMip2 (E : F32 → F32) (s : V2 (BitVec 32)) (mip : BitVec 8) : Option (V2 (BitVec 32)) :=
  (mipDivisor E mip).map fun d => V2.max BitVec.ult ⟨s.x / d, s.y / d⟩ ⟨1, 1⟩
/-- `calcSizeAtMip(uint3, uint8)`. Models /repo/include/math/vector/uint.hpp:925-928. -/
def calcSizeAtMip3 (E : F32 → F32) (s : V3 (BitVec 32)) (mip : BitVec 8) : Option (V3 (BitVec 32)) :=
  (mipDivisor E mip).map fun d => V3.max BitVec.ult ⟨s.x / d, s.y / d, s.z / d⟩ ⟨1, 1, 1⟩
/-- `calcSizeAtMip3(u32x4, uint8)`. Models /repo/include/math/simd/vector/uint.hpp:902-905. -/
def calcSizeAtMip3Simd (k : Backend) (E : F32 → F32) (s : V4 (BitVec 32)) (mip : BitVec 8) :
    Option (V4 (BitVec 32)) :=
  (mipDivisor E mip).map fun d => Backend.maxU k ⟨s.x / d, s.y / d, s.z / d, s.w / d⟩ ⟨1, 1, 1, 1⟩

end Verif.Mip
