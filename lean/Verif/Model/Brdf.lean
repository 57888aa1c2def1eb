import Verif.Model.FltC

/-!
# Reflectance helpers

Models /repo/include/math/brdf.hpp.
-/

namespace Verif.Brdf
variable {F : Type} [Flt F] [FltT F] [FltB F] [FltC F]
open Flt

/-- `ggx`, /repo/include/math/brdf.hpp:43-47. -/
@[vec] def ggx {F : Type} [Flt F] [FltC F] (noh roughness : F) : F :=
  let f := (roughness -. lit 1) *. ((roughness +. lit 1) *. (noh *. noh)) +. lit 1
  (roughness *. roughness) /. (FltC.pi *. f *. f)

/-- The bit reversal inside `hammersley`, /repo/include/math/brdf.hpp:63-68. -/
def reverseBits (index : BitVec 32) : BitVec 32 :=
  let bits := index
  let bits := (bits <<< 16) ||| (bits >>> 16)
  let bits := ((bits &&& 0x55555555#32) <<< 1) ||| ((bits &&& 0xAAAAAAAA#32) >>> 1)
  let bits := ((bits &&& 0x33333333#32) <<< 2) ||| ((bits &&& 0xCCCCCCCC#32) >>> 2)
  let bits := ((bits &&& 0x0F0F0F0F#32) <<< 4) ||| ((bits &&& 0xF0F0F0F0#32) >>> 4)
  ((bits &&& 0x00FF00FF#32) <<< 8) ||| ((bits &&& 0xFF00FF00#32) >>> 8)

/-- `hammersley`, /repo/include/math/brdf.hpp:60-70. The integers are converted to `float` before the
multiplications. -/
def hammersley {F : Type} [Flt F] [FltB F] (index : BitVec 32) (invSampleCount : F) : V2 F :=
  let tof : F := lit 0.5 /. FltB.ofInt 0x80000000
  ⟨FltB.ofInt index.toNat *. invSampleCount, FltB.ofInt (reverseBits index).toNat *. tof⟩

/-- `importanceSamplingNdfDggx`, /repo/include/math/brdf.hpp:82-89. -/
@[vec] def importanceSamplingNdfDggx {F : Type} [Flt F] [FltT F] [FltC F] (u : V2 F) (a : F) : V4 F :=
  let phi := lit 2 *. FltC.pi *. u.x
  let cosTheta2 := (lit 1 -. u.y) /. (lit 1 +. (a +. lit 1) *. ((a -. lit 1) *. u.y))
  let cosTheta := Flt.sqrt cosTheta2
  let sinTheta := Flt.sqrt (lit 1 -. cosTheta2)
  V4.ofV3 ⟨sinTheta *. FltT.cos phi, sinTheta *. FltT.sin phi, cosTheta⟩

/-- `iorToReflectance`, /repo/include/math/brdf.hpp:95-99. -/
@[vec] def iorToReflectance {F : Type} [Flt F] (ior : F) : F :=
  let f0 := ((ior -. lit 1) *. (ior -. lit 1)) /. ((ior +. lit 1) *. (ior +. lit 1))
  Flt.sqrt (f0 *. (lit 1 /. lit 0.16))

end Verif.Brdf
