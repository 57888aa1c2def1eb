import Verif.Model.VecBackends

/-!
# Squared lengths, distances and the tests built on them

The scalar functions of /repo/include/math/vector/float.hpp and the SIMD functions of
/repo/include/math/simd/vector/float.hpp on every backend. The tolerances are explicit arguments; their default values
are `defaultTolerance` and `defaultMaxDistSq`.
-/

namespace Verif
variable {F : Type} [Flt F]

/-- The default `tolerance` of `isNormalized`, `1.0e-6f`. Models /repo/include/math/vector/float.hpp:753, 1037, 1338 and
/repo/include/math/simd/vector/float.hpp:1159, 1169. -/
def defaultTolerance : F := Flt.lit (1 / 1000000)
/-- The default `maxDistSq` of `isClose`, `1.0e-12f`. Models /repo/include/math/vector/float.hpp:737, 1021, 1322. -/
def defaultMaxDistSq : F := Flt.lit (1 / 1000000000000)

namespace V2
/-- `lengthSq`, /repo/include/math/vector/float.hpp:709. -/
@[vec] def lengthSq (v : V2 F) : F := dot v v
/-- `distanceSq`, /repo/include/math/vector/float.hpp:723. -/
@[vec] def distanceSq (a b : V2 F) : F := lengthSq (sub a b)
/-- `distance`, /repo/include/math/vector/float.hpp:730. -/
@[vec] def distance (a b : V2 F) : F := length (sub a b)
/-- `isClose`, /repo/include/math/vector/float.hpp:737-740. -/
def isClose (a b : V2 F) (maxDistSq : F) : Bool := distanceSq a b <=. maxDistSq
/-- `isNormalized`, /repo/include/math/vector/float.hpp:753-756. -/
def isNormalized (v : V2 F) (tolerance : F) : Bool := Flt.abs (lengthSq v -. Flt.lit 1) <=. tolerance
end V2

namespace V3
/-- `lengthSq`, /repo/include/math/vector/float.hpp:993. -/
@[vec] def lengthSq (v : V3 F) : F := dot v v
/-- `distanceSq`, /repo/include/math/vector/float.hpp:1007. -/
@[vec] def distanceSq (a b : V3 F) : F := lengthSq (sub a b)
/-- `distance`, /repo/include/math/vector/float.hpp:1014. -/
@[vec] def distance (a b : V3 F) : F := length (sub a b)
/-- `isClose`, /repo/include/math/vector/float.hpp:1021-1024. -/
def isClose (a b : V3 F) (maxDistSq : F) : Bool := distanceSq a b <=. maxDistSq
/-- `isNormalized`, /repo/include/math/vector/float.hpp:1037-1040. -/
def isNormalized (v : V3 F) (tolerance : F) : Bool := Flt.abs (lengthSq v -. Flt.lit 1) <=. tolerance
end V3

namespace V4
/-- `lengthSq`, /repo/include/math/vector/float.hpp:1294. -/
@[vec] def lengthSq (v : V4 F) : F := dot v v
/-- `distanceSq`, /repo/include/math/vector/float.hpp:1308. -/
@[vec] def distanceSq (a b : V4 F) : F := lengthSq (sub a b)
/-- `distance`, /repo/include/math/vector/float.hpp:1315. -/
@[vec] def distance (a b : V4 F) : F := length (sub a b)
/-- `isClose`, /repo/include/math/vector/float.hpp:1322-1325. -/
def isClose (a b : V4 F) (maxDistSq : F) : Bool := distanceSq a b <=. maxDistSq
/-- `isNormalized`, /repo/include/math/vector/float.hpp:1338-1341. -/
def isNormalized (v : V4 F) (tolerance : F) : Bool := Flt.abs (lengthSq v -. Flt.lit 1) <=. tolerance
end V4

namespace Backend
/-- `lengthSq4`, /repo/include/math/simd/vector/float.hpp:1057. -/
@[vec] def lengthSq4 (k : Backend) (v : V4 F) : F := k.dot4 v v
/-- `lengthSq3`, /repo/include/math/simd/vector/float.hpp:1077. -/
@[vec] def lengthSq3 (k : Backend) (v : V4 F) : F := k.dot3 v v
/-- `distanceSq4`, /repo/include/math/simd/vector/float.hpp:1099. -/
@[vec] def distanceSq4 (k : Backend) (a b : V4 F) : F := k.lengthSq4 (V4.sub a b)
/-- `distance4`, /repo/include/math/simd/vector/float.hpp:1106. -/
@[vec] def distance4 (k : Backend) (a b : V4 F) : F := k.length4 (V4.sub a b)
/-- `distanceSq3`, /repo/include/math/simd/vector/float.hpp:1114. -/
@[vec] def distanceSq3 (k : Backend) (a b : V4 F) : F := k.lengthSq3 (V4.sub a b)
/-- `distance3`, /repo/include/math/simd/vector/float.hpp:1121. -/
@[vec] def distance3 (k : Backend) (a b : V4 F) : F := k.length3 (V4.sub a b)
/-- `isNormalized4`, /repo/include/math/simd/vector/float.hpp:1159-1162. -/
def isNormalized4 (k : Backend) (v : V4 F) (tolerance : F) : Bool :=
  Flt.abs (k.lengthSq4 v -. Flt.lit 1) <=. tolerance
/-- `isNormalized3`, /repo/include/math/simd/vector/float.hpp:1169-1172. -/
def isNormalized3 (k : Backend) (v : V4 F) (tolerance : F) : Bool :=
  Flt.abs (k.lengthSq3 v -. Flt.lit 1) <=. tolerance
end Backend
end Verif
