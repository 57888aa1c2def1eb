import Verif.Model.IntVec

/-!
# Products and lengths on every backend

`Verif.Model.Vec` models the SSE4.1 configuration of /repo/include/math/simd/vector/float.hpp. This file adds the
other branches of the same functions. `scalar` is the configuration without SIMD; `sse2` is SSE without
SSE4.1, which falls back to the scalar functions where `_mm_dp_ps` would be used. Simplification: `vaddvq_f32` is
modelled as the pairwise sum `(x + y) + (z + w)`.
-/

namespace Verif.Backend
variable {F : Type} [Flt F]

/-- `vaddvq_f32`. Models the intrinsic used at /repo/include/math/simd/vector/float.hpp:975-1024. -/
@[vec] def vaddv (v : V4 F) : F := (v.x +. v.y) +. (v.z +. v.w)
/-- `dot4`. Models /repo/include/math/simd/vector/float.hpp:986-995. -/
@[vec] def dot4 (k : Backend) (a b : V4 F) : F :=
  match k with
  | sse41 => Simd.dot4 a b
  | neon => vaddv (V4.mul a b)
  | sse2 | scalar => V4.dot a b
/-- `dot3`. Models /repo/include/math/simd/vector/float.hpp:1019-1028. -/
@[vec] def dot3 (k : Backend) (a b : V4 F) : F :=
  match k with
  | sse41 => Simd.dot3 a b
  | neon => vaddv ((V4.mul a b).withW (Flt.lit 0))
  | sse2 | scalar => V3.dot a.xyz b.xyz
/-- `cross3`. Models /repo/include/math/simd/vector/float.hpp:1036-1051. -/
@[vec] def cross3 (k : Backend) (a b : V4 F) : V4 F :=
  match k with
  | sse2 | sse41 | neon => Simd.cross3 a b
  | scalar => V4.ofV3 (V3.cross a.xyz b.xyz)
/-- `length3`. Models /repo/include/math/simd/vector/float.hpp:1082-1091. -/
@[vec] def length3 (k : Backend) (v : V4 F) : F :=
  match k with
  | sse41 => Simd.length3 v
  | neon => Flt.sqrt (vaddv ((V4.mul v v).withW (Flt.lit 0)))
  | sse2 | scalar => V3.length v.xyz
/-- `length4`. Models /repo/include/math/simd/vector/float.hpp:1062-1071. -/
@[vec] def length4 (k : Backend) (v : V4 F) : F :=
  match k with
  | sse41 => Simd.length4 v
  | neon => Flt.sqrt (vaddv (V4.mul v v))
  | sse2 | scalar => V4.length v
/-- `normalize3`. Models /repo/include/math/simd/vector/float.hpp:1141-1151. -/
@[vec] def normalize3 (k : Backend) (v : V4 F) : V4 F :=
  match k with
  | sse41 => Simd.normalize3 v
  | neon => V4.div v (V4.splat (Flt.sqrt (vaddv ((V4.mul v v).withW (Flt.lit 0)))))
  | sse2 | scalar => V4.ofV3 (V3.normalize v.xyz)
/-- `normalize4`. Models /repo/include/math/simd/vector/float.hpp:1127-1136. -/
@[vec] def normalize4 (k : Backend) (v : V4 F) : V4 F :=
  match k with
  | sse41 => Simd.normalize4 v
  | neon => V4.div v (V4.splat (Flt.sqrt (vaddv (V4.mul v v))))
  | sse2 | scalar => V4.normalize v

end Verif.Backend
