import Verif.Model.FltC

/-!
# Angle conversion

Models /repo/include/math/angles.hpp.
-/

namespace Verif
variable {F : Type} [Flt F] [FltC F]
open Flt

/-- `radians(float)`, /repo/include/math/angles.hpp:30. -/
@[vec] def radians (d : F) : F := d *. (FltC.pi /. lit 180)
/-- `radians(float2)`, /repo/include/math/angles.hpp:35. -/
@[vec] def radians2 (d : V2 F) : V2 F := V2.smul d (FltC.pi /. lit 180)
/-- `radians(float3)`, /repo/include/math/angles.hpp:40. -/
@[vec] def radians3 (d : V3 F) : V3 F := V3.smul d (FltC.pi /. lit 180)
/-- `radians(float4)`, /repo/include/math/angles.hpp:45. -/
@[vec] def radians4 (d : V4 F) : V4 F := V4.smul d (FltC.pi /. lit 180)
/-- `radians(f32x4)`: multiplies, then divides, /repo/include/math/angles.hpp:50. -/
@[vec] def radiansSimd (d : V4 F) : V4 F := V4.div (V4.smul d FltC.pi) (V4.splat (lit 180))
/-- `degrees(float)`, /repo/include/math/angles.hpp:56. -/
@[vec] def degrees (r : F) : F := r *. (lit 180 /. FltC.pi)
/-- `degrees(float2)`, /repo/include/math/angles.hpp:61. -/
@[vec] def degrees2 (r : V2 F) : V2 F := V2.smul r (lit 180 /. FltC.pi)
/-- `degrees(float3)`, /repo/include/math/angles.hpp:66. -/
@[vec] def degrees3 (r : V3 F) : V3 F := V3.smul r (lit 180 /. FltC.pi)
/-- `degrees(float4)`, /repo/include/math/angles.hpp:71. -/
@[vec] def degrees4 (r : V4 F) : V4 F := V4.smul r (lit 180 /. FltC.pi)
/-- `degrees(f32x4)`, /repo/include/math/angles.hpp:76. -/
@[vec] def degreesSimd (r : V4 F) : V4 F := V4.div (V4.smul r (lit 180)) (V4.splat FltC.pi)

end Verif
