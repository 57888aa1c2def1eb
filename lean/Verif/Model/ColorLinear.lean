import Verif.Model.Color
import Verif.Model.ColorSpace
import Verif.Model.SimdMath

/-!
# Colors and linear values

Models `Color::toLinear` and `Color::fromLinear` on binary32, with `std::pow` left open.
-/

namespace Verif.Color
open Flt
variable [FltT F32]

/-- `rgbToSrgb`, /repo/include/math/color-space.hpp:30-38, on binary32: `ColorSpace.rgbToSrgb` with the multiply-add of the
target, which is fused or not. -/
def rgbToSrgb32 (t : FTarget) (v : V4 F32) : V4 F32 :=
  let h := V4.smul v (lit 12.92)
  let l := V4.map (fun x => F32x4.fma1 t (FltT.pow x (lit 1 /. lit 2.4)) (lit 1.055) (lit (-0.055))) v
  let r := V4.select (V4.cmp Flt.le v (V4.splat (lit 0.0031308))) h l
  r.withW v.w

/-- `Color::toLinear`, /repo/include/math/color.hpp:209, with the conversion to `f32x4` of lines 124. -/
def toLinear (c : Color) : V4 F32 := ColorSpace.srgbToRgb ⟨getNorm c.r, getNorm c.g, getNorm c.b, getNorm c.a⟩

/-- `Color::fromLinear`, /repo/include/math/color.hpp:214, with the `f32x4` constructor of lines 103-107. `contract` says
whether the compiler fuses the multiplication and addition in that constructor. -/
def fromLinear (t : FTarget) (contract : Bool) (v : V4 F32) : Option Color :=
  let s := rgbToSrgb32 t v
  ofLanes4 (if contract then quantizeSimdFused else quantizeSimd) (s.x, s.y, s.z, s.w)

end Verif.Color
