import Verif.Model.FltT
import Verif.Model.Mat

/-!
# Color spaces

Models /repo/include/math/color-space.hpp.
-/

namespace Verif.ColorSpace
variable {F : Type} [Flt F] [FltT F]
open Flt

/-- Lane-wise `pow`, /repo/include/math/simd/vector/float.hpp:1266-1271. -/
@[vec] def pow4 (b e : V4 F) : V4 F := V4.map2 FltT.pow b e

/-- `rgbToSrgb`, /repo/include/math/color-space.hpp:30-38. -/
@[vec] def rgbToSrgb (rgba : V4 F) : V4 F :=
  let c : V4 F := V4.splat (lit 0.0031308)
  let h := V4.smul rgba (lit 12.92)
  let l := Simd.fma (pow4 rgba (V4.splat (lit 1 /. lit 2.4))) (V4.splat (lit 1.055)) (V4.splat (lit (-0.055)))
  let r := V4.select (V4.cmp Flt.le rgba c) h l
  r.withW rgba.w
/-- `srgbToRgb`, /repo/include/math/color-space.hpp:43-51. -/
@[vec] def srgbToRgb (s : V4 F) : V4 F :=
  let c : V4 F := V4.splat (lit 0.04045)
  let h := V4.smul s (lit 1 /. lit 12.92)
  let l := pow4 (V4.smul (V4.add s (V4.splat (lit 0.055))) (lit 1 /. lit 1.055)) (V4.splat (lit 2.4))
  let r := V4.select (V4.cmp Flt.le s c) h l
  r.withW s.w

/-- The matrix of `rgbToXyz`, built by the row-by-row constructor, /repo/include/math/color-space.hpp:59-65. -/
@[vec] def rgbToXyzM : M4 F := M4.ofRows
  (lit 0.4124564) (lit 0.2126729) (lit 0.0193339) (lit 0)
  (lit 0.3575761) (lit 0.7151522) (lit 0.1191920) (lit 0)
  (lit 0.1804375) (lit 0.0721750) (lit 0.9503041) (lit 0)
  (lit 0) (lit 0) (lit 0) (lit 0)
/-- `rgbToXyz`, /repo/include/math/color-space.hpp:57-67. -/
@[vec] def rgbToXyz (rgb : V4 F) : V4 F := Simd.multiply3x3V rgbToXyzM rgb
/-- The matrix of `xyzToRgb`, /repo/include/math/color-space.hpp:74-80. -/
@[vec] def xyzToRgbM : M4 F := M4.ofRows
  (lit 3.2404542) (lit (-0.9692660)) (lit 0.0556434) (lit 0)
  (lit (-1.5371385)) (lit 1.8760108) (lit (-0.2040259)) (lit 0)
  (lit (-0.4985314)) (lit 0.0415560) (lit 1.0572252) (lit 0)
  (lit 0) (lit 0) (lit 0) (lit 0)
/-- `xyzToRgb`, /repo/include/math/color-space.hpp:72-82. -/
@[vec] def xyzToRgb (xyz : V4 F) : V4 F := Simd.multiply3x3V xyzToRgbM xyz

/-- `xyzToYxy`, /repo/include/math/color-space.hpp:88-93. -/
@[vec] def xyzToYxy (xyz : V4 F) : V4 F :=
  let y := xyz.y
  let inv := lit 1 /. Simd.dot3 xyz (V4.splat (lit 1))
  V4.ofV3 ⟨y, xyz.x *. inv, y *. inv⟩
/-- `yxyToXyz`, /repo/include/math/color-space.hpp:98-102. -/
@[vec] def yxyToXyz (yxy : V4 F) : V4 F :=
  let x := yxy.x; let y := yxy.y; let z := yxy.z
  V4.ofV3 ⟨x *. y /. z, x, x *. (lit 1 -. y -. z) /. z⟩
/-- `rgbToYxy`, /repo/include/math/color-space.hpp:108. -/
@[vec] def rgbToYxy (rgb : V4 F) : V4 F := xyzToYxy (rgbToXyz rgb)
/-- `yxyToRgb`, /repo/include/math/color-space.hpp:113. -/
@[vec] def yxyToRgb (yxy : V4 F) : V4 F := xyzToRgb (yxyToXyz yxy)

end Verif.ColorSpace
