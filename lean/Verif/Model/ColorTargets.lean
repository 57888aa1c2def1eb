import Verif.Model.ColorSpace
import Verif.Model.MatTargets
import Verif.Model.VecBackends

/-!
# Color space conversions on every target

`Verif.Model.ColorSpace` models the SSE4.1 configuration with a fused multiply-add. Here the dot product is the one of the
backend and the multiply-add is the one of the target, fused or not.
-/

namespace Verif.F32x4
open F32

/-- `rgbToXyz`, /repo/include/math/color-space.hpp:57-67; the matrix is the one of `Verif.ColorSpace.rgbToXyzM`. -/
def rgbToXyz (t : FTarget) (rgb : V4 F32) : V4 F32 := multiply3x3V t (M4.ofRows
  (ofRat 0.4124564) (ofRat 0.2126729) (ofRat 0.0193339) (ofRat 0)
  (ofRat 0.3575761) (ofRat 0.7151522) (ofRat 0.1191920) (ofRat 0)
  (ofRat 0.1804375) (ofRat 0.0721750) (ofRat 0.9503041) (ofRat 0)
  (ofRat 0) (ofRat 0) (ofRat 0) (ofRat 0)) rgb
/-- `xyzToRgb`, /repo/include/math/color-space.hpp:72-82. -/
def xyzToRgb (t : FTarget) (xyz : V4 F32) : V4 F32 := multiply3x3V t (M4.ofRows
  (ofRat 3.2404542) (ofRat (-0.9692660)) (ofRat 0.0556434) (ofRat 0)
  (ofRat (-1.5371385)) (ofRat 1.8760108) (ofRat (-0.2040259)) (ofRat 0)
  (ofRat (-0.4985314)) (ofRat 0.0415560) (ofRat 1.0572252) (ofRat 0)
  (ofRat 0) (ofRat 0) (ofRat 0) (ofRat 0)) xyz
/-- `xyzToYxy`, /repo/include/math/color-space.hpp:88-93. -/
def xyzToYxy (k : Backend) (xyz : V4 F32) : V4 F32 :=
  let inv := fdiv (ofRat 1) (k.dot3 xyz (V4.splat (ofRat 1)))
  V4.ofV3 ⟨xyz.y, fmul xyz.x inv, fmul xyz.y inv⟩
/-- `yxyToXyz`, /repo/include/math/color-space.hpp:98-102. -/
def yxyToXyz (yxy : V4 F32) : V4 F32 :=
  V4.ofV3 ⟨fdiv (fmul yxy.x yxy.y) yxy.z, yxy.x, fdiv (fmul yxy.x (fsub (fsub (ofRat 1) yxy.y) yxy.z)) yxy.z⟩
/-- `rgbToYxy`, /repo/include/math/color-space.hpp:108. -/
def rgbToYxy (k : Backend) (t : FTarget) (rgb : V4 F32) : V4 F32 := xyzToYxy k (rgbToXyz t rgb)
/-- `yxyToRgb`, /repo/include/math/color-space.hpp:113. -/
def yxyToRgb (t : FTarget) (yxy : V4 F32) : V4 F32 := xyzToRgb t (yxyToXyz yxy)

end Verif.F32x4
