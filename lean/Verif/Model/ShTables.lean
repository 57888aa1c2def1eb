import Verif.Model.ShMin

/-!
# The constant tables of the spherical harmonics functions in binary32

The tables are written as `double` expressions of literals and converted to `float` once. `rd` is the rounding of an exact
result to `double`; `ofRat` is the conversion of a `double` to `float`.
-/

namespace Verif.Sh
open F32

/-- One entry of the table of `shmin`, `(float)(k / (q * M_SQRT_PI))`, /repo/include/math/sh.hpp:220-228, with `M_SQRT_PI` of
line 42. -/
def minEntry (rd : Rat → Rat) (k q : Rat) : Rat := rd (k / rd (q * rd 1.77245385090551602729816748334114518))
/-- One entry of the table of `shaderPreprocessSH`, `(float)(k / (q * M_SQRT_PI) * M_1_PI)`, /repo/include/math/sh.hpp:313-321.
`M_1_PI` is the constant of `<cmath>`. -/
def shaderEntry (rd : Rat → Rat) (k q : Rat) : Rat := rd (minEntry rd k q * rd 0.31830988618379067154)
/-- The nine pairs of numerator and divisor of both tables, /repo/include/math/sh.hpp:220-228 and 313-321, with `M_SQRT3`, `M_SQRT5`
and `M_SQRT15` of lines 43-45. -/
def tableEntries (rd : Rat → Rat) (e : Rat → Rat → Rat) : List F32 :=
  let s3 := rd 1.73205080756887729352744634150587237
  let s5 := rd 2.23606797749978969640917366873127624
  let s15 := rd 3.87298334620741688517926539978239961
  [ofRat (e 1 2), ofRat (e (-s3) 2), ofRat (e s3 2), ofRat (e (-s3) 2), ofRat (e s15 2), ofRat (e (-s15) 2), ofRat (e s5 4),
   ofRat (e (-s15) 2), ofRat (e s15 4)]
/-- The table `ca` of `shmin`, /repo/include/math/sh.hpp:218-229. -/
def minCa32 (rd : Rat → Rat) : List F32 := tableEntries rd (minEntry rd)
/-- The table `ca` of `shaderPreprocessSH`, /repo/include/math/sh.hpp:311-322. -/
def shaderCa32 (rd : Rat → Rat) : List F32 := tableEntries rd (shaderEntry rd)
/-- The table `ki`, /repo/include/math/sh.hpp:50-61. -/
def ki32 (rd : Rat → Rat) : List F32 := ki.map fun k => ofRat (rd k)

end Verif.Sh
