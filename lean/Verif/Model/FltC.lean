import Verif.Model.Bvh
import Verif.Model.RealBvh
import Verif.Model.FltT

/-!
# Mathematical constants

The `<cmath>` constants the code casts to `float`. In binary32 they are the rounded literals; in exact arithmetic
they are the numbers they stand for.
-/

namespace Verif

/-- `(float)M_PI`, `(float)M_SQRT3`, `(float)M_SQRT1_2`. Models the uses in /repo/include/math/angles.hpp:30-76,
/repo/include/math/brdf.hpp:46, 84 and /repo/include/math/sh.hpp:40-44, 127, 154-171. -/
class FltC (F : Type) where
  pi : F
  sqrt3 : F
  sqrtHalf : F

/-- The double values of the literals, rounded to binary32. Models the same casts as `FltC`,
/repo/include/math/angles.hpp:30-76. -/
instance : FltC F32 where
  pi := F32.ofRat (884279719003555/281474976710656)
  sqrt3 := F32.ofRat (3900231685776981/2251799813685248)
  sqrtHalf := F32.ofRat (6369051672525773/9007199254740992)

/-- The exact constants: the idealisation under which exact-arithmetic theorems are stated. -/
noncomputable instance : FltC ℝ where
  pi := Real.pi
  sqrt3 := Real.sqrt 3
  sqrtHalf := Real.sqrt (1/2)

namespace FltC
@[simp, vec] theorem real_pi : (FltC.pi : ℝ) = Real.pi := rfl
@[simp, vec] theorem real_sqrt3 : (FltC.sqrt3 : ℝ) = Real.sqrt 3 := rfl
@[simp, vec] theorem real_sqrtHalf : (FltC.sqrtHalf : ℝ) = Real.sqrt (1/2) := rfl
end FltC

end Verif
