import Verif.Spec.Products

/-!
# Translations and scales as real matrices
-/

namespace Verif.Spec

/-- The entry of a matrix in row `i` and column `j`. -/
def cell (m : M4 F32) (i j : Fin 4) : F32 :=
  ![![m.c0.x, m.c1.x, m.c2.x, m.c3.x], ![m.c0.y, m.c1.y, m.c2.y, m.c3.y], ![m.c0.z, m.c1.z, m.c2.z, m.c3.z],
    ![m.c0.w, m.c1.w, m.c2.w, m.c3.w]] i j

/-- The translation by `t`. -/
noncomputable def shift (t : V4 F32) : Matrix (Fin 4) (Fin 4) ℝ :=
  !![1, 0, 0, rv t.x; 0, 1, 0, rv t.y; 0, 0, 1, rv t.z; 0, 0, 0, 1]

/-- The scale by `s` along the axes. -/
noncomputable def stretch (s : V4 F32) : Matrix (Fin 4) (Fin 4) ℝ := Matrix.diagonal ![rv s.x, rv s.y, rv s.z, 1]

end Verif.Spec
