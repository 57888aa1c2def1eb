import Mathlib.Data.Fin.VecNotation
import Verif.Model.Mat

/-!
# Matrix elements

The element of a matrix at a row and a column, for any component type. The code stores columns.
-/

namespace Verif.Spec
variable {α : Type}

/-- Row `r`, column `c` of a two-by-two matrix. -/
def el2 (m : M2 α) (r c : Fin 2) : α := ![![m.c0.x, m.c1.x], ![m.c0.y, m.c1.y]] r c
/-- Row `r`, column `c` of a three-by-three matrix. -/
def el3 (m : M3 α) (r c : Fin 3) : α :=
  ![![m.c0.x, m.c1.x, m.c2.x], ![m.c0.y, m.c1.y, m.c2.y], ![m.c0.z, m.c1.z, m.c2.z]] r c
/-- Row `r`, column `c` of a matrix with three rows and four columns. -/
def el43 (m : M43 α) (r : Fin 3) (c : Fin 4) : α :=
  ![![m.c0.x, m.c1.x, m.c2.x, m.c3.x], ![m.c0.y, m.c1.y, m.c2.y, m.c3.y], ![m.c0.z, m.c1.z, m.c2.z, m.c3.z]] r c
/-- Row `r`, column `c` of a four-by-four matrix. -/
def el4 (m : M4 α) (r c : Fin 4) : α :=
  ![![m.c0.x, m.c1.x, m.c2.x, m.c3.x], ![m.c0.y, m.c1.y, m.c2.y, m.c3.y],
    ![m.c0.z, m.c1.z, m.c2.z, m.c3.z], ![m.c0.w, m.c1.w, m.c2.w, m.c3.w]] r c
/-- Component `i` of a vector of four. -/
def co4 (v : V4 α) (i : Fin 4) : α := ![v.x, v.y, v.z, v.w] i
/-- Component `i` of a vector of three. -/
def co3 (v : V3 α) (i : Fin 3) : α := ![v.x, v.y, v.z] i
/-- Component `i` of a vector of two. -/
def co2 (v : V2 α) (i : Fin 2) : α := ![v.x, v.y] i

end Verif.Spec
