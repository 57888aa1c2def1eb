import Verif.Model.F32
import Verif.Model.Mat
import Mathlib.Data.Real.Basic
import Mathlib.Analysis.Real.Sqrt

/-!
# How far a binary32 result may be from the exact one
-/

namespace Verif.Spec

/-- The real number a finite binary32 value stands for. -/
noncomputable def rv (x : F32) : ℝ := (x.toRat : ℝ)

/-- `r` is finite and within `e` of the real number `x`. -/
def Near (r : F32) (x e : ℝ) : Prop := r.isFinite = true ∧ |rv r - x| ≤ e

/-- The sum of products of the listed pairs. -/
noncomputable def sumProd (l : List (ℝ × ℝ)) : ℝ := (l.map (fun t => t.1 * t.2)).sum

/-- The sum of the absolute values of these products. -/
noncomputable def absProd (l : List (ℝ × ℝ)) : ℝ := (l.map (fun t => |t.1 * t.2|)).sum

/-- `r` is a sum of products computed with at most as many roundings on each term as there are terms: the error is at
most `(1 + 2^-24)^n - 1` times the sum of the absolute values of the products, plus one unit of the smallest positive
value for every product, which accounts for products that underflow. -/
def SumOk (r : F32) (l : List (ℝ × ℝ)) : Prop :=
  absProd l ≤ 2 ^ 126 → Near r (sumProd l) (((1 + 1 / 2 ^ 24) ^ l.length - 1) * absProd l + l.length / 2 ^ 149)

/-- All components of a vector are finite. -/
def AllFinite (l : List F32) : Prop := ∀ x ∈ l, x.isFinite = true

/-- One entry of a matrix-vector product with four columns. -/
noncomputable def row4 (c0 c1 c2 c3 : F32) (v : V4 F32) : List (ℝ × ℝ) :=
  [(rv c0, rv v.x), (rv c1, rv v.y), (rv c2, rv v.z), (rv c3, rv v.w)]
/-- One entry of a matrix-vector product with three columns. -/
noncomputable def row3 (c0 c1 c2 : F32) (v : V3 F32) : List (ℝ × ℝ) := [(rv c0, rv v.x), (rv c1, rv v.y), (rv c2, rv v.z)]

/-- All entries of `m * v` are accurate. -/
def MulVOk (m : M4 F32) (v r : V4 F32) : Prop :=
  SumOk r.x (row4 m.c0.x m.c1.x m.c2.x m.c3.x v) ∧ SumOk r.y (row4 m.c0.y m.c1.y m.c2.y m.c3.y v) ∧
  SumOk r.z (row4 m.c0.z m.c1.z m.c2.z m.c3.z v) ∧ SumOk r.w (row4 m.c0.w m.c1.w m.c2.w m.c3.w v)

/-- All entries of a 3x3 matrix times a vector are accurate. -/
def MulVOk3 (m : M3 F32) (v r : V3 F32) : Prop :=
  SumOk r.x (row3 m.c0.x m.c1.x m.c2.x v) ∧ SumOk r.y (row3 m.c0.y m.c1.y m.c2.y v) ∧ SumOk r.z (row3 m.c0.z m.c1.z m.c2.z v)

/-- All entries of a 2x2 matrix times a vector are accurate. -/
def MulVOk2 (m : M2 F32) (v r : V2 F32) : Prop :=
  SumOk r.x [(rv m.c0.x, rv v.x), (rv m.c1.x, rv v.y)] ∧ SumOk r.y [(rv m.c0.y, rv v.x), (rv m.c1.y, rv v.y)]

/-- All entries of a matrix are finite. -/
def FinM (m : M4 F32) : Prop := AllFinite m.c0.toList ∧ AllFinite m.c1.toList ∧ AllFinite m.c2.toList ∧ AllFinite m.c3.toList
/-- All entries of a matrix are finite. -/
def FinM3 (m : M3 F32) : Prop := AllFinite m.c0.toList ∧ AllFinite m.c1.toList ∧ AllFinite m.c2.toList
/-- All entries of a matrix are finite. -/
def FinM2 (m : M2 F32) : Prop := AllFinite m.c0.toList ∧ AllFinite m.c1.toList

/-- The squared length of a vector. -/
noncomputable def normSq (l : List F32) : ℝ := (l.map (fun x => rv x ^ 2)).sum

/-- The squared distance of two points. -/
noncomputable def distSq (a b : List F32) : ℝ := (List.zipWith (fun x y => (rv x - rv y) ^ 2) a b).sum

/-- `r` is a square root of `X` up to `e` half units in the last place, when `X` and its square are in range. -/
def RootOk (r : F32) (X e : ℝ) : Prop :=
  1 / 2 ^ 100 ≤ X → X ≤ 2 ^ 125 → Near r (Real.sqrt X) (e / 2 ^ 24 * Real.sqrt X)

/-- `r` is a squared length `X` up to `e` half units in the last place and `2^-146`. -/
def SquareOk (r : F32) (X e : ℝ) : Prop := X ≤ 2 ^ 125 → Near r X (e / 2 ^ 24 * X + 1 / 2 ^ 146)

/-- The components `r` are those of `v` divided by the length of `v`, up to six half units in the last place each. -/
def UnitOk (r v : List F32) : Prop :=
  1 / 2 ^ 100 ≤ normSq v → normSq v ≤ 2 ^ 125 →
    List.Forall₂ (fun c x => Near c (rv x / Real.sqrt (normSq v)) (6 / 2 ^ 24 * |rv x / Real.sqrt (normSq v)| + 1 / 2 ^ 149)) r v

end Verif.Spec
