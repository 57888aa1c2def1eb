import Mathlib.Data.Real.Basic
import Mathlib.Data.Set.Basic
import Mathlib.Analysis.Real.Sqrt
import Verif.Model.Geom

/-!
# Geometry specification

Points are triples of reals. The fourth lane of a SIMD vector plays no part in the meaning of a box, ray,
triangle or point.
-/

namespace Verif.Spec

/-- A scalar type whose comparisons are those of real numbers, on the values it can compare (`ok`): reals, and
binary32 bit patterns other than NaN. -/
class Valued (F : Type) [Flt F] where
  /-- the value can be compared (not a NaN) -/
  ok : F → Prop
  /-- the real number it stands for (for the infinities of binary32, ±2^128: beyond every finite value) -/
  val : F → ℝ
  lt_iff : ∀ a b, ok a → ok b → (Flt.lt a b = true ↔ val a < val b)
  le_iff : ∀ a b, ok a → ok b → (Flt.le a b = true ↔ val a ≤ val b)

section
variable {F : Type} [Flt F] [Valued F]

/-- The first three lanes can be compared. -/
def Ok3 (v : V4 F) : Prop := Valued.ok v.x ∧ Valued.ok v.y ∧ Valued.ok v.z
/-- The point of space a SIMD vector stands for: its first three lanes. -/
def pt (v : V4 F) : V3 ℝ := ⟨Valued.val v.x, Valued.val v.y, Valued.val v.z⟩

end

/-- The points of the box with corners `lo` and `hi`. -/
def Box (lo hi : V3 ℝ) : Set (V3 ℝ) :=
  {p | (lo.x ≤ p.x ∧ p.x ≤ hi.x) ∧ (lo.y ≤ p.y ∧ p.y ≤ hi.y) ∧ (lo.z ≤ p.z ∧ p.z ≤ hi.z)}
/-- The points of the box stored in an `Aabb`. -/
def boxOf {F : Type} [Flt F] [Valued F] (b : Aabb F) : Set (V3 ℝ) := Box (pt b.min) (pt b.max)
/-- The box has comparable corners (no NaN in x, y, z). -/
def OkBox {F : Type} [Flt F] [Valued F] (b : Aabb F) : Prop := Ok3 b.min ∧ Ok3 b.max
/-- `min <= max` in x, y and z. -/
def ValidBox {F : Type} [Flt F] [Valued F] (b : Aabb F) : Prop :=
  (pt b.min).x ≤ (pt b.max).x ∧ (pt b.min).y ≤ (pt b.max).y ∧ (pt b.min).z ≤ (pt b.max).z

/-- Squared Euclidean distance. -/
def dist2 (p q : V3 ℝ) : ℝ := (p.x - q.x) ^ 2 + (p.y - q.y) ^ 2 + (p.z - q.z) ^ 2
/-- Euclidean distance. -/
noncomputable def dist (p q : V3 ℝ) : ℝ := Real.sqrt (dist2 p q)
/-- Dot product. -/
def dot (p q : V3 ℝ) : ℝ := p.x * q.x + p.y * q.y + p.z * q.z
/-- The point `p + t * d`. -/
def along (p d : V3 ℝ) (t : ℝ) : V3 ℝ := ⟨p.x + t * d.x, p.y + t * d.y, p.z + t * d.z⟩
/-- The difference `p - q`. -/
def diff (p q : V3 ℝ) : V3 ℝ := ⟨p.x - q.x, p.y - q.y, p.z - q.z⟩
/-- The points of the segment from `p` to `q`. -/
def Segment (p q : V3 ℝ) : Set (V3 ℝ) := {r | ∃ t, 0 ≤ t ∧ t ≤ 1 ∧ r = along p (diff q p) t}
/-- The points of the ray from `o` in direction `d`. -/
def RayPts (o d : V3 ℝ) : Set (V3 ℝ) := {r | ∃ t, 0 ≤ t ∧ r = along o d t}
/-- The convex combination of three points. -/
def combo (p q r : V3 ℝ) (a b c : ℝ) : V3 ℝ :=
  ⟨a * p.x + b * q.x + c * r.x, a * p.y + b * q.y + c * r.y, a * p.z + b * q.z + c * r.z⟩
/-- The points of the (filled) triangle. -/
def Tri (p q r : V3 ℝ) : Set (V3 ℝ) :=
  {s | ∃ a b c, 0 ≤ a ∧ 0 ≤ b ∧ 0 ≤ c ∧ a + b + c = 1 ∧ s = combo p q r a b c}
/-- The points of the plane through a triangle. -/
def TriPlane (p q r : V3 ℝ) : Set (V3 ℝ) := {s | ∃ a b c, a + b + c = 1 ∧ s = combo p q r a b c}
/-- The three points are not on a common line. -/
def NonDegenerate (p q r : V3 ℝ) : Prop := ∀ a b, a * (q.x - p.x) + b * (r.x - p.x) = 0 →
  a * (q.y - p.y) + b * (r.y - p.y) = 0 → a * (q.z - p.z) + b * (r.z - p.z) = 0 → a = 0 ∧ b = 0
/-- The points of the plane with normal `n` and offset `d`: `n · p + d = 0`. -/
def PlanePts (n : V3 ℝ) (d : ℝ) : Set (V3 ℝ) := {p | dot n p + d = 0}
/-- `c` is a point of `s`, and no point of `s` is nearer to `p`. -/
def Nearest (s : Set (V3 ℝ)) (p c : V3 ℝ) : Prop := c ∈ s ∧ ∀ q ∈ s, dist2 p c ≤ dist2 p q

end Verif.Spec
