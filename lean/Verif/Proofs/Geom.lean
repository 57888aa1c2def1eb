import Mathlib.Tactic.NormNum
import Mathlib.Tactic.Positivity
import Mathlib.Data.Rat.Cast.Order
import Verif.Model.RealFlt
import Verif.Proofs.F32
import Verif.Spec.Geom

/-! Masks of comparisons, and the two valued scalar types. -/

namespace Verif
open Spec

@[simp, vec] theorem top_mask (b : Bool) : top (mask b) = b := by cases b <;> decide
@[simp, vec] theorem top_zero : top (0 : W) = false := by decide
@[simp, vec] theorem top_zero' : top (0#32 : W) = false := by decide
@[simp, vec] theorem mask_and (a b : Bool) : (mask a &&& mask b : W) = mask (a && b) := by
  cases a <;> cases b <;> decide
@[simp, vec] theorem mask_or (a b : Bool) : (mask a ||| mask b : W) = mask (a || b) := by
  cases a <;> cases b <;> decide
@[simp, vec] theorem zero_and_mask (b : Bool) : (0#32 &&& mask b : W) = mask false := by
  cases b <;> decide
@[simp, vec] theorem areAllTrue_mask (a b c d : Bool) :
    Sse.areAllTrue ⟨mask a, mask b, mask c, mask d⟩ = (a && b && c && d) := by
  cases a <;> cases b <;> cases c <;> cases d <;> decide

noncomputable instance : Valued ℝ where
  ok _ := True
  val a := a
  lt_iff a b _ _ := by simp
  le_iff a b _ _ := by simp

noncomputable instance : Valued F32 where
  ok a := a.isNaN = false
  val a := (a.toRat : ℝ)
  lt_iff a b ha hb := by
    rw [Rat.cast_lt, F32.toRat_lt_iff]
    show F32.ltb a b = true ↔ _
    rw [F32.ltb_iff]; simp [ha, hb]
  le_iff a b ha hb := by
    rw [Rat.cast_le, F32.toRat_le_iff]
    show F32.leb a b = true ↔ _
    rw [F32.leb_iff]; simp [ha, hb]

@[simp] theorem real_ok (a : ℝ) : Valued.ok a := trivial
@[simp] theorem real_val (a : ℝ) : Valued.val a = a := rfl
@[simp] theorem real_ok3 (v : V4 ℝ) : Ok3 v := ⟨trivial, trivial, trivial⟩
@[simp] theorem real_okBox (b : Aabb ℝ) : OkBox b := ⟨real_ok3 _, real_ok3 _⟩
@[simp] theorem real_pt (v : V4 ℝ) : pt v = ⟨v.x, v.y, v.z⟩ := rfl

section
variable {F : Type} [Flt F] [Valued F]

theorem val_mmMin {a b : F} (ha : Valued.ok a) (hb : Valued.ok b) :
    Valued.val (Flt.mmMin a b) = min (Valued.val a) (Valued.val b) ∧ Valued.ok (Flt.mmMin a b) := by
  unfold Flt.mmMin
  by_cases hc : Flt.lt a b = true
  · rw [if_pos hc]
    exact ⟨(min_eq_left ((Valued.lt_iff a b ha hb).1 hc).le).symm, ha⟩
  · rw [if_neg hc]
    rw [Valued.lt_iff a b ha hb, not_lt] at hc
    exact ⟨(min_eq_right hc).symm, hb⟩

theorem val_mmMax {a b : F} (ha : Valued.ok a) (hb : Valued.ok b) :
    Valued.val (Flt.mmMax a b) = max (Valued.val a) (Valued.val b) ∧ Valued.ok (Flt.mmMax a b) := by
  unfold Flt.mmMax
  by_cases hc : Flt.lt b a = true
  · rw [if_pos hc]
    exact ⟨(max_eq_left ((Valued.lt_iff b a hb ha).1 hc).le).symm, ha⟩
  · rw [if_neg hc]
    rw [Valued.lt_iff b a hb ha, not_lt] at hc
    exact ⟨(max_eq_right hc).symm, hb⟩

theorem pt_min {a b : V4 F} (ha : Ok3 a) (hb : Ok3 b) : Ok3 (Simd.min a b) ∧
    pt (Simd.min a b) = ⟨min (pt a).x (pt b).x, min (pt a).y (pt b).y, min (pt a).z (pt b).z⟩ := by
  obtain ⟨h1, h2, h3⟩ := ha
  obtain ⟨g1, g2, g3⟩ := hb
  exact ⟨⟨(val_mmMin h1 g1).2, (val_mmMin h2 g2).2, (val_mmMin h3 g3).2⟩, by
    simp only [pt, Simd.min, V4.map2, (val_mmMin h1 g1).1, (val_mmMin h2 g2).1, (val_mmMin h3 g3).1]⟩

theorem pt_max {a b : V4 F} (ha : Ok3 a) (hb : Ok3 b) : Ok3 (Simd.max a b) ∧
    pt (Simd.max a b) = ⟨max (pt a).x (pt b).x, max (pt a).y (pt b).y, max (pt a).z (pt b).z⟩ := by
  obtain ⟨h1, h2, h3⟩ := ha
  obtain ⟨g1, g2, g3⟩ := hb
  exact ⟨⟨(val_mmMax h1 g1).2, (val_mmMax h2 g2).2, (val_mmMax h3 g3).2⟩, by
    simp only [pt, Simd.max, V4.map2, (val_mmMax h1 g1).1, (val_mmMax h2 g2).1, (val_mmMax h3 g3).1]⟩

end

/-- A non-empty box is inside another exactly when its corners are. -/
theorem box_subset {l h l' h' : V3 ℝ} (hv : l.x ≤ h.x ∧ l.y ≤ h.y ∧ l.z ≤ h.z) :
    Box l h ⊆ Box l' h' ↔ l'.x ≤ l.x ∧ h.x ≤ h'.x ∧ l'.y ≤ l.y ∧ h.y ≤ h'.y ∧ l'.z ≤ l.z ∧ h.z ≤ h'.z := by
  obtain ⟨hx, hy, hz⟩ := hv
  constructor
  · intro hs
    have h1 : l ∈ Box l h := ⟨⟨le_rfl, hx⟩, ⟨le_rfl, hy⟩, le_rfl, hz⟩
    have h2 : h ∈ Box l h := ⟨⟨hx, le_rfl⟩, ⟨hy, le_rfl⟩, hz, le_rfl⟩
    obtain ⟨⟨a1, -⟩, ⟨a2, -⟩, a3, -⟩ := hs h1
    obtain ⟨⟨-, b1⟩, ⟨-, b2⟩, -, b3⟩ := hs h2
    exact ⟨a1, b1, a2, b2, a3, b3⟩
  · rintro ⟨a1, b1, a2, b2, a3, b3⟩ p ⟨⟨c1, d1⟩, ⟨c2, d2⟩, c3, d3⟩
    exact ⟨⟨a1.trans c1, d1.trans b1⟩, ⟨a2.trans c2, d2.trans b2⟩, a3.trans c3, d3.trans b3⟩

end Verif
