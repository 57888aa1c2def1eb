import Verif.Model.VecMath
import Verif.Model.Scalar

/-!
# C114: mathematical functions of vectors act on every component
-/

namespace Verif

namespace VecMathP

/-- What `select` does with a comparison result. -/
theorem top_mask (b : Bool) : top (mask b) = b := by cases b <;> rfl

end VecMathP
open VecMathP

/-- C114: the functions of one argument, `atan` of two and `pow` apply the library function of their name to every component,
in order, whatever the library functions are. -/
theorem vector_math {F : Type} [Flt F] (m : Libm F) :
    (∀ f (v : V2 F), (Float2.math m f v).toList = v.toList.map (m.fn f)) ∧
    (∀ f (v : V3 F), (Float3.math m f v).toList = v.toList.map (m.fn f)) ∧
    (∀ f (v : V4 F), (Float4.math m f v).toList = v.toList.map (m.fn f)) ∧
    (∀ a b : V2 F, (Float2.atan2 m a b).toList = List.zipWith m.atan2 a.toList b.toList) ∧
    (∀ a b : V3 F, (Float3.atan2 m a b).toList = List.zipWith m.atan2 a.toList b.toList) ∧
    (∀ a b : V4 F, (Float4.atan2 m a b).toList = List.zipWith m.atan2 a.toList b.toList) ∧
    (∀ a b : V2 F, (Float2.pow m a b).toList = List.zipWith m.pow a.toList b.toList) ∧
    (∀ a b : V3 F, (Float3.pow m a b).toList = List.zipWith m.pow a.toList b.toList) ∧
    (∀ a b : V4 F, (Float4.pow m a b).toList = List.zipWith m.pow a.toList b.toList) := by
  refine ⟨?_, ?_, ?_, fun _ _ => rfl, fun _ _ => rfl, fun _ _ => rfl, fun _ _ => rfl, fun _ _ => rfl, fun _ _ => rfl⟩ <;>
  · intro f v; cases f <;> rfl

/-- C114: `gain` and `lerpDelta` of vectors apply the scalar functions to every component (with the same library `pow`). -/
theorem vector_gain {F : Type} [Flt F] [FltT F] (m : Libm F) (hp : m.pow = FltT.pow) :
    (∀ x k : V2 F, (Float2.gain m x k).toList = List.zipWith Scalar.gain x.toList k.toList) ∧
    (∀ x k : V3 F, (Float3.gain m x k).toList = List.zipWith Scalar.gain x.toList k.toList) ∧
    (∀ x k : V4 F, (Float4.gain m x k).toList = List.zipWith Scalar.gain x.toList k.toList) ∧
    (∀ (a b : V2 F) (f dt : F), (Float2.lerpDelta m a b f dt).toList =
      List.zipWith (fun p q => Scalar.lerpDelta p q f dt) a.toList b.toList) ∧
    (∀ (a b : V3 F) (f dt : F), (Float3.lerpDelta m a b f dt).toList =
      List.zipWith (fun p q => Scalar.lerpDelta p q f dt) a.toList b.toList) ∧
    (∀ (a b : V4 F) (f dt : F), (Float4.lerpDelta m a b f dt).toList =
      List.zipWith (fun p q => Scalar.lerpDelta p q f dt) a.toList b.toList) := by
  refine ⟨fun x k => ?_, fun x k => ?_, fun x k => ?_, fun a b f dt => ?_, fun a b f dt => ?_, fun a b f dt => ?_⟩
  · simp only [Float2.gain, Float2.pow, Float2.cmpS, Float2.cmp, Float2.binL, Float2.bin, V2.select, V2.splat, V2.toList,
      List.zipWith_cons_cons, List.zipWith_nil_left, Scalar.gain, hp, Cmp.onF, top_mask]
  · simp only [Float3.gain, Float3.pow, Float3.cmpS, Float3.cmp, Float3.binL, Float3.bin, V3.select, V3.splat, V3.toList,
      List.zipWith_cons_cons, List.zipWith_nil_left, Scalar.gain, hp, Cmp.onF, top_mask]
  · simp only [Float4.gain, Float4.pow, Float4.cmpS, Float4.cmp, Float4.binL, Float4.bin, V4.select, V4.splat, V4.toList,
      List.zipWith_cons_cons, List.zipWith_nil_left, Scalar.gain, hp, Cmp.onF, top_mask]
  · simp only [Float2.lerpDelta, Float2.binL, Float2.bin, V2.splat, V2.toList, List.zipWith_cons_cons, List.zipWith_nil_left,
      Scalar.lerpDelta, hp]
  · simp only [Float3.lerpDelta, Float3.binL, Float3.bin, V3.splat, V3.toList, List.zipWith_cons_cons, List.zipWith_nil_left,
      Scalar.lerpDelta, hp]
  · simp only [Float4.lerpDelta, Float4.binL, Float4.bin, V4.splat, V4.toList, List.zipWith_cons_cons, List.zipWith_nil_left,
      Scalar.lerpDelta, hp]

/-- A concrete library and vector: squares for the functions, the sum for `pow`. -/
example : (Float3.math (F := F32) ⟨fun _ x => F32.fmul x x, F32.fadd, F32.fsub⟩ .tanh ⟨F32.ofRat 1, F32.ofRat 2, F32.ofRat 3⟩).toList =
    [F32.ofRat 1, F32.ofRat 4, F32.ofRat 9] := by decide +kernel

example : ∃ m : Libm ℝ, m.pow = FltT.pow := ⟨⟨fun _ x => x, FltT.pow, FltT.atan2⟩, rfl⟩

end Verif
