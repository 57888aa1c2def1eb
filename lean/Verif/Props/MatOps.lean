import Verif.Model.MatOps
import Verif.Props.FloatOps
import Verif.Props.MatShape

/-!
# C108: matrix operators with a scalar

Every element of `m op n`, `m op= n` and `n op m` is the correctly rounded result for that element, for every matrix shape.
-/

namespace Verif.MatOps
open Spec F32

/-- `float2x2`: all three forms, for every row and column. -/
theorem matOps2 (op : FOp) (m : M2 F32) (n : F32) (r c : Fin 2) :
    fOk op (el2 m r c) n (el2 (right2 op m n) r c) ∧ fOk op (el2 m r c) n (el2 (assign2 op m n) r c) ∧
    fOk op n (el2 m r c) (el2 (left2 op n m) r c) := by
  have h1 : el2 (right2 op m n) r c = op.on (el2 m r c) n := by
    cases op <;> fin_cases r <;> fin_cases c <;> rfl
  have h2 : assign2 op m n = right2 op m n := by cases op <;> rfl
  have h3 : el2 (left2 op n m) r c = op.on n (el2 m r c) := by
    cases op <;> fin_cases r <;> fin_cases c <;> rfl
  rw [h2, h1, h3]
  exact ⟨fop_ok .., fop_ok .., fop_ok ..⟩

/-- `float3x3`: all three forms, for every row and column. -/
theorem matOps3 (op : FOp) (m : M3 F32) (n : F32) (r c : Fin 3) :
    fOk op (el3 m r c) n (el3 (right3 op m n) r c) ∧ fOk op (el3 m r c) n (el3 (assign3 op m n) r c) ∧
    fOk op n (el3 m r c) (el3 (left3 op n m) r c) := by
  have h1 : el3 (right3 op m n) r c = op.on (el3 m r c) n := by
    cases op <;> fin_cases r <;> fin_cases c <;> rfl
  have h2 : assign3 op m n = right3 op m n := by cases op <;> rfl
  have h3 : el3 (left3 op n m) r c = op.on n (el3 m r c) := by
    cases op <;> fin_cases r <;> fin_cases c <;> rfl
  rw [h2, h1, h3]
  exact ⟨fop_ok .., fop_ok .., fop_ok ..⟩

/-- `float4x3`: all three forms, for every row and column. -/
theorem matOps43 (op : FOp) (m : M43 F32) (n : F32) (r : Fin 3) (c : Fin 4) :
    fOk op (el43 m r c) n (el43 (right43 op m n) r c) ∧ fOk op (el43 m r c) n (el43 (assign43 op m n) r c) ∧
    fOk op n (el43 m r c) (el43 (left43 op n m) r c) := by
  have h1 : el43 (right43 op m n) r c = op.on (el43 m r c) n := by
    cases op <;> fin_cases r <;> fin_cases c <;> rfl
  have h2 : assign43 op m n = right43 op m n := by cases op <;> rfl
  have h3 : el43 (left43 op n m) r c = op.on n (el43 m r c) := by
    cases op <;> fin_cases r <;> fin_cases c <;> rfl
  rw [h2, h1, h3]
  exact ⟨fop_ok .., fop_ok .., fop_ok ..⟩

/-- `float4x4`: all three forms, for every row and column. -/
theorem matOps4 (op : FOp) (m : M4 F32) (n : F32) (r c : Fin 4) :
    fOk op (el4 m r c) n (el4 (right4 op m n) r c) ∧ fOk op (el4 m r c) n (el4 (assign4 op m n) r c) ∧
    fOk op n (el4 m r c) (el4 (left4 op n m) r c) := by
  have h1 : el4 (right4 op m n) r c = op.on (el4 m r c) n := by
    cases op <;> fin_cases r <;> fin_cases c <;> rfl
  have h2 : assign4 op m n = right4 op m n := by cases op <;> rfl
  have h3 : el4 (left4 op n m) r c = op.on n (el4 m r c) := by
    cases op <;> fin_cases r <;> fin_cases c <;> rfl
  rw [h2, h1, h3]
  exact ⟨fop_ok .., fop_ok .., fop_ok ..⟩

/-- `f32x4x4`: both forms are those of `float4x4`, bit for bit, on every instruction set. -/
theorem matOps_simd (k : Isa) (op : FOp) (m : M4 F32) (n : F32) :
    rightSimd k op m n = right4 op m n ∧ assignSimd k op m n = right4 op m n := by
  have h : ∀ v : V4 F32, F32x4.bin k op v (V4.splat n) = Float4.binS op v n := by
    intro v
    rw [(f32x4_eq_float4 k op .eq v (V4.splat n) n).1]
    cases op <;> rfl
  simp only [assignSimd, rightSimd, h]
  exact ⟨rfl, rfl⟩

/-- A matrix made from one number has it at every row and column: so `zero`, `one`, `minusOne` and the SIMD constants do. -/
theorem matOps_fill {F : Type} (n : F) :
    (∀ r c, el2 (fill2 n) r c = n) ∧ (∀ r c, el3 (fill3 n) r c = n) ∧ (∀ r c, el43 (fill43 n) r c = n) ∧
    (∀ r c, el4 (fill4 n) r c = n) := by
  refine ⟨?_, ?_, ?_, ?_⟩ <;> intro r c <;> fin_cases r <;> fin_cases c <;> rfl

/-- Concrete case: `6 / m` of a matrix with four different elements, and `m /= 2`. -/
example : left2 .div (ofNat 6) (⟨⟨ofNat 1, ofNat 2⟩, ⟨ofNat 3, ofNat 6⟩⟩ : M2 F32) =
    ⟨⟨ofNat 6, ofNat 3⟩, ⟨ofNat 2, ofNat 1⟩⟩ := by decide +kernel
example : assign2 .div (⟨⟨ofNat 2, ofNat 4⟩, ⟨ofNat 6, ofNat 8⟩⟩ : M2 F32) (ofNat 2) =
    ⟨⟨ofNat 1, ofNat 2⟩, ⟨ofNat 3, ofNat 4⟩⟩ := by decide +kernel

end Verif.MatOps
