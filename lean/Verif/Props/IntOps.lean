import Verif.Model.IntOps
import Verif.Model.UintOps
import Verif.Proofs.CInt
import Mathlib.Tactic.FinCases
import Mathlib.Data.Fintype.Basic

/-!
# C77: the operators of the integer vectors

Each theorem is an equivalence, so it says both what the operator returns and exactly when it is undefined: an operator
application is undefined behaviour (`none`) precisely when no vector of results satisfies the specification.
-/

namespace Verif

theorem lanes2 {p : Fin 2 → Prop} : (∀ i, p i) ↔ p 0 ∧ p 1 := Fin.forall_fin_two
theorem lanes3 {p : Fin 3 → Prop} : (∀ i, p i) ↔ p 0 ∧ p 1 ∧ p 2 := by
  constructor
  · intro h; exact ⟨h 0, h 1, h 2⟩
  · rintro ⟨h0, h1, h2⟩ i; fin_cases i <;> assumption
theorem lanes4 {p : Fin 4 → Prop} : (∀ i, p i) ↔ p 0 ∧ p 1 ∧ p 2 ∧ p 3 := by
  constructor
  · intro h; exact ⟨h 0, h 1, h 2, h 3⟩
  · rintro ⟨h0, h1, h2, h3⟩ i; fin_cases i <;> assumption

theorem bind2 (px py : Option W) (r : V2 W) :
    (do return (⟨← px, ← py⟩ : V2 W)) = some r ↔ px = some (r.get 0) ∧ py = some (r.get 1) := by
  obtain ⟨rx, ry⟩ := r
  cases px <;> cases py <;> simp [V2.get]

theorem bind3 (px py pz : Option W) (r : V3 W) :
    (do return (⟨← px, ← py, ← pz⟩ : V3 W)) = some r ↔ px = some (r.get 0) ∧ py = some (r.get 1) ∧ pz = some (r.get 2) := by
  obtain ⟨rx, ry, rz⟩ := r
  cases px <;> cases py <;> cases pz <;> simp [V3.get]

theorem bind4 (px py pz pw : Option W) (r : V4 W) :
    (do return (⟨← px, ← py, ← pz, ← pw⟩ : V4 W)) = some r ↔ px = some (r.get 0) ∧ py = some (r.get 1) ∧ pz = some (r.get 2) ∧ pw = some (r.get 3) := by
  obtain ⟨rx, ry, rz, rw⟩ := r
  cases px <;> cases py <;> cases pz <;> cases pw <;> simp [V4.get]

/-- `a op v` on `int2` is defined, with result `r`, exactly when every lane of `r` is the result of that lane. -/
theorem int2_bin (op : BinOp) (a v r : V2 W) :
    Int2.bin op a v = some r ↔ ∀ i : Fin 2, Spec.sBin op (a.get i) (v.get i) (r.get i) := by
  rw [lanes2]; simp only [← S32.bin_iff]; cases op <;> exact bind2 ..

/-- `a op n` on `int2` is defined, with result `r`, exactly when every lane of `r` is the result of that lane. -/
theorem int2_binS (op : BinOp) (a : V2 W) (n : W) (r : V2 W) :
    Int2.binS op a n = some r ↔ ∀ i : Fin 2, Spec.sBin op (a.get i) n (r.get i) := by
  rw [lanes2]; simp only [← S32.bin_iff]; cases op <;> exact bind2 ..

/-- `n op v` on `int2` is defined, with result `r`, exactly when every lane of `r` is the result of that lane. -/
theorem int2_binL (op : BinOp) (n : W) (v r : V2 W) :
    Int2.binL op n v = some r ↔ ∀ i : Fin 2, Spec.sBin op n (v.get i) (r.get i) := by
  rw [lanes2]; simp only [← S32.bin_iff]; cases op <;> exact bind2 ..

/-- `a op= v` on `int2` is defined, with result `r`, exactly when every lane of `r` is the result of that lane. -/
theorem int2_asg (op : BinOp) (a v r : V2 W) :
    Int2.asg op a v = some r ↔ ∀ i : Fin 2, Spec.sBin op (a.get i) (v.get i) (r.get i) := by
  rw [lanes2]; simp only [← S32.bin_iff]; cases op <;> exact bind2 ..

/-- `a op= n` on `int2` is defined, with result `r`, exactly when every lane of `r` is the result of that lane. -/
theorem int2_asgS (op : BinOp) (a : V2 W) (n : W) (r : V2 W) :
    Int2.asgS op a n = some r ↔ ∀ i : Fin 2, Spec.sBin op (a.get i) n (r.get i) := by
  rw [lanes2]; simp only [← S32.bin_iff]; cases op <;> exact bind2 ..

/-- `-a`, `!a`, `~a` on `int2`. -/
theorem int2_un (op : UnOp) (a r : V2 W) : Int2.un op a = some r ↔ ∀ i : Fin 2, Spec.sUn op (a.get i) (r.get i) := by
  rw [lanes2]; simp only [← S32.un_iff]; cases op <;> exact bind2 ..

/-- `a = n` on `int2` sets every lane. -/
theorem int2_set (a : V2 W) (n : W) (i : Fin 2) : (Int2.set a n).get i = n := by
  fin_cases i <;> rfl

/-- The four comparison operators, `equal` and `notEqual` on `int2`, with a vector or a scalar on either side. -/
theorem int2_cmp (c : Cmp) (a v : V2 W) (n : W) (i : Fin 2) :
    Spec.isMask ((Int2.cmp c a v).get i) (Spec.cmpInt c (a.get i).toInt (v.get i).toInt) ∧
    Spec.isMask ((Int2.cmpS c a n).get i) (Spec.cmpInt c (a.get i).toInt n.toInt) ∧
    Spec.isMask ((Int2.cmpL c n v).get i) (Spec.cmpInt c n.toInt (v.get i).toInt) := by
  cases c <;> fin_cases i <;> exact ⟨cmpI_isMask _ _ _, cmpI_isMask _ _ _, cmpI_isMask _ _ _⟩

/-- `==` and `!=` on `int2`, with a vector or a scalar on either side. -/
theorem int2_eq (a v : V2 W) (n : W) :
    (Int2.eq a v = true ↔ ∀ i : Fin 2, a.get i = v.get i) ∧ (Int2.ne a v = true ↔ ¬∀ i : Fin 2, a.get i = v.get i) ∧
    (Int2.eqS a n = true ↔ ∀ i : Fin 2, a.get i = n) ∧ (Int2.neS a n = true ↔ ¬∀ i : Fin 2, a.get i = n) ∧
    (Int2.eqL n v = true ↔ ∀ i : Fin 2, n = v.get i) ∧ (Int2.neL n v = true ↔ ¬∀ i : Fin 2, n = v.get i) := by
  simp only [lanes2, Int2.eq, Int2.ne, Int2.eqS, Int2.neS, Int2.eqL, Int2.neL]
  simp only [V2.splat, V2.get, Bool.and_eq_true, Bool.or_eq_true, beq_iff_eq, bne_iff_ne]
  refine ⟨?_, ?_, ?_, ?_, ?_, ?_⟩ <;> tauto

/-- `a op v` on `int3` is defined, with result `r`, exactly when every lane of `r` is the result of that lane. -/
theorem int3_bin (op : BinOp) (a v r : V3 W) :
    Int3.bin op a v = some r ↔ ∀ i : Fin 3, Spec.sBin op (a.get i) (v.get i) (r.get i) := by
  rw [lanes3]; simp only [← S32.bin_iff]; cases op <;> exact bind3 ..

/-- `a op n` on `int3` is defined, with result `r`, exactly when every lane of `r` is the result of that lane. -/
theorem int3_binS (op : BinOp) (a : V3 W) (n : W) (r : V3 W) :
    Int3.binS op a n = some r ↔ ∀ i : Fin 3, Spec.sBin op (a.get i) n (r.get i) := by
  rw [lanes3]; simp only [← S32.bin_iff]; cases op <;> exact bind3 ..

/-- `n op v` on `int3` is defined, with result `r`, exactly when every lane of `r` is the result of that lane. -/
theorem int3_binL (op : BinOp) (n : W) (v r : V3 W) :
    Int3.binL op n v = some r ↔ ∀ i : Fin 3, Spec.sBin op n (v.get i) (r.get i) := by
  rw [lanes3]; simp only [← S32.bin_iff]; cases op <;> exact bind3 ..

/-- `a op= v` on `int3` is defined, with result `r`, exactly when every lane of `r` is the result of that lane. -/
theorem int3_asg (op : BinOp) (a v r : V3 W) :
    Int3.asg op a v = some r ↔ ∀ i : Fin 3, Spec.sBin op (a.get i) (v.get i) (r.get i) := by
  rw [lanes3]; simp only [← S32.bin_iff]; cases op <;> exact bind3 ..

/-- `a op= n` on `int3` is defined, with result `r`, exactly when every lane of `r` is the result of that lane. -/
theorem int3_asgS (op : BinOp) (a : V3 W) (n : W) (r : V3 W) :
    Int3.asgS op a n = some r ↔ ∀ i : Fin 3, Spec.sBin op (a.get i) n (r.get i) := by
  rw [lanes3]; simp only [← S32.bin_iff]; cases op <;> exact bind3 ..

/-- `-a`, `!a`, `~a` on `int3`. -/
theorem int3_un (op : UnOp) (a r : V3 W) : Int3.un op a = some r ↔ ∀ i : Fin 3, Spec.sUn op (a.get i) (r.get i) := by
  rw [lanes3]; simp only [← S32.un_iff]; cases op <;> exact bind3 ..

/-- `a = n` on `int3` sets every lane. -/
theorem int3_set (a : V3 W) (n : W) (i : Fin 3) : (Int3.set a n).get i = n := by
  fin_cases i <;> rfl

/-- The four comparison operators, `equal` and `notEqual` on `int3`, with a vector or a scalar on either side. -/
theorem int3_cmp (c : Cmp) (a v : V3 W) (n : W) (i : Fin 3) :
    Spec.isMask ((Int3.cmp c a v).get i) (Spec.cmpInt c (a.get i).toInt (v.get i).toInt) ∧
    Spec.isMask ((Int3.cmpS c a n).get i) (Spec.cmpInt c (a.get i).toInt n.toInt) ∧
    Spec.isMask ((Int3.cmpL c n v).get i) (Spec.cmpInt c n.toInt (v.get i).toInt) := by
  cases c <;> fin_cases i <;> exact ⟨cmpI_isMask _ _ _, cmpI_isMask _ _ _, cmpI_isMask _ _ _⟩

/-- `==` and `!=` on `int3`, with a vector or a scalar on either side. -/
theorem int3_eq (a v : V3 W) (n : W) :
    (Int3.eq a v = true ↔ ∀ i : Fin 3, a.get i = v.get i) ∧ (Int3.ne a v = true ↔ ¬∀ i : Fin 3, a.get i = v.get i) ∧
    (Int3.eqS a n = true ↔ ∀ i : Fin 3, a.get i = n) ∧ (Int3.neS a n = true ↔ ¬∀ i : Fin 3, a.get i = n) ∧
    (Int3.eqL n v = true ↔ ∀ i : Fin 3, n = v.get i) ∧ (Int3.neL n v = true ↔ ¬∀ i : Fin 3, n = v.get i) := by
  simp only [lanes3, Int3.eq, Int3.ne, Int3.eqS, Int3.neS, Int3.eqL, Int3.neL]
  simp only [V3.splat, V3.get, Bool.and_eq_true, Bool.or_eq_true, beq_iff_eq, bne_iff_ne]
  refine ⟨?_, ?_, ?_, ?_, ?_, ?_⟩ <;> tauto

/-- `a op v` on `int4` is defined, with result `r`, exactly when every lane of `r` is the result of that lane. -/
theorem int4_bin (op : BinOp) (a v r : V4 W) :
    Int4.bin op a v = some r ↔ ∀ i : Fin 4, Spec.sBin op (a.get i) (v.get i) (r.get i) := by
  rw [lanes4]; simp only [← S32.bin_iff]; cases op <;> exact bind4 ..

/-- `a op n` on `int4` is defined, with result `r`, exactly when every lane of `r` is the result of that lane. -/
theorem int4_binS (op : BinOp) (a : V4 W) (n : W) (r : V4 W) :
    Int4.binS op a n = some r ↔ ∀ i : Fin 4, Spec.sBin op (a.get i) n (r.get i) := by
  rw [lanes4]; simp only [← S32.bin_iff]; cases op <;> exact bind4 ..

/-- `n op v` on `int4` is defined, with result `r`, exactly when every lane of `r` is the result of that lane. -/
theorem int4_binL (op : BinOp) (n : W) (v r : V4 W) :
    Int4.binL op n v = some r ↔ ∀ i : Fin 4, Spec.sBin op n (v.get i) (r.get i) := by
  rw [lanes4]; simp only [← S32.bin_iff]; cases op <;> exact bind4 ..

/-- `a op= v` on `int4` is defined, with result `r`, exactly when every lane of `r` is the result of that lane. -/
theorem int4_asg (op : BinOp) (a v r : V4 W) :
    Int4.asg op a v = some r ↔ ∀ i : Fin 4, Spec.sBin op (a.get i) (v.get i) (r.get i) := by
  rw [lanes4]; simp only [← S32.bin_iff]; cases op <;> exact bind4 ..

/-- `a op= n` on `int4` is defined, with result `r`, exactly when every lane of `r` is the result of that lane. -/
theorem int4_asgS (op : BinOp) (a : V4 W) (n : W) (r : V4 W) :
    Int4.asgS op a n = some r ↔ ∀ i : Fin 4, Spec.sBin op (a.get i) n (r.get i) := by
  rw [lanes4]; simp only [← S32.bin_iff]; cases op <;> exact bind4 ..

/-- `-a`, `!a`, `~a` on `int4`. -/
theorem int4_un (op : UnOp) (a r : V4 W) : Int4.un op a = some r ↔ ∀ i : Fin 4, Spec.sUn op (a.get i) (r.get i) := by
  rw [lanes4]; simp only [← S32.un_iff]; cases op <;> exact bind4 ..

/-- `a = n` on `int4` sets every lane. -/
theorem int4_set (a : V4 W) (n : W) (i : Fin 4) : (Int4.set a n).get i = n := by
  fin_cases i <;> rfl

/-- The four comparison operators, `equal` and `notEqual` on `int4`, with a vector or a scalar on either side. -/
theorem int4_cmp (c : Cmp) (a v : V4 W) (n : W) (i : Fin 4) :
    Spec.isMask ((Int4.cmp c a v).get i) (Spec.cmpInt c (a.get i).toInt (v.get i).toInt) ∧
    Spec.isMask ((Int4.cmpS c a n).get i) (Spec.cmpInt c (a.get i).toInt n.toInt) ∧
    Spec.isMask ((Int4.cmpL c n v).get i) (Spec.cmpInt c n.toInt (v.get i).toInt) := by
  cases c <;> fin_cases i <;> exact ⟨cmpI_isMask _ _ _, cmpI_isMask _ _ _, cmpI_isMask _ _ _⟩

/-- `==` and `!=` on `int4`, with a vector or a scalar on either side. -/
theorem int4_eq (a v : V4 W) (n : W) :
    (Int4.eq a v = true ↔ ∀ i : Fin 4, a.get i = v.get i) ∧ (Int4.ne a v = true ↔ ¬∀ i : Fin 4, a.get i = v.get i) ∧
    (Int4.eqS a n = true ↔ ∀ i : Fin 4, a.get i = n) ∧ (Int4.neS a n = true ↔ ¬∀ i : Fin 4, a.get i = n) ∧
    (Int4.eqL n v = true ↔ ∀ i : Fin 4, n = v.get i) ∧ (Int4.neL n v = true ↔ ¬∀ i : Fin 4, n = v.get i) := by
  simp only [lanes4, Int4.eq, Int4.ne, Int4.eqS, Int4.neS, Int4.eqL, Int4.neL]
  simp only [V4.splat, V4.get, Bool.and_eq_true, Bool.or_eq_true, beq_iff_eq, bne_iff_ne]
  refine ⟨?_, ?_, ?_, ?_, ?_, ?_⟩ <;> tauto

/-- `a op v` on `uint2` is defined, with result `r`, exactly when every lane of `r` is the result of that lane. -/
theorem uint2_bin (op : BinOp) (a v r : V2 W) :
    Uint2.bin op a v = some r ↔ ∀ i : Fin 2, Spec.uBin op (a.get i) (v.get i) (r.get i) := by
  rw [lanes2]; simp only [← U32.bin_iff]; cases op <;> exact bind2 ..

/-- `a op n` on `uint2` is defined, with result `r`, exactly when every lane of `r` is the result of that lane. -/
theorem uint2_binS (op : BinOp) (a : V2 W) (n : W) (r : V2 W) :
    Uint2.binS op a n = some r ↔ ∀ i : Fin 2, Spec.uBin op (a.get i) n (r.get i) := by
  rw [lanes2]; simp only [← U32.bin_iff]; cases op <;> exact bind2 ..

/-- `n op v` on `uint2` is defined, with result `r`, exactly when every lane of `r` is the result of that lane. -/
theorem uint2_binL (op : BinOp) (n : W) (v r : V2 W) :
    Uint2.binL op n v = some r ↔ ∀ i : Fin 2, Spec.uBin op n (v.get i) (r.get i) := by
  rw [lanes2]; simp only [← U32.bin_iff]; cases op <;> exact bind2 ..

/-- `a op= v` on `uint2` is defined, with result `r`, exactly when every lane of `r` is the result of that lane. -/
theorem uint2_asg (op : BinOp) (a v r : V2 W) :
    Uint2.asg op a v = some r ↔ ∀ i : Fin 2, Spec.uBin op (a.get i) (v.get i) (r.get i) := by
  rw [lanes2]; simp only [← U32.bin_iff]; cases op <;> exact bind2 ..

/-- `a op= n` on `uint2` is defined, with result `r`, exactly when every lane of `r` is the result of that lane. -/
theorem uint2_asgS (op : BinOp) (a : V2 W) (n : W) (r : V2 W) :
    Uint2.asgS op a n = some r ↔ ∀ i : Fin 2, Spec.uBin op (a.get i) n (r.get i) := by
  rw [lanes2]; simp only [← U32.bin_iff]; cases op <;> exact bind2 ..

/-- `-a`, `!a`, `~a` on `uint2`. -/
theorem uint2_un (op : UnOp) (a r : V2 W) : Uint2.un op a = some r ↔ ∀ i : Fin 2, Spec.uUn op (a.get i) (r.get i) := by
  rw [lanes2]; simp only [← U32.un_iff]; cases op <;> exact bind2 ..

/-- `a = n` on `uint2` sets every lane. -/
theorem uint2_set (a : V2 W) (n : W) (i : Fin 2) : (Uint2.set a n).get i = n := by
  fin_cases i <;> rfl

/-- The four comparison operators, `equal` and `notEqual` on `uint2`, with a vector or a scalar on either side. -/
theorem uint2_cmp (c : Cmp) (a v : V2 W) (n : W) (i : Fin 2) :
    Spec.isMask ((Uint2.cmp c a v).get i) (Spec.cmpInt c (a.get i).toNat (v.get i).toNat) ∧
    Spec.isMask ((Uint2.cmpS c a n).get i) (Spec.cmpInt c (a.get i).toNat n.toNat) ∧
    Spec.isMask ((Uint2.cmpL c n v).get i) (Spec.cmpInt c n.toNat (v.get i).toNat) := by
  cases c <;> fin_cases i <;> exact ⟨cmpU_isMask _ _ _, cmpU_isMask _ _ _, cmpU_isMask _ _ _⟩

/-- `==` and `!=` on `uint2`, with a vector or a scalar on either side. -/
theorem uint2_eq (a v : V2 W) (n : W) :
    (Uint2.eq a v = true ↔ ∀ i : Fin 2, a.get i = v.get i) ∧ (Uint2.ne a v = true ↔ ¬∀ i : Fin 2, a.get i = v.get i) ∧
    (Uint2.eqS a n = true ↔ ∀ i : Fin 2, a.get i = n) ∧ (Uint2.neS a n = true ↔ ¬∀ i : Fin 2, a.get i = n) ∧
    (Uint2.eqL n v = true ↔ ∀ i : Fin 2, n = v.get i) ∧ (Uint2.neL n v = true ↔ ¬∀ i : Fin 2, n = v.get i) := by
  simp only [lanes2, Uint2.eq, Uint2.ne, Uint2.eqS, Uint2.neS, Uint2.eqL, Uint2.neL]
  simp only [V2.splat, V2.get, Bool.and_eq_true, Bool.or_eq_true, beq_iff_eq, bne_iff_ne]
  refine ⟨?_, ?_, ?_, ?_, ?_, ?_⟩ <;> tauto

/-- `a op v` on `uint3` is defined, with result `r`, exactly when every lane of `r` is the result of that lane. -/
theorem uint3_bin (op : BinOp) (a v r : V3 W) :
    Uint3.bin op a v = some r ↔ ∀ i : Fin 3, Spec.uBin op (a.get i) (v.get i) (r.get i) := by
  rw [lanes3]; simp only [← U32.bin_iff]; cases op <;> exact bind3 ..

/-- `a op n` on `uint3` is defined, with result `r`, exactly when every lane of `r` is the result of that lane. -/
theorem uint3_binS (op : BinOp) (a : V3 W) (n : W) (r : V3 W) :
    Uint3.binS op a n = some r ↔ ∀ i : Fin 3, Spec.uBin op (a.get i) n (r.get i) := by
  rw [lanes3]; simp only [← U32.bin_iff]; cases op <;> exact bind3 ..

/-- `n op v` on `uint3` is defined, with result `r`, exactly when every lane of `r` is the result of that lane. -/
theorem uint3_binL (op : BinOp) (n : W) (v r : V3 W) :
    Uint3.binL op n v = some r ↔ ∀ i : Fin 3, Spec.uBin op n (v.get i) (r.get i) := by
  rw [lanes3]; simp only [← U32.bin_iff]; cases op <;> exact bind3 ..

/-- `a op= v` on `uint3` is defined, with result `r`, exactly when every lane of `r` is the result of that lane. -/
theorem uint3_asg (op : BinOp) (a v r : V3 W) :
    Uint3.asg op a v = some r ↔ ∀ i : Fin 3, Spec.uBin op (a.get i) (v.get i) (r.get i) := by
  rw [lanes3]; simp only [← U32.bin_iff]; cases op <;> exact bind3 ..

/-- `a op= n` on `uint3` is defined, with result `r`, exactly when every lane of `r` is the result of that lane. -/
theorem uint3_asgS (op : BinOp) (a : V3 W) (n : W) (r : V3 W) :
    Uint3.asgS op a n = some r ↔ ∀ i : Fin 3, Spec.uBin op (a.get i) n (r.get i) := by
  rw [lanes3]; simp only [← U32.bin_iff]; cases op <;> exact bind3 ..

/-- `-a`, `!a`, `~a` on `uint3`. -/
theorem uint3_un (op : UnOp) (a r : V3 W) : Uint3.un op a = some r ↔ ∀ i : Fin 3, Spec.uUn op (a.get i) (r.get i) := by
  rw [lanes3]; simp only [← U32.un_iff]; cases op <;> exact bind3 ..

/-- `a = n` on `uint3` sets every lane. -/
theorem uint3_set (a : V3 W) (n : W) (i : Fin 3) : (Uint3.set a n).get i = n := by
  fin_cases i <;> rfl

/-- The four comparison operators, `equal` and `notEqual` on `uint3`, with a vector or a scalar on either side. -/
theorem uint3_cmp (c : Cmp) (a v : V3 W) (n : W) (i : Fin 3) :
    Spec.isMask ((Uint3.cmp c a v).get i) (Spec.cmpInt c (a.get i).toNat (v.get i).toNat) ∧
    Spec.isMask ((Uint3.cmpS c a n).get i) (Spec.cmpInt c (a.get i).toNat n.toNat) ∧
    Spec.isMask ((Uint3.cmpL c n v).get i) (Spec.cmpInt c n.toNat (v.get i).toNat) := by
  cases c <;> fin_cases i <;> exact ⟨cmpU_isMask _ _ _, cmpU_isMask _ _ _, cmpU_isMask _ _ _⟩

/-- `==` and `!=` on `uint3`, with a vector or a scalar on either side. -/
theorem uint3_eq (a v : V3 W) (n : W) :
    (Uint3.eq a v = true ↔ ∀ i : Fin 3, a.get i = v.get i) ∧ (Uint3.ne a v = true ↔ ¬∀ i : Fin 3, a.get i = v.get i) ∧
    (Uint3.eqS a n = true ↔ ∀ i : Fin 3, a.get i = n) ∧ (Uint3.neS a n = true ↔ ¬∀ i : Fin 3, a.get i = n) ∧
    (Uint3.eqL n v = true ↔ ∀ i : Fin 3, n = v.get i) ∧ (Uint3.neL n v = true ↔ ¬∀ i : Fin 3, n = v.get i) := by
  simp only [lanes3, Uint3.eq, Uint3.ne, Uint3.eqS, Uint3.neS, Uint3.eqL, Uint3.neL]
  simp only [V3.splat, V3.get, Bool.and_eq_true, Bool.or_eq_true, beq_iff_eq, bne_iff_ne]
  refine ⟨?_, ?_, ?_, ?_, ?_, ?_⟩ <;> tauto

/-- `a op v` on `uint4` is defined, with result `r`, exactly when every lane of `r` is the result of that lane. -/
theorem uint4_bin (op : BinOp) (a v r : V4 W) :
    Uint4.bin op a v = some r ↔ ∀ i : Fin 4, Spec.uBin op (a.get i) (v.get i) (r.get i) := by
  rw [lanes4]; simp only [← U32.bin_iff]; cases op <;> exact bind4 ..

/-- `a op n` on `uint4` is defined, with result `r`, exactly when every lane of `r` is the result of that lane. -/
theorem uint4_binS (op : BinOp) (a : V4 W) (n : W) (r : V4 W) :
    Uint4.binS op a n = some r ↔ ∀ i : Fin 4, Spec.uBin op (a.get i) n (r.get i) := by
  rw [lanes4]; simp only [← U32.bin_iff]; cases op <;> exact bind4 ..

/-- `n op v` on `uint4` is defined, with result `r`, exactly when every lane of `r` is the result of that lane. -/
theorem uint4_binL (op : BinOp) (n : W) (v r : V4 W) :
    Uint4.binL op n v = some r ↔ ∀ i : Fin 4, Spec.uBin op n (v.get i) (r.get i) := by
  rw [lanes4]; simp only [← U32.bin_iff]; cases op <;> exact bind4 ..

/-- `a op= v` on `uint4` is defined, with result `r`, exactly when every lane of `r` is the result of that lane. -/
theorem uint4_asg (op : BinOp) (a v r : V4 W) :
    Uint4.asg op a v = some r ↔ ∀ i : Fin 4, Spec.uBin op (a.get i) (v.get i) (r.get i) := by
  rw [lanes4]; simp only [← U32.bin_iff]; cases op <;> exact bind4 ..

/-- `a op= n` on `uint4` is defined, with result `r`, exactly when every lane of `r` is the result of that lane. -/
theorem uint4_asgS (op : BinOp) (a : V4 W) (n : W) (r : V4 W) :
    Uint4.asgS op a n = some r ↔ ∀ i : Fin 4, Spec.uBin op (a.get i) n (r.get i) := by
  rw [lanes4]; simp only [← U32.bin_iff]; cases op <;> exact bind4 ..

/-- `-a`, `!a`, `~a` on `uint4`. -/
theorem uint4_un (op : UnOp) (a r : V4 W) : Uint4.un op a = some r ↔ ∀ i : Fin 4, Spec.uUn op (a.get i) (r.get i) := by
  rw [lanes4]; simp only [← U32.un_iff]; cases op <;> exact bind4 ..

/-- `a = n` on `uint4` sets every lane. -/
theorem uint4_set (a : V4 W) (n : W) (i : Fin 4) : (Uint4.set a n).get i = n := by
  fin_cases i <;> rfl

/-- The four comparison operators, `equal` and `notEqual` on `uint4`, with a vector or a scalar on either side. -/
theorem uint4_cmp (c : Cmp) (a v : V4 W) (n : W) (i : Fin 4) :
    Spec.isMask ((Uint4.cmp c a v).get i) (Spec.cmpInt c (a.get i).toNat (v.get i).toNat) ∧
    Spec.isMask ((Uint4.cmpS c a n).get i) (Spec.cmpInt c (a.get i).toNat n.toNat) ∧
    Spec.isMask ((Uint4.cmpL c n v).get i) (Spec.cmpInt c n.toNat (v.get i).toNat) := by
  cases c <;> fin_cases i <;> exact ⟨cmpU_isMask _ _ _, cmpU_isMask _ _ _, cmpU_isMask _ _ _⟩

/-- `==` and `!=` on `uint4`, with a vector or a scalar on either side. -/
theorem uint4_eq (a v : V4 W) (n : W) :
    (Uint4.eq a v = true ↔ ∀ i : Fin 4, a.get i = v.get i) ∧ (Uint4.ne a v = true ↔ ¬∀ i : Fin 4, a.get i = v.get i) ∧
    (Uint4.eqS a n = true ↔ ∀ i : Fin 4, a.get i = n) ∧ (Uint4.neS a n = true ↔ ¬∀ i : Fin 4, a.get i = n) ∧
    (Uint4.eqL n v = true ↔ ∀ i : Fin 4, n = v.get i) ∧ (Uint4.neL n v = true ↔ ¬∀ i : Fin 4, n = v.get i) := by
  simp only [lanes4, Uint4.eq, Uint4.ne, Uint4.eqS, Uint4.neS, Uint4.eqL, Uint4.neL]
  simp only [V4.splat, V4.get, Bool.and_eq_true, Bool.or_eq_true, beq_iff_eq, bne_iff_ne]
  refine ⟨?_, ?_, ?_, ?_, ?_, ?_⟩ <;> tauto

/-! ### When the operators are defined -/

/-- `a / v` on `int3` is defined exactly when no lane divides by zero and no lane divides the smallest number by -1. -/
theorem int3_div_defined (a v : V3 W) : (∃ r, Int3.bin .div a v = some r) ↔
    ∀ i : Fin 3, (v.get i).toInt ≠ 0 ∧ ¬((a.get i).toInt = -2 ^ 31 ∧ (v.get i).toInt = -1) := by
  have lane : ∀ x y : W, (∃ r, Spec.sBin .div x y r) ↔ y.toInt ≠ 0 ∧ ¬(x.toInt = -2 ^ 31 ∧ y.toInt = -1) := by
    intro x y
    simp only [Spec.sBin]
    constructor
    · rintro ⟨r, h, hr⟩
      refine ⟨h, ?_⟩
      have := W.toInt_bounds r
      have := (S32.tdiv_lt_iff x y h).1 (by omega)
      norm_num; norm_num at this; exact this
    · rintro ⟨h, h'⟩
      have h2 := (S32.tdiv_lt_iff x y h).2 (by norm_num at h'; norm_num; exact h')
      have hx := W.toInt_bounds x
      have h3 : (x.toInt.tdiv y.toInt).natAbs = x.toInt.natAbs / y.toInt.natAbs := Int.natAbs_tdiv ..
      have h4 : x.toInt.natAbs / y.toInt.natAbs ≤ x.toInt.natAbs := Nat.div_le_self ..
      refine ⟨BitVec.ofInt 32 (x.toInt.tdiv y.toInt), h, ?_⟩
      exact (S32.ofInt?_iff _ _).1 (by unfold S32.ofInt?; rw [if_pos]; constructor <;> omega)
  simp only [int3_bin]
  constructor
  · rintro ⟨r, h⟩ i; exact (lane _ _).1 ⟨_, h i⟩
  · intro h
    have h0 := (lane _ _).2 (h 0); have h1 := (lane _ _).2 (h 1); have h2 := (lane _ _).2 (h 2)
    obtain ⟨x, hx⟩ := h0; obtain ⟨y, hy⟩ := h1; obtain ⟨z, hz⟩ := h2
    exact ⟨⟨x, y, z⟩, lanes3.2 ⟨hx, hy, hz⟩⟩

/-- Unsigned vectors: only division and remainder by zero and shifts by 32 or more are undefined. -/
theorem uint3_defined (op : BinOp) (a v : V3 W) : (∃ r, Uint3.bin op a v = some r) ↔
    ∀ i : Fin 3, ((op = .div ∨ op = .rem) → (v.get i).toNat ≠ 0) ∧ ((op = .shr ∨ op = .shl) → (v.get i).toNat < 32) := by
  have lane : ∀ x y : W, (∃ r, U32.bin op x y = some r) ↔
      ((op = .div ∨ op = .rem) → y.toNat ≠ 0) ∧ ((op = .shr ∨ op = .shl) → y.toNat < 32) := by
    intro x y
    have e : y = 0#32 ↔ y.toNat = 0 := by simp [BitVec.toNat_eq]
    cases op <;> simp [U32.bin] <;> (try split) <;> simp_all
  simp only [uint3_bin, ← U32.bin_iff]
  constructor
  · rintro ⟨r, h⟩ i; exact (lane _ _).1 ⟨_, h i⟩
  · intro h
    have h0 := (lane (a.get 0) _).2 (h 0); have h1 := (lane (a.get 1) _).2 (h 1); have h2 := (lane (a.get 2) _).2 (h 2)
    obtain ⟨x, hx⟩ := h0; obtain ⟨y, hy⟩ := h1; obtain ⟨z, hz⟩ := h2
    exact ⟨⟨x, y, z⟩, lanes3.2 ⟨hx, hy, hz⟩⟩

example : Int3.bin .rem ⟨-7#32, 7#32, 9#32⟩ ⟨3#32, -3#32, 4#32⟩ = some ⟨-1#32, 1#32, 1#32⟩ := by decide
example : Int3.bin .div ⟨0x80000000#32, 7#32, 9#32⟩ ⟨-1#32, 3#32, 4#32⟩ = none := by decide
example : Int4.binL .sub 10#32 ⟨1#32, 2#32, 3#32, 14#32⟩ = some ⟨9#32, 8#32, 7#32, -4#32⟩ := by decide
example : Int2.asg .mul ⟨65536#32, 2#32⟩ ⟨32768#32, 3#32⟩ = none := by decide
example : Int2.bin .shr ⟨-5#32, 5#32⟩ ⟨1#32, 1#32⟩ = some ⟨-3#32, 2#32⟩ := by decide
example : Uint2.bin .sub ⟨1#32, 5#32⟩ ⟨2#32, 1#32⟩ = some ⟨0xFFFFFFFF#32, 4#32⟩ := by decide
example : Int3.cmpL .lt 0#32 ⟨-1#32, 0#32, 1#32⟩ = ⟨0#32, 0#32, 0xFFFFFFFF#32⟩ := by decide

end Verif
