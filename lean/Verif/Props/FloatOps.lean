import Verif.Spec.Float
import Verif.Proofs.F32Div
import Verif.Props.SimdInt

/-!
# C79: the operators of the floating-point vectors

Every lane of every operator is the correctly rounded IEEE result of that lane, for the scalar vectors and for `f32x4` on
every instruction set; comparisons with NaN are false except `!=` and `notEqual`.
-/

namespace Verif
open F32

/-- The operator on one component, for any scalar type. -/
def FOp.on {F : Type} [Flt F] : FOp → F → F → F
  | .add => Flt.add | .sub => Flt.sub | .mul => Flt.mul | .div => Flt.div

theorem fadd_nan {a b : F32} (h : a.isNaN ∨ b.isNaN) : (fadd a b).isNaN := by
  have : (a.isNaN || b.isNaN) = true := by simpa using h
  unfold fadd; rw [if_pos this]; decide
theorem fsub_nan {a b : F32} (h : a.isNaN ∨ b.isNaN) : (fsub a b).isNaN := by
  unfold fsub; split
  · decide
  · exact fadd_nan (by rw [fneg_isNaN]; exact h)
theorem fmul_nan {a b : F32} (h : a.isNaN ∨ b.isNaN) : (fmul a b).isNaN := by
  have : (a.isNaN || b.isNaN) = true := by simpa using h
  unfold fmul; simp only [this, if_true]; decide
theorem fdiv_nan {a b : F32} (h : a.isNaN ∨ b.isNaN) : (fdiv a b).isNaN := by
  have : (a.isNaN || b.isNaN) = true := by simpa using h
  unfold fdiv; simp only [this, if_true]; decide

/-- The built-in operators of `float`, as modelled, are correctly rounded. -/
theorem fop_ok (op : FOp) (a b : F32) : Spec.fOk op a b (op.on a b) := by
  cases op
  · exact ⟨fadd_nan, fun ha hb _ h => fadd_nearest ha hb h⟩
  · exact ⟨fsub_nan, fun ha hb _ h => fsub_nearest ha hb h⟩
  · exact ⟨fmul_nan, fun ha hb _ h => fmul_nearest ha hb h⟩
  · exact ⟨fdiv_nan, fun ha hb h0 h => fdiv_nearest ha hb (h0 rfl) h⟩

theorem toRat_eq_iff (a b : F32) : a.toRat = b.toRat ↔ a.key = b.key := by
  rw [le_antisymm_iff, le_antisymm_iff, toRat_le_iff, toRat_le_iff]

theorem fcmp_ok (c : Cmp) (a b : F32) : Spec.fCmp c a b (Cmp.onF c a b = true) := by
  constructor
  · rintro (h | h) <;> cases c <;> simp [Cmp.onF, Flt.lt, Flt.le, Flt.eq, ltb, leb, eqb, h]
  · intro ha hb
    have h1 := finite_not_nan ha; have h2 := finite_not_nan hb
    cases c <;> simp [Cmp.onF, Flt.lt, Flt.le, Flt.eq, ltb, leb, eqb, h1, h2, toRat_lt_iff, toRat_le_iff, toRat_eq_iff]

theorem mask_ones (b : Bool) : mask b = 0xFFFFFFFF#32 ↔ b = true := by cases b <;> decide
theorem mask_zero (b : Bool) : mask b = 0#32 ↔ b ≠ true := by cases b <;> decide

theorem fcmp_mask (c : Cmp) (a b : F32) : Spec.fCmp c a b (mask (Cmp.onF c a b) = 0xFFFFFFFF#32) := by
  rw [mask_ones]; exact fcmp_ok c a b


/-- Every operator form of `float2` is lane by lane, for any scalar. -/
theorem float2_lanes {F : Type} [Flt F] (op : FOp) (a v : V2 F) (n : F) (i : Fin 2) :
    (Float2.bin op a v).get i = op.on (a.get i) (v.get i) ∧ (Float2.asg op a v).get i = op.on (a.get i) (v.get i) ∧
    (Float2.binS op a n).get i = op.on (a.get i) n ∧ (Float2.asgS op a n).get i = op.on (a.get i) n ∧
    (Float2.binL op n v).get i = op.on n (v.get i) ∧ (Float2.neg a).get i = Flt.neg (a.get i) ∧ (Float2.set a n).get i = n := by
  cases op <;> fin_cases i <;> exact ⟨rfl, rfl, rfl, rfl, rfl, rfl, rfl⟩

/-- On binary32 every lane of every operator of `float2` is correctly rounded; `-a` negates. -/
theorem float2_rounded (op : FOp) (a v : V2 F32) (n : F32) (i : Fin 2) :
    Spec.fOk op (a.get i) (v.get i) ((Float2.bin op a v).get i) ∧ Spec.fOk op (a.get i) (v.get i) ((Float2.asg op a v).get i) ∧
    Spec.fOk op (a.get i) n ((Float2.binS op a n).get i) ∧ Spec.fOk op (a.get i) n ((Float2.asgS op a n).get i) ∧
    Spec.fOk op n (v.get i) ((Float2.binL op n v).get i) ∧ ((Float2.neg a).get i).toRat = -(a.get i).toRat ∧
    (Float2.set a n).get i = n := by
  obtain ⟨h1, h2, h3, h4, h5, h6, h7⟩ := float2_lanes op a v n i
  rw [h1, h2, h3, h4, h5, h6, h7]
  exact ⟨fop_ok .., fop_ok .., fop_ok .., fop_ok .., fop_ok .., fneg_toRat _, rfl⟩

/-- The comparison operators, `equal` and `notEqual` of `float2`, with a vector or a scalar on either side: a lane is all
ones exactly when the comparison holds, and zero otherwise. -/
theorem float2_cmp (c : Cmp) (a v : V2 F32) (n : F32) (i : Fin 2) :
    Spec.fCmp c (a.get i) (v.get i) ((Float2.cmp c a v).get i = 0xFFFFFFFF#32) ∧
    Spec.fCmp c (a.get i) n ((Float2.cmpS c a n).get i = 0xFFFFFFFF#32) ∧
    Spec.fCmp c n (v.get i) ((Float2.cmpL c n v).get i = 0xFFFFFFFF#32) ∧
    ∀ r ∈ [(Float2.cmp c a v).get i, (Float2.cmpS c a n).get i, (Float2.cmpL c n v).get i], r = 0xFFFFFFFF#32 ∨ r = 0#32 := by
  have hm : ∀ b : Bool, mask b = 0xFFFFFFFF#32 ∨ mask b = 0#32 := by decide
  have e1 : (Float2.cmp c a v).get i = mask (Cmp.onF c (a.get i) (v.get i)) := by cases c <;> fin_cases i <;> rfl
  have e2 : (Float2.cmpS c a n).get i = mask (Cmp.onF c (a.get i) n) := by cases c <;> fin_cases i <;> rfl
  have e3 : (Float2.cmpL c n v).get i = mask (Cmp.onF c n (v.get i)) := by cases c <;> fin_cases i <;> rfl
  rw [e1, e2, e3]
  refine ⟨fcmp_mask .., fcmp_mask .., fcmp_mask .., ?_⟩
  intro r hr
  simp only [List.mem_cons, List.not_mem_nil, or_false] at hr
  rcases hr with rfl | rfl | rfl <;> exact hm _

/-- `==` holds exactly when every lane compares equal, and `!=` is its negation, for any scalar. -/
theorem float2_eq {F : Type} [Flt F] (a v : V2 F) (n : F) :
    (Float2.eq a v = true ↔ ∀ i : Fin 2, (a.get i ==. v.get i) = true) ∧ (Float2.ne a v = !Float2.eq a v) ∧
    (Float2.eqS a n = true ↔ ∀ i : Fin 2, (a.get i ==. n) = true) ∧ (Float2.neS a n = !Float2.eqS a n) ∧
    (Float2.eqL n v = true ↔ ∀ i : Fin 2, (n ==. v.get i) = true) ∧ (Float2.neL n v = !Float2.eqL n v) := by
  have key : ∀ a v : V2 F, (Float2.eq a v = true ↔ ∀ i : Fin 2, (a.get i ==. v.get i) = true) ∧ (Float2.ne a v = !Float2.eq a v) := by
    intro a v
    rw [lanes2]; simp only [Float2.eq, Float2.ne, V2.get, Bool.and_eq_true, Bool.not_and]
    exact ⟨by tauto, trivial⟩
  have hs : ∀ i : Fin 2, (V2.splat n).get i = n := by intro i; fin_cases i <;> rfl
  have k2 := key a (V2.splat n); have k3 := key (V2.splat n) v
  simp only [hs] at k2 k3
  exact ⟨(key a v).1, (key a v).2, k2.1, k2.2, k3.1, k3.2⟩

/-- Every operator form of `float3` is lane by lane, for any scalar. -/
theorem float3_lanes {F : Type} [Flt F] (op : FOp) (a v : V3 F) (n : F) (i : Fin 3) :
    (Float3.bin op a v).get i = op.on (a.get i) (v.get i) ∧ (Float3.asg op a v).get i = op.on (a.get i) (v.get i) ∧
    (Float3.binS op a n).get i = op.on (a.get i) n ∧ (Float3.asgS op a n).get i = op.on (a.get i) n ∧
    (Float3.binL op n v).get i = op.on n (v.get i) ∧ (Float3.neg a).get i = Flt.neg (a.get i) ∧ (Float3.set a n).get i = n := by
  cases op <;> fin_cases i <;> exact ⟨rfl, rfl, rfl, rfl, rfl, rfl, rfl⟩

/-- On binary32 every lane of every operator of `float3` is correctly rounded; `-a` negates. -/
theorem float3_rounded (op : FOp) (a v : V3 F32) (n : F32) (i : Fin 3) :
    Spec.fOk op (a.get i) (v.get i) ((Float3.bin op a v).get i) ∧ Spec.fOk op (a.get i) (v.get i) ((Float3.asg op a v).get i) ∧
    Spec.fOk op (a.get i) n ((Float3.binS op a n).get i) ∧ Spec.fOk op (a.get i) n ((Float3.asgS op a n).get i) ∧
    Spec.fOk op n (v.get i) ((Float3.binL op n v).get i) ∧ ((Float3.neg a).get i).toRat = -(a.get i).toRat ∧
    (Float3.set a n).get i = n := by
  obtain ⟨h1, h2, h3, h4, h5, h6, h7⟩ := float3_lanes op a v n i
  rw [h1, h2, h3, h4, h5, h6, h7]
  exact ⟨fop_ok .., fop_ok .., fop_ok .., fop_ok .., fop_ok .., fneg_toRat _, rfl⟩

/-- The comparison operators, `equal` and `notEqual` of `float3`, with a vector or a scalar on either side: a lane is all
ones exactly when the comparison holds, and zero otherwise. -/
theorem float3_cmp (c : Cmp) (a v : V3 F32) (n : F32) (i : Fin 3) :
    Spec.fCmp c (a.get i) (v.get i) ((Float3.cmp c a v).get i = 0xFFFFFFFF#32) ∧
    Spec.fCmp c (a.get i) n ((Float3.cmpS c a n).get i = 0xFFFFFFFF#32) ∧
    Spec.fCmp c n (v.get i) ((Float3.cmpL c n v).get i = 0xFFFFFFFF#32) ∧
    ∀ r ∈ [(Float3.cmp c a v).get i, (Float3.cmpS c a n).get i, (Float3.cmpL c n v).get i], r = 0xFFFFFFFF#32 ∨ r = 0#32 := by
  have hm : ∀ b : Bool, mask b = 0xFFFFFFFF#32 ∨ mask b = 0#32 := by decide
  have e1 : (Float3.cmp c a v).get i = mask (Cmp.onF c (a.get i) (v.get i)) := by cases c <;> fin_cases i <;> rfl
  have e2 : (Float3.cmpS c a n).get i = mask (Cmp.onF c (a.get i) n) := by cases c <;> fin_cases i <;> rfl
  have e3 : (Float3.cmpL c n v).get i = mask (Cmp.onF c n (v.get i)) := by cases c <;> fin_cases i <;> rfl
  rw [e1, e2, e3]
  refine ⟨fcmp_mask .., fcmp_mask .., fcmp_mask .., ?_⟩
  intro r hr
  simp only [List.mem_cons, List.not_mem_nil, or_false] at hr
  rcases hr with rfl | rfl | rfl <;> exact hm _

/-- `==` holds exactly when every lane compares equal, and `!=` is its negation, for any scalar. -/
theorem float3_eq {F : Type} [Flt F] (a v : V3 F) (n : F) :
    (Float3.eq a v = true ↔ ∀ i : Fin 3, (a.get i ==. v.get i) = true) ∧ (Float3.ne a v = !Float3.eq a v) ∧
    (Float3.eqS a n = true ↔ ∀ i : Fin 3, (a.get i ==. n) = true) ∧ (Float3.neS a n = !Float3.eqS a n) ∧
    (Float3.eqL n v = true ↔ ∀ i : Fin 3, (n ==. v.get i) = true) ∧ (Float3.neL n v = !Float3.eqL n v) := by
  have key : ∀ a v : V3 F, (Float3.eq a v = true ↔ ∀ i : Fin 3, (a.get i ==. v.get i) = true) ∧ (Float3.ne a v = !Float3.eq a v) := by
    intro a v
    rw [lanes3]; simp only [Float3.eq, Float3.ne, V3.get, Bool.and_eq_true, Bool.not_and]
    exact ⟨by tauto, trivial⟩
  have hs : ∀ i : Fin 3, (V3.splat n).get i = n := by intro i; fin_cases i <;> rfl
  have k2 := key a (V3.splat n); have k3 := key (V3.splat n) v
  simp only [hs] at k2 k3
  exact ⟨(key a v).1, (key a v).2, k2.1, k2.2, k3.1, k3.2⟩

/-- Every operator form of `float4` is lane by lane, for any scalar. -/
theorem float4_lanes {F : Type} [Flt F] (op : FOp) (a v : V4 F) (n : F) (i : Fin 4) :
    (Float4.bin op a v).get i = op.on (a.get i) (v.get i) ∧ (Float4.asg op a v).get i = op.on (a.get i) (v.get i) ∧
    (Float4.binS op a n).get i = op.on (a.get i) n ∧ (Float4.asgS op a n).get i = op.on (a.get i) n ∧
    (Float4.binL op n v).get i = op.on n (v.get i) ∧ (Float4.neg a).get i = Flt.neg (a.get i) ∧ (Float4.set a n).get i = n := by
  cases op <;> fin_cases i <;> exact ⟨rfl, rfl, rfl, rfl, rfl, rfl, rfl⟩

/-- On binary32 every lane of every operator of `float4` is correctly rounded; `-a` negates. -/
theorem float4_rounded (op : FOp) (a v : V4 F32) (n : F32) (i : Fin 4) :
    Spec.fOk op (a.get i) (v.get i) ((Float4.bin op a v).get i) ∧ Spec.fOk op (a.get i) (v.get i) ((Float4.asg op a v).get i) ∧
    Spec.fOk op (a.get i) n ((Float4.binS op a n).get i) ∧ Spec.fOk op (a.get i) n ((Float4.asgS op a n).get i) ∧
    Spec.fOk op n (v.get i) ((Float4.binL op n v).get i) ∧ ((Float4.neg a).get i).toRat = -(a.get i).toRat ∧
    (Float4.set a n).get i = n := by
  obtain ⟨h1, h2, h3, h4, h5, h6, h7⟩ := float4_lanes op a v n i
  rw [h1, h2, h3, h4, h5, h6, h7]
  exact ⟨fop_ok .., fop_ok .., fop_ok .., fop_ok .., fop_ok .., fneg_toRat _, rfl⟩

/-- The comparison operators, `equal` and `notEqual` of `float4`, with a vector or a scalar on either side: a lane is all
ones exactly when the comparison holds, and zero otherwise. -/
theorem float4_cmp (c : Cmp) (a v : V4 F32) (n : F32) (i : Fin 4) :
    Spec.fCmp c (a.get i) (v.get i) ((Float4.cmp c a v).get i = 0xFFFFFFFF#32) ∧
    Spec.fCmp c (a.get i) n ((Float4.cmpS c a n).get i = 0xFFFFFFFF#32) ∧
    Spec.fCmp c n (v.get i) ((Float4.cmpL c n v).get i = 0xFFFFFFFF#32) ∧
    ∀ r ∈ [(Float4.cmp c a v).get i, (Float4.cmpS c a n).get i, (Float4.cmpL c n v).get i], r = 0xFFFFFFFF#32 ∨ r = 0#32 := by
  have hm : ∀ b : Bool, mask b = 0xFFFFFFFF#32 ∨ mask b = 0#32 := by decide
  have e1 : (Float4.cmp c a v).get i = mask (Cmp.onF c (a.get i) (v.get i)) := by cases c <;> fin_cases i <;> rfl
  have e2 : (Float4.cmpS c a n).get i = mask (Cmp.onF c (a.get i) n) := by cases c <;> fin_cases i <;> rfl
  have e3 : (Float4.cmpL c n v).get i = mask (Cmp.onF c n (v.get i)) := by cases c <;> fin_cases i <;> rfl
  rw [e1, e2, e3]
  refine ⟨fcmp_mask .., fcmp_mask .., fcmp_mask .., ?_⟩
  intro r hr
  simp only [List.mem_cons, List.not_mem_nil, or_false] at hr
  rcases hr with rfl | rfl | rfl <;> exact hm _

/-- `==` holds exactly when every lane compares equal, and `!=` is its negation, for any scalar. -/
theorem float4_eq {F : Type} [Flt F] (a v : V4 F) (n : F) :
    (Float4.eq a v = true ↔ ∀ i : Fin 4, (a.get i ==. v.get i) = true) ∧ (Float4.ne a v = !Float4.eq a v) ∧
    (Float4.eqS a n = true ↔ ∀ i : Fin 4, (a.get i ==. n) = true) ∧ (Float4.neS a n = !Float4.eqS a n) ∧
    (Float4.eqL n v = true ↔ ∀ i : Fin 4, (n ==. v.get i) = true) ∧ (Float4.neL n v = !Float4.eqL n v) := by
  have key : ∀ a v : V4 F, (Float4.eq a v = true ↔ ∀ i : Fin 4, (a.get i ==. v.get i) = true) ∧ (Float4.ne a v = !Float4.eq a v) := by
    intro a v
    rw [lanes4]; simp only [Float4.eq, Float4.ne, V4.get, Bool.and_eq_true, Bool.not_and]
    exact ⟨by tauto, trivial⟩
  have hs : ∀ i : Fin 4, (V4.splat n).get i = n := by intro i; fin_cases i <;> rfl
  have k2 := key a (V4.splat n); have k3 := key (V4.splat n) v
  simp only [hs] at k2 k3
  exact ⟨(key a v).1, (key a v).2, k2.1, k2.2, k3.1, k3.2⟩


/-! ## `f32x4` -/

theorem fmul_comm (a b : F32) : fmul a b = fmul b a := by
  unfold fmul
  simp only [Bool.or_comm b.isNaN, Bool.or_comm b.isInf, mul_comm b.units,
    show (b.signBit != a.signBit) = (a.signBit != b.signBit) by cases a.signBit <;> cases b.signBit <;> rfl,
    show ((decide (b.mag = 0) || decide (a.mag = 0)) = (decide (a.mag = 0) || decide (b.mag = 0))) from Bool.or_comm ..]

/-- On every instruction set the operators of `f32x4` are exactly those of `float4`, bit for bit. -/
theorem f32x4_eq_float4 (k : Isa) (op : FOp) (c : Cmp) (a v : V4 F32) (n : F32) :
    F32x4.bin k op a v = Float4.bin op a v ∧ F32x4.asg k op a v = Float4.asg op a v ∧
    F32x4.binS k op a n = Float4.binS op a n ∧ F32x4.asgS k op a n = Float4.asgS op a n ∧
    F32x4.binL k op n v = Float4.binL op n v ∧ F32x4.neg k a = Float4.neg a ∧ F32x4.set a n = Float4.set a n ∧
    F32x4.cmp k c a v = Float4.cmp c a v ∧ F32x4.cmpS k c a n = Float4.cmpS c a n ∧ F32x4.cmpL k c n v = Float4.cmpL c n v := by
  have b : ∀ op a v, F32x4.bin k op a v = Float4.bin op a v := by
    intro op a v; cases op <;> simp only [F32x4.bin] <;> split <;> rfl
  have cm : ∀ a v, F32x4.cmp k c a v = Float4.cmp c a v := by
    intro a v
    have hn : ∀ b : Bool, ~~~(mask b) = mask (!b) := by decide
    cases k <;> cases c <;> simp [F32x4.cmp, Isa.hasSse, Isa.hasNeon, Float4.cmp, V4.map2, V4.map, hn] <;> first | rfl | exact ⟨rfl, rfl, rfl, rfl⟩
  have bs : F32x4.binS k op a n = Float4.binS op a n := by
    cases op <;> simp only [F32x4.binS, b]
    · rfl
    · rfl
    · split <;> rfl
    · rfl
  refine ⟨b .., by cases op <;> simp only [F32x4.asg, b] <;> rfl, bs, ?_, ?_, ?_, rfl, cm .., ?_, ?_⟩
  · have : F32x4.asgS k op a n = F32x4.binS k op a n := by cases op <;> rfl
    rw [this, bs]; cases op <;> rfl
  · cases op <;> simp only [F32x4.binL, b]
    · rfl
    · rfl
    · split
      · show V4.map _ v = V4.map2 _ _ _
        simp only [V4.map, V4.map2, V4.splat]
        rw [fmul_comm v.x, fmul_comm v.y, fmul_comm v.z, fmul_comm v.w]; rfl
      · rfl
    · rfl
  · cases k <;> rfl
  · simp only [F32x4.cmpS, cm]; cases c <;> rfl
  · simp only [F32x4.cmpL, cm]; cases c <;> rfl

theorem getTrues_all (a b c d : Bool) :
    Sse.getTrues ⟨mask a, mask b, mask c, mask d⟩ = 0b1111 ↔ (a && b && c && d) = true := by
  revert a b c d; decide

/-- `==` and `!=` of `f32x4` are those of `float4` on every instruction set. -/
theorem f32x4_equality (k : Isa) (a v : V4 F32) (n : F32) :
    F32x4.eq k a v = Float4.eq a v ∧ F32x4.ne k a v = Float4.ne a v ∧ F32x4.eqS k a n = Float4.eqS a n ∧
    F32x4.neS k a n = Float4.neS a n ∧ F32x4.eqL k n v = Float4.eqL n v ∧ F32x4.neL k n v = Float4.neL n v := by
  have key : ∀ a v, F32x4.eq k a v = Float4.eq a v ∧ F32x4.ne k a v = Float4.ne a v := by
    intro a v
    have h : Float4.eq a v = (eqb a.x v.x && eqb a.y v.y && eqb a.z v.z && eqb a.w v.w) := rfl
    rw [(float4_eq a v n).2.1]
    simp only [F32x4.eq, F32x4.ne, V4.map2]
    constructor
    · split
      · rw [Bool.eq_iff_iff, beq_iff_eq, getTrues_all, h]
      · split
        · rw [Bool.eq_iff_iff, beq_iff_eq, vminv_all, h]
        · rfl
    · split
      · rw [Bool.eq_iff_iff, bne_iff_ne, ne_eq, getTrues_all, h, Bool.not_eq_true, Bool.not_eq_true']
      · split
        · rw [Bool.eq_iff_iff, beq_iff_eq, vminv_none, h, Bool.not_eq_true, Bool.not_eq_true']
        · exact (float4_eq a v n).2.1
  exact ⟨(key a v).1, (key a v).2, (key a _).1, (key a _).2, (key _ v).1, (key _ v).2⟩

/-- A vector with a NaN lane is different from itself. -/
theorem float_eq_irreflexive : Float3.eq (⟨nan, zero false, zero false⟩ : V3 F32) ⟨nan, zero false, zero false⟩ = false ∧
    Float3.eq (⟨zero true, zero false, zero false⟩ : V3 F32) ⟨zero false, zero false, zero false⟩ = true := by
  decide +kernel

/-- 1.0, 2.0 and 3.0 are finite, the sums are in range, and `(1,2,3) * 2 = (2,4,6)`. -/
example : Float3.binS .mul (⟨⟨0x3F800000⟩, ⟨0x40000000⟩, ⟨0x40400000⟩⟩ : V3 F32) ⟨0x40000000⟩ =
    ⟨⟨0x40000000⟩, ⟨0x40800000⟩, ⟨0x40C00000⟩⟩ := by decide +kernel
example : (F32.mk 0x3F800000).isFinite ∧ (F32.mk 0x40000000).toRat = 2 := by
  constructor
  · decide +kernel
  · unfold F32.toRat; rw [show (F32.mk 0x40000000).units = 2 ^ 150 by decide +kernel]; norm_num

end Verif
