import Verif.Props.FloatElem
import Verif.Props.SimdSinCos

/-!
# C92, C94, C95: `repeat`, `lerp`, `fma`, `abs`, `sqrt`, `sign` and `signBits` on binary32
-/

namespace Verif
open F32 Spec

namespace Elem

theorem rounded_three {W : ℝ} (hW : 0 ≤ W) : rounded 3 W 2 ≤ 4 / 2 ^ 24 * W + 1 / 2 ^ 148 := by
  unfold rounded uro
  have h1 : ((1 + 1 / 2 ^ 24) ^ 3 - 1 : ℝ) ≤ 4 / 2 ^ 24 := by norm_num
  have h2 : ((2 : ℕ) * (1 + 1 / 2 ^ 24) ^ 3 / 2 ^ 150 : ℝ) ≤ 1 / 2 ^ 148 := by norm_num
  have := mul_le_mul_of_nonneg_right h1 hW
  linarith

theorem vlerp1_near {a b t : F32} (ha : a.isFinite = true) (hb : b.isFinite = true) (ht : t.isFinite = true)
    (h1 : |1 - t.val| ≤ 2 ^ 126) (hW : |a.val| * |1 - t.val| + |b.val| * |t.val| ≤ 2 ^ 126) : LerpNear a b t (vlerp1 a b t) := by
  have p1 : 0 ≤ |a.val| * |1 - t.val| := by positivity
  have p2 : 0 ≤ |b.val| * |t.val| := by positivity
  have hu := Err.diff c1_fin ht (by rw [c1_val]; exact h1)
  rw [c1_val] at hu
  have hm := (Err.self ha).mul hu (by linarith) (by norm_num)
  have hn := (Err.prod hb ht (by linarith)).mono (k' := 2) (by norm_num) le_rfl le_rfl
  have hs := hm.add hn hW (by norm_num) (by norm_num)
  exact ⟨hs.1, hs.2.2.trans (rounded_three (add_nonneg p1 p2))⟩

theorem lerp1_near {a b t : F32} (ha : a.isFinite = true) (hb : b.isFinite = true) (ht : t.isFinite = true)
    (h1 : |b.val - a.val| ≤ 2 ^ 126) (hW : |a.val| + |t.val| * |b.val - a.val| ≤ 2 ^ 126) : LerpNear1 a b t (lerp1 a b t) := by
  have p1 : 0 ≤ |a.val| := by positivity
  have p2 : 0 ≤ |t.val| * |b.val - a.val| := by positivity
  have hm := (Err.self ht).mul (Err.diff hb ha h1) (by linarith) (by norm_num)
  have hs := ((Err.self ha).mono (k' := 2) (m' := 1) (by norm_num) (by norm_num) le_rfl).add hm hW (by norm_num) (by norm_num)
  exact ⟨hs.1, hs.2.2.trans (rounded_three (add_nonneg p1 p2))⟩

/-- Interpolation with an exact weight pair `1`, `0`. -/
theorem vlerp1_ends {a b t : F32} (ha : a.isFinite = true) (hb : b.isFinite = true) (ht : t.isFinite = true) :
    (t.val = 0 → (vlerp1 a b t).isFinite = true ∧ (vlerp1 a b t).val = a.val) ∧
    (t.val = 1 → (vlerp1 a b t).isFinite = true ∧ (vlerp1 a b t).val = b.val) := by
  constructor <;> intro h
  · have u := fsub_exact c1_fin ht c1_fin (by rw [c1_val, h]; norm_num)
    have ue : (fsub c1 t).val = 1 := by rw [u.eq, c1_val, h]; norm_num
    have m := fmul_exact ha u.1 ha (by rw [ue, mul_one])
    have n := fmul_exact hb ht c0_fin (by rw [c0_val, h, mul_zero])
    have s := fadd_exact m.1 n.1 ha (by rw [m.eq, n.eq, ue, h]; ring)
    exact ⟨s.1, by unfold vlerp1; rw [s.eq, m.eq, n.eq, ue, h]; ring⟩
  · have u := fsub_exact c1_fin ht c0_fin (by rw [c1_val, c0_val, h]; norm_num)
    have ue : (fsub c1 t).val = 0 := by rw [u.eq, c1_val, h]; norm_num
    have m := fmul_exact ha u.1 c0_fin (by rw [ue, mul_zero, c0_val])
    have n := fmul_exact hb ht hb (by rw [h, mul_one])
    have s := fadd_exact m.1 n.1 hb (by rw [m.eq, n.eq, ue, h]; ring)
    exact ⟨s.1, by unfold vlerp1; rw [s.eq, m.eq, n.eq, ue, h]; ring⟩

theorem lerp1_start {a b t : F32} (ha : a.isFinite = true) (hb : b.isFinite = true) (ht : t.isFinite = true) (h : t.val = 0)
    (h1 : |b.val - a.val| ≤ 2 ^ 126) : (lerp1 a b t).isFinite = true ∧ (lerp1 a b t).val = a.val := by
  have u := (Err.diff hb ha h1).1
  have n := fmul_exact ht u c0_fin (by rw [c0_val, h, zero_mul])
  have s := fadd_exact ha n.1 ha (by rw [n.eq, h]; ring)
  exact ⟨s.1, by unfold lerp1; rw [s.eq, n.eq, h]; ring⟩

end Elem

/-- `repeat` of `-1`, and of every small enough negative number, is `1` and not in the half-open interval: on the scalar, on the
vectors and on every instruction set. -/
theorem repeat_one_counterexample (k : Isa) :
    repeat1 ⟨0xBF800000⟩ = ⟨0x3F800000⟩ ∧ repeat1 ⟨0xB0800000⟩ = ⟨0x3F800000⟩ ∧
    F32x4.repeat' k (V4.splat ⟨0xBF800000⟩) = V4.splat ⟨0x3F800000⟩ ∧ F32x4.repeat' k (V4.splat ⟨0xB0800000⟩) = V4.splat ⟨0x3F800000⟩ := by
  have h1 : Elem.srep1 ⟨0xBF800000⟩ = ⟨0x3F800000⟩ := by decide +kernel
  have h2 : Elem.srep1 ⟨0xB0800000⟩ = ⟨0x3F800000⟩ := by decide +kernel
  refine ⟨by decide +kernel, by decide +kernel, ?_, ?_⟩
  · rw [Elem.repeat_lanes]; exact congrArg V4.splat h1
  · rw [Elem.repeat_lanes]; exact congrArg V4.splat h2

/-- The hypotheses of `repeat_ok` hold of ordinary numbers of both signs: `2.75` goes to `0.75` and `-0.25` to `0.75`. -/
example : repeat1 ⟨0x40300000⟩ = ⟨0x3F400000⟩ ∧ repeat1 ⟨0xBE800000⟩ = ⟨0x3F400000⟩ := ⟨by decide +kernel, by decide +kernel⟩

/-- **C94** (vectors and SIMD): interpolation is accurate to four roundings of the two weighted terms. -/
theorem lerp_near (k : Isa) (p q : V2 F32) (u v : V3 F32) (a b : V4 F32) (t : F32) (ht : t.isFinite) (h1 : |1 - rv t| ≤ 2 ^ 126) :
    (∀ i, (p.get i).isFinite → (q.get i).isFinite → |rv (p.get i)| * |1 - rv t| + |rv (q.get i)| * |rv t| ≤ 2 ^ 126 →
      LerpNear (p.get i) (q.get i) t ((Float2.lerp p q t).get i)) ∧
    (∀ i, (u.get i).isFinite → (v.get i).isFinite → |rv (u.get i)| * |1 - rv t| + |rv (v.get i)| * |rv t| ≤ 2 ^ 126 →
      LerpNear (u.get i) (v.get i) t ((Float3.lerp u v t).get i)) ∧
    (∀ i, (a.get i).isFinite → (b.get i).isFinite → |rv (a.get i)| * |1 - rv t| + |rv (b.get i)| * |rv t| ≤ 2 ^ 126 →
      LerpNear (a.get i) (b.get i) t ((Float4.lerp a b t).get i) ∧ LerpNear (a.get i) (b.get i) t ((F32x4.lerp k a b t).get i)) := by
  refine ⟨fun i ha hb hW => ?_, fun i ha hb hW => ?_, fun i ha hb hW => ?_⟩
  · have := Elem.vlerp1_near ha hb ht h1 hW
    fin_cases i <;> exact this
  · have := Elem.vlerp1_near ha hb ht h1 hW
    fin_cases i <;> exact this
  · have := Elem.vlerp1_near ha hb ht h1 hW
    rw [(Elem.lerp_lanes k a b t).1, (Elem.lerp_lanes k a b t).2]
    fin_cases i <;> exact ⟨this, this⟩

/-- **C94** (vectors and SIMD): at `t = 0` and `t = 1` the end points come back exactly. -/
theorem lerp_ends (k : Isa) (p q : V2 F32) (u v : V3 F32) (a b : V4 F32) (t : F32) (ht : t.isFinite) :
    (∀ i, (p.get i).isFinite → (q.get i).isFinite →
      (rv t = 0 → Near ((Float2.lerp p q t).get i) (rv (p.get i)) 0) ∧ (rv t = 1 → Near ((Float2.lerp p q t).get i) (rv (q.get i)) 0)) ∧
    (∀ i, (u.get i).isFinite → (v.get i).isFinite →
      (rv t = 0 → Near ((Float3.lerp u v t).get i) (rv (u.get i)) 0) ∧ (rv t = 1 → Near ((Float3.lerp u v t).get i) (rv (v.get i)) 0)) ∧
    (∀ i, (a.get i).isFinite → (b.get i).isFinite →
      (rv t = 0 → Near ((Float4.lerp a b t).get i) (rv (a.get i)) 0 ∧ Near ((F32x4.lerp k a b t).get i) (rv (a.get i)) 0) ∧
      (rv t = 1 → Near ((Float4.lerp a b t).get i) (rv (b.get i)) 0 ∧ Near ((F32x4.lerp k a b t).get i) (rv (b.get i)) 0)) := by
  have key {a b : F32} (ha : a.isFinite = true) (hb : b.isFinite = true) :
      (rv t = 0 → Near (Elem.vlerp1 a b t) (rv a) 0) ∧ (rv t = 1 → Near (Elem.vlerp1 a b t) (rv b) 0) := by
    obtain ⟨h1, h2⟩ := Elem.vlerp1_ends ha hb ht
    refine ⟨fun h => ⟨(h1 h).1, ?_⟩, fun h => ⟨(h2 h).1, ?_⟩⟩
    · simp only [Elem.rv_val]; rw [(h1 h).2]; simp
    · simp only [Elem.rv_val]; rw [(h2 h).2]; simp
  refine ⟨fun i ha hb => ?_, fun i ha hb => ?_, fun i ha hb => ?_⟩
  · have := key ha hb
    fin_cases i <;> exact this
  · have := key ha hb
    fin_cases i <;> exact this
  · obtain ⟨h1, h2⟩ := key ha hb
    rw [(Elem.lerp_lanes k a b t).1, (Elem.lerp_lanes k a b t).2]
    fin_cases i <;> exact ⟨fun h => ⟨h1 h, h1 h⟩, fun h => ⟨h2 h, h2 h⟩⟩

/-- **C94** (scalar), partial: accurate to four roundings of `|a| + |t| |b - a|`, and exact at `t = 0`. Missing: the end `t = 1`,
which is lost when `a` is much larger than `b`. -/
theorem scalar_lerp_partial (a b t : F32) (ha : a.isFinite) (hb : b.isFinite) (ht : t.isFinite) (h1 : |rv b - rv a| ≤ 2 ^ 126) :
    (|rv a| + |rv t| * |rv b - rv a| ≤ 2 ^ 126 → LerpNear1 a b t (lerp1 a b t)) ∧ (rv t = 0 → Near (lerp1 a b t) (rv a) 0) := by
  refine ⟨Elem.lerp1_near ha hb ht h1, fun h => ?_⟩
  obtain ⟨h2, h3⟩ := Elem.lerp1_start ha hb ht h h1
  exact ⟨h2, by simp only [Elem.rv_val]; rw [h3]; simp⟩

/-- `lerp(1e8f, 1.0f, 1.0f)` is zero on the scalar, and one on every vector type. -/
theorem scalar_lerp_end_counterexample (k : Isa) :
    lerp1 ⟨0x4CBEBC20⟩ ⟨0x3F800000⟩ ⟨0x3F800000⟩ = ⟨0⟩ ∧
    F32x4.lerp k (V4.splat ⟨0x4CBEBC20⟩) (V4.splat ⟨0x3F800000⟩) ⟨0x3F800000⟩ = V4.splat ⟨0x3F800000⟩ := by
  refine ⟨by decide +kernel, ?_⟩
  rw [(Elem.lerp_lanes k _ _ _).1]
  have : Elem.vlerp1 ⟨0x4CBEBC20⟩ ⟨0x3F800000⟩ ⟨0x3F800000⟩ = ⟨0x3F800000⟩ := by decide +kernel
  exact congrArg V4.splat this

/-- The hypotheses hold of an ordinary interpolation from `1` to `3` at `0.25`. -/
example : Elem.vlerp1 ⟨0x3F800000⟩ ⟨0x40400000⟩ ⟨0x3E800000⟩ = ⟨0x3FC00000⟩ := by decide +kernel

/-! ## C95 -/

namespace Elem

theorem sign_bits (x : F32) : (⟨(x.bits &&& cm1.bits) ||| c1.bits⟩ : F32) = sign1 x := by
  have h : (x.bits &&& cm1.bits) ||| c1.bits = if x.bits.msb then cm1.bits else c1.bits := by
    rw [BitVec.msb_eq_getLsbD_last]
    apply BitVec.eq_of_getLsbD_eq
    intro i hi
    rw [BitVec.getLsbD_or, BitVec.getLsbD_and]
    by_cases h31 : i = 31
    · subst h31; cases x.bits.getLsbD 31 <;> decide
    · have : ∀ j : Fin 32, j.val ≠ 31 → (cm1.bits.getLsbD j = c1.bits.getLsbD j) := by decide
      have hj := this ⟨i, hi⟩ h31
      simp only at hj
      rw [hj]
      split <;> simp [hj]
  rw [h]; unfold sign1; rw [show x.signBit = x.bits.msb from rfl]; split <;> rfl

theorem shr31 (x : W) : x >>> 31 = if x.msb then 1#32 else 0#32 := by
  rw [BitVec.msb_eq_getLsbD_last]
  apply BitVec.eq_of_getLsbD_eq
  intro i hi
  rw [BitVec.getLsbD_ushiftRight]
  rcases Nat.eq_zero_or_pos i with h0 | h0
  · subst h0; cases h : x.getLsbD 31 <;> simp [h]
  · rw [BitVec.getLsbD_of_ge _ _ (by omega)]
    split
    · rw [BitVec.getLsbD_one]; simp; omega
    · simp

theorem cm1_val : cm1.isFinite = true ∧ cm1.val = -1 := by
  refine ⟨by decide, ?_⟩
  have := F32x4.fneg_val c1
  rw [c1_val] at this
  rw [← this]; rfl

theorem sign1_ok (x : F32) : SignOk x (sign1 x) := by
  unfold SignOk sign1
  cases x.signBit
  · exact ⟨c1_fin, c1_val⟩
  · exact ⟨cm1_val.1, cm1_val.2⟩

theorem fabs_ok (x : F32) : AbsOk x (fabs x) := by
  obtain ⟨hm, hs⟩ := fabs_parts x
  exact ⟨hs, hm, fun h => F32x4.fabs_val x h, by unfold isNaN; rw [hm]⟩

theorem fsqrt_ok (x : F32) : SqrtOk x (fsqrt x) := by
  refine ⟨fun h h0 => ?_, fun h h0 => ?_, fun h => ?_, fun h => ?_⟩
  · have := fsqrt_nearest h (by have : (0 : ℝ) ≤ ((x.toRat : Rat) : ℝ) := h0
                                exact_mod_cast this)
    exact this
  · have hs : x.signBit = true := by
      by_contra hc
      have := val_nonneg (Bool.eq_false_iff.2 hc)
      rw [rv_val] at h0; linarith
    have hm : x.mag ≠ 0 := fun hc => by rw [(rv_zero_iff x).2 hc] at h0; exact lt_irrefl _ h0
    unfold fsqrt
    rw [if_neg (by simp [finite_not_nan h]), if_neg hm, if_pos hs]; decide
  · unfold fsqrt; rw [if_pos h]; decide
  · subst h; decide

theorem ffma_ok (a b c : F32) : FmaOk a b c (ffma a b c) := by
  intro ha hb hc h
  have e : rv a * rv b + rv c = ((a.toRat * b.toRat + c.toRat : Rat) : ℝ) := by unfold rv; push_cast; rfl
  rw [e] at h ⊢
  refine ffma_nearest ha hb hc ?_
  have h2 : ((|a.toRat * b.toRat + c.toRat| : Rat) : ℝ) ≤ ((maxRat : Rat) : ℝ) := by rw [Rat.cast_abs]; exact h.trans maxRat_big
  exact_mod_cast h2

theorem rounded_two {W : ℝ} : rounded 2 W 1 ≤ ((1 + 1 / 2 ^ 24) ^ 2 - 1) * W + 1 / 2 ^ 149 := by
  unfold rounded uro
  have h2 : ((1 : ℕ) * (1 + 1 / 2 ^ 24) ^ 2 / 2 ^ 150 : ℝ) ≤ 1 / 2 ^ 149 := by norm_num
  linarith

theorem ffma_near (a b c : F32) : FmaNear a b c (ffma a b c) := by
  intro ha hb hc h
  have := ((Err.self hc).fused ha hb h (by norm_num) (by norm_num)).mono (k' := 2) (by norm_num) le_rfl le_rfl
  exact ⟨this.1, this.2.2.trans rounded_two⟩

theorem muladd_near (a b c : F32) : FmaNear a b c (fadd c (fmul a b)) := by
  intro ha hb hc h
  have p : 0 ≤ |c.val| := abs_nonneg _
  have h' : |a.val| * |b.val| + |c.val| ≤ 2 ^ 126 := h
  have := ((Err.self hc).mono (k' := 1) (by norm_num) le_rfl le_rfl).add (Err.prod ha hb (by linarith)) (by linarith) (by norm_num) (by norm_num)
  refine ⟨this.1, ?_⟩
  have h2 := this.2.2.trans rounded_two
  simp only [rv_val]
  rw [add_comm (a.val * b.val), add_comm (|a.val| * |b.val|)]
  exact h2

end Elem

/-- **C95** `sign`, `abs` and `sqrt` of every vector type: each component is the sign, the magnitude and the correctly rounded
root of its component, whatever the instruction set. -/
theorem unary_ok (k : Isa) (a : V2 F32) (b : V3 F32) (c : V4 F32) :
    (∀ i, SignOk (a.get i) ((Float2.sign a).get i) ∧ AbsOk (a.get i) ((Float2.abs a).get i) ∧ SqrtOk (a.get i) ((Float2.sqrt a).get i)) ∧
    (∀ i, SignOk (b.get i) ((Float3.sign b).get i) ∧ AbsOk (b.get i) ((Float3.abs b).get i) ∧ SqrtOk (b.get i) ((Float3.sqrt b).get i)) ∧
    (∀ i, SignOk (c.get i) ((Float4.sign c).get i) ∧ AbsOk (c.get i) ((Float4.abs c).get i) ∧ SqrtOk (c.get i) ((Float4.sqrt c).get i)) ∧
    (∀ i, SignOk (c.get i) ((F32x4.sign k c).get i) ∧ AbsOk (c.get i) ((F32x4.abs k c).get i) ∧
      SqrtOk (c.get i) ((F32x4.sqrt k c).get i)) := by
  have e1 : F32x4.sign k c = Float4.sign c := by
    unfold F32x4.sign; simp only [Elem.sign_bits]; split
    · rfl
    · split <;> rfl
  have e2 : F32x4.abs k c = Float4.abs c := by
    unfold F32x4.abs; split
    · rfl
    · split <;> rfl
  have e3 : F32x4.sqrt k c = Float4.sqrt c := by
    unfold F32x4.sqrt; split
    · rfl
    · split <;> rfl
  rw [e1, e2, e3]
  refine ⟨fun i => ?_, fun i => ?_, fun i => ?_, fun i => ?_⟩ <;> fin_cases i <;>
    exact ⟨Elem.sign1_ok _, Elem.fabs_ok _, Elem.fsqrt_ok _⟩

/-- **C95** `signBits`: bit `i` of the word is the sign bit of component `i`, and there are no other bits. -/
theorem signBits_ok (k : Isa) (a : V2 F32) (b : V3 F32) (c : V4 F32) :
    (∀ i, (Float2.signBits a).getLsbD i = if h : i < 2 then (a.get ⟨i, h⟩).signBit else false) ∧
    (∀ i, (Float3.signBits b).getLsbD i = if h : i < 3 then (b.get ⟨i, h⟩).signBit else false) ∧
    (∀ i, (Float4.signBits c).getLsbD i = if h : i < 4 then (c.get ⟨i, h⟩).signBit else false) ∧
    F32x4.signBits k c = Float4.signBits c := by
  have split4 (i : ℕ) : i = 0 ∨ i = 1 ∨ i = 2 ∨ i = 3 ∨ 4 ≤ i := by omega
  have big {w : W} (h : w.toNat < 16) {i : ℕ} (hi : 4 ≤ i) : w.getLsbD i = false := by
    unfold BitVec.getLsbD
    exact Nat.testBit_lt_two_pow (h.trans_le (by calc 16 = 2 ^ 4 := rfl
                                                    _ ≤ 2 ^ i := Nat.pow_le_pow_right (by norm_num) hi))
  refine ⟨fun i => ?_, fun i => ?_, fun i => ?_, ?_⟩
  · unfold Float2.signBits
    have g0 : a.get 0 = a.x := rfl
    have g1 : a.get 1 = a.y := rfl
    rcases split4 i with rfl | rfl | rfl | rfl | h
    · show _ = (a.x).signBit; cases a.x.signBit <;> cases a.y.signBit <;> decide
    · show _ = (a.y).signBit; cases a.x.signBit <;> cases a.y.signBit <;> decide
    · rw [dif_neg (by omega)]; cases a.x.signBit <;> cases a.y.signBit <;> decide
    · rw [dif_neg (by omega)]; cases a.x.signBit <;> cases a.y.signBit <;> decide
    · rw [dif_neg (by omega), big _ h]; cases a.x.signBit <;> cases a.y.signBit <;> decide
  · unfold Float3.signBits
    rcases split4 i with rfl | rfl | rfl | rfl | h
    · show _ = (b.x).signBit; cases b.x.signBit <;> cases b.y.signBit <;> cases b.z.signBit <;> decide
    · show _ = (b.y).signBit; cases b.x.signBit <;> cases b.y.signBit <;> cases b.z.signBit <;> decide
    · show _ = (b.z).signBit; cases b.x.signBit <;> cases b.y.signBit <;> cases b.z.signBit <;> decide
    · rw [dif_neg (by omega)]; cases b.x.signBit <;> cases b.y.signBit <;> cases b.z.signBit <;> decide
    · rw [dif_neg (by omega), big _ h]; cases b.x.signBit <;> cases b.y.signBit <;> cases b.z.signBit <;> decide
  · unfold Float4.signBits
    rcases split4 i with rfl | rfl | rfl | rfl | h
    · show _ = (c.x).signBit; cases c.x.signBit <;> cases c.y.signBit <;> cases c.z.signBit <;> cases c.w.signBit <;> decide
    · show _ = (c.y).signBit; cases c.x.signBit <;> cases c.y.signBit <;> cases c.z.signBit <;> cases c.w.signBit <;> decide
    · show _ = (c.z).signBit; cases c.x.signBit <;> cases c.y.signBit <;> cases c.z.signBit <;> cases c.w.signBit <;> decide
    · show _ = (c.w).signBit; cases c.x.signBit <;> cases c.y.signBit <;> cases c.z.signBit <;> cases c.w.signBit <;> decide
    · rw [dif_neg (by omega), big _ h]
      cases c.x.signBit <;> cases c.y.signBit <;> cases c.z.signBit <;> cases c.w.signBit <;> decide
  · unfold F32x4.signBits Float4.signBits
    simp only [Elem.shr31, show ∀ y : F32, y.signBit = y.bits.msb from fun y => by unfold signBit; rw [BitVec.msb_eq_getLsbD_last]]
    split
    · cases c.x.bits.msb <;> cases c.y.bits.msb <;> cases c.z.bits.msb <;> cases c.w.bits.msb <;> decide
    · split
      · cases c.x.bits.msb <;> cases c.y.bits.msb <;> cases c.z.bits.msb <;> cases c.w.bits.msb <;> decide
      · rfl

/-- **C95** `fma`: rounded once on the vectors, and on `f32x4` with AVX2, with a fused NEON and in the fallback; within two
roundings everywhere. -/
theorem fma_partial (k : Isa) (fused : Bool) (a a' a'' : V2 F32) (b b' b'' : V3 F32) (c c' c'' : V4 F32) :
    (∀ i, FmaOk (a.get i) (a'.get i) (a''.get i) ((Float2.fma a a' a'').get i)) ∧
    (∀ i, FmaOk (b.get i) (b'.get i) (b''.get i) ((Float3.fma b b' b'').get i)) ∧
    (∀ i, FmaOk (c.get i) (c'.get i) (c''.get i) ((Float4.fma c c' c'').get i)) ∧
    (∀ i, (k.hasSse → k.hasAvx2) → (k.hasNeon → fused) → FmaOk (c.get i) (c'.get i) (c''.get i) ((F32x4.fma k fused c c' c'').get i)) ∧
    (∀ i, FmaNear (c.get i) (c'.get i) (c''.get i) ((F32x4.fma k fused c c' c'').get i)) := by
  refine ⟨fun i => ?_, fun i => ?_, fun i => ?_, fun i h1 h2 => ?_, fun i => ?_⟩
  · fin_cases i <;> exact Elem.ffma_ok _ _ _
  · fin_cases i <;> exact Elem.ffma_ok _ _ _
  · fin_cases i <;> exact Elem.ffma_ok _ _ _
  · unfold F32x4.fma
    split
    · fin_cases i <;> exact Elem.ffma_ok _ _ _
    · rename_i h; rw [if_neg (fun hc => h (h1 hc))]
      split
      · rename_i hn; rw [if_pos (h2 hn)]; fin_cases i <;> exact Elem.ffma_ok _ _ _
      · fin_cases i <;> exact Elem.ffma_ok _ _ _
  · unfold F32x4.fma
    split
    · fin_cases i <;> exact Elem.ffma_near _ _ _
    · split
      · fin_cases i <;> exact Elem.muladd_near _ _ _
      · split
        · split
          · fin_cases i <;> exact Elem.ffma_near _ _ _
          · fin_cases i <;> exact Elem.muladd_near _ _ _
        · fin_cases i <;> exact Elem.ffma_near _ _ _

/-- With SSE but no AVX2 the multiplication is rounded on its own: `(1 + 2^-12)² - (1 + 2^-11)` is `0` instead of `2^-24`, which
`float4` returns. -/
theorem fma_counterexample (fused : Bool) :
    F32x4.fma .sse41 fused (V4.splat ⟨0x3F800800⟩) (V4.splat ⟨0x3F800800⟩) (V4.splat ⟨0xBF801000⟩) = V4.splat ⟨0⟩ ∧
    Float4.fma (V4.splat ⟨0x3F800800⟩) (V4.splat ⟨0x3F800800⟩) (V4.splat ⟨0xBF801000⟩) = V4.splat ⟨0x33800000⟩ := by
  constructor
  · have : fadd ⟨0xBF801000⟩ (fmul ⟨0x3F800800⟩ ⟨0x3F800800⟩) = ⟨0⟩ := by decide +kernel
    exact congrArg V4.splat this
  · have : ffma ⟨0x3F800800⟩ ⟨0x3F800800⟩ ⟨0xBF801000⟩ = ⟨0x33800000⟩ := by decide +kernel
    exact congrArg V4.splat this

end Verif
