import Verif.Model.MatBackends
import Verif.Props.FloatOps
import Verif.Props.MatAlgebra
import Verif.Props.MatShape
import Verif.Spec.Entry

/-!
# C107: SIMD matrix functions on every instruction set

Binary32 results are compared bit for bit. `FTarget` names an instruction set and whether its multiply-add is fused.
-/

namespace Verif
open F32 Spec

/-- Addition does not depend on the order of its operands, bit for bit. -/
theorem fadd_comm (a b : F32) : fadd a b = fadd b a := by
  have hinf : ∀ x y : F32, x.isInf = true → y.isInf = true → x.signBit = y.signBit → x = y := by
    intro x y hx hy hs
    unfold isInf mag at hx hy
    unfold signBit at hs
    simp only [decide_eq_true_eq] at hx hy
    have e : x.bits.toNat = y.bits.toNat := by
      have h1 := x.bits.isLt
      have h2 := y.bits.isLt
      have t1 : x.bits.getLsbD 31 = decide (2 ^ 31 ≤ x.bits.toNat) := by
        rw [← BitVec.msb_eq_getLsbD_last x.bits, BitVec.msb_eq_decide]
      have t2 : y.bits.getLsbD 31 = decide (2 ^ 31 ≤ y.bits.toNat) := by
        rw [← BitVec.msb_eq_getLsbD_last y.bits, BitVec.msb_eq_decide]
      rw [t1, t2, decide_eq_decide] at hs
      omega
    cases x; cases y
    exact congrArg F32.mk (BitVec.eq_of_toNat_eq e)
  unfold fadd
  rw [Bool.or_comm b.isNaN a.isNaN, add_comm b.units a.units, Bool.and_comm b.signBit a.signBit]
  split_ifs with h1 h2 h3 h4 h5 h6 h7 h8 h9 <;> first | rfl | skip
  all_goals simp_all
  all_goals exact hinf _ _ (by assumption) (by assumption) (by assumption)

namespace Simd
open F32x4 (fma1)

section Real
private theorem madd_real : (madd : ℝ → ℝ → ℝ → ℝ) = Flt.fma := by
  funext a b c
  change c + a * b = a * b + c
  ring

/-- The parametric SSE inverse with the generic multiply-add is the one of `Verif.Model.Mat`. -/
theorem inverse4x4Sse_fma {F : Type} [Flt F] (m : M4 F) : inverse4x4Sse Flt.fma m = inverse4x4 m := rfl
/-- The NEON shuffles move the same lanes as the SSE ones. -/
theorem inverseCols_neon {F : Type} [Flt F] (fm : F → F → F → F) (m : M4 F) :
    inverseColsNeon fm m = inverseColsSse fm m := rfl

private theorem transpose3x3_neon {F : Type} [Flt F] (m : M4 F) : transpose3x3Neon m = transpose3x3 m := rfl
private theorem transpose3x3_block {F : Type} [Flt F] (m : M4 F) : (transpose3x3 m).to3 = m.to3.transpose := rfl
private theorem transpose3x3_blockPlain {F : Type} (m : M4 F) : (transpose3x3Plain m).to3 = m.to3.transpose := rfl
private theorem multiply3x3Plain_block {F : Type} [Flt F] (a b : M4 F) : (multiply3x3Plain a b).to3 = M3.mul a.to3 b.to3 := rfl
private theorem div_splat {F : Type} [Flt F] (d : F) : V4.div (V4.splat (Flt.lit 1)) (V4.splat d) = V4.splat (Flt.lit 1 /. d) := rfl
private theorem det_sse {F : Type} [Flt F] (a b : V4 F) : inverseDet a b =
    ((V4.mul a b).w +. (V4.mul a b).z) +. ((V4.mul a b).y +. (V4.mul a b).x) := rfl

/-- Without rounding `inverse4x4` is the same function on SSE, AVX2, NEON and without SIMD. -/
theorem inverse4x4_real (m : M4 ℝ) :
    inverse4x4Sse Flt.fma m = inverse4x4Plain m ∧ inverse4x4Sse madd m = inverse4x4Plain m ∧
    inverse4x4Neon Flt.fma m = inverse4x4Plain m ∧ inverse4x4Neon madd m = inverse4x4Plain m := by
  have h1 : inverse4x4Sse Flt.fma m = inverse4x4Plain m := by
    rw [inverse4x4Sse_fma, inverse4x4Plain]
    exact simd_inverse_eq m
  have h2 : inverse4x4Neon Flt.fma m = inverse4x4Sse Flt.fma m := by
    unfold inverse4x4Neon inverse4x4Sse
    rw [inverseCols_neon]
    generalize inverseColsSse Flt.fma m = p
    have e : ∀ p : V4 ℝ × M4 ℝ,
        ((V4.mul p.1 p.2.c0).x +. (V4.mul p.1 p.2.c0).y) +. ((V4.mul p.1 p.2.c0).z +. (V4.mul p.1 p.2.c0).w)
          = inverseDet p.1 p.2.c0 := by
      intro p
      simp only [inverseDet, shuffle, V4.get, V4.mul, V4.add, V4.map2, Flt.real_add, Flt.real_mul]
      ring
    simp only [e, div_splat]
  rw [madd_real]
  exact ⟨h1, h1, h2.trans h1, h2.trans h1⟩
end Real

/-- `inverse4x4` gives the same bits on SSE and on NEON with the same kind of multiply-add. -/
theorem inverse4x4_bits (fused : Bool) (m : M4 F32) :
    inverse4x4Neon (fma1 (.neon fused)) m = inverse4x4Sse (fma1 (.sse fused)) m := by
  have ht : fma1 (.neon fused) = fma1 (.sse fused) := by cases fused <;> rfl
  rw [ht]
  unfold inverse4x4Neon inverse4x4Sse
  rw [inverseCols_neon]
  generalize inverseColsSse (fma1 (.sse fused)) m = p
  have e : ∀ p : V4 F32 × M4 F32,
      ((V4.mul p.1 p.2.c0).x +. (V4.mul p.1 p.2.c0).y) +. ((V4.mul p.1 p.2.c0).z +. (V4.mul p.1 p.2.c0).w)
        = inverseDet p.1 p.2.c0 := by
    intro p
    rw [det_sse]
    change fadd (fadd _ _) (fadd _ _) = fadd (fadd _ _) (fadd _ _)
    rw [fadd_comm, fadd_comm (V4.mul p.1 p.2.c0).z, fadd_comm (V4.mul p.1 p.2.c0).x]
  simp only [e, div_splat]

/-- `transpose4x4` is the transpose on every instruction set, for any component type. -/
theorem transpose4x4_bits {F : Type} (m : M4 F) (r c : Fin 4) :
    el4 (transpose4x4 m) r c = el4 m c r ∧ el4 (transpose4x4Neon m) r c = el4 m c r ∧
    el4 (transpose4x4Plain m) r c = el4 m c r := by
  have h1 : transpose4x4 m = m.transpose := rfl
  have h2 : transpose4x4Neon m = m.transpose := rfl
  have h3 : transpose4x4Plain m = m.transpose := rfl
  have h : el4 m.transpose r c = el4 m c r := by
    unfold M4.transpose M4.ofRows el4
    dsimp only
    generalize m.c0 = c0, m.c1 = c1, m.c2 = c2, m.c3 = c3
    fin_cases r <;> fin_cases c <;> simp
  rw [h1, h2, h3]
  exact ⟨h, h, h⟩

/-- The operators `m * v`, `a * b` and `multiply3x3(m, v)`, `multiply3x3(a, b)`, `transpose3x3` give the same bits on SSE
and on NEON with the same kind of multiply-add. -/
theorem products_sse_neon (fused : Bool) (a b : M4 F32) (v : V4 F32) :
    mulVWith (fma1 (.neon fused)) a v = mulVWith (fma1 (.sse fused)) a v ∧
    mulMWith (fma1 (.neon fused)) a b = mulMWith (fma1 (.sse fused)) a b ∧
    multiply3x3VWith (fma1 (.neon fused)) a v = multiply3x3VWith (fma1 (.sse fused)) a v ∧
    multiply3x3With (fma1 (.neon fused)) a b = multiply3x3With (fma1 (.sse fused)) a b ∧
    transpose3x3Neon a = transpose3x3 a := by
  have ht : fma1 (.neon fused) = fma1 (.sse fused) := by cases fused <;> rfl
  rw [ht]
  exact ⟨rfl, rfl, rfl, rfl, transpose3x3_neon a⟩

/-- The parametric products are those of `Verif.Model.MatTargets` on every target. -/
theorem products_targets (t : FTarget) (a b : M4 F32) (v : V4 F32) :
    mulVWith (fma1 t) a v = F32x4.mulV t a v ∧ mulMWith (fma1 t) a b = F32x4.mulM t a b ∧
    multiply3x3VWith (fma1 t) a v = F32x4.multiply3x3V t a v := ⟨rfl, rfl, rfl⟩

private theorem fma1_unfused (t : FTarget) (h : t = .sse false ∨ t = .neon false) (a b c : F32) :
    fma1 t a b c = fadd (fmul a b) c := by
  rw [fadd_comm]
  rcases h with rfl | rfl <;> rfl

/-- Without a fused multiply-add, `m * v`, `a * b` and `multiply3x3(m, v)` give on SSE and NEON the bits that the
configuration without SIMD gives. -/
theorem products_unfused (t : FTarget) (h : t = .sse false ∨ t = .neon false) (a b : M4 F32) (v : V4 F32) :
    mulVWith (fma1 t) a v = M4.mulV a v ∧ mulMWith (fma1 t) a b = M4.mul a b ∧
    multiply3x3VWith (fma1 t) a v = multiply3x3VPlain a v := by
  have hv : ∀ v : V4 F32, mulVWith (fma1 t) a v = M4.mulV a v := by
    intro v
    simp only [mulVWith, V4.map3, V4.mul, V4.map2, V4.splat, M4.mulV]
    simp only [fma1_unfused t h]
    change V4.mk _ _ _ _ = V4.mk (fadd (fadd (fadd _ _) _) _) (fadd (fadd (fadd _ _) _) _) (fadd (fadd (fadd _ _) _) _)
      (fadd (fadd (fadd _ _) _) _)
    congr 1 <;> rw [fadd_comm] <;> congr 1 <;> rw [fadd_comm] <;> congr 1 <;> rw [fadd_comm] <;> rfl
  refine ⟨hv v, ?_, ?_⟩
  · simp only [mulMWith, hv]
    rfl
  · simp only [multiply3x3VWith, col3x3With, V4.map3, V4.mul, V4.map2, V4.splat, multiply3x3VPlain, M3.mulV, M4.to3, V4.xyz]
    simp only [fma1_unfused t h]
    have e : ∀ a b c d e f : F32, fadd (fmul a b) (fadd (fmul c d) (fmul e f)) = (e *. f +. c *. d) +. a *. b := by
      intro a b c d e f
      rw [fadd_comm (fmul c d), fadd_comm]
      rfl
    simp only [V4.swizzle, V4.get]
    congr 1 <;> apply e

/-- The part of C107 about `multiply3x3(a, b)` and `transpose3x3` that holds: the block of the first three rows and columns
is the same with and without SIMD. -/
theorem block3x3_unfused_partial (t : FTarget) (h : t = .sse false ∨ t = .neon false) (a b : M4 F32) (r c : Fin 3) :
    el4 (multiply3x3With (fma1 t) a b) r.castSucc c.castSucc = el4 (multiply3x3Plain a b) r.castSucc c.castSucc ∧
    el4 (transpose3x3 a) r.castSucc c.castSucc = el4 (transpose3x3Plain a) r.castSucc c.castSucc ∧
    el4 (transpose3x3Plain a) r.castSucc c.castSucc = el4 a c.castSucc r.castSucc := by
  have hb : ∀ m : M4 F32, el4 m r.castSucc c.castSucc = el3 m.to3 r c := fun m =>
    ((matShape_narrow m m.to43 m.to3).2.1 r c).symm
  have e : ∀ a b c d e f : F32, fadd (fmul a b) (fadd (fmul c d) (fmul e f)) = fadd (fadd (fmul e f) (fmul c d)) (fmul a b) := by
    intro a b c d e f
    rw [fadd_comm (fmul c d), fadd_comm]
  have h1 : (multiply3x3With (fma1 t) a b).to3 = (multiply3x3Plain a b).to3 := by
    have hc : ∀ v : V4 F32, (col3x3With (fma1 t) a v).xyz = M3.col a.to3 v.xyz := by
      intro v
      simp only [col3x3With, V4.map3, fma1_unfused t h]
      simp only [V4.xyz]
      change V3.mk (fadd _ (fadd _ (fmul _ _))) (fadd _ (fadd _ (fmul _ _))) (fadd _ (fadd _ (fmul _ _))) = _
      rw [e, e, e]
      rfl
    change M3.mk (col3x3With (fma1 t) a b.c0).xyz (col3x3With (fma1 t) a b.c1).xyz (col3x3With (fma1 t) a b.c2).xyz = _
    rw [hc, hc, hc, multiply3x3Plain_block]
    rfl
  have h4 : ∀ m : M3 F32, el3 m.transpose r c = el3 m c r := by
    intro m
    unfold M3.transpose M3.ofRows
    fin_cases r <;> fin_cases c <;> rfl
  have h5 : el4 a c.castSucc r.castSucc = el3 a.to3 c r := ((matShape_narrow a a.to43 a.to3).2.1 c r).symm
  rw [hb, hb, hb, hb, h1, transpose3x3_block, transpose3x3_blockPlain, h4, h5]
  exact ⟨rfl, rfl, rfl⟩

/-- C107 fails for `multiply3x3(a, b)`: with the identity as `a` and a translation as `b`, SSE and NEON return the
translation in the fourth column and the configuration without SIMD does not. -/
theorem multiply3x3_backends_counterexample :
    ∃ a b : M4 F32, (multiply3x3With (fma1 (.sse false)) a b).c3.x = (ofNat 5) ∧
      (multiply3x3Plain a b).c3.x = zero false := by
  refine ⟨M4.identity, ⟨M4.identity.c0, M4.identity.c1, M4.identity.c2, ⟨ofNat 5, zero false, zero false, ofNat 1⟩⟩, ?_, ?_⟩
    <;> decide +kernel

/-- C107 fails for `transpose3x3`: without SIMD the translation of the matrix appears in the fourth row of the result. -/
theorem transpose3x3_backends_counterexample :
    ∃ m : M4 F32, (transpose3x3 m).c0.w = zero false ∧ (transpose3x3Neon m).c0.w = zero false ∧
      (transpose3x3Plain m).c0.w = ofNat 5 := by
  refine ⟨⟨M4.identity.c0, M4.identity.c1, M4.identity.c2, ⟨ofNat 5, zero false, zero false, ofNat 1⟩⟩, ?_, ?_, ?_⟩
    <;> decide +kernel

/-- Non-vacuity: both unfused targets exist, and a fused one differs from them (so the hypothesis is needed). -/
example : ∃ a b c : F32, fma1 (.sse true) a b c ≠ fma1 (.sse false) a b c :=
  ⟨⟨0x3F800001⟩, ⟨0x3F800001⟩, ⟨0xBF800002⟩, by decide +kernel⟩

end Simd
end Verif
