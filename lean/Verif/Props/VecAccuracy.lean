import Verif.Proofs.F32Sum
import Verif.Model.Metric
import Verif.Model.MatTargets
import Verif.Model.Quat
import Verif.Spec.Accuracy

/-!
# C89: accuracy of products in binary32
-/

namespace Verif
open F32 Spec

namespace VecAcc

theorem rv_eq (x : F32) : rv x = x.val := rfl

theorem Err.sumOk {r : F32} {x W : ℝ} {k m : ℕ} {l : List (ℝ × ℝ)} (h : W ≤ 2 ^ 126 → Err r x W k m) (hx : x = sumProd l)
    (hW : W = absProd l) (hk : k ≤ l.length) (hm : m ≤ l.length) (hl : l.length ≤ 64) : SumOk r l := by
  intro hb
  obtain ⟨h1, h2, h3⟩ := h (hW ▸ hb)
  refine ⟨h1, ?_⟩
  have h4 := rounded_mono hk (le_of_eq hW) hm ((abs_nonneg _).trans h2)
  rw [rv_eq, ← hx]
  refine (h3.trans h4).trans ?_
  unfold rounded
  have e : (1 + uro) ^ l.length = (1 + 1 / 2 ^ 24) ^ l.length := rfl
  have h5 := g_small hl
  rw [e] at *
  have h6 : (l.length : ℝ) * (1 + 1 / 2 ^ 24) ^ l.length / 2 ^ 150 ≤ l.length * 2 / 2 ^ 150 := by
    gcongr
    refine h5.trans (by norm_num)
  have h7 : (l.length : ℝ) * 2 / 2 ^ 150 = l.length / 2 ^ 149 := by rw [pow_succ (2 : ℝ) 149]; field_simp
  linarith

macro "sums" : tactic => `(tactic| first
  | (simp only [sumProd, absProd, List.map_cons, List.map_nil, List.sum_cons, List.sum_nil, rv_eq, abs_mul, abs_neg]; done)
  | (simp only [sumProd, absProd, List.map_cons, List.map_nil, List.sum_cons, List.sum_nil, rv_eq, abs_mul, abs_neg]; ring))

section
variable {a1 a2 a3 a4 b1 b2 b3 b4 : F32}

private theorem nn (a b : F32) : 0 ≤ |a.val| * |b.val| := by positivity

theorem sum2 (h1 : a1.isFinite = true) (h2 : a2.isFinite = true) (g1 : b1.isFinite = true) (g2 : b2.isFinite = true) :
    SumOk (fadd (fmul a1 b1) (fmul a2 b2)) [(rv a1, rv b1), (rv a2, rv b2)] := by
  have := nn a1 b1; have := nn a2 b2
  refine Err.sumOk (x := a1.val * b1.val + a2.val * b2.val) (W := |a1.val| * |b1.val| + |a2.val| * |b2.val|) (k := 2) (m := 2)
    (fun h => ?_) (by sums) (by sums) (by simp) (by simp) (by simp)
  exact (Err.prod h1 g1 (by linarith)).add (Err.prod h2 g2 (by linarith)) h (by norm_num) (by norm_num)

theorem diff2 (h1 : a1.isFinite = true) (h2 : a2.isFinite = true) (g1 : b1.isFinite = true) (g2 : b2.isFinite = true) :
    SumOk (fsub (fmul a1 b1) (fmul a2 b2)) [(rv a1, rv b1), (-rv a2, rv b2)] := by
  have := nn a1 b1; have := nn a2 b2
  refine Err.sumOk (x := a1.val * b1.val - a2.val * b2.val) (W := |a1.val| * |b1.val| + |a2.val| * |b2.val|) (k := 2) (m := 2)
    (fun h => ?_) (by sums) (by sums) (by simp) (by simp) (by simp)
  exact (Err.prod h1 g1 (by linarith)).sub (Err.prod h2 g2 (by linarith)) h (by norm_num) (by norm_num)

theorem sum3 (h1 : a1.isFinite = true) (h2 : a2.isFinite = true) (h3 : a3.isFinite = true) (g1 : b1.isFinite = true)
    (g2 : b2.isFinite = true) (g3 : b3.isFinite = true) :
    SumOk (fadd (fadd (fmul a1 b1) (fmul a2 b2)) (fmul a3 b3)) [(rv a1, rv b1), (rv a2, rv b2), (rv a3, rv b3)] := by
  have := nn a1 b1; have := nn a2 b2; have := nn a3 b3
  refine Err.sumOk (x := a1.val * b1.val + a2.val * b2.val + a3.val * b3.val)
    (W := |a1.val| * |b1.val| + |a2.val| * |b2.val| + |a3.val| * |b3.val|) (k := 3) (m := 3)
    (fun h => ?_) (by sums) (by sums) (by simp) (by simp) (by simp)
  exact ((Err.prod h1 g1 (by linarith)).add (Err.prod h2 g2 (by linarith)) (by linarith) (by norm_num) (by norm_num)).add
    ((Err.prod h3 g3 (by linarith)).mono (by norm_num) le_rfl le_rfl) h (by norm_num) (by norm_num)

theorem sum4 (h1 : a1.isFinite = true) (h2 : a2.isFinite = true) (h3 : a3.isFinite = true) (h4 : a4.isFinite = true)
    (g1 : b1.isFinite = true) (g2 : b2.isFinite = true) (g3 : b3.isFinite = true) (g4 : b4.isFinite = true) :
    SumOk (fadd (fadd (fadd (fmul a1 b1) (fmul a2 b2)) (fmul a3 b3)) (fmul a4 b4))
      [(rv a1, rv b1), (rv a2, rv b2), (rv a3, rv b3), (rv a4, rv b4)] := by
  have := nn a1 b1; have := nn a2 b2; have := nn a3 b3; have := nn a4 b4
  refine Err.sumOk (x := a1.val * b1.val + a2.val * b2.val + a3.val * b3.val + a4.val * b4.val)
    (W := |a1.val| * |b1.val| + |a2.val| * |b2.val| + |a3.val| * |b3.val| + |a4.val| * |b4.val|) (k := 4) (m := 4)
    (fun h => ?_) (by sums) (by sums) (by simp) (by simp) (by simp)
  exact (((Err.prod h1 g1 (by linarith)).add (Err.prod h2 g2 (by linarith)) (by linarith) (by norm_num) (by norm_num)).add
    ((Err.prod h3 g3 (by linarith)).mono (by norm_num) le_rfl le_rfl) (by linarith) (by norm_num) (by norm_num)).add
    ((Err.prod h4 g4 (by linarith)).mono (by norm_num) le_rfl le_rfl) h (by norm_num) (by norm_num)

/-- The order of `_mm_dp_ps` and of `vaddvq_f32`. -/
theorem sum4P (h1 : a1.isFinite = true) (h2 : a2.isFinite = true) (h3 : a3.isFinite = true) (h4 : a4.isFinite = true)
    (g1 : b1.isFinite = true) (g2 : b2.isFinite = true) (g3 : b3.isFinite = true) (g4 : b4.isFinite = true) :
    SumOk (fadd (fadd (fmul a1 b1) (fmul a2 b2)) (fadd (fmul a3 b3) (fmul a4 b4)))
      [(rv a1, rv b1), (rv a2, rv b2), (rv a3, rv b3), (rv a4, rv b4)] := by
  have := nn a1 b1; have := nn a2 b2; have := nn a3 b3; have := nn a4 b4
  refine Err.sumOk (x := (a1.val * b1.val + a2.val * b2.val) + (a3.val * b3.val + a4.val * b4.val))
    (W := (|a1.val| * |b1.val| + |a2.val| * |b2.val|) + (|a3.val| * |b3.val| + |a4.val| * |b4.val|)) (k := 3) (m := 4)
    (fun h => ?_) (by sums) (by sums) (by simp) (by simp) (by simp)
  exact ((Err.prod h1 g1 (by linarith)).add (Err.prod h2 g2 (by linarith)) (by linarith) (by norm_num) (by norm_num)).add
    ((Err.prod h3 g3 (by linarith)).add (Err.prod h4 g4 (by linarith)) (by linarith) (by norm_num) (by norm_num))
    h (by norm_num) (by norm_num)

theorem err_zero : Err (ofRat 0) 0 0 1 0 := by
  have h : (ofRat 0).isFinite = true ∧ (ofRat 0).units = 0 := by decide +kernel
  refine ⟨h.1, by simp, ?_⟩
  have e : (ofRat 0).val = 0 := by rw [val_units, h.2]; simp
  rw [e]; simp [rounded]

theorem sum3P (h1 : a1.isFinite = true) (h2 : a2.isFinite = true) (h3 : a3.isFinite = true) (g1 : b1.isFinite = true)
    (g2 : b2.isFinite = true) (g3 : b3.isFinite = true) :
    SumOk (fadd (fadd (fmul a1 b1) (fmul a2 b2)) (fadd (fmul a3 b3) (ofRat 0))) [(rv a1, rv b1), (rv a2, rv b2), (rv a3, rv b3)] := by
  have := nn a1 b1; have := nn a2 b2; have := nn a3 b3
  refine Err.sumOk (x := (a1.val * b1.val + a2.val * b2.val) + (a3.val * b3.val + 0))
    (W := (|a1.val| * |b1.val| + |a2.val| * |b2.val|) + (|a3.val| * |b3.val| + 0)) (k := 3) (m := 3)
    (fun h => ?_) (by sums) (by sums) (by simp) (by simp) (by simp)
  exact ((Err.prod h1 g1 (by linarith)).add (Err.prod h2 g2 (by linarith)) (by linarith) (by norm_num) (by norm_num)).add
    ((Err.prod h3 g3 (by linarith)).add err_zero (by linarith) (by norm_num) (by norm_num))
    h (by norm_num) (by norm_num)

/-- A multiply-add of the target. -/
theorem Err.mad (t : FTarget) {a b c : F32} {z W : ℝ} {k m : ℕ} (ha : a.isFinite = true) (hb : b.isFinite = true) (hc : Err c z W k m)
    (hk1 : 1 ≤ k) (hW : W + |a.val| * |b.val| ≤ 2 ^ 126) (hk : k ≤ 64) (hm : m + 1 ≤ 64) :
    Err (F32x4.fma1 t a b c) (z + a.val * b.val) (W + |a.val| * |b.val|) (k + 1) (m + 1) := by
  have hW0 := hc.W_nonneg
  have f : Err (ffma a b c) (z + a.val * b.val) (W + |a.val| * |b.val|) (k + 1) (m + 1) := by
    have := Err.fused ha hb hc (by linarith) hk (by omega)
    rwa [add_comm (a.val * b.val), add_comm (|a.val| * |b.val|)] at this
  have g : Err (fadd c (fmul a b)) (z + a.val * b.val) (W + |a.val| * |b.val|) (k + 1) (m + 1) :=
    hc.add ((Err.prod ha hb (by linarith)).mono hk1 le_rfl le_rfl) hW hk hm
  rcases t with b | b <;> cases b <;> first | exact f | exact g

theorem mad3 (t : FTarget) (h1 : a1.isFinite = true) (h2 : a2.isFinite = true) (h3 : a3.isFinite = true)
    (g1 : b1.isFinite = true) (g2 : b2.isFinite = true) (g3 : b3.isFinite = true) :
    SumOk (F32x4.fma1 t a3 b3 (F32x4.fma1 t a2 b2 (fmul a1 b1))) [(rv a1, rv b1), (rv a2, rv b2), (rv a3, rv b3)] := by
  have := nn a1 b1; have := nn a2 b2; have := nn a3 b3
  refine Err.sumOk (x := a1.val * b1.val + a2.val * b2.val + a3.val * b3.val)
    (W := |a1.val| * |b1.val| + |a2.val| * |b2.val| + |a3.val| * |b3.val|) (k := 3) (m := 3)
    (fun h => ?_) (by sums) (by sums) (by simp) (by simp) (by simp)
  exact Err.mad t h3 g3 (Err.mad t h2 g2 (Err.prod h1 g1 (by linarith)) (by norm_num) (by linarith) (by norm_num) (by norm_num))
    (by norm_num) h (by norm_num) (by norm_num)

theorem mad4 (t : FTarget) (h1 : a1.isFinite = true) (h2 : a2.isFinite = true) (h3 : a3.isFinite = true) (h4 : a4.isFinite = true)
    (g1 : b1.isFinite = true) (g2 : b2.isFinite = true) (g3 : b3.isFinite = true) (g4 : b4.isFinite = true) :
    SumOk (F32x4.fma1 t a4 b4 (F32x4.fma1 t a3 b3 (F32x4.fma1 t a2 b2 (fmul a1 b1))))
      [(rv a1, rv b1), (rv a2, rv b2), (rv a3, rv b3), (rv a4, rv b4)] := by
  have := nn a1 b1; have := nn a2 b2; have := nn a3 b3; have := nn a4 b4
  refine Err.sumOk (x := a1.val * b1.val + a2.val * b2.val + a3.val * b3.val + a4.val * b4.val)
    (W := |a1.val| * |b1.val| + |a2.val| * |b2.val| + |a3.val| * |b3.val| + |a4.val| * |b4.val|) (k := 4) (m := 4)
    (fun h => ?_) (by sums) (by sums) (by simp) (by simp) (by simp)
  exact Err.mad t h4 g4 (Err.mad t h3 g3 (Err.mad t h2 g2 (Err.prod h1 g1 (by linarith)) (by norm_num) (by linarith) (by norm_num)
    (by norm_num)) (by norm_num) (by linarith) (by norm_num) (by norm_num)) (by norm_num) h (by norm_num) (by norm_num)

/-- `p1 + p2 + p3 - p4`. -/
theorem sum3d (h1 : a1.isFinite = true) (h2 : a2.isFinite = true) (h3 : a3.isFinite = true) (h4 : a4.isFinite = true)
    (g1 : b1.isFinite = true) (g2 : b2.isFinite = true) (g3 : b3.isFinite = true) (g4 : b4.isFinite = true) :
    SumOk (fsub (fadd (fadd (fmul a1 b1) (fmul a2 b2)) (fmul a3 b3)) (fmul a4 b4))
      [(rv a1, rv b1), (rv a2, rv b2), (rv a3, rv b3), (-rv a4, rv b4)] := by
  have := nn a1 b1; have := nn a2 b2; have := nn a3 b3; have := nn a4 b4
  refine Err.sumOk (x := a1.val * b1.val + a2.val * b2.val + a3.val * b3.val - a4.val * b4.val)
    (W := |a1.val| * |b1.val| + |a2.val| * |b2.val| + |a3.val| * |b3.val| + |a4.val| * |b4.val|) (k := 4) (m := 4)
    (fun h => ?_) (by sums) (by sums) (by simp) (by simp) (by simp)
  exact (((Err.prod h1 g1 (by linarith)).add (Err.prod h2 g2 (by linarith)) (by linarith) (by norm_num) (by norm_num)).add
    ((Err.prod h3 g3 (by linarith)).mono (by norm_num) le_rfl le_rfl) (by linarith) (by norm_num) (by norm_num)).sub
    ((Err.prod h4 g4 (by linarith)).mono (by norm_num) le_rfl le_rfl) h (by norm_num) (by norm_num)

/-- `p1 - p2 - p3 - p4`. -/
theorem sub4 (h1 : a1.isFinite = true) (h2 : a2.isFinite = true) (h3 : a3.isFinite = true) (h4 : a4.isFinite = true)
    (g1 : b1.isFinite = true) (g2 : b2.isFinite = true) (g3 : b3.isFinite = true) (g4 : b4.isFinite = true) :
    SumOk (fsub (fsub (fsub (fmul a1 b1) (fmul a2 b2)) (fmul a3 b3)) (fmul a4 b4))
      [(rv a1, rv b1), (-rv a2, rv b2), (-rv a3, rv b3), (-rv a4, rv b4)] := by
  have := nn a1 b1; have := nn a2 b2; have := nn a3 b3; have := nn a4 b4
  refine Err.sumOk (x := a1.val * b1.val - a2.val * b2.val - a3.val * b3.val - a4.val * b4.val)
    (W := |a1.val| * |b1.val| + |a2.val| * |b2.val| + |a3.val| * |b3.val| + |a4.val| * |b4.val|) (k := 4) (m := 4)
    (fun h => ?_) (by sums) (by sums) (by simp) (by simp) (by simp)
  exact (((Err.prod h1 g1 (by linarith)).sub (Err.prod h2 g2 (by linarith)) (by linarith) (by norm_num) (by norm_num)).sub
    ((Err.prod h3 g3 (by linarith)).mono (by norm_num) le_rfl le_rfl) (by linarith) (by norm_num) (by norm_num)).sub
    ((Err.prod h4 g4 (by linarith)).mono (by norm_num) le_rfl le_rfl) h (by norm_num) (by norm_num)

end

theorem fin2 {v : V2 F32} (h : AllFinite v.toList) : v.x.isFinite = true ∧ v.y.isFinite = true := by
  simpa [AllFinite, V2.toList] using h
theorem fin3 {v : V3 F32} (h : AllFinite v.toList) : v.x.isFinite = true ∧ v.y.isFinite = true ∧ v.z.isFinite = true := by
  simpa [AllFinite, V3.toList] using h
theorem fin4 {v : V4 F32} (h : AllFinite v.toList) :
    v.x.isFinite = true ∧ v.y.isFinite = true ∧ v.z.isFinite = true ∧ v.w.isFinite = true := by
  simpa [AllFinite, V4.toList] using h

end VecAcc
open VecAcc

/-- C89: dot products of finite vectors, in the scalar code and on every SIMD backend. -/
theorem dot_accuracy :
    (∀ a b : V2 F32, AllFinite a.toList → AllFinite b.toList → SumOk (V2.dot a b) [(rv a.x, rv b.x), (rv a.y, rv b.y)]) ∧
    (∀ a b : V3 F32, AllFinite a.toList → AllFinite b.toList →
      SumOk (V3.dot a b) [(rv a.x, rv b.x), (rv a.y, rv b.y), (rv a.z, rv b.z)]) ∧
    (∀ a b : V4 F32, AllFinite a.toList → AllFinite b.toList →
      SumOk (V4.dot a b) [(rv a.x, rv b.x), (rv a.y, rv b.y), (rv a.z, rv b.z), (rv a.w, rv b.w)]) ∧
    (∀ (k : Backend) (a b : V4 F32), AllFinite a.xyz.toList → AllFinite b.xyz.toList →
      SumOk (k.dot3 a b) [(rv a.x, rv b.x), (rv a.y, rv b.y), (rv a.z, rv b.z)]) ∧
    (∀ (k : Backend) (a b : V4 F32), AllFinite a.toList → AllFinite b.toList →
      SumOk (k.dot4 a b) [(rv a.x, rv b.x), (rv a.y, rv b.y), (rv a.z, rv b.z), (rv a.w, rv b.w)]) := by
  refine ⟨fun a b ha hb => ?_, fun a b ha hb => ?_, fun a b ha hb => ?_, fun k a b ha hb => ?_, fun k a b ha hb => ?_⟩
  · obtain ⟨h1, h2⟩ := fin2 ha; obtain ⟨g1, g2⟩ := fin2 hb
    exact sum2 h1 h2 g1 g2
  · obtain ⟨h1, h2, h3⟩ := fin3 ha; obtain ⟨g1, g2, g3⟩ := fin3 hb
    exact sum3 h1 h2 h3 g1 g2 g3
  · obtain ⟨h1, h2, h3, h4⟩ := fin4 ha; obtain ⟨g1, g2, g3, g4⟩ := fin4 hb
    exact sum4 h1 h2 h3 h4 g1 g2 g3 g4
  · obtain ⟨h1, h2, h3⟩ := fin3 ha; obtain ⟨g1, g2, g3⟩ := fin3 hb
    cases k
    · exact sum3 h1 h2 h3 g1 g2 g3
    · exact sum3P h1 h2 h3 g1 g2 g3
    · exact sum3P h1 h2 h3 g1 g2 g3
    · exact sum3 h1 h2 h3 g1 g2 g3
  · obtain ⟨h1, h2, h3, h4⟩ := fin4 ha; obtain ⟨g1, g2, g3, g4⟩ := fin4 hb
    cases k
    · exact sum4 h1 h2 h3 h4 g1 g2 g3 g4
    · exact sum4P h1 h2 h3 h4 g1 g2 g3 g4
    · exact sum4P h1 h2 h3 h4 g1 g2 g3 g4
    · exact sum4 h1 h2 h3 h4 g1 g2 g3 g4

/-- C89: cross products of finite vectors. -/
theorem cross_accuracy :
    (∀ a b : V3 F32, AllFinite a.toList → AllFinite b.toList →
      SumOk (V3.cross a b).x [(rv a.y, rv b.z), (-rv a.z, rv b.y)] ∧
      SumOk (V3.cross a b).y [(rv a.z, rv b.x), (-rv a.x, rv b.z)] ∧
      SumOk (V3.cross a b).z [(rv a.x, rv b.y), (-rv a.y, rv b.x)]) ∧
    (∀ (k : Backend) (a b : V4 F32), AllFinite a.xyz.toList → AllFinite b.xyz.toList →
      SumOk (k.cross3 a b).x [(rv a.y, rv b.z), (-rv a.z, rv b.y)] ∧
      SumOk (k.cross3 a b).y [(rv a.z, rv b.x), (-rv a.x, rv b.z)] ∧
      SumOk (k.cross3 a b).z [(rv a.x, rv b.y), (-rv a.y, rv b.x)]) := by
  have sw : ∀ {r : F32} {p q s t : ℝ}, SumOk r [(p, q), (-s, t)] → SumOk r [(q, p), (-s, t)] := by
    intro r p q s t h
    have e1 : absProd [(q, p), (-s, t)] = absProd [(p, q), (-s, t)] := by sums
    have e2 : sumProd [(q, p), (-s, t)] = sumProd [(p, q), (-s, t)] := by sums
    intro hb
    rw [e1, e2] at *
    exact h hb
  refine ⟨fun a b ha hb => ?_, fun k a b ha hb => ?_⟩
  · obtain ⟨h1, h2, h3⟩ := fin3 ha; obtain ⟨g1, g2, g3⟩ := fin3 hb
    exact ⟨diff2 h2 h3 g3 g2, diff2 h3 h1 g1 g3, diff2 h1 h2 g2 g1⟩
  · obtain ⟨h1, h2, h3⟩ := fin3 ha; obtain ⟨g1, g2, g3⟩ := fin3 hb
    have simd : SumOk (Simd.cross3 a b).x [(rv a.y, rv b.z), (-rv a.z, rv b.y)] ∧
      SumOk (Simd.cross3 a b).y [(rv a.z, rv b.x), (-rv a.x, rv b.z)] ∧
      SumOk (Simd.cross3 a b).z [(rv a.x, rv b.y), (-rv a.y, rv b.x)] :=
      ⟨sw (diff2 (a1 := b.z) (b1 := a.y) (a2 := a.z) (b2 := b.y) g3 h3 h2 g2),
       sw (diff2 (a1 := b.x) (b1 := a.z) (a2 := a.x) (b2 := b.z) g1 h1 h3 g3),
       sw (diff2 (a1 := b.y) (b1 := a.x) (a2 := a.y) (b2 := b.x) g2 h2 h1 g1)⟩
    cases k
    · exact simd
    · exact simd
    · exact simd
    · exact ⟨diff2 h2 h3 g3 g2, diff2 h3 h1 g1 g3, diff2 h1 h2 g2 g1⟩

private theorem mulV4_ok {m : M4 F32} {v : V4 F32} (hm : FinM m) (hv : AllFinite v.toList) : MulVOk m v (M4.mulV m v) := by
  obtain ⟨m0, m1, m2, m3⟩ := hm
  obtain ⟨a0, b0, c0, d0⟩ := fin4 m0; obtain ⟨a1, b1, c1, d1⟩ := fin4 m1
  obtain ⟨a2, b2, c2, d2⟩ := fin4 m2; obtain ⟨a3, b3, c3, d3⟩ := fin4 m3
  obtain ⟨x, y, z, w⟩ := fin4 hv
  exact ⟨sum4 a0 a1 a2 a3 x y z w, sum4 b0 b1 b2 b3 x y z w, sum4 c0 c1 c2 c3 x y z w, sum4 d0 d1 d2 d3 x y z w⟩

private theorem col4_ok {m : M4 F32} {v : V4 F32} (hm : FinM m) (hv : AllFinite v.toList) : MulVOk m v (M4.col m v) := mulV4_ok hm hv

private theorem simd4_ok (t : FTarget) {m : M4 F32} {v : V4 F32} (hm : FinM m) (hv : AllFinite v.toList) :
    MulVOk m v (F32x4.mulV t m v) := by
  obtain ⟨m0, m1, m2, m3⟩ := hm
  obtain ⟨a0, b0, c0, d0⟩ := fin4 m0; obtain ⟨a1, b1, c1, d1⟩ := fin4 m1
  obtain ⟨a2, b2, c2, d2⟩ := fin4 m2; obtain ⟨a3, b3, c3, d3⟩ := fin4 m3
  obtain ⟨x, y, z, w⟩ := fin4 hv
  exact ⟨mad4 t a0 a1 a2 a3 x y z w, mad4 t b0 b1 b2 b3 x y z w, mad4 t c0 c1 c2 c3 x y z w, mad4 t d0 d1 d2 d3 x y z w⟩

private theorem mulV3_ok {m : M3 F32} {v : V3 F32} (hm : FinM3 m) (hv : AllFinite v.toList) : MulVOk3 m v (M3.mulV m v) := by
  obtain ⟨m0, m1, m2⟩ := hm
  obtain ⟨a0, b0, c0⟩ := fin3 m0; obtain ⟨a1, b1, c1⟩ := fin3 m1; obtain ⟨a2, b2, c2⟩ := fin3 m2
  obtain ⟨x, y, z⟩ := fin3 hv
  exact ⟨sum3 a0 a1 a2 x y z, sum3 b0 b1 b2 x y z, sum3 c0 c1 c2 x y z⟩

private theorem mulV2_ok {m : M2 F32} {v : V2 F32} (hm : FinM2 m) (hv : AllFinite v.toList) : MulVOk2 m v (M2.mulV m v) := by
  obtain ⟨m0, m1⟩ := hm
  obtain ⟨a0, b0⟩ := fin2 m0; obtain ⟨a1, b1⟩ := fin2 m1
  obtain ⟨x, y⟩ := fin2 hv
  exact ⟨sum2 a0 a1 x y, sum2 b0 b1 x y⟩

/-- C89: matrix-vector products of finite operands, in the scalar code and on every SIMD target, fused or not. -/
theorem mulV_accuracy :
    (∀ (m : M2 F32) (v : V2 F32), FinM2 m → AllFinite v.toList → MulVOk2 m v (M2.mulV m v)) ∧
    (∀ (m : M3 F32) (v : V3 F32), FinM3 m → AllFinite v.toList → MulVOk3 m v (M3.mulV m v)) ∧
    (∀ (m : M4 F32) (v : V4 F32), FinM m → AllFinite v.toList → MulVOk m v (M4.mulV m v)) ∧
    (∀ (t : FTarget) (m : M4 F32) (v : V4 F32), FinM m → AllFinite v.toList → MulVOk m v (F32x4.mulV t m v)) ∧
    (∀ (m : M43 F32) (v : V4 F32), AllFinite m.c0.toList → AllFinite m.c1.toList → AllFinite m.c2.toList → AllFinite m.c3.toList → AllFinite v.toList →
      SumOk (M43.mulV m v).x (row4 m.c0.x m.c1.x m.c2.x m.c3.x v) ∧
      SumOk (M43.mulV m v).y (row4 m.c0.y m.c1.y m.c2.y m.c3.y v) ∧
      SumOk (M43.mulV m v).z (row4 m.c0.z m.c1.z m.c2.z m.c3.z v)) ∧
    (∀ (t : FTarget) (m : M4 F32) (v : V4 F32), FinM m → AllFinite v.xyz.toList →
      MulVOk3 ⟨m.c0.xyz, m.c1.xyz, m.c2.xyz⟩ v.xyz (F32x4.multiply3x3V t m v).xyz) := by
  refine ⟨fun m v => mulV2_ok, fun m v => mulV3_ok, fun m v => mulV4_ok, fun t m v => simd4_ok t, ?_, ?_⟩
  · intro m v m0 m1 m2 m3 hv
    obtain ⟨a0, b0, c0⟩ := fin3 m0; obtain ⟨a1, b1, c1⟩ := fin3 m1
    obtain ⟨a2, b2, c2⟩ := fin3 m2; obtain ⟨a3, b3, c3⟩ := fin3 m3
    obtain ⟨x, y, z, w⟩ := fin4 hv
    exact ⟨sum4 a0 a1 a2 a3 x y z w, sum4 b0 b1 b2 b3 x y z w, sum4 c0 c1 c2 c3 x y z w⟩
  · intro t m v hm hv
    obtain ⟨m0, m1, m2, -⟩ := hm
    obtain ⟨a0, b0, c0, -⟩ := fin4 m0; obtain ⟨a1, b1, c1, -⟩ := fin4 m1
    obtain ⟨a2, b2, c2, -⟩ := fin4 m2
    obtain ⟨x, y, z⟩ := fin3 hv
    exact ⟨mad3 t a0 a1 a2 x y z, mad3 t b0 b1 b2 x y z, mad3 t c0 c1 c2 x y z⟩

/-- C89: matrix products: every column of the product is the first matrix times that column of the second, accurately. -/
theorem mulM_accuracy :
    (∀ a b : M2 F32, FinM2 a → FinM2 b → MulVOk2 a b.c0 (M2.mul a b).c0 ∧ MulVOk2 a b.c1 (M2.mul a b).c1) ∧
    (∀ a b : M3 F32, FinM3 a → FinM3 b →
      MulVOk3 a b.c0 (M3.mul a b).c0 ∧ MulVOk3 a b.c1 (M3.mul a b).c1 ∧ MulVOk3 a b.c2 (M3.mul a b).c2) ∧
    (∀ a b : M4 F32, FinM a → FinM b →
      MulVOk a b.c0 (M4.mul a b).c0 ∧ MulVOk a b.c1 (M4.mul a b).c1 ∧ MulVOk a b.c2 (M4.mul a b).c2 ∧
      MulVOk a b.c3 (M4.mul a b).c3) ∧
    (∀ (t : FTarget) (a b : M4 F32), FinM a → FinM b →
      MulVOk a b.c0 (F32x4.mulM t a b).c0 ∧ MulVOk a b.c1 (F32x4.mulM t a b).c1 ∧
      MulVOk a b.c2 (F32x4.mulM t a b).c2 ∧ MulVOk a b.c3 (F32x4.mulM t a b).c3) :=
  ⟨fun _ _ ha hb => ⟨mulV2_ok ha hb.1, mulV2_ok ha hb.2⟩,
   fun _ _ ha hb => ⟨mulV3_ok ha hb.1, mulV3_ok ha hb.2.1, mulV3_ok ha hb.2.2⟩,
   fun _ _ ha hb => ⟨mulV4_ok ha hb.1, mulV4_ok ha hb.2.1, mulV4_ok ha hb.2.2.1, mulV4_ok ha hb.2.2.2⟩,
   fun t _ _ ha hb => ⟨simd4_ok t ha hb.1, simd4_ok t ha hb.2.1, simd4_ok t ha hb.2.2.1, simd4_ok t ha hb.2.2.2⟩⟩

/-- C89: the quaternion product, in Hamilton's order. -/
theorem quat_mul_accuracy (a q : V4 F32) (ha : AllFinite a.toList) (hq : AllFinite q.toList) :
    SumOk (Quat.mul a q).x [(rv a.w, rv q.x), (rv a.x, rv q.w), (rv a.y, rv q.z), (-rv a.z, rv q.y)] ∧
    SumOk (Quat.mul a q).y [(rv a.w, rv q.y), (rv a.y, rv q.w), (rv a.z, rv q.x), (-rv a.x, rv q.z)] ∧
    SumOk (Quat.mul a q).z [(rv a.w, rv q.z), (rv a.z, rv q.w), (rv a.x, rv q.y), (-rv a.y, rv q.x)] ∧
    SumOk (Quat.mul a q).w [(rv a.w, rv q.w), (-rv a.x, rv q.x), (-rv a.y, rv q.y), (-rv a.z, rv q.z)] := by
  obtain ⟨x, y, z, w⟩ := fin4 ha; obtain ⟨qx, qy, qz, qw⟩ := fin4 hq
  exact ⟨sum3d w x y z qx qw qz qy, sum3d w y z x qy qw qx qz, sum3d w z x y qz qw qy qx, sub4 w x y z qw qx qy qz⟩


/-- The hypotheses are met by an ordinary product of vectors, and the bound is then close to rounding the result once per
term. -/
example : Near (V3.dot ⟨ofRat 1, ofRat 2, ofRat 3⟩ ⟨ofRat 4, ofRat (-5), ofRat 6⟩) 12 (((1 + 1 / 2 ^ 24) ^ 3 - 1) * 32 + 3 / 2 ^ 149) := by
  have v : ∀ n : ℤ, n.natAbs ≤ 6 → (ofRat n).isFinite = true ∧ (ofRat n).units = n * 2 ^ 149 := by
    intro n hn
    have : n ∈ [-6, -5, -4, -3, -2, -1, 0, 1, 2, 3, 4, 5, 6] := by simp only [List.mem_cons, List.not_mem_nil]; omega
    have all : ∀ n ∈ [(-6 : ℤ), -5, -4, -3, -2, -1, 0, 1, 2, 3, 4, 5, 6], (ofRat n).isFinite = true ∧ (ofRat n).units = n * 2 ^ 149 := by
      decide +kernel
    exact all n this
  have e : ∀ n : ℤ, n.natAbs ≤ 6 → rv (ofRat n) = n := by
    intro n hn; rw [rv_eq, val_units, (v n hn).2]; push_cast; field_simp; norm_num
  have h := dot_accuracy.2.1 ⟨ofRat 1, ofRat 2, ofRat 3⟩ ⟨ofRat 4, ofRat (-5), ofRat 6⟩
    (by simp only [AllFinite, V3.toList, List.forall_mem_cons]
        exact ⟨(v 1 (by decide)).1, (v 2 (by decide)).1, (v 3 (by decide)).1, by simp⟩)
    (by simp only [AllFinite, V3.toList, List.forall_mem_cons]
        exact ⟨(v 4 (by decide)).1, (v (-5) (by decide)).1, (v 6 (by decide)).1, by simp⟩)
  have e1 := e 1 (by decide); have e2 := e 2 (by decide); have e3 := e 3 (by decide)
  have e4 := e 4 (by decide); have e5 := e (-5) (by decide); have e6 := e 6 (by decide)
  push_cast at e1 e2 e3 e4 e5 e6
  simp only [SumOk, e1, e2, e3, e4, e5, e6, absProd, sumProd, List.map_cons, List.map_nil, List.sum_cons, List.sum_nil,
    List.length_cons, List.length_nil] at h
  norm_num at h ⊢
  exact h

/-- C89: the range hypothesis is needed: the dot product of two perpendicular vectors of length `2^64` overflows to a value
that is not a number instead of zero. -/
theorem dot_range_counterexample :
    (V2.dot ⟨ofRat (2 ^ 64), ofRat (2 ^ 64)⟩ ⟨ofRat (2 ^ 64), ofRat (-2 ^ 64)⟩ : F32).isNaN = true := by decide +kernel

end Verif
