import Verif.Spec.BarycentricF32
import Verif.Proofs.F32Scale
import Verif.Proofs.F32Rel
import Verif.Props.ClosestF32

/-!
# C128: barycentric coordinates in binary32
-/

namespace Verif
open F32 Spec SatF32 ClosestF32

namespace BaryF32

/-- A computed difference of two points. -/
structure DiffOk (a : V4 F32) (α : V3 ℝ) : Prop where
  fx : a.x.isFinite = true
  fy : a.y.isFinite = true
  fz : a.z.isFinite = true
  hx : |a.x.val - α.x| ≤ uro * |α.x|
  hy : |a.y.val - α.y| ≤ uro * |α.y|
  hz : |a.z.val - α.z| ≤ uro * |α.z|

theorem diff_ok {a b : V4 F32} (ha : AllFinite [a.x, a.y, a.z]) (hb : AllFinite [b.x, b.y, b.z])
    (h : dot (diff (pos a) (pos b)) (diff (pos a) (pos b)) ≤ 2 ^ 80) : DiffOk (V4.sub a b) (diff (pos a) (pos b)) := by
  simp only [dot, diff, pos] at h
  have x2 := mul_self_nonneg (rv a.x - rv b.x)
  have y2 := mul_self_nonneg (rv a.y - rv b.y)
  have z2 := mul_self_nonneg (rv a.z - rv b.z)
  have l : ∀ {t : ℝ}, t * t ≤ 2 ^ 80 → |t| < 2 ^ 127 := fun ht =>
    lt_of_le_of_lt (abs_le_of_sq_le_sq (b := 2 ^ 40) (by rw [pow_two]; exact ht.trans (by norm_num)) (by norm_num)) (by norm_num)
  have x := fsub_err' (ha a.x (by simp)) (hb b.x (by simp)) (l (by change (rv a.x - rv b.x) * (rv a.x - rv b.x) ≤ _; linarith))
  have y := fsub_err' (ha a.y (by simp)) (hb b.y (by simp)) (l (by change (rv a.y - rv b.y) * (rv a.y - rv b.y) ≤ _; linarith))
  have z := fsub_err' (ha a.z (by simp)) (hb b.z (by simp)) (l (by change (rv a.z - rv b.z) * (rv a.z - rv b.z) ≤ _; linarith))
  exact ⟨x.1, y.1, z.1, x.2, y.2, z.2⟩

/-- The dot product of two computed differences. -/
theorem dot_sc {a b : V4 F32} {α β : V3 ℝ} (ha : DiffOk a α) (hb : DiffOk b β) {S : ℝ} (o : ScOk S)
    (h : |α.x * β.x| + |α.y * β.y| + |α.z * β.z| ≤ S) : Sc S (Simd.dot3 a b) (dot α β) 1 5.3 := by
  have u0 := uro_pos
  have u1 : uro ≤ 1 / 2 ^ 20 := by unfold uro; norm_num
  have one : ∀ {x y p q : ℝ}, |x - p| ≤ uro * |p| → |y - q| ≤ uro * |q| → |x| * |y| ≤ 1.001 * |p * q| ∧ |x * y - p * q| ≤ 2.01 * uro * |p * q| := by
    intro x y p q hx hy
    have x1 : |x| ≤ (1 + uro) * |p| := by
      have := abs_add_le (x - p) p; rw [sub_add_cancel] at this; linarith
    have y1 : |y| ≤ (1 + uro) * |q| := by
      have := abs_add_le (y - q) q; rw [sub_add_cancel] at this; linarith
    have m := mul_le_mul x1 y1 (abs_nonneg _) (by positivity)
    have c := mul_close hx hy (le_refl |p|) (le_refl |q|)
    rw [abs_mul p q]
    have pq : 0 ≤ |p| * |q| := by positivity
    generalize |p| = P at *
    generalize |q| = Q at *
    constructor
    · have : (1 + uro) * (1 + uro) ≤ 1.001 := by nlinarith
      have := mul_le_mul_of_nonneg_right this pq
      linarith [show (1 + uro) * P * ((1 + uro) * Q) = (1 + uro) * (1 + uro) * (P * Q) by ring]
    · have : uro * uro ≤ 0.01 * uro := mul_le_mul_of_nonneg_right (u1.trans (by norm_num)) u0.le
      have := mul_le_mul_of_nonneg_right this pq
      linarith [show P * (uro * Q) + Q * (uro * P) + uro * P * (uro * Q) = 2 * uro * (P * Q) + uro * uro * (P * Q) by ring]
  obtain ⟨x1, x2⟩ := one ha.hx hb.hx
  obtain ⟨y1, y2⟩ := one ha.hy hb.hy
  obtain ⟨z1, z2⟩ := one ha.hz hb.hz
  have big := o.hi
  have d := dot_near (c := a) (a := b) (by intro x hx; simp only [List.mem_cons, List.not_mem_nil, or_false] at hx
                                           rcases hx with h | h | h <;> rw [h]; exacts [ha.fx, ha.fy, ha.fz])
    (by intro x hx; simp only [List.mem_cons, List.not_mem_nil, or_false] at hx
        rcases hx with h | h | h <;> rw [h]; exacts [hb.fx, hb.fy, hb.fz]) (by linarith [show (1.001 : ℝ) * 2 ^ 100 ≤ 2 ^ 126 by norm_num])
  refine ⟨d.1, ?_, ?_⟩
  · have t := abs_add_le ((Simd.dot3 a b).val - (a.x.val * b.x.val + a.y.val * b.y.val + a.z.val * b.z.val))
      (a.x.val * b.x.val + a.y.val * b.y.val + a.z.val * b.z.val - dot α β)
    rw [sub_add_sub_cancel] at t
    have e : a.x.val * b.x.val + a.y.val * b.y.val + a.z.val * b.z.val - dot α β =
        (a.x.val * b.x.val - α.x * β.x) + (a.y.val * b.y.val - α.y * β.y) + (a.z.val * b.z.val - α.z * β.z) := by simp only [dot]; ring
    have t2 := abs3 (a.x.val * b.x.val - α.x * β.x) (a.y.val * b.y.val - α.y * β.y) (a.z.val * b.z.val - α.z * β.z)
    rw [← e] at t2
    have g1 : 3.01 * uro * (|a.x.val| * |b.x.val| + |a.y.val| * |b.y.val| + |a.z.val| * |b.z.val|) ≤ 3.01 * uro * (1.001 * S) := by
      gcongr; linarith
    have g2 : 2.01 * uro * (|α.x * β.x| + |α.y * β.y| + |α.z * β.z|) ≤ 2.01 * uro * S := by gcongr
    have g3 : (1 : ℝ) / 2 ^ 147 ≤ 0.2 * (uro * S) := by
      have := o.lo
      have : uro * (1 / 2 ^ 100) ≤ uro * S := by gcongr
      have : (1 : ℝ) / 2 ^ 147 ≤ 0.2 * (uro * (1 / 2 ^ 100)) := by unfold uro; norm_num
      linarith
    have us : 0 ≤ uro * S := mul_nonneg u0.le o.pos.le
    linarith [d.2]
  · rw [one_mul]; exact (abs3 _ _ _).trans h

/-- The sum of the absolute products is at most the product of the lengths. -/
theorem abs_dot {α β : V3 ℝ} {n m : ℝ} (n0 : 0 ≤ n) (m0 : 0 ≤ m) (hn : dot α α ≤ n ^ 2) (hm : dot β β ≤ m ^ 2) :
    |α.x * β.x| + |α.y * β.y| + |α.z * β.z| ≤ n * m := by
  have c := cauchy3 ⟨|α.x|, |α.y|, |α.z|⟩ ⟨|β.x|, |β.y|, |β.z|⟩
  simp only [dot, ← abs_mul, abs_mul_self] at c
  have e1 : α.x * α.x + α.y * α.y + α.z * α.z ≤ n ^ 2 := hn
  have e2 : β.x * β.x + β.y * β.y + β.z * β.z ≤ m ^ 2 := hm
  refine abs_le_of_sq_le_sq' (c.trans ?_) (mul_nonneg n0 m0) |>.2
  rw [mul_pow, mul_comm]
  refine mul_le_mul e1 e2 ?_ (by positivity)
  nlinarith [mul_self_nonneg β.x, mul_self_nonneg β.y, mul_self_nonneg β.z]

/-- A computed quotient. -/
theorem ratio {nf df : F32} {N D S K R : ℝ} (o : ScOk S) (oR : ScOk (R * S)) (hn : Sc (R * S) nf N 2 27) (hd : Sc S df D 1 26)
    (hK : S ≤ K * D) (K1 : 1 ≤ K) (K2 : K ≤ 2 ^ 14) (R1 : 1 ≤ R) (R2 : R ≤ 2 ^ 20) (S1 : 1 / 2 ^ 80 ≤ S) (S2 : S ≤ 2 ^ 80) :
    Near (fmul nf (fdiv (ofRat 1) df)) (N / D) (48 * uro * K * (R + |N / D|)) := by
  have S0 := o.pos
  have u0 := uro_pos
  have D0 : 0 < D := by
    by_contra h
    have := mul_nonpos_of_nonneg_of_nonpos (by linarith : 0 ≤ K) (not_lt.1 h)
    linarith
  have uK : uro * K ≤ 1 / 2 ^ 10 := by
    calc uro * K ≤ uro * 2 ^ 14 := by gcongr
      _ ≤ _ := by unfold uro; norm_num
  -- the denominator
  have d1 : |df.val - D| ≤ 26 * (uro * K) * D := by
    have := mul_le_mul_of_nonneg_left hK u0.le
    linarith [hd.err, show uro * (K * D) = uro * K * D by ring]
  have d2 : 26 * (uro * K) * D ≤ 0.03 * D := by
    have := mul_le_mul_of_nonneg_right uK D0.le
    linarith
  have d3 : 0.97 * D ≤ df.val := by linarith [(abs_le.1 (d1.trans d2)).1]
  have dp : 0 < df.val := by linarith
  have d4 : df.val ≤ 2 ^ 81 := by
    have := hd.big
    have := le_abs_self D
    linarith [(abs_le.1 (d1.trans d2)).2, show (1.03 : ℝ) * 2 ^ 80 ≤ 2 ^ 81 by norm_num]
  have Dlo : 1 / 2 ^ 94 ≤ D := by
    have : S ≤ 2 ^ 14 * D := hK.trans (by gcongr)
    have : (1 : ℝ) / 2 ^ 80 = 2 ^ 14 * (1 / 2 ^ 94) := by norm_num
    linarith
  have d5 : 1 / 2 ^ 95 ≤ df.val := by linarith [show (1 : ℝ) / 2 ^ 95 ≤ 0.97 * (1 / 2 ^ 94) by norm_num]
  -- its inverse
  have one : (ofRat 1).isFinite = true ∧ (ofRat 1).val = 1 := by
    obtain ⟨a, b⟩ := lit_exact (q := 1) (U := 2 ^ 149) (by decide +kernel) (by decide +kernel)
    exact ⟨a, b.trans (by norm_num)⟩
  have i1 : 1 / 2 ^ 81 ≤ 1 / df.val := one_div_le_one_div_of_le dp d4
  have i2 : 1 / df.val ≤ 2 ^ 95 := by
    rw [div_le_iff₀ dp]; linarith [mul_le_mul_of_nonneg_left d5 (show (0 : ℝ) ≤ 2 ^ 95 by positivity), show (2 : ℝ) ^ 95 * (1 / 2 ^ 95) = 1 by norm_num]
  have i3 := fdiv_rel one.1 hd.fin dp.ne' (by
    rw [one.2, abs_of_pos (by positivity)]; linarith [show (2 : ℝ) ^ 95 < 2 ^ 127 by norm_num])
  rw [one.2, abs_of_pos (show 0 < 1 / df.val by positivity)] at i3
  generalize fdiv (ofRat 1) df = inv at *
  have i4 : |inv.val - 1 / df.val| ≤ 1.01 * uro * (1 / df.val) := by
    have : uro * (1 / 2 ^ 81) ≤ uro * (1 / df.val) := by gcongr
    have : (1 : ℝ) / 2 ^ 150 ≤ 0.01 * (uro * (1 / 2 ^ 81)) := by unfold uro; norm_num
    linarith [i3.2]
  -- the exact quotient of the computed values
  have v1 : |N / D| ≤ 2 ^ 35 := by
    rw [abs_div, abs_of_pos D0, div_le_iff₀ D0]
    have h1 : 2 * (R * S) ≤ 2 * (2 ^ 20 * (2 ^ 14 * D)) := by
      have : S ≤ 2 ^ 14 * D := hK.trans (by gcongr)
      gcongr
    linarith [hn.big]
  have q1 : |nf.val / df.val - N / D| ≤ 28 * (uro * K) * (R + |N / D|) := by
    have e : nf.val / df.val - N / D = ((nf.val - N) - N / D * (df.val - D)) / df.val := by field_simp; ring
    rw [e, abs_div, abs_of_pos dp, div_le_iff₀ dp]
    have h1 := abs_sub (nf.val - N) (N / D * (df.val - D))
    rw [abs_mul] at h1
    have h2 := mul_le_mul_of_nonneg_left d1 (abs_nonneg (N / D))
    have h3 : 27 * (uro * (R * S)) ≤ 27 * (uro * K) * R * D := by
      have : R * S ≤ R * (K * D) := by gcongr
      have := mul_le_mul_of_nonneg_left this u0.le
      linarith [show uro * (R * (K * D)) = uro * K * R * D by ring]
    have v0 := abs_nonneg (N / D)
    have h4 : 28 * (uro * K) * (R + |N / D|) * (0.97 * D) ≤ 28 * (uro * K) * (R + |N / D|) * df.val := by
      gcongr
    have k0 : 0 ≤ uro * K * R * D := by positivity
    have k1 : 0 ≤ uro * K * |N / D| * D := by positivity
    linarith [hn.err, show 28 * (uro * K) * (R + |N / D|) * (0.97 * D) = 27.16 * (uro * K * R * D) + 27.16 * (uro * K * |N / D| * D) by ring,
      show |N / D| * (26 * (uro * K) * D) = 26 * (uro * K * |N / D| * D) by ring, show 27 * (uro * K) * R * D = 27 * (uro * K * R * D) by ring]
  have v0 := abs_nonneg (N / D)
  have q2 : |nf.val / df.val| ≤ |N / D| + 0.03 * (R + |N / D|) := by
    have h1 := abs_add_le (nf.val / df.val - N / D) (N / D)
    rw [sub_add_cancel] at h1
    have h2 := mul_le_mul_of_nonneg_right uK (show 0 ≤ R + |N / D| by linarith)
    linarith [show 28 * (uro * K) * (R + |N / D|) = 28 * (uro * K * (R + |N / D|)) by ring]
  have q3 : |nf.val * inv.val - nf.val / df.val| ≤ 1.01 * uro * |nf.val / df.val| := by
    rw [show nf.val * inv.val - nf.val / df.val = nf.val * (inv.val - 1 / df.val) by ring, abs_mul]
    refine (mul_le_mul_of_nonneg_left i4 (abs_nonneg _)).trans (le_of_eq ?_)
    rw [abs_div, abs_of_pos dp]; ring
  have q4 : |nf.val * inv.val| ≤ 1.01 * |nf.val / df.val| := by
    have h1 := abs_add_le (nf.val * inv.val - nf.val / df.val) (nf.val / df.val)
    rw [sub_add_cancel] at h1
    have : uro ≤ 0.009 := by unfold uro; norm_num
    have h2 := mul_le_mul_of_nonneg_right this (abs_nonneg (nf.val / df.val))
    have h0 := abs_nonneg (nf.val / df.val)
    clear * - h1 h2 h0 q3
    generalize |nf.val / df.val| = Q at *
    linarith
  have m := fmul_rel hn.fin i3.1 (by linarith [show (1.01 : ℝ) * (2 ^ 35 + 0.03 * (2 ^ 20 + 2 ^ 35)) < 2 ^ 127 by norm_num])
  refine ⟨m.1, ?_⟩
  change |(fmul nf inv).val - N / D| ≤ _
  have t1 := abs_add_le ((fmul nf inv).val - nf.val * inv.val) (nf.val * inv.val - nf.val / df.val)
  rw [sub_add_sub_cancel] at t1
  have t2 := abs_add_le ((fmul nf inv).val - nf.val / df.val) (nf.val / df.val - N / D)
  rw [sub_add_sub_cancel] at t2
  have w1 := mul_le_mul_of_nonneg_left q4 u0.le
  have w2 := mul_le_mul_of_nonneg_left q2 u0.le
  have w3 : uro * (R + |N / D|) ≤ uro * K * (R + |N / D|) := by
    have : uro * 1 ≤ uro * K := by gcongr
    have := mul_le_mul_of_nonneg_right this (show 0 ≤ R + |N / D| by linarith)
    linarith
  have w4 : (1 : ℝ) / 2 ^ 150 ≤ uro * (R + |N / D|) := by
    have : uro * 1 ≤ uro * (R + |N / D|) := by gcongr; linarith
    have : (1 : ℝ) / 2 ^ 150 ≤ uro * 1 := by unfold uro; norm_num
    linarith
  have w5 : uro * |N / D| ≤ uro * (R + |N / D|) := by gcongr; linarith
  linarith [m.2, show 48 * uro * K * (R + |N / D|) = 48 * (uro * K * (R + |N / D|)) by ring,
    show 28 * (uro * K) * (R + |N / D|) = 28 * (uro * K * (R + |N / D|)) by ring,
    show uro * (|N / D| + 0.03 * (R + |N / D|)) = uro * |N / D| + 0.03 * (uro * (R + |N / D|)) by ring]

theorem sc_scale {S T x X c : ℝ} {r : F32} (h : Sc S r x X c) (e : S = T) : Sc T r x X c := e ▸ h

theorem range {x y X Y : ℝ} (hx : 1 / 2 ^ 20 ≤ x) (hx' : x ≤ 2 ^ 20) (hy : 1 / 2 ^ 20 ≤ y) (hy' : y ≤ 2 ^ 20) (hX : X = x * y)
    (hY : 1 ≤ Y) (hY' : Y ≤ 2 ^ 20) : (1 / 2 ^ 40 ≤ X ∧ X ≤ 2 ^ 40) ∧ ScOk X ∧ ScOk (Y * X) := by
  have y0 : 0 ≤ y := le_trans (by positivity) hy
  have x0 : 0 ≤ x := le_trans (by positivity) hx
  have a : (1 : ℝ) / 2 ^ 40 ≤ x * y := by
    calc (1 : ℝ) / 2 ^ 40 = 1 / 2 ^ 20 * (1 / 2 ^ 20) := by norm_num
      _ ≤ _ := by gcongr
  have b : x * y ≤ 2 ^ 40 := by
    calc x * y ≤ 2 ^ 20 * 2 ^ 20 := by gcongr
      _ = _ := by norm_num
  have c : 1 * (x * y) ≤ Y * (x * y) := by gcongr
  have d : Y * (x * y) ≤ 2 ^ 20 * 2 ^ 40 := by gcongr
  subst hX
  refine ⟨⟨a, b⟩, ⟨le_trans (by norm_num) a, b.trans (by norm_num)⟩, ⟨le_trans (by norm_num) (a.trans (by linarith)), d.trans (by norm_num)⟩⟩

/-- The two solved weights. -/
theorem solve {v0 v1 v2 : V4 F32} {α β γ : V3 ℝ} (h0 : DiffOk v0 α) (h1 : DiffOk v1 β) (h2 : DiffOk v2 γ) {n m K R b c : ℝ}
    (n1 : 1 / 2 ^ 20 ≤ n) (n2 : n ≤ 2 ^ 20) (m1 : 1 / 2 ^ 20 ≤ m) (m2 : m ≤ 2 ^ 20) (hn : dot α α = n ^ 2) (hm : dot β β = m ^ 2)
    (V1 : dot γ γ ≤ R ^ 2 * dot α α) (V2 : dot γ γ ≤ R ^ 2 * dot β β) (K1 : 1 ≤ K) (K2 : K ≤ 2 ^ 14) (R1 : 1 ≤ R) (R2 : R ≤ 2 ^ 20)
    (hK : dot α α * dot β β ≤ K * (dot α α * dot β β - dot α β ^ 2)) (g1 : dot γ α = b * dot α α + c * dot α β)
    (g2 : dot γ β = b * dot α β + c * dot β β) :
    let d00 := Simd.dot3 v0 v0
    let d01 := Simd.dot3 v0 v1
    let d11 := Simd.dot3 v1 v1
    let d20 := Simd.dot3 v2 v0
    let d21 := Simd.dot3 v2 v1
    let inv := fdiv (ofRat 1) (fsub (fmul d00 d11) (fmul d01 d01))
    Near (fmul (fsub (fmul d11 d20) (fmul d01 d21)) inv) b (48 * uro * K * (R + |b|)) ∧
    Near (fmul (fsub (fmul d00 d21) (fmul d01 d20)) inv) c (48 * uro * K * (R + |c|)) ∧ |b| ≤ 2 ^ 40 ∧ |c| ≤ 2 ^ 40 := by
  intro d00 d01 d11 d20 d21 inv
  have n0 : 0 < n := lt_of_lt_of_le (by positivity) n1
  have m0 : 0 < m := lt_of_lt_of_le (by positivity) m1
  have R0 : 0 < R := by linarith
  obtain ⟨rn, on, oRn⟩ := range n1 n2 n1 n2 (X := n * n) rfl R1 R2
  obtain ⟨rm, om, oRm⟩ := range m1 m2 m1 m2 (X := m * m) rfl R1 R2
  obtain ⟨rx, ox, oRx⟩ := range n1 n2 m1 m2 (X := n * m) rfl R1 R2
  have S1 : (1 : ℝ) / 2 ^ 80 ≤ n * n * (m * m) := by
    calc (1 : ℝ) / 2 ^ 80 = 1 / 2 ^ 40 * (1 / 2 ^ 40) := by norm_num
      _ ≤ _ := by gcongr; exacts [rn.1, rm.1]
  have S2 : n * n * (m * m) ≤ 2 ^ 80 := by
    calc n * n * (m * m) ≤ 2 ^ 40 * 2 ^ 40 := by gcongr; exacts [rn.2, rm.2]
      _ = _ := by norm_num
  have o : ScOk (n * n * (m * m)) := ⟨le_trans (by norm_num) S1, S2.trans (by norm_num)⟩
  have oR : ScOk (R * (n * n * (m * m))) := by
    have h1 : 1 * (n * n * (m * m)) ≤ R * (n * n * (m * m)) := by gcongr
    have h2 : R * (n * n * (m * m)) ≤ 2 ^ 20 * 2 ^ 80 := by gcongr
    exact ⟨le_trans (by norm_num) (S1.trans (by linarith)), h2.trans (by norm_num)⟩
  have q1 : n * m * (n * m) = n * n * (m * m) := by ring
  have q2 : m * m * (R * (n * n)) = R * (n * n * (m * m)) := by ring
  have q3 : n * m * (R * (n * m)) = R * (n * n * (m * m)) := by ring
  have q4 : n * n * (R * (m * m)) = R * (n * n * (m * m)) := by ring
  have s00 : Sc (n * n) d00 _ 1 5.3 := dot_sc h0 h0 on (abs_dot n0.le n0.le hn.le hn.le)
  have s11 : Sc (m * m) d11 _ 1 5.3 := dot_sc h1 h1 om (abs_dot m0.le m0.le hm.le hm.le)
  have s01 : Sc (n * m) d01 _ 1 5.3 := dot_sc h0 h1 ox (abs_dot n0.le m0.le hn.le hm.le)
  have w1 : dot γ γ ≤ (R * n) ^ 2 := by rw [mul_pow, ← hn]; exact V1
  have w2 : dot γ γ ≤ (R * m) ^ 2 := by rw [mul_pow, ← hm]; exact V2
  have s20 : Sc (R * (n * n)) d20 _ 1 5.3 := dot_sc h2 h0 oRn (by
    have := abs_dot (mul_pos R0 n0).le n0.le w1 hn.le; linarith)
  have s21 : Sc (R * (n * m)) d21 _ 1 5.3 := dot_sc h2 h1 oRx (by
    have := abs_dot (mul_pos R0 n0).le m0.le w1 hm.le; linarith)
  have s20' : Sc (R * (n * m)) d20 _ 1 5.3 := dot_sc h2 h0 oRx (by
    have := abs_dot (mul_pos R0 m0).le n0.le w2 hn.le; linarith)
  have s21' : Sc (R * (m * m)) d21 _ 1 5.3 := dot_sc h2 h1 oRm (by
    have := abs_dot (mul_pos R0 m0).le m0.le w2 hm.le; linarith)
  have pr : ∀ {S T : ℝ} {r s : F32} {x y : ℝ}, Sc S r x 1 5.3 → Sc T s y 1 5.3 → ScOk S → ScOk T → ScOk (S * T) →
      Sc (S * T) (fmul r s) (x * y) 1 11.8 := fun ha hb o1 o2 o3 =>
    (ha.mul hb o1 o2 o3 (E := 10.7) (C := 11.8) (by norm_num) (by norm_num) (by norm_num) (by norm_num) (by norm_num) (by norm_num)).mono o3
      (by norm_num) le_rfl
  have two : ∀ {S : ℝ} {r s : F32} {x y : ℝ}, Sc S r x 1 11.8 → Sc S s y 1 11.8 → ScOk S → Sc S (fsub r s) (x - y) 2 27 := fun ha hb o1 =>
    ha.sub hb o1 (by have := abs_sub (_ : ℝ) _ |>.trans (add_le_add ha.big hb.big); linarith) (by norm_num) (by norm_num) (by norm_num) (by norm_num)
  have den : Sc (n * n * (m * m)) (fsub (fmul d00 d11) (fmul d01 d01)) (dot α α * dot β β - dot α β * dot α β) 1 26 := by
    have x := pr s00 s11 on om o
    have y := sc_scale (pr s01 s01 ox ox (q1 ▸ o)) q1
    refine x.sub y o ?_ (by norm_num) (by norm_num) (by norm_num) (by norm_num)
    have p := mul_self_nonneg (dot α β)
    have e : dot α α * dot β β = n * n * (m * m) := by rw [hn, hm]; ring
    have l := cauchy3 α β
    rw [abs_of_nonneg (by linarith [show dot α β ^ 2 = dot α β * dot α β by ring]), e]
    linarith
  have nb := two (sc_scale (pr s11 s20 om oRn (q2 ▸ oR)) q2) (sc_scale (pr s01 s21 ox oRx (q3 ▸ oR)) q3) oR
  have nc := two (sc_scale (pr s00 s21' on oRm (q4 ▸ oR)) q4) (sc_scale (pr s01 s20' ox oRx (q3 ▸ oR)) q3) oR
  have hK' : n * n * (m * m) ≤ K * (dot α α * dot β β - dot α β * dot α β) := by
    have e : dot α α * dot β β = n * n * (m * m) := by rw [hn, hm]; ring
    rw [e] at hK ⊢
    linarith [show dot α β ^ 2 = dot α β * dot α β by ring]
  have D0 : 0 < dot α α * dot β β - dot α β * dot α β := by
    by_contra h
    have := mul_nonpos_of_nonneg_of_nonpos (by linarith : 0 ≤ K) (not_lt.1 h)
    linarith [o.pos]
  have rb := ratio o oR nb den hK' K1 K2 R1 R2 S1 S2
  have rc := ratio o oR nc den hK' K1 K2 R1 R2 S1 S2
  rw [g1, g2] at rb rc
  have xb : (dot β β * (b * dot α α + c * dot α β) - dot α β * (b * dot α β + c * dot β β)) /
      (dot α α * dot β β - dot α β * dot α β) = b := by rw [div_eq_iff D0.ne']; ring
  have xc : (dot α α * (b * dot α β + c * dot β β) - dot α β * (b * dot α α + c * dot α β)) /
      (dot α α * dot β β - dot α β * dot α β) = c := by rw [div_eq_iff D0.ne']; ring
  rw [xb] at rb
  rw [xc] at rc
  have lim : ∀ {N y : ℝ}, |N| ≤ 2 * (R * (n * n * (m * m))) → N / (dot α α * dot β β - dot α β * dot α β) = y → |y| ≤ 2 ^ 40 := by
    intro N y hN hy
    rw [← hy, abs_div, abs_of_pos D0, div_le_iff₀ D0]
    refine hN.trans ?_
    generalize dot α α * dot β β - dot α β * dot α β = D at *
    have hK2 : n * n * (m * m) ≤ 2 ^ 14 * D := hK'.trans (by gcongr)
    have R3 : R * (n * n * (m * m)) ≤ 2 ^ 20 * (2 ^ 14 * D) := mul_le_mul R2 hK2 o.pos.le (by norm_num)
    calc 2 * (R * (n * n * (m * m))) ≤ 2 * (2 ^ 20 * (2 ^ 14 * D)) := by linarith
      _ ≤ 2 ^ 40 * D := by linarith
  have nb' := nb.big
  have nc' := nc.big
  rw [g1, g2] at nb' nc'
  exact ⟨rb, rc, lim nb' xb, lim nc' xc⟩

/-- The first weight from the other two. -/
theorem finish {v w : F32} {K R a b c : ℝ} (K1 : 1 ≤ K) (K2 : K ≤ 2 ^ 14) (R1 : 1 ≤ R) (R2 : R ≤ 2 ^ 20) (hsum : a + b + c = 1)
    (hb : Near v b (48 * uro * K * (R + |b|))) (hc : Near w c (48 * uro * K * (R + |c|))) (hl : |b| ≤ 2 ^ 40) (hl' : |c| ≤ 2 ^ 40) :
    Near (fsub (fsub (ofRat 1) v) w) a (K * (R + |b| + |c|) / 2 ^ 17) ∧ Near v b (K * (R + |b| + |c|) / 2 ^ 17) ∧
      Near w c (K * (R + |b| + |c|) / 2 ^ 17) ∧ rv (ofRat 0) = 0 := by
  have u : uro = 1 / 2 ^ 24 := by unfold uro; norm_num
  have b0 := abs_nonneg b
  have c0 := abs_nonneg c
  have kb : K * (R + |b|) ≤ K * (R + |b| + |c|) := by refine mul_le_mul_of_nonneg_left ?_ ?_ <;> linarith
  have kc : K * (R + |c|) ≤ K * (R + |b| + |c|) := by refine mul_le_mul_of_nonneg_left ?_ ?_ <;> linarith
  have kr : 1 * (R + |b| + |c|) ≤ K * (R + |b| + |c|) := by gcongr
  have k0 : 0 ≤ K * (R + |b| + |c|) := by positivity
  have hb2 := hb.2
  have hc2 := hc.2
  change |v.val - b| ≤ _ at hb2
  change |w.val - c| ≤ _ at hc2
  rw [u] at hb2 hc2
  have ks : K * (R + |b|) ≤ 2 ^ 14 * (2 ^ 20 + 2 ^ 40) := by gcongr
  have ks' : K * (R + |c|) ≤ 2 ^ 14 * (2 ^ 20 + 2 ^ 40) := by gcongr
  have vb : |v.val| ≤ 2 ^ 60 := by
    have := abs_add_le (v.val - b) b
    rw [sub_add_cancel] at this
    linarith [show (48 : ℝ) / 2 ^ 24 * (2 ^ 14 * (2 ^ 20 + 2 ^ 40)) + 2 ^ 40 ≤ 2 ^ 60 by norm_num]
  have wb : |w.val| ≤ 2 ^ 60 := by
    have := abs_add_le (w.val - c) c
    rw [sub_add_cancel] at this
    linarith [show (48 : ℝ) / 2 ^ 24 * (2 ^ 14 * (2 ^ 20 + 2 ^ 40)) + 2 ^ 40 ≤ 2 ^ 60 by norm_num]
  have one : (ofRat 1).isFinite = true ∧ (ofRat 1).val = 1 := by
    obtain ⟨a, b⟩ := lit_exact (q := 1) (U := 2 ^ 149) (by decide +kernel) (by decide +kernel)
    exact ⟨a, b.trans (by norm_num)⟩
  have x := fsub_err' one.1 hb.1 (lt_of_le_of_lt (abs_sub _ _) (by
    rw [one.2, abs_one]; linarith [show (1 : ℝ) + 2 ^ 60 < 2 ^ 127 by norm_num]))
  rw [one.2] at x
  generalize fsub (ofRat 1) v = z at x ⊢
  have z1 : |1 - v.val| ≤ 1 + |b| + 48 / 2 ^ 24 * (K * (R + |b|)) := by
    have := abs_add_le (1 - b) (-(v.val - b))
    rw [abs_neg, show 1 - b + -(v.val - b) = 1 - v.val by ring] at this
    have := abs_sub 1 b
    rw [abs_one] at this
    linarith
  have x2 := x.2
  rw [u] at x2
  have zw : |z.val - w.val| ≤ |z.val - (1 - v.val)| + |1 - v.val| + (|w.val - c| + |c|) := by
    have p := abs_sub z.val w.val
    have q := abs_add_le (z.val - (1 - v.val)) (1 - v.val)
    have r := abs_add_le (w.val - c) c
    rw [sub_add_cancel] at q r
    linarith
  have big : |1 - v.val| ≤ 2 ^ 61 := by
    have := abs_sub 1 v.val
    rw [abs_one] at this
    linarith [show (1 : ℝ) + 2 ^ 60 ≤ 2 ^ 61 by norm_num]
  have y := fsub_err' x.1 hc.1 (lt_of_le_of_lt zw (by
    linarith [show (1 : ℝ) / 2 ^ 24 * 2 ^ 61 + 2 ^ 61 + (48 / 2 ^ 24 * (2 ^ 14 * (2 ^ 20 + 2 ^ 40)) + 2 ^ 40) < 2 ^ 127 by norm_num]))
  obtain ⟨y1, y2⟩ := y
  rw [u] at y2
  generalize fsub z w = q at y1 y2 ⊢
  refine ⟨⟨y1, ?_⟩, ⟨hb.1, ?_⟩, ⟨hc.1, ?_⟩, lit0.2⟩
  · change |q.val - a| ≤ _
    have e : q.val - a = (q.val - (z.val - w.val)) + (z.val - (1 - v.val)) + (-(v.val - b)) + (-(w.val - c)) := by linarith
    rw [e]
    have t1 := abs_add_le ((q.val - (z.val - w.val)) + (z.val - (1 - v.val)) + (-(v.val - b))) (-(w.val - c))
    have t2 := abs_add_le ((q.val - (z.val - w.val)) + (z.val - (1 - v.val))) (-(v.val - b))
    have t3 := abs_add_le (q.val - (z.val - w.val)) (z.val - (1 - v.val))
    rw [abs_neg] at t1 t2
    linarith
  · change |v.val - b| ≤ _
    linarith
  · change |w.val - c| ≤ _
    linarith

end BaryF32

open BaryF32

/-- C128: `calcBarycentric` in binary32. For every triangle of binary32 points that is well shaped with constant `K` and every
binary32 point within reach `R`, the three computed coordinates are finite and within `2^-17 K (R + |b| + |c|)` of the weights of
the point of the plane nearest to the point; the fourth lane is zero. -/
theorem barycentric_f32 (t : Triangle F32) (s : V4 F32) (h0 : AllFinite [t.p0.x, t.p0.y, t.p0.z]) (h1 : AllFinite [t.p1.x, t.p1.y, t.p1.z])
    (h2 : AllFinite [t.p2.x, t.p2.y, t.p2.z]) (hs : AllFinite [s.x, s.y, s.z]) (K R : ℝ) (K2 : K ≤ 2 ^ 14)
    (R1 : 1 ≤ R) (R2 : R ≤ 2 ^ 20) (hK : WellShaped (pos t.p0) (pos t.p1) (pos t.p2) K)
    (hR : WithinReach (pos t.p0) (pos t.p1) (pos t.p2) (pos s) R) (a b c : ℝ)
    (hw : Weights (pos t.p0) (pos t.p1) (pos t.p2) (pos s) a b c) :
    let r := t.calcBarycentric s
    Near r.x a (K * (R + |b| + |c|) / 2 ^ 17) ∧ Near r.y b (K * (R + |b| + |c|) / 2 ^ 17) ∧ Near r.z c (K * (R + |b| + |c|) / 2 ^ 17) ∧
      rv r.w = 0 := by
  intro r
  obtain ⟨⟨A1, A2⟩, ⟨B1, B2⟩, hk⟩ := hK
  obtain ⟨V1, V2⟩ := hR
  obtain ⟨hsum, -, f1, f2⟩ := hw
  have e1 := diff_ok h1 h0 (by linarith [show (2 : ℝ) ^ 40 ≤ 2 ^ 80 by norm_num])
  have e2 := diff_ok h2 h0 (by linarith [show (2 : ℝ) ^ 40 ≤ 2 ^ 80 by norm_num])
  have e3 := diff_ok hs h0 (by
    refine V1.trans ?_
    have : R ^ 2 ≤ (2 ^ 20) ^ 2 := by gcongr
    calc _ ≤ (2 ^ 20) ^ 2 * (2 : ℝ) ^ 40 := by gcongr
      _ ≤ _ := by norm_num)
  -- the weights solve the normal equations
  have g1 : dot (diff (pos s) (pos t.p0)) (diff (pos t.p1) (pos t.p0)) =
      b * dot (diff (pos t.p1) (pos t.p0)) (diff (pos t.p1) (pos t.p0)) + c * dot (diff (pos t.p1) (pos t.p0)) (diff (pos t.p2) (pos t.p0)) := by
    have ha : a = 1 - b - c := by linarith
    subst ha
    simp only [dot, diff, combo] at f1 ⊢
    linear_combination f1
  have g2 : dot (diff (pos s) (pos t.p0)) (diff (pos t.p2) (pos t.p0)) =
      b * dot (diff (pos t.p1) (pos t.p0)) (diff (pos t.p2) (pos t.p0)) + c * dot (diff (pos t.p2) (pos t.p0)) (diff (pos t.p2) (pos t.p0)) := by
    have ha : a = 1 - b - c := by linarith
    subst ha
    simp only [dot, diff, combo] at f2 ⊢
    linear_combination f2
  have K1 : 1 ≤ K := by
    have cs := cauchy3 (diff (pos t.p1) (pos t.p0)) (diff (pos t.p2) (pos t.p0))
    have sq := sq_nonneg (dot (diff (pos t.p1) (pos t.p0)) (diff (pos t.p2) (pos t.p0)))
    have a0 : 0 < dot (diff (pos t.p1) (pos t.p0)) (diff (pos t.p1) (pos t.p0)) := lt_of_lt_of_le (by positivity) A1
    have b0 : 0 < dot (diff (pos t.p2) (pos t.p0)) (diff (pos t.p2) (pos t.p0)) := lt_of_lt_of_le (by positivity) B1
    have ab := mul_pos a0 b0
    by_contra h
    have h' := not_le.1 h
    have := mul_le_mul_of_nonneg_right h'.le (show 0 ≤ dot (diff (pos t.p1) (pos t.p0)) (diff (pos t.p1) (pos t.p0)) *
      dot (diff (pos t.p2) (pos t.p0)) (diff (pos t.p2) (pos t.p0)) - dot (diff (pos t.p1) (pos t.p0)) (diff (pos t.p2) (pos t.p0)) ^ 2 by linarith)
    have z : dot (diff (pos t.p1) (pos t.p0)) (diff (pos t.p2) (pos t.p0)) ^ 2 = 0 := by linarith
    rw [z, sub_zero] at hk
    have := mul_lt_mul_of_pos_right h' ab
    linarith
  have root : ∀ {x : ℝ}, 1 / 2 ^ 40 ≤ x → x ≤ 2 ^ 40 → (1 / 2 ^ 20 ≤ Real.sqrt x ∧ Real.sqrt x ≤ 2 ^ 20) ∧ x = Real.sqrt x ^ 2 := by
    intro x hx hx'
    refine ⟨⟨Real.le_sqrt_of_sq_le ((le_of_eq (by norm_num)).trans hx), ?_⟩, (Real.sq_sqrt (le_trans (by positivity) hx)).symm⟩
    rw [Real.sqrt_le_left (by norm_num)]; exact hx'.trans (by norm_num)
  obtain ⟨⟨n1, n2⟩, hn⟩ := root A1 A2
  obtain ⟨⟨m1, m2⟩, hm⟩ := root B1 B2
  obtain ⟨rb, rc, lb, lc⟩ := solve e1 e2 e3 n1 n2 m1 m2 hn hm V1 V2 K1 K2 R1 R2 hk g1 g2
  have er : r = ⟨fsub (fsub (ofRat 1) r.y) r.z, r.y, r.z, ofRat 0⟩ := rfl
  have rb' : Near r.y b (48 * uro * K * (R + |b|)) := rb
  have rc' : Near r.z c (48 * uro * K * (R + |c|)) := rc
  rw [er]
  generalize r.y = v at rb' rc' ⊢
  generalize r.z = w at rb' rc' ⊢
  clear er rb rc
  exact finish K1 K2 R1 R2 hsum rb' rc' lb lc

/-- Non-vacuity of `barycentric_f32`: the triangle (1,2,3), (4,2,3), (2,6,3) and the point (3,3,8) above it, with `K = 2` and
`R = 2`; the weights are 1/6, 7/12 and 1/4. -/
example : Near ((⟨whole 1 2 3, whole 4 2 3, whole 2 6 3⟩ : Triangle F32).calcBarycentric (whole 3 3 8)).y (7 / 12) (1 / 2 ^ 14) := by
  obtain ⟨f0, e0⟩ := whole_pos 1 2 3 (by norm_num) (by norm_num) (by norm_num)
  obtain ⟨f1, e1⟩ := whole_pos 4 2 3 (by norm_num) (by norm_num) (by norm_num)
  obtain ⟨f2, e2⟩ := whole_pos 2 6 3 (by norm_num) (by norm_num) (by norm_num)
  obtain ⟨f3, e3⟩ := whole_pos 3 3 8 (by norm_num) (by norm_num) (by norm_num)
  push_cast at e0 e1 e2 e3
  have := barycentric_f32 ⟨whole 1 2 3, whole 4 2 3, whole 2 6 3⟩ (whole 3 3 8) f0 f1 f2 f3 2 2 (by norm_num) (by norm_num) (by norm_num)
    (by simp only [WellShaped, e0, e1, e2, diff, dot]; norm_num) (by simp only [WithinReach, e0, e1, e2, e3, diff, dot]; norm_num)
    (1 / 6) (7 / 12) (1 / 4) (by
      refine ⟨by norm_num, ⟨1 / 6, 7 / 12, 1 / 4, by norm_num, rfl⟩, ?_, ?_⟩ <;>
      · simp only [e0, e1, e2, e3, diff, dot, combo]; norm_num)
  refine ⟨this.2.1.1, this.2.1.2.trans ?_⟩
  norm_num [abs_of_pos]

end Verif
