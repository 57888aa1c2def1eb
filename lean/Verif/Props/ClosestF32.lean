import Verif.Spec.ClosestF32
import Verif.Model.ClosestTargets
import Verif.Proofs.F32Sum
import Verif.Proofs.F32Rel
import Verif.Proofs.SatF32
import Verif.Props.Primitives

/-!
# C126: the closest point of a segment or ray in binary32
-/

namespace Verif
open F32 Spec SatF32

namespace ClosestF32

/-- The dot product of moderate vectors. -/
theorem dot_near {c a : V4 F32} (hc : AllFinite [c.x, c.y, c.z]) (ha : AllFinite [a.x, a.y, a.z])
    (h : |c.x.val| * |a.x.val| + |c.y.val| * |a.y.val| + |c.z.val| * |a.z.val| ≤ 2 ^ 126) :
    (Simd.dot3 c a).isFinite = true ∧
      |(Simd.dot3 c a).val - (c.x.val * a.x.val + c.y.val * a.y.val + c.z.val * a.z.val)| ≤
        3.01 * uro * (|c.x.val| * |a.x.val| + |c.y.val| * |a.y.val| + |c.z.val| * |a.z.val|) + 1 / 2 ^ 147 := by
  have c1 := hc c.x (by simp); have c2 := hc c.y (by simp); have c3 := hc c.z (by simp)
  have a1 := ha a.x (by simp); have a2 := ha a.y (by simp); have a3 := ha a.z (by simp)
  have n1 := mul_nonneg (abs_nonneg c.x.val) (abs_nonneg a.x.val)
  have n2 := mul_nonneg (abs_nonneg c.y.val) (abs_nonneg a.y.val)
  have n3 := mul_nonneg (abs_nonneg c.z.val) (abs_nonneg a.z.val)
  have p1 := Err.prod c1 a1 (by linarith)
  have p2 := Err.prod c2 a2 (by linarith)
  have p3 := Err.prod c3 a3 (by linarith)
  have z : Err (ofRat 0) 0 0 1 0 := by
    refine ⟨lit0.1, by simp, ?_⟩
    rw [lit0.2]; simp [rounded]
  have q1 := p1.add p2 (by linarith) (by norm_num) (by norm_num)
  have q2 := p3.add z (by linarith) (by norm_num) (by norm_num)
  have q3 := q1.add q2 (by linarith) (by norm_num) (by norm_num)
  rw [dot3_eq]
  refine ⟨q3.1, ?_⟩
  have h3 := q3.2.2
  have e : c.x.val * a.x.val + c.y.val * a.y.val + (c.z.val * a.z.val + 0) =
      c.x.val * a.x.val + c.y.val * a.y.val + c.z.val * a.z.val := by ring
  rw [e] at h3
  refine h3.trans ?_
  unfold rounded
  have g1 : (1 + uro) ^ (1 + 1 + 1) - 1 ≤ 3.01 * uro := by unfold uro; norm_num
  have g2 : (((1 + 1 + (1 + 0) : ℕ) : ℝ)) * (1 + uro) ^ (1 + 1 + 1) / 2 ^ 150 ≤ 1 / 2 ^ 147 := by unfold uro; norm_num
  have g3 := mul_le_mul_of_nonneg_right g1
    (show 0 ≤ |c.x.val| * |a.x.val| + |c.y.val| * |a.y.val| + (|c.z.val| * |a.z.val| + 0) by linarith)
  have e2 : |c.x.val| * |a.x.val| + |c.y.val| * |a.y.val| + (|c.z.val| * |a.z.val| + 0) =
    |c.x.val| * |a.x.val| + |c.y.val| * |a.y.val| + |c.z.val| * |a.z.val| := by ring
  rw [e2] at g3 ⊢
  linarith

/-- The scalar order of the additions. -/
theorem dot_seq {c a : V4 F32} (hc : AllFinite [c.x, c.y, c.z]) (ha : AllFinite [a.x, a.y, a.z])
    (h : |c.x.val| * |a.x.val| + |c.y.val| * |a.y.val| + |c.z.val| * |a.z.val| ≤ 2 ^ 126) :
    (V3.dot c.xyz a.xyz).isFinite = true ∧
      |(V3.dot c.xyz a.xyz).val - (c.x.val * a.x.val + c.y.val * a.y.val + c.z.val * a.z.val)| ≤
        3.01 * uro * (|c.x.val| * |a.x.val| + |c.y.val| * |a.y.val| + |c.z.val| * |a.z.val|) + 1 / 2 ^ 147 := by
  have c1 := hc c.x (by simp); have c2 := hc c.y (by simp); have c3 := hc c.z (by simp)
  have a1 := ha a.x (by simp); have a2 := ha a.y (by simp); have a3 := ha a.z (by simp)
  have n1 := mul_nonneg (abs_nonneg c.x.val) (abs_nonneg a.x.val)
  have n2 := mul_nonneg (abs_nonneg c.y.val) (abs_nonneg a.y.val)
  have n3 := mul_nonneg (abs_nonneg c.z.val) (abs_nonneg a.z.val)
  have p1 := Err.prod c1 a1 (by linarith)
  have p2 := Err.prod c2 a2 (by linarith)
  have p3 := Err.prod c3 a3 (by linarith)
  have q1 := p1.add p2 (by linarith) (by norm_num) (by norm_num)
  have q3 := q1.add (p3.mono (k' := 1 + 1) (by norm_num) le_rfl le_rfl) (by linarith) (by norm_num) (by norm_num)
  rw [show V3.dot c.xyz a.xyz = fadd (fadd (fmul c.x a.x) (fmul c.y a.y)) (fmul c.z a.z) from rfl]
  refine ⟨q3.1, q3.2.2.trans ?_⟩
  unfold rounded
  have g1 : (1 + uro) ^ (1 + 1 + 1) - 1 ≤ 3.01 * uro := by unfold uro; norm_num
  have g2 : (((1 + 1 + 1 : ℕ) : ℝ)) * (1 + uro) ^ (1 + 1 + 1) / 2 ^ 150 ≤ 1 / 2 ^ 147 := by unfold uro; norm_num
  have g3 := mul_le_mul_of_nonneg_right g1
    (show 0 ≤ |c.x.val| * |a.x.val| + |c.y.val| * |a.y.val| + |c.z.val| * |a.z.val| by linarith)
  linarith

/-- The same on every backend. -/
theorem dot_on (k : Backend) {c a : V4 F32} (hc : AllFinite [c.x, c.y, c.z]) (ha : AllFinite [a.x, a.y, a.z])
    (h : |c.x.val| * |a.x.val| + |c.y.val| * |a.y.val| + |c.z.val| * |a.z.val| ≤ 2 ^ 126) :
    (k.dot3 c a).isFinite = true ∧
      |(k.dot3 c a).val - (c.x.val * a.x.val + c.y.val * a.y.val + c.z.val * a.z.val)| ≤
        3.01 * uro * (|c.x.val| * |a.x.val| + |c.y.val| * |a.y.val| + |c.z.val| * |a.z.val|) + 1 / 2 ^ 147 := by
  cases k
  exacts [dot_seq hc ha h, dot_near hc ha h, dot_near hc ha h, dot_seq hc ha h]

/-- A multiply-add on every target. -/
theorem fma_on (t : FTarget) {a b c : F32} {P M : ℝ} (ha : a.isFinite = true) (hb : b.isFinite = true) (hc : c.isFinite = true)
    (hP : |a.val * b.val| ≤ P) (hM : |a.val * b.val + c.val| + ulp P ≤ M) (hP' : P < 2 ^ 127) (hM' : M < 2 ^ 127) :
    Approx (F32x4.fma1 t a b c) (a.val * b.val + c.val) (ulp P + ulp M) := by
  have A (x : F32) (h : x.isFinite = true) : Approx x x.val 0 := ⟨h, by simp⟩
  have := Approx.fma t (A a ha) (A b hb) (A c hc) |a.val| |b.val| P M le_rfl le_rfl
    (by rw [add_zero, add_zero, ← abs_mul]; exact hP) (by simpa using hM) hP' hM'
  simpa using this

theorem prod_close {a a' d v B n e : ℝ} (ha : |a| ≤ B) (ha' : |a' - a| ≤ uro * B) (hd : |d| ≤ n) (hv : |v - d| ≤ e * n)
    (he : e ≤ 1 / 16) (he0 : 0 ≤ e) :
    |a' * v - a * d| ≤ B * n * (1.07 * uro + e) ∧ |a'| * |v| ≤ 1.07 * (B * n) := by
  have hn : 0 ≤ n := (abs_nonneg d).trans hd
  have hB : 0 ≤ B := (abs_nonneg a).trans ha
  have hu := uro_pos
  have v1 : |v| ≤ 17 / 16 * n := by
    have := abs_add_le (v - d) d
    rw [sub_add_cancel] at this
    have := mul_le_mul_of_nonneg_right he hn
    linarith
  have a1 : |a'| ≤ (1 + uro) * B := by
    have := abs_add_le (a' - a) a
    rw [sub_add_cancel] at this
    linarith
  constructor
  · rw [show a' * v - a * d = (a' - a) * v + a * (v - d) by ring]
    refine (abs_add_le _ _).trans ?_
    rw [abs_mul, abs_mul]
    have m1 := mul_le_mul ha' v1 (abs_nonneg _) (by positivity)
    have m2 := mul_le_mul ha hv (abs_nonneg _) hB
    have : 0 ≤ uro * (B * n) := by positivity
    nlinarith
  · have m := mul_le_mul a1 v1 (abs_nonneg _) (by positivity)
    refine m.trans ?_
    have : (1 + uro) * (17 / 16) ≤ 1.07 := by unfold uro; norm_num
    have := mul_le_mul_of_nonneg_right this (mul_nonneg hB hn)
    linarith

theorem sq_close {d v n e : ℝ} (hd : |d| ≤ n) (hv : |v - d| ≤ e * n) (he : e ≤ 1 / 16) (he0 : 0 ≤ e) :
    |v * v - d * d| ≤ 2.07 * e * n ^ 2 ∧ |v| * |v| ≤ 1.13 * n ^ 2 := by
  have hn : 0 ≤ n := (abs_nonneg d).trans hd
  have v1 : |v| ≤ 17 / 16 * n := by
    have := abs_add_le (v - d) d
    rw [sub_add_cancel] at this
    have := mul_le_mul_of_nonneg_right he hn
    linarith
  constructor
  · rw [show v * v - d * d = (v - d) * (v + d) by ring, abs_mul]
    have h2 := abs_add_le v d
    have m := mul_le_mul hv (h2.trans (show |v| + |d| ≤ 2.07 * n by linarith)) (abs_nonneg _) (by positivity)
    linarith [m, show e * n * (2.07 * n) = 2.07 * e * n ^ 2 by ring]
  · have := mul_le_mul v1 v1 (abs_nonneg _) (by positivity)
    nlinarith

theorem quot_close {N S N' S' X Y n q : ℝ} (hS : 0 < S) (hS' : 0.6 * S ≤ S') (hN : |N' - N| ≤ X) (hSS : |S' - S| ≤ Y)
    (hq : |N / S| ≤ q) (hn : X + q * Y ≤ n * (0.6 * S)) : |N' / S' - N / S| ≤ n := by
  have hp : 0 < S' := by linarith
  have e : N' / S' - N / S = ((N' - N) - N / S * (S' - S)) / S' := by field_simp; ring
  rw [e, abs_div, abs_of_pos hp, div_le_iff₀ hp]
  have h1 := abs_sub (N' - N) (N / S * (S' - S))
  rw [abs_mul] at h1
  have h2 := mul_le_mul hq hSS (abs_nonneg _) ((abs_nonneg _).trans hq)
  have hX : 0 ≤ X := (abs_nonneg _).trans hN
  have hY : 0 ≤ q * Y := (mul_nonneg (abs_nonneg _) (abs_nonneg _)).trans h2
  have hn0 : 0 ≤ n := by
    by_contra hc
    push Not at hc
    have := mul_neg_of_neg_of_pos hc (show 0 < 0.6 * S by linarith)
    linarith
  have h3 := mul_le_mul_of_nonneg_left hS' hn0
  linarith

theorem coord_le {n x y z : ℝ} (n0 : 0 ≤ n) (h : n ^ 2 = x * x + y * y + z * z) : |x| ≤ n :=
  abs_le_of_sq_le_sq (by rw [h, pow_two]; linarith [mul_self_nonneg y, mul_self_nonneg z]) n0

theorem sq_bound {x M : ℝ} (h : |x| ≤ 2 * M) : x * x ≤ 4 * M ^ 2 := by
  have := sq_le_sq' (abs_le.1 h).1 (abs_le.1 h).2
  linarith [show (2 * M) ^ 2 = 4 * M ^ 2 by ring, show x ^ 2 = x * x by ring]

theorem abs3 (a b c : ℝ) : |a + b + c| ≤ |a| + |b| + |c| := by
  have h1 := abs_add_le (a + b) c
  have h2 := abs_add_le a b
  linarith

/-- The parameter of the foot of a point, computed from a difference `A'` and a direction `V` that are near the exact ones. -/
theorem param_close {A A' D V : V3 ℝ} {N' S' B n e : ℝ} (hn : 1 / 2 ^ 50 ≤ n) (hS : n ^ 2 = dot D D)
    (hA : |A.x| ≤ B ∧ |A.y| ≤ B ∧ |A.z| ≤ B)
    (hA' : |A'.x - A.x| ≤ uro * B ∧ |A'.y - A.y| ≤ uro * B ∧ |A'.z - A.z| ≤ uro * B)
    (hV : |V.x - D.x| ≤ e * n ∧ |V.y - D.y| ≤ e * n ∧ |V.z - D.z| ≤ e * n) (he : e ≤ 1 / 16) (he0 : 0 ≤ e)
    (hN : |N' - (A'.x * V.x + A'.y * V.y + A'.z * V.z)| ≤
      3.01 * uro * (|A'.x| * |V.x| + |A'.y| * |V.y| + |A'.z| * |V.z|) + 1 / 2 ^ 147)
    (hS' : |S' - (V.x * V.x + V.y * V.y + V.z * V.z)| ≤
      3.01 * uro * (|V.x| * |V.x| + |V.y| * |V.y| + |V.z| * |V.z|) + 1 / 2 ^ 147) :
    0.6 * dot D D ≤ S' ∧ |dot A D / dot D D| ≤ 3 * B / n ∧
      |N' / S' - dot A D / dot D D| ≤ B / n * (37 * e + 75 * uro) + 1 / 2 ^ 46 := by
  have np : 0 < n := lt_of_lt_of_le (by positivity) hn
  have hu := uro_pos
  have hB : 0 ≤ B := (abs_nonneg _).trans hA.1
  have dn (x y z : ℝ) (h : n ^ 2 = x * x + y * y + z * z) : |x| ≤ n := coord_le np.le h
  have d1 : |D.x| ≤ n := dn D.x D.y D.z hS
  have d2 : |D.y| ≤ n := dn D.y D.x D.z (by rw [hS]; simp only [dot]; ring)
  have d3 : |D.z| ≤ n := dn D.z D.x D.y (by rw [hS]; simp only [dot]; ring)
  obtain ⟨x1, x2⟩ := prod_close hA.1 hA'.1 d1 hV.1 he he0
  obtain ⟨y1, y2⟩ := prod_close hA.2.1 hA'.2.1 d2 hV.2.1 he he0
  obtain ⟨z1, z2⟩ := prod_close hA.2.2 hA'.2.2 d3 hV.2.2 he he0
  obtain ⟨s1, s2⟩ := sq_close d1 hV.1 he he0
  obtain ⟨t1, t2⟩ := sq_close d2 hV.2.1 he he0
  obtain ⟨w1, w2⟩ := sq_close d3 hV.2.2 he he0
  have S0 : 0 < dot D D := by rw [← hS]; positivity
  have tiny : (1 : ℝ) / 2 ^ 147 ≤ 1 / 2 ^ 47 * n ^ 2 := by
    have := mul_le_mul hn hn (by positivity) np.le
    have e1 : (1 : ℝ) / 2 ^ 147 = 1 / 2 ^ 47 * (1 / 2 ^ 50 * (1 / 2 ^ 50)) := by norm_num
    rw [e1, pow_two]; gcongr
  -- the numerator
  have hNN : |N' - dot A D| ≤ B * n * (3 * e + 12.95 * uro) + 1 / 2 ^ 147 := by
    have q := abs3 (A'.x * V.x - A.x * D.x) (A'.y * V.y - A.y * D.y) (A'.z * V.z - A.z * D.z)
    have r := abs_add_le (N' - (A'.x * V.x + A'.y * V.y + A'.z * V.z))
      ((A'.x * V.x - A.x * D.x) + (A'.y * V.y - A.y * D.y) + (A'.z * V.z - A.z * D.z))
    have e1 : N' - (A'.x * V.x + A'.y * V.y + A'.z * V.z) +
      ((A'.x * V.x - A.x * D.x) + (A'.y * V.y - A.y * D.y) + (A'.z * V.z - A.z * D.z)) = N' - dot A D := by
      simp only [dot]; ring
    rw [e1] at r
    have m := mul_le_mul_of_nonneg_left (show |A'.x| * |V.x| + |A'.y| * |V.y| + |A'.z| * |V.z| ≤ 3.21 * (B * n) by linarith)
      (show 0 ≤ 3.01 * uro by positivity)
    have hk : 0 ≤ uro * (B * n) := by positivity
    clear * - r q m hN x1 y1 z1 hk
    linarith
  have hSS : |S' - dot D D| ≤ n ^ 2 * (6.21 * e + 10.3 * uro) := by
    have q := abs3 (V.x * V.x - D.x * D.x) (V.y * V.y - D.y * D.y) (V.z * V.z - D.z * D.z)
    have r := abs_add_le (S' - (V.x * V.x + V.y * V.y + V.z * V.z))
      ((V.x * V.x - D.x * D.x) + (V.y * V.y - D.y * D.y) + (V.z * V.z - D.z * D.z))
    have e1 : S' - (V.x * V.x + V.y * V.y + V.z * V.z) +
      ((V.x * V.x - D.x * D.x) + (V.y * V.y - D.y * D.y) + (V.z * V.z - D.z * D.z)) = S' - dot D D := by
      simp only [dot]; ring
    rw [e1] at r
    have m := mul_le_mul_of_nonneg_left (show |V.x| * |V.x| + |V.y| * |V.y| + |V.z| * |V.z| ≤ 3.39 * n ^ 2 by linarith)
      (show 0 ≤ 3.01 * uro by positivity)
    have hk : 1 / 2 ^ 47 * n ^ 2 ≤ 0.01 * uro * n ^ 2 := by
      gcongr; unfold uro; norm_num
    have hk' : 0 ≤ uro * n ^ 2 := by positivity
    clear * - r q m hS' s1 t1 w1 hk hk' tiny
    linarith
  have hSl : 0.6 * dot D D ≤ S' := by
    have h1 := (abs_le.1 hSS).1
    have h2 : n ^ 2 * (6.21 * e + 10.3 * uro) ≤ n ^ 2 * 0.4 := by
      gcongr
      have : 10.3 * uro ≤ 0.01 := by unfold uro; norm_num
      linarith
    rw [hS] at h1 h2
    linarith
  have hNl : |dot A D| ≤ 3 * (B * n) := by
    have q := abs3 (A.x * D.x) (A.y * D.y) (A.z * D.z)
    have g1 := mul_le_mul hA.1 d1 (abs_nonneg _) hB
    have g2 := mul_le_mul hA.2.1 d2 (abs_nonneg _) hB
    have g3 := mul_le_mul hA.2.2 d3 (abs_nonneg _) hB
    rw [abs_mul, abs_mul, abs_mul] at q
    simp only [dot]
    linarith
  have hq : |dot A D / dot D D| ≤ 3 * B / n := by
    rw [abs_div, abs_of_pos S0, ← hS, div_le_div_iff₀ (by positivity) np]
    have := mul_le_mul_of_nonneg_right hNl np.le
    linarith [show 3 * (B * n) * n = 3 * B * n ^ 2 by ring]
  refine ⟨hSl, hq, quot_close S0 hSl hNN hSS hq ?_⟩
  rw [← hS]
  have e1 : 3 * B / n * (n ^ 2 * (6.21 * e + 10.3 * uro)) = B * n * (18.63 * e + 30.9 * uro) := by field_simp; ring
  have e2 : (B / n * (37 * e + 75 * uro) + 1 / 2 ^ 46) * (0.6 * n ^ 2) =
    B * n * (22.2 * e + 45 * uro) + 0.6 * (1 / 2 ^ 46) * n ^ 2 := by field_simp; ring
  rw [e1, e2]
  have k1 : 0 ≤ B * n * e := by positivity
  have k2 : 0 ≤ B * n * uro := by positivity
  have k3 : (1 : ℝ) / 2 ^ 47 * n ^ 2 ≤ 0.6 * (1 / 2 ^ 46) * n ^ 2 := by gcongr; norm_num
  linarith

/-- The same in binary32, division included. -/
theorem param_f32 (k : Backend) {A' V : V4 F32} {A D : V3 ℝ} {B n e : ℝ} (hn : 1 / 2 ^ 50 ≤ n) (hn' : n ≤ 2 ^ 62) (hBm : B ≤ 2 ^ 61)
    (hS : n ^ 2 = dot D D) (fA : AllFinite [A'.x, A'.y, A'.z]) (fV : AllFinite [V.x, V.y, V.z])
    (hA : |A.x| ≤ B ∧ |A.y| ≤ B ∧ |A.z| ≤ B)
    (hA' : |A'.x.val - A.x| ≤ uro * B ∧ |A'.y.val - A.y| ≤ uro * B ∧ |A'.z.val - A.z| ≤ uro * B)
    (hV : |V.x.val - D.x| ≤ e * n ∧ |V.y.val - D.y| ≤ e * n ∧ |V.z.val - D.z| ≤ e * n) (he : e ≤ 1 / 16) (he0 : 0 ≤ e) :
    (fdiv (k.dot3 A' V) (k.dot3 V V)).isFinite = true ∧
      |(fdiv (k.dot3 A' V) (k.dot3 V V)).val - dot A D / dot D D| ≤ B / n * (38 * e + 79 * uro) + 1 / 2 ^ 45 := by
  have np : 0 < n := lt_of_lt_of_le (by positivity) hn
  have hu := uro_pos
  have hB : 0 ≤ B := (abs_nonneg _).trans hA.1
  have dn (x y z : ℝ) (h : n ^ 2 = x * x + y * y + z * z) : |x| ≤ n := coord_le np.le h
  have d1 : |D.x| ≤ n := dn D.x D.y D.z hS
  have d2 : |D.y| ≤ n := dn D.y D.x D.z (by rw [hS]; simp only [dot]; ring)
  have d3 : |D.z| ≤ n := dn D.z D.x D.y (by rw [hS]; simp only [dot]; ring)
  have x2 := (prod_close hA.1 hA'.1 d1 hV.1 he he0).2
  have y2 := (prod_close hA.2.1 hA'.2.1 d2 hV.2.1 he he0).2
  have z2 := (prod_close hA.2.2 hA'.2.2 d3 hV.2.2 he he0).2
  have s2 := (sq_close d1 hV.1 he he0).2
  have t2 := (sq_close d2 hV.2.1 he he0).2
  have w2 := (sq_close d3 hV.2.2 he he0).2
  have bn : B * n ≤ 2 ^ 123 := by
    have := mul_le_mul hBm hn' np.le (by positivity)
    linarith [show (2 : ℝ) ^ 61 * 2 ^ 62 = 2 ^ 123 by norm_num]
  have nn : n ^ 2 ≤ 2 ^ 124 := by
    have := mul_le_mul hn' hn' np.le (by positivity)
    rw [pow_two]
    linarith [show (2 : ℝ) ^ 62 * 2 ^ 62 = 2 ^ 124 by norm_num]
  obtain ⟨f1, g1⟩ := dot_on k fA fV (by
    have : (3.21 : ℝ) * 2 ^ 123 ≤ 2 ^ 126 := by norm_num
    linarith)
  obtain ⟨f2, g2⟩ := dot_on k fV fV (by
    have : (3.39 : ℝ) * 2 ^ 124 ≤ 2 ^ 126 := by norm_num
    linarith)
  obtain ⟨h1, h2, h3⟩ := param_close (A := A) (D := D) (A' := ⟨A'.x.val, A'.y.val, A'.z.val⟩)
    (V := ⟨V.x.val, V.y.val, V.z.val⟩) hn hS hA hA' hV he he0 g1 g2
  have S0 : 0 < dot D D := by rw [← hS]; positivity
  have Sp : (k.dot3 V V).val ≠ 0 := by linarith
  generalize hq : (k.dot3 A' V).val / (k.dot3 V V).val = q at h3
  have bon : B / n ≤ 2 ^ 111 := by
    rw [div_le_iff₀ np]
    have := mul_le_mul_of_nonneg_left hn (show (0 : ℝ) ≤ 2 ^ 111 by positivity)
    linarith [show (2 : ℝ) ^ 111 * (1 / 2 ^ 50) = 2 ^ 61 by norm_num]
  have bn0 : 0 ≤ B / n := by positivity
  have be : B / n * (37 * e + 75 * uro) ≤ B / n * 3 := by
    gcongr
    have : 75 * uro ≤ 0.01 := by unfold uro; norm_num
    linarith
  have hq1 : |q| ≤ 3 * (B / n) + (B / n * (37 * e + 75 * uro) + 1 / 2 ^ 46) := by
    have := abs_add_le (q - dot A D / dot D D) (dot A D / dot D D)
    rw [sub_add_cancel] at this
    rw [mul_div_assoc] at h2
    linarith
  have big : |q| < 2 ^ 127 := by
    have : (6 : ℝ) * 2 ^ 111 + 1 / 2 ^ 46 < 2 ^ 127 := by norm_num
    linarith
  obtain ⟨f3, g3⟩ := fdiv_rel f1 f2 Sp (by rw [hq]; exact big)
  refine ⟨f3, ?_⟩
  rw [hq] at g3
  have r := abs_sub_le (fdiv (k.dot3 A' V) (k.dot3 V V)).val q (dot A D / dot D D)
  have m := mul_le_mul_of_nonneg_left hq1 hu.le
  have c1 : uro * (B / n * (37 * e + 75 * uro)) ≤ uro * (B / n * 3) := by gcongr
  have c2 : uro * (1 / 2 ^ 46) + 1 / 2 ^ 150 + 1 / 2 ^ 46 ≤ 1 / 2 ^ 45 := by unfold uro; norm_num
  have c3 : uro * (B / n * 3) ≤ 3 * uro * (B / n) := by linarith
  have c4 : 0 ≤ B / n * e := by positivity
  have c5 : 0 ≤ B / n * uro := by positivity
  have c6 : uro * (B / n * (37 * e + 75 * uro)) ≤ B / n * (e + uro) := by
    have k1 : uro * (37 * e + 75 * uro) ≤ e + uro := by
      have u1 : 75 * uro ≤ 1 := by unfold uro; norm_num
      have := mul_le_mul_of_nonneg_left u1 he0
      have := mul_le_mul_of_nonneg_left u1 hu.le
      have : 0 ≤ uro * e := by positivity
      linarith
    have := mul_le_mul_of_nonneg_left k1 bn0
    linarith
  linarith

theorem stdClamp_val {t : F32} (ht : t.isFinite = true) :
    (Flt.stdClamp t (Flt.lit 0) (Flt.lit 1)).isFinite = true ∧
      (Flt.stdClamp t (Flt.lit 0) (Flt.lit 1)).val = max 0 (min t.val 1) := by
  unfold Flt.stdClamp
  have l0 : (Flt.lit 0 : F32).isFinite = true ∧ (Flt.lit 0 : F32).val = 0 := lit0
  have l1 : (Flt.lit 1 : F32).isFinite = true ∧ (Flt.lit 1 : F32).val = 1 := by
    obtain ⟨a, b⟩ := lit_exact (q := 1) (U := 2 ^ 149) (by decide +kernel) (by decide +kernel)
    exact ⟨a, b.trans (by norm_num)⟩
  generalize (Flt.lit 0 : F32) = z at *
  generalize (Flt.lit 1 : F32) = o at *
  obtain ⟨z1, z2⟩ := l0
  obtain ⟨o1, o2⟩ := l1
  change (if ltb t z = true then z else if ltb o t = true then o else t).isFinite = true ∧
    (if ltb t z = true then z else if ltb o t = true then o else t).val = _
  by_cases h : ltb t z = true
  · rw [if_pos h]
    rw [Reliable.flt_iff ht z1] at h
    have h' : t.val < 0 := z2 ▸ h
    exact ⟨z1, by rw [z2, max_eq_left ((min_le_left _ _).trans h'.le)]⟩
  · rw [if_neg h]
    rw [Reliable.flt_iff ht z1, not_lt] at h
    have h' : 0 ≤ t.val := z2 ▸ h
    by_cases g : ltb o t = true
    · rw [if_pos g]
      rw [Reliable.flt_iff o1 ht] at g
      have g' : 1 < t.val := o2 ▸ g
      exact ⟨o1, by rw [o2, min_eq_right g'.le]; norm_num⟩
    · rw [if_neg g]
      rw [Reliable.flt_iff o1 ht, not_lt] at g
      have g' : t.val ≤ 1 := o2 ▸ g
      exact ⟨ht, by rw [min_eq_left g', max_eq_right h']⟩

theorem stdMax_val {t : F32} (ht : t.isFinite = true) :
    (Flt.stdMax t (Flt.lit 0)).isFinite = true ∧ (Flt.stdMax t (Flt.lit 0)).val = max t.val 0 := by
  unfold Flt.stdMax
  have l0 : (Flt.lit 0 : F32).isFinite = true ∧ (Flt.lit 0 : F32).val = 0 := lit0
  generalize (Flt.lit 0 : F32) = z at *
  obtain ⟨z1, z2⟩ := l0
  change (if ltb t z = true then z else t).isFinite = true ∧ (if ltb t z = true then z else t).val = _
  by_cases h : ltb t z = true
  · rw [if_pos h]
    rw [Reliable.flt_iff ht z1] at h
    have h' : t.val < 0 := z2 ▸ h
    exact ⟨z1, by rw [z2, max_eq_right h'.le]⟩
  · rw [if_neg h]
    rw [Reliable.flt_iff ht z1, not_lt] at h
    have h' : 0 ≤ t.val := z2 ▸ h
    exact ⟨ht, (max_eq_left h').symm⟩

theorem sub_within {a b : F32} {M : ℝ} (ha : a.isFinite = true) (hb : b.isFinite = true) (h1 : |a.val| ≤ M) (h2 : |b.val| ≤ M)
    (hM : M ≤ 2 ^ 60) :
    (fsub a b).isFinite = true ∧ |a.val - b.val| ≤ 2 * M ∧ |(fsub a b).val - (a.val - b.val)| ≤ uro * |a.val - b.val| := by
  have h3 := abs_sub a.val b.val
  have h4 : |a.val - b.val| ≤ 2 * M := by linarith
  have h5 := fsub_err' ha hb (lt_of_le_of_lt h4 (by linarith [show (2 : ℝ) * 2 ^ 60 < 2 ^ 127 by norm_num]))
  exact ⟨h5.1, h4, h5.2⟩

/-- One coordinate of the result. -/
theorem coord_line (tg : FTarget) {d c a : F32} {D M n t τ : ℝ} (hd : d.isFinite = true) (hc : c.isFinite = true) (ha : a.isFinite = true)
    (hD : |D| ≤ 2 * M) (hDn : |D| ≤ n) (hdD : |d.val - D| ≤ uro * |D|) (haM : |a.val| ≤ M) (hM : M ≤ 2 ^ 60) (hn : 1 / 2 ^ 50 ≤ n)
    (hnM : n ≤ 4 * M) (hc0 : 0 ≤ c.val) (hc1 : c.val ≤ 1) (hτ : |c.val - t| ≤ τ) (ht0 : 0 ≤ t) (ht1 : t ≤ 1)
    (hτ' : τ ≤ 2 * M / n * (38 * uro + 79 * uro) + 1 / 2 ^ 45) : Near (F32x4.fma1 tg d c a) (a.val + t * D) (M / 2 ^ 16) := by
  have np : 0 < n := lt_of_lt_of_le (by positivity) hn
  have hu := uro_pos
  have M0 : 0 ≤ M := (abs_nonneg _).trans haM
  have k1 : |D| * |c.val - t| ≤ 234 * uro * M + 1 / 2 ^ 45 * (4 * M) := by
    have g := mul_le_mul hDn (hτ.trans hτ') (abs_nonneg _) np.le
    have e : n * (2 * M / n * (38 * uro + 79 * uro) + 1 / 2 ^ 45) = 234 * uro * M + 1 / 2 ^ 45 * n := by field_simp; ring
    rw [e] at g
    linarith
  have hD0 := abs_nonneg D
  have dle : |d.val| ≤ (1 + uro) * |D| := by
    have := abs_add_le (d.val - D) D
    rw [sub_add_cancel] at this
    linarith
  have u1 : uro ≤ 0.01 := by unfold uro; norm_num
  have dc : |d.val * c.val| ≤ 2.02 * M := by
    rw [abs_mul, abs_of_nonneg hc0]
    have g1 := mul_le_mul_of_nonneg_right u1 hD0
    have g2 := mul_le_mul (show |d.val| ≤ 2.02 * M by linarith) hc1 hc0 (by linarith)
    linarith
  have S : |d.val * c.val + a.val| ≤ 3.1 * M := by
    have := abs_add_le (d.val * c.val) a.val
    linarith
  have Ml : 1 / 2 ^ 52 ≤ M := by linarith [show (1 : ℝ) / 2 ^ 50 = 4 * (1 / 2 ^ 52) by norm_num]
  have tiny : (1 : ℝ) / 2 ^ 150 ≤ 1 / 2 ^ 98 * M := by
    have := mul_le_mul_of_nonneg_left Ml (show (0 : ℝ) ≤ 1 / 2 ^ 98 by positivity)
    linarith [show (1 : ℝ) / 2 ^ 98 * (1 / 2 ^ 52) = 1 / 2 ^ 150 by norm_num]
  have A := fma_on tg (M := 3.2 * M) hd hc ha dc (by unfold ulp; linarith) (by linarith [show (2.02 : ℝ) * 2 ^ 60 < 2 ^ 127 by norm_num])
    (by linarith [show (3.2 : ℝ) * 2 ^ 60 < 2 ^ 127 by norm_num])
  refine ⟨A.1, ?_⟩
  have r := abs_sub_le (F32x4.fma1 tg d c a).val (d.val * c.val + a.val) (a.val + t * D)
  have e : d.val * c.val + a.val - (a.val + t * D) = (d.val - D) * c.val + D * (c.val - t) := by ring
  have q : |d.val * c.val + a.val - (a.val + t * D)| ≤ uro * (2 * M) + (234 * uro * M + 1 / 2 ^ 45 * (4 * M)) := by
    rw [e]
    refine (abs_add_le _ _).trans ?_
    rw [abs_mul, abs_mul, abs_of_nonneg hc0]
    have g1 := mul_le_mul hdD hc1 hc0 (by positivity)
    have g2 := mul_le_mul_of_nonneg_left hD hu.le
    linarith
  have A2 := A.2
  change |(F32x4.fma1 tg d c a).val - _| ≤ _
  unfold ulp at A2
  unfold uro at q
  linarith

theorem clamp_lip (x y : ℝ) : |max 0 (min x 1) - max 0 (min y 1)| ≤ |x - y| := by
  have h1 := abs_max_sub_max_le_abs (min x 1) (min y 1) 0
  rw [max_comm _ 0, max_comm _ 0] at h1
  exact h1.trans (abs_min_sub_min_le_max x 1 y 1 |>.trans (by simp))

end ClosestF32

open ClosestF32

/-- C126: in binary32, on every backend and with the multiply-add of every target, the closest point of a segment is within `M / 2^16`, in every coordinate, of the point of the exact
segment nearest to `p`, `M` bounding the coordinates. It does not matter how long the segment is, as long as it is not
shorter than `2^-50`, nor where `p` is. -/
theorem line_closest_targets_f32 (k : Backend) (tg : FTarget) (l : Line F32) (p : V4 F32) (M : ℝ) (ha : CoordsLe M l.start) (hb : CoordsLe M l.end) (hp : CoordsLe M p)
    (hM : M ≤ 2 ^ 60) (hl : 1 / 2 ^ 100 ≤ dist2 (pos l.end) (pos l.start)) :
    ∃ n, Nearest (Segment (pos l.start) (pos l.end)) (pos p) n ∧ NearPt (F32x4.lineClosest k tg l p) n (M / 2 ^ 16) := by
  obtain ⟨fa, a1, a2, a3⟩ := ha
  obtain ⟨fb, b1, b2, b3⟩ := hb
  obtain ⟨fp, p1, p2, p3⟩ := hp
  have fa1 := fa l.start.x (by simp); have fa2 := fa l.start.y (by simp); have fa3 := fa l.start.z (by simp)
  have fb1 := fb l.end.x (by simp); have fb2 := fb l.end.y (by simp); have fb3 := fb l.end.z (by simp)
  have fp1 := fp p.x (by simp); have fp2 := fp p.y (by simp); have fp3 := fp p.z (by simp)
  obtain ⟨x1, x2, x3⟩ := sub_within fb1 fa1 b1 a1 hM
  obtain ⟨y1, y2, y3⟩ := sub_within fb2 fa2 b2 a2 hM
  obtain ⟨z1, z2, z3⟩ := sub_within fb3 fa3 b3 a3 hM
  obtain ⟨r1, r2, r3⟩ := sub_within fp1 fa1 p1 a1 hM
  obtain ⟨s1, s2, s3⟩ := sub_within fp2 fa2 p2 a2 hM
  obtain ⟨t1, t2, t3⟩ := sub_within fp3 fa3 p3 a3 hM
  have hu := uro_pos
  have M0 : 0 ≤ M := (abs_nonneg _).trans a1
  set D : V3 ℝ := diff (pos l.end) (pos l.start) with hD
  have hdd : dist2 (pos l.end) (pos l.start) = dot D D := by simp only [hD, dist2, dot, diff]; ring
  set n := Real.sqrt (dot D D) with hn
  have S0 : 0 ≤ dot D D := dot_self_nonneg D
  have n2 : n ^ 2 = dot D D := Real.sq_sqrt S0
  have n0 : 0 ≤ n := Real.sqrt_nonneg _
  have nl : 1 / 2 ^ 50 ≤ n := by
    rw [hdd] at hl
    apply Real.le_sqrt_of_sq_le
    calc ((1 : ℝ) / 2 ^ 50) ^ 2 = 1 / 2 ^ 100 := by norm_num
      _ ≤ _ := hl
  have nM : n ≤ 4 * M := by
    apply Real.sqrt_le_iff.2
    refine ⟨by linarith, ?_⟩
    have g1 := sq_bound x2; have g2 := sq_bound y2; have g3 := sq_bound z2
    have : dot D D ≤ 12 * M ^ 2 := by
      have e : dot D D = (l.end.x.val - l.start.x.val) * (l.end.x.val - l.start.x.val) +
        (l.end.y.val - l.start.y.val) * (l.end.y.val - l.start.y.val) +
        (l.end.z.val - l.start.z.val) * (l.end.z.val - l.start.z.val) := rfl
      rw [e]; linarith
    linarith [sq_nonneg M, show (4 * M) ^ 2 = 16 * M ^ 2 by ring]
  have dn (x y z : ℝ) (h : n ^ 2 = x * x + y * y + z * z) : |x| ≤ n := coord_le n0 h
  have d1 : |D.x| ≤ n := dn D.x D.y D.z n2
  have d2 : |D.y| ≤ n := dn D.y D.x D.z (by rw [n2]; simp only [dot]; ring)
  have d3 : |D.z| ≤ n := dn D.z D.x D.y (by rw [n2]; simp only [dot]; ring)
  have w (x y d : ℝ) (h : |x - d| ≤ uro * |d|) (h' : |d| ≤ y) : |x - d| ≤ uro * y := h.trans (by gcongr)
  obtain ⟨ft, et⟩ := param_f32 k (A' := V4.sub p l.start) (V := V4.sub l.end l.start)
    (A := diff (pos p) (pos l.start)) (D := D) (B := 2 * M) (n := n) (e := uro) nl
    (by linarith [show (4 : ℝ) * 2 ^ 60 = 2 ^ 62 by norm_num]) (by linarith [show (2 : ℝ) * 2 ^ 60 = 2 ^ 61 by norm_num]) n2
    (by intro x hx; simp only [List.mem_cons, List.not_mem_nil, or_false] at hx; rcases hx with rfl | rfl | rfl <;> assumption)
    (by intro x hx; simp only [List.mem_cons, List.not_mem_nil, or_false] at hx; rcases hx with rfl | rfl | rfl <;> assumption)
    ⟨r2, s2, t2⟩ ⟨w _ _ _ r3 r2, w _ _ _ s3 s2, w _ _ _ t3 t2⟩ ⟨w _ _ _ x3 d1, w _ _ _ y3 d2, w _ _ _ z3 d3⟩
    (by unfold uro; norm_num) hu.le
  obtain ⟨fc, ec⟩ := stdClamp_val ft
  set t' : F32 := fdiv (k.dot3 (V4.sub p l.start) (V4.sub l.end l.start)) (k.dot3 (V4.sub l.end l.start) (V4.sub l.end l.start))
    with ht'
  set c : F32 := Flt.stdClamp t' (Flt.lit 0) (Flt.lit 1) with hc
  set t : ℝ := dot (diff (pos p) (pos l.start)) D / dot D D with ht
  have hr : F32x4.lineClosest k tg l p = ⟨F32x4.fma1 tg (fsub l.end.x l.start.x) c l.start.x, F32x4.fma1 tg (fsub l.end.y l.start.y) c l.start.y,
      F32x4.fma1 tg (fsub l.end.z l.start.z) c l.start.z, F32x4.fma1 tg (fsub l.end.w l.start.w) c l.start.w⟩ := rfl
  have c0 : 0 ≤ c.val := by rw [ec]; exact le_max_left _ _
  have c1 : c.val ≤ 1 := by rw [ec]; exact max_le (by norm_num) (min_le_right _ _)
  have q0 : 0 ≤ max 0 (min t 1) := le_max_left _ _
  have q1 : max 0 (min t 1) ≤ 1 := max_le (by norm_num) (min_le_right _ _)
  have qc : |c.val - max 0 (min t 1)| ≤ 2 * M / n * (38 * uro + 79 * uro) + 1 / 2 ^ 45 := by
    rw [ec]; exact (clamp_lip _ _).trans et
  refine ⟨along (pos l.start) D (max 0 (min t 1)), ?_, ?_⟩
  · have h := line_closestPoint (⟨⟨(pos l.start).x, (pos l.start).y, (pos l.start).z, 0⟩,
      ⟨(pos l.end).x, (pos l.end).y, (pos l.end).z, 0⟩⟩ : Line ℝ) ⟨(pos p).x, (pos p).y, (pos p).z, 0⟩ (by
        intro h
        have h' : pos l.end = pos l.start := h
        rw [h'] at hl
        simp only [dist2, sub_self] at hl
        norm_num at hl)
    rw [line_t] at h
    exact h
  · rw [hr]
    refine ⟨?_, ?_, ?_⟩
    · exact coord_line tg x1 fc fa1 x2 d1 x3 a1 hM nl nM c0 c1 qc q0 q1 le_rfl
    · exact coord_line tg y1 fc fa2 y2 d2 y3 a2 hM nl nM c0 c1 qc q0 q1 le_rfl
    · exact coord_line tg z1 fc fa3 z2 d3 z3 a3 hM nl nM c0 c1 qc q0 q1 le_rfl

/-- C126: the same for SSE4.1 with a fused multiply-add. -/
theorem line_closest_f32 (l : Line F32) (p : V4 F32) (M : ℝ) (ha : CoordsLe M l.start) (hb : CoordsLe M l.end) (hp : CoordsLe M p)
    (hM : M ≤ 2 ^ 60) (hl : 1 / 2 ^ 100 ≤ dist2 (pos l.end) (pos l.start)) :
    ∃ n, Nearest (Segment (pos l.start) (pos l.end)) (pos p) n ∧ NearPt (l.closestPoint p) n (M / 2 ^ 16) :=
  line_closest_targets_f32 .sse41 (.sse true) l p M ha hb hp hM hl

namespace ClosestF32

/-- The direction of a ray as the code recomputes it: `(o + d) - o`. -/
theorem redo_dir {o d : F32} {M n : ℝ} (ho : o.isFinite = true) (hd : d.isFinite = true) (hoM : |o.val| ≤ M) (hM1 : 1 ≤ M)
    (hM : M ≤ 2 ^ 18) (hdn : |d.val| ≤ n) (hn : 0.999 ≤ n) (hn' : n ≤ 1.001) :
    (fsub (fadd o d) o).isFinite = true ∧ |(fsub (fadd o d) o).val - d.val| ≤ 2 * uro * (M + 1) * n := by
  have hu := uro_pos
  have h1 := abs_add_le o.val d.val
  have h2 : |o.val + d.val| ≤ M + 1.001 := by linarith
  obtain ⟨f1, e1⟩ := fadd_err' ho hd (lt_of_le_of_lt h2 (by linarith [show (2 : ℝ) ^ 18 + 1.001 < 2 ^ 127 by norm_num]))
  have e2 : |(fadd o d).val - (o.val + d.val)| ≤ uro * (M + 1.001) := e1.trans (by gcongr)
  have um : uro * (M + 1.001) ≤ 0.05 := by
    have : uro * (2 ^ 18 + 1.001) ≤ 0.05 := by unfold uro; norm_num
    have := mul_le_mul_of_nonneg_left hM hu.le
    linarith
  have h3 : |(fadd o d).val - o.val| ≤ 1.1 := by
    have := abs_add_le ((fadd o d).val - (o.val + d.val)) d.val
    rw [show (fadd o d).val - (o.val + d.val) + d.val = (fadd o d).val - o.val by ring] at this
    linarith
  obtain ⟨f2, e3⟩ := fsub_err' f1 ho (lt_of_le_of_lt h3 (by norm_num))
  refine ⟨f2, ?_⟩
  have e4 := abs_sub_le (fsub (fadd o d) o).val ((fadd o d).val - o.val) d.val
  rw [show (fadd o d).val - o.val - d.val = (fadd o d).val - (o.val + d.val) by ring] at e4
  have e5 := mul_le_mul_of_nonneg_left h3 hu.le
  have e6 : uro * (M + 2.2) ≤ 2 * uro * (M + 1) * n := by
    have k : M + 2.2 ≤ 2 * (M + 1) * 0.999 := by linarith
    have k2 : 2 * (M + 1) * 0.999 ≤ 2 * (M + 1) * n := by gcongr
    have := mul_le_mul_of_nonneg_left (k.trans k2) hu.le
    linarith
  linarith

/-- One coordinate of the result. -/
theorem coord_ray (tg : FTarget) {d c a : F32} {M n t : ℝ} (hd : d.isFinite = true) (hc : c.isFinite = true) (ha : a.isFinite = true)
    (hDn : |d.val| ≤ n) (hn : 0.999 ≤ n) (hn' : n ≤ 1.001) (haM : |a.val| ≤ M) (hM1 : 1 ≤ M) (hM : M ≤ 2 ^ 18)
    (ht : |t| ≤ 3 * (2 * M) / n)
    (hτ : |c.val - t| ≤ 2 * M / n * (38 * (2 * uro * (M + 1)) + 79 * uro) + 1 / 2 ^ 45) :
    Near (F32x4.fma1 tg d c a) (a.val + t * d.val) (M ^ 2 / 2 ^ 15) := by
  have hu := uro_pos
  have np : 0 < n := by linarith
  have MM : M ≤ M ^ 2 := by
    have := mul_le_mul_of_nonneg_left hM1 (show 0 ≤ M by linarith)
    linarith [show M * M = M ^ 2 by ring]
  have t1 : |t| ≤ 6.1 * M := by
    refine ht.trans ?_
    rw [div_le_iff₀ np]
    have := mul_le_mul_of_nonneg_left hn (show 0 ≤ 6.1 * M by linarith)
    linarith
  have k0 : 2 * M / n ≤ 2.01 * M := by
    rw [div_le_iff₀ np]
    have := mul_le_mul_of_nonneg_left hn (show 0 ≤ 2.01 * M by linarith)
    linarith
  have k1 : |c.val - t| ≤ 465 * uro * M ^ 2 := by
    have g1 : 38 * (2 * uro * (M + 1)) + 79 * uro ≤ 231 * uro * M := by
      have := mul_le_mul_of_nonneg_left hM1 hu.le
      linarith
    have g2 := mul_le_mul k0 g1 (by positivity) (by linarith)
    have g3 : (1 : ℝ) / 2 ^ 45 ≤ 0.5 * uro * M ^ 2 := by
      have : (1 : ℝ) / 2 ^ 45 ≤ 0.5 * uro := by unfold uro; norm_num
      have : 0.5 * uro * 1 ≤ 0.5 * uro * M ^ 2 := by
        have : (1 : ℝ) ≤ M ^ 2 := hM1.trans MM
        gcongr
      linarith
    have e : 2.01 * M * (231 * uro * M) = 464.31 * uro * M ^ 2 := by ring
    have : 0 ≤ uro * M ^ 2 := by positivity
    linarith
  have c1 : |c.val| ≤ 14 * M := by
    have := abs_add_le (c.val - t) t
    rw [sub_add_cancel] at this
    have g : 465 * uro * M ^ 2 ≤ 7.5 * M := by
      have g1 : 465 * uro * M ≤ 7.5 := by
        have : 465 * uro * 2 ^ 18 ≤ 7.5 := by unfold uro; norm_num
        have := mul_le_mul_of_nonneg_left hM (show 0 ≤ 465 * uro by positivity)
        linarith
      have := mul_le_mul_of_nonneg_right g1 (show 0 ≤ M by linarith)
      linarith [show 465 * uro * M * M = 465 * uro * M ^ 2 by ring]
    linarith
  have Pb : |d.val * c.val| ≤ 14.1 * M := by
    rw [abs_mul]
    have := mul_le_mul (hDn.trans hn') c1 (abs_nonneg _) (by norm_num)
    linarith
  have S : |d.val * c.val + a.val| ≤ 15.1 * M := by
    have g := abs_add_le (d.val * c.val) a.val
    linarith
  have tiny : (1 : ℝ) / 2 ^ 150 ≤ 1 / 2 ^ 24 * M := by
    have := mul_le_mul_of_nonneg_left hM1 (show (0 : ℝ) ≤ 1 / 2 ^ 24 by positivity)
    linarith [show (1 : ℝ) / 2 ^ 150 ≤ 1 / 2 ^ 24 by norm_num]
  have tiny' : (1 : ℝ) / 2 ^ 150 ≤ 1 / 2 ^ 100 * M := by
    have := mul_le_mul_of_nonneg_left hM1 (show (0 : ℝ) ≤ 1 / 2 ^ 100 by positivity)
    linarith [show (1 : ℝ) / 2 ^ 150 ≤ 1 / 2 ^ 100 by norm_num]
  have A := fma_on tg (M := 15.2 * M) hd hc ha Pb (by unfold ulp; linarith) (by linarith [show (14.1 : ℝ) * 2 ^ 18 < 2 ^ 127 by norm_num])
    (by linarith [show (15.2 : ℝ) * 2 ^ 18 < 2 ^ 127 by norm_num])
  refine ⟨A.1, ?_⟩
  have r := abs_sub_le (F32x4.fma1 tg d c a).val (d.val * c.val + a.val) (a.val + t * d.val)
  have e : d.val * c.val + a.val - (a.val + t * d.val) = d.val * (c.val - t) := by ring
  rw [e, abs_mul] at r
  have q := mul_le_mul (hDn.trans hn') k1 (abs_nonneg _) (by norm_num)
  have A2 := A.2
  change |(F32x4.fma1 tg d c a).val - _| ≤ _
  unfold ulp at A2
  unfold uro at q
  linarith

end ClosestF32

/-- C126 (partial): in binary32, on every backend and with the multiply-add of every target, the closest point of a ray of unit direction is within `M^2 / 2^15`, in every coordinate, of
the exact one, for coordinates up to `M <= 2^18`. The error grows with the square of the coordinates, and far from the
origin the result is not a number (`ray_closest_nan`), because the code recomputes the direction as the difference of two
points. -/
theorem ray_closest_targets_f32_partial (k : Backend) (tg : FTarget) (r : Ray F32) (p : V4 F32) (M : ℝ) (ho : CoordsLe M r.origin) (hp : CoordsLe M p)
    (hd : AllFinite [r.direction.x, r.direction.y, r.direction.z]) (h1 : |dot (pos r.direction) (pos r.direction) - 1| ≤ 1 / 2 ^ 10)
    (hM1 : 1 ≤ M) (hM : M ≤ 2 ^ 18) :
    ∃ n, Nearest (RayPts (pos r.origin) (pos r.direction)) (pos p) n ∧ NearPt (F32x4.rayClosest k tg r p) n (M ^ 2 / 2 ^ 15) := by
  obtain ⟨fa, a1, a2, a3⟩ := ho
  obtain ⟨fp, p1, p2, p3⟩ := hp
  have fa1 := fa r.origin.x (by simp); have fa2 := fa r.origin.y (by simp); have fa3 := fa r.origin.z (by simp)
  have fp1 := fp p.x (by simp); have fp2 := fp p.y (by simp); have fp3 := fp p.z (by simp)
  have fd1 := hd r.direction.x (by simp); have fd2 := hd r.direction.y (by simp); have fd3 := hd r.direction.z (by simp)
  have hM60 : M ≤ 2 ^ 60 := hM.trans (by norm_num)
  obtain ⟨r1, r2, r3⟩ := sub_within fp1 fa1 p1 a1 hM60
  obtain ⟨s1, s2, s3⟩ := sub_within fp2 fa2 p2 a2 hM60
  obtain ⟨t1, t2, t3⟩ := sub_within fp3 fa3 p3 a3 hM60
  have hu := uro_pos
  set D : V3 ℝ := pos r.direction with hD
  set n := Real.sqrt (dot D D) with hn
  have S0 : 0 ≤ dot D D := dot_self_nonneg D
  have n2 : n ^ 2 = dot D D := Real.sq_sqrt S0
  have n0 : 0 ≤ n := Real.sqrt_nonneg _
  obtain ⟨l1, l2⟩ := abs_le.1 h1
  have nl : 0.999 ≤ n := by
    apply Real.le_sqrt_of_sq_le
    norm_num at l1 ⊢; linarith
  have nh : n ≤ 1.001 := by
    apply Real.sqrt_le_iff.2
    refine ⟨by norm_num, ?_⟩
    norm_num at l2 ⊢; linarith
  have dn (x y z : ℝ) (h : n ^ 2 = x * x + y * y + z * z) : |x| ≤ n := coord_le n0 h
  have d1 : |D.x| ≤ n := dn D.x D.y D.z n2
  have d2 : |D.y| ≤ n := dn D.y D.x D.z (by rw [n2]; simp only [dot]; ring)
  have d3 : |D.z| ≤ n := dn D.z D.x D.y (by rw [n2]; simp only [dot]; ring)
  obtain ⟨x1, x3⟩ := redo_dir fa1 fd1 a1 hM1 hM d1 nl nh
  obtain ⟨y1, y3⟩ := redo_dir fa2 fd2 a2 hM1 hM d2 nl nh
  obtain ⟨z1, z3⟩ := redo_dir fa3 fd3 a3 hM1 hM d3 nl nh
  have w (x y d : ℝ) (h : |x - d| ≤ uro * |d|) (h' : |d| ≤ y) : |x - d| ≤ uro * y := h.trans (by gcongr)
  have he : 2 * uro * (M + 1) ≤ 1 / 16 := by
    have : 2 * uro * (2 ^ 18 + 1) ≤ 1 / 16 := by unfold uro; norm_num
    have := mul_le_mul_of_nonneg_left hM (show 0 ≤ 2 * uro by positivity)
    linarith
  have hA : |(diff (pos p) (pos r.origin)).x| ≤ 2 * M ∧ |(diff (pos p) (pos r.origin)).y| ≤ 2 * M ∧
    |(diff (pos p) (pos r.origin)).z| ≤ 2 * M := ⟨r2, s2, t2⟩
  obtain ⟨ft, et⟩ := param_f32 k (A' := V4.sub p r.origin) (V := V4.sub (V4.add r.origin r.direction) r.origin)
    (A := diff (pos p) (pos r.origin)) (D := D) (B := 2 * M) (n := n) (e := 2 * uro * (M + 1))
    (le_trans (by norm_num) nl) (nh.trans (by norm_num)) (by linarith [show (2 : ℝ) * 2 ^ 60 = 2 ^ 61 by norm_num]) n2
    (by intro x hx; simp only [List.mem_cons, List.not_mem_nil, or_false] at hx; rcases hx with rfl | rfl | rfl <;> assumption)
    (by intro x hx; simp only [List.mem_cons, List.not_mem_nil, or_false] at hx; rcases hx with rfl | rfl | rfl <;> assumption)
    hA ⟨w _ _ _ r3 r2, w _ _ _ s3 s2, w _ _ _ t3 t2⟩ ⟨x3, y3, z3⟩ he (by positivity)
  obtain ⟨fc, ec⟩ := stdMax_val ft
  set t' : F32 := fdiv (k.dot3 (V4.sub p r.origin) (V4.sub (V4.add r.origin r.direction) r.origin))
    (k.dot3 (V4.sub (V4.add r.origin r.direction) r.origin) (V4.sub (V4.add r.origin r.direction) r.origin)) with ht'
  set c : F32 := Flt.stdMax t' (Flt.lit 0) with hc
  have np : 0 < n := by linarith
  have tq : |dot (diff (pos p) (pos r.origin)) D / dot D D| ≤ 3 * (2 * M) / n := by
    have q := abs3 ((diff (pos p) (pos r.origin)).x * D.x) ((diff (pos p) (pos r.origin)).y * D.y)
      ((diff (pos p) (pos r.origin)).z * D.z)
    have g1 := mul_le_mul hA.1 d1 (abs_nonneg _) (by linarith)
    have g2 := mul_le_mul hA.2.1 d2 (abs_nonneg _) (by linarith)
    have g3 := mul_le_mul hA.2.2 d3 (abs_nonneg _) (by linarith)
    rw [abs_mul, abs_mul, abs_mul] at q
    rw [abs_div, abs_of_nonneg S0, ← n2, div_le_div_iff₀ (by positivity) np]
    have := mul_le_mul_of_nonneg_right (q.trans (show _ ≤ 3 * (2 * M * n) by linarith)) np.le
    have e : 3 * (2 * M * n) * n = 3 * (2 * M) * n ^ 2 := by ring
    rw [e] at this
    exact this
  set t : ℝ := dot (diff (pos p) (pos r.origin)) D / dot D D with ht
  have hr : F32x4.rayClosest k tg r p = ⟨F32x4.fma1 tg r.direction.x c r.origin.x, F32x4.fma1 tg r.direction.y c r.origin.y,
      F32x4.fma1 tg r.direction.z c r.origin.z, F32x4.fma1 tg r.direction.w c r.origin.w⟩ := rfl
  have tm : |max t 0| ≤ 3 * (2 * M) / n := by
    rw [abs_of_nonneg (le_max_right _ _)]
    exact max_le ((le_abs_self _).trans tq) ((abs_nonneg _).trans tq)
  have qc : |c.val - max t 0| ≤ 2 * M / n * (38 * (2 * uro * (M + 1)) + 79 * uro) + 1 / 2 ^ 45 := by
    rw [ec]; exact (abs_max_sub_max_le_abs _ _ _).trans et
  refine ⟨along (pos r.origin) D (max t 0), ?_, ?_⟩
  · have h := ray_closestPoint (⟨⟨D.x, D.y, D.z, 0⟩, ⟨0, 0, 0, 0⟩,
      ⟨(pos r.origin).x, (pos r.origin).y, (pos r.origin).z, 0⟩⟩ : Ray ℝ) ⟨(pos p).x, (pos p).y, (pos p).z, 0⟩ (by
        intro h
        have h' : D = ⟨0, 0, 0⟩ := h
        rw [h'] at l1
        simp only [dot] at l1
        norm_num at l1)
    rw [ray_t] at h
    exact h
  · rw [hr]
    refine ⟨?_, ?_, ?_⟩
    · exact coord_ray tg fd1 fc fa1 d1 nl nh a1 hM1 hM tm qc
    · exact coord_ray tg fd2 fc fa2 d2 nl nh a2 hM1 hM tm qc
    · exact coord_ray tg fd3 fc fa3 d3 nl nh a3 hM1 hM tm qc

/-- C126 (partial): the same for SSE4.1 with a fused multiply-add. -/
theorem ray_closest_f32_partial (r : Ray F32) (p : V4 F32) (M : ℝ) (ho : CoordsLe M r.origin) (hp : CoordsLe M p)
    (hd : AllFinite [r.direction.x, r.direction.y, r.direction.z]) (h1 : |dot (pos r.direction) (pos r.direction) - 1| ≤ 1 / 2 ^ 10)
    (hM1 : 1 ≤ M) (hM : M ≤ 2 ^ 18) :
    ∃ n, Nearest (RayPts (pos r.origin) (pos r.direction)) (pos p) n ∧ NearPt (r.closestPoint p) n (M ^ 2 / 2 ^ 15) :=
  ray_closest_targets_f32_partial .sse41 (.sse true) r p M ho hp hd h1 hM1 hM

namespace ClosestF32

theorem four_of_big {x : F32} (h : 2 ^ 25 ≤ |x.val|) : ∃ k : ℤ, x.val = 4 * k := by
  obtain ⟨s, k, hm, hk, hs⟩ := mag_decomp x.mag
  have hmu : magUnits x.mag = k * 2 ^ s := by rw [hm]; exact magUnits_eq s k hk.le hs
  have hv : |x.val| = (k : ℝ) * 2 ^ s / 2 ^ 149 := by
    rw [val_units, abs_div, abs_of_pos (by positivity : (0 : ℝ) < 2 ^ 149)]
    congr 1
    unfold units
    split <;> rw [hmu] <;> push_cast
    · rw [abs_neg, abs_of_nonneg (by positivity)]
    · rw [abs_of_nonneg (by positivity)]
  have hs2 : 151 ≤ s := by
    by_contra hc
    have h1 : (2 : ℝ) ^ s ≤ 2 ^ 150 := pow_le_pow_right₀ (by norm_num) (by omega)
    have h2 : (k : ℝ) < 2 ^ 24 := by exact_mod_cast hk
    have h3 : (k : ℝ) * 2 ^ s < 2 ^ 24 * 2 ^ 150 := by
      calc (k : ℝ) * 2 ^ s ≤ k * 2 ^ 150 := by gcongr
        _ < _ := by gcongr
    rw [hv, le_div_iff₀ (by norm_num)] at h
    norm_num at h h3; linarith
  obtain ⟨j, rfl⟩ := Nat.exists_eq_add_of_le hs2
  have hu : x.val = (x.units : ℝ) / 2 ^ 149 := val_units x
  have e : ∀ z : ℝ, z * 2 ^ (151 + j) / 2 ^ 149 = 4 * (z * 2 ^ j) := by
    intro z; rw [pow_add, show (2 : ℝ) ^ 151 = 4 * 2 ^ 149 by norm_num]; field_simp
  unfold units at hu
  rw [hmu] at hu
  split at hu
  · exact ⟨-(k * 2 ^ j : ℕ), by rw [hu]; push_cast; rw [← neg_mul, e]; ring⟩
  · exact ⟨(k * 2 ^ j : ℕ), by rw [hu]; push_cast; rw [e]⟩

/-- Adding at most one to a large number changes nothing. -/
theorem add_lost {o d : F32} (ho : o.isFinite = true) (hd : d.isFinite = true) (h1 : 2 ^ 26 ≤ |o.val|) (h2 : |o.val| ≤ 2 ^ 60)
    (h3 : |d.val| ≤ 1) : (fsub (fadd o d) o).isFinite = true ∧ (fsub (fadd o d) o).val = 0 := by
  have hb : |((o.toRat + d.toRat : Rat) : ℝ)| ≤ 2 ^ 61 := by
    have e : ((o.toRat + d.toRat : Rat) : ℝ) = o.val + d.val := by unfold val; push_cast; rfl
    rw [e]
    have := abs_add_le o.val d.val
    linarith [show (2 : ℝ) ^ 60 + 1 ≤ 2 ^ 61 by norm_num]
  have hnear := fadd_nearest ho hd (rat_le_max hb (by norm_num))
  have e : ((o.toRat + d.toRat : Rat) : ℝ) = o.val + d.val := by unfold val; push_cast; rfl
  rw [e] at hnear
  have h4 := hnear.2 o ho
  change |(fadd o d).val - (o.val + d.val)| ≤ |o.val - (o.val + d.val)| at h4
  rw [show o.val - (o.val + d.val) = -d.val by ring, abs_neg] at h4
  have h5 : |(fadd o d).val - o.val| ≤ 2 := by
    have := abs_add_le ((fadd o d).val - (o.val + d.val)) d.val
    rw [show (fadd o d).val - (o.val + d.val) + d.val = (fadd o d).val - o.val by ring] at this
    linarith
  have h6 : 2 ^ 25 ≤ |(fadd o d).val| := by
    have := abs_sub_abs_le_abs_sub o.val (fadd o d).val
    rw [abs_sub_comm] at this
    linarith [show (2 : ℝ) ^ 25 + 2 ≤ 2 ^ 26 by norm_num]
  obtain ⟨k, hk⟩ := four_of_big h6
  obtain ⟨j, hj⟩ := four_of_big (x := o) (le_trans (by norm_num) h1)
  have h7 : (fadd o d).val - o.val = 0 := by
    rw [hk, hj] at h5 ⊢
    have h8 : |((k - j : ℤ) : ℝ)| < 1 := by
      push_cast
      rw [show (4 : ℝ) * k - 4 * j = 4 * (k - j) by ring, abs_mul, abs_of_pos (by norm_num : (0 : ℝ) < 4)] at h5
      linarith
    have h9 : |k - j| < 1 := by exact_mod_cast h8
    have : k - j = 0 := Int.abs_lt_one_iff.1 h9
    have : k = j := by omega
    rw [this]; ring
  have := fsub_exact hnear.1 ho lit0.1 (by rw [lit0.2, h7])
  exact ⟨this.1, by rw [this.eq, h7]⟩

theorem mag_of_val {x : F32} (h : x.val = 0) : x.mag = 0 := by
  unfold val at h
  exact (toRat_zero_iff x).1 (by exact_mod_cast h)

theorem dot_zero_on (k : Backend) {c a : V4 F32} (hc : c.x.isFinite = true ∧ c.y.isFinite = true ∧ c.z.isFinite = true)
    (ha : a.x.isFinite = true ∧ a.y.isFinite = true ∧ a.z.isFinite = true) (h : a.x.val = 0 ∧ a.y.val = 0 ∧ a.z.val = 0) :
    (k.dot3 c a).val = 0 := by
  have sse := dot_zero hc ha h
  have e (x y : F32) (hx : x.isFinite = true) (hy : y.isFinite = true) (h : y.val = 0) : Approx (fmul x y) 0 0 := by
    have := fmul_exact hx hy lit0.1 (by rw [lit0.2, h, mul_zero])
    rwa [h, mul_zero] at this
  have p1 := e _ _ hc.1 ha.1 h.1
  have p2 := e _ _ hc.2.1 ha.2.1 h.2.1
  have p3 := e _ _ hc.2.2 ha.2.2 h.2.2
  have q1 := fadd_exact p1.1 p2.1 lit0.1 (by rw [lit0.2, p1.eq, p2.eq, add_zero])
  have q2 := fadd_exact q1.1 p3.1 lit0.1 (by rw [lit0.2, q1.eq, p1.eq, p2.eq, p3.eq]; simp)
  have seq : (V3.dot c.xyz a.xyz).val = 0 := by
    change (fadd (fadd (fmul c.x a.x) (fmul c.y a.y)) (fmul c.z a.z)).val = 0
    rw [q2.eq, q1.eq, p1.eq, p2.eq, p3.eq]; simp
  cases k
  exacts [seq, sse, sse, seq]

end ClosestF32

/-- C126 fails far from the origin, on every backend and target: for every ray whose origin has coordinates of at least `2^26` in absolute value, and
every point, the answer is not a number, because adding a unit direction to such an origin does not move it. -/
theorem ray_closest_targets_nan (k : Backend) (tg : FTarget) (r : Ray F32) (p : V4 F32) (ho : CoordsLe (2 ^ 60) r.origin) (hp : CoordsLe (2 ^ 60) p)
    (hd : CoordsLe 1 r.direction)
    (h : 2 ^ 26 ≤ |(pos r.origin).x| ∧ 2 ^ 26 ≤ |(pos r.origin).y| ∧ 2 ^ 26 ≤ |(pos r.origin).z|) :
    (F32x4.rayClosest k tg r p).x.isNaN = true ∧ (F32x4.rayClosest k tg r p).y.isNaN = true ∧ (F32x4.rayClosest k tg r p).z.isNaN = true := by
  obtain ⟨fa, a1, a2, a3⟩ := ho
  obtain ⟨fp, p1, p2, p3⟩ := hp
  obtain ⟨fd, d1, d2, d3⟩ := hd
  have fa1 := fa r.origin.x (by simp); have fa2 := fa r.origin.y (by simp); have fa3 := fa r.origin.z (by simp)
  have fp1 := fp p.x (by simp); have fp2 := fp p.y (by simp); have fp3 := fp p.z (by simp)
  have fd1 := fd r.direction.x (by simp); have fd2 := fd r.direction.y (by simp); have fd3 := fd r.direction.z (by simp)
  have r1 := (sub_within fp1 fa1 p1 a1 le_rfl).1
  have s1 := (sub_within fp2 fa2 p2 a2 le_rfl).1
  have t1 := (sub_within fp3 fa3 p3 a3 le_rfl).1
  have x := add_lost fa1 fd1 h.1 a1 d1
  have y := add_lost fa2 fd2 h.2.1 a2 d2
  have z := add_lost fa3 fd3 h.2.2 a3 d3
  have n1 : (k.dot3 (V4.sub p r.origin) (V4.sub (V4.add r.origin r.direction) r.origin)).val = 0 :=
    dot_zero_on k ⟨r1, s1, t1⟩ ⟨x.1, y.1, z.1⟩ ⟨x.2, y.2, z.2⟩
  have n2 : (k.dot3 (V4.sub (V4.add r.origin r.direction) r.origin) (V4.sub (V4.add r.origin r.direction) r.origin)).val = 0 :=
    dot_zero_on k ⟨x.1, y.1, z.1⟩ ⟨x.1, y.1, z.1⟩ ⟨x.2, y.2, z.2⟩
  have ht : (fdiv (k.dot3 (V4.sub p r.origin) (V4.sub (V4.add r.origin r.direction) r.origin))
      (k.dot3 (V4.sub (V4.add r.origin r.direction) r.origin) (V4.sub (V4.add r.origin r.direction) r.origin))).isNaN = true := by
    have m1 := mag_of_val n1
    have m2 := mag_of_val n2
    generalize k.dot3 (V4.sub p r.origin) (V4.sub (V4.add r.origin r.direction) r.origin) = u at *
    generalize k.dot3 (V4.sub (V4.add r.origin r.direction) r.origin) (V4.sub (V4.add r.origin r.direction) r.origin) = v at *
    have e : fdiv u v = nan := by
      unfold fdiv isNaN isInf infMag
      rw [m1, m2]; rfl
    rw [e]; rfl
  have hc (t : F32) (ht : t.isNaN = true) : (Flt.stdMax t (Flt.lit 0)).isNaN = true := by
    have hl : ltb t (Flt.lit 0) = false := by simp [ltb, ht]
    change (if ltb t (Flt.lit 0) = true then (Flt.lit 0 : F32) else t).isNaN = true
    rw [hl]; exact ht
  have hf (a b c : F32) (h : b.isNaN = true) : (F32x4.fma1 tg a b c).isNaN = true := by
    have h1 : (ffma a b c).isNaN = true := by unfold ffma; simp [h]; rfl
    have h2 : (fmul a b).isNaN = true := by unfold fmul; simp [h]; rfl
    have h3 : (fadd c (fmul a b)).isNaN = true := by unfold fadd; simp [h2]; rfl
    rcases tg with (_ | _) | (_ | _)
    exacts [h3, h1, h3, h1]
  exact ⟨hf _ _ _ (hc _ ht), hf _ _ _ (hc _ ht), hf _ _ _ (hc _ ht)⟩

/-- C126 fails far from the origin: the same for SSE4.1 with a fused multiply-add. -/
theorem ray_closest_nan (r : Ray F32) (p : V4 F32) (ho : CoordsLe (2 ^ 60) r.origin) (hp : CoordsLe (2 ^ 60) p)
    (hd : CoordsLe 1 r.direction)
    (h : 2 ^ 26 ≤ |(pos r.origin).x| ∧ 2 ^ 26 ≤ |(pos r.origin).y| ∧ 2 ^ 26 ≤ |(pos r.origin).z|) :
    (r.closestPoint p).x.isNaN = true ∧ (r.closestPoint p).y.isNaN = true ∧ (r.closestPoint p).z.isNaN = true :=
  ray_closest_targets_nan .sse41 (.sse true) r p ho hp hd h

namespace ClosestF32

theorem cauchy3 (N c : V3 ℝ) : dot N c ^ 2 ≤ dot c c * dot N N := by
  simp only [dot]
  nlinarith [sq_nonneg (N.x * c.y - N.y * c.x), sq_nonneg (N.x * c.z - N.z * c.x), sq_nonneg (N.y * c.z - N.z * c.y)]

theorem plane_nearest (N q : V3 ℝ) (w : ℝ) (S0 : 0 < dot N N) :
    Nearest (PlanePts N w) q ⟨q.x - N.x * ((dot N q + w) / dot N N), q.y - N.y * ((dot N q + w) / dot N N),
      q.z - N.z * ((dot N q + w) / dot N N)⟩ := by
  generalize hδ : dot N q + w = δ
  refine ⟨?_, ?_⟩
  · simp only [PlanePts, Set.mem_ofPred_eq]
    have e : dot N ⟨q.x - N.x * (δ / dot N N), q.y - N.y * (δ / dot N N), q.z - N.z * (δ / dot N N)⟩ =
        dot N q - dot N N * (δ / dot N N) := by simp only [dot]; ring
    rw [e, mul_div_cancel₀ _ S0.ne', ← hδ]; ring
  · intro c hc
    simp only [PlanePts, Set.mem_ofPred_eq] at hc
    have h0 : dot N (diff q c) = δ := by
      have : dot N (diff q c) = dot N q - dot N c := by simp only [dot, diff]; ring
      rw [this, ← hδ]; linarith
    have h1 : dist2 q ⟨q.x - N.x * (δ / dot N N), q.y - N.y * (δ / dot N N), q.z - N.z * (δ / dot N N)⟩ =
        δ ^ 2 / dot N N := by
      have e : dist2 q ⟨q.x - N.x * (δ / dot N N), q.y - N.y * (δ / dot N N), q.z - N.z * (δ / dot N N)⟩ =
        dot N N * (δ / dot N N) ^ 2 := by simp only [dist2, dot]; ring
      rw [e]; field_simp
    rw [h1, div_le_iff₀ S0, ← h0]
    have e : dist2 q c = dot (diff q c) (diff q c) := by simp only [dist2, dot, diff]; ring
    rw [e]; exact cauchy3 N _

/-- One coordinate of the projection on a plane. -/
theorem coord_plane {p n δ' : F32} {M δ s : ℝ} (hp : p.isFinite = true) (hn : n.isFinite = true) (hδ' : δ'.isFinite = true)
    (hpM : |p.val| ≤ M) (hM1 : 1 / 2 ^ 100 ≤ M) (hM : M ≤ 2 ^ 60) (hn1 : |n.val| ≤ 1.001) (hδ : |δ| ≤ 4.01 * M)
    (hd : |δ'.val - δ| ≤ 13.3 * uro * M) (hs : |s - 1| ≤ 1 / 2 ^ 20) :
    Near (fsub p (fmul n δ')) (p.val - n.val * (δ / s)) (M / 2 ^ 17) := by
  have hu := uro_pos
  have u1 : uro ≤ 1 / 10 ^ 6 := by unfold uro; norm_num
  have M0 : 0 < M := lt_of_lt_of_le (by positivity) hM1
  have uM : uro * M ≤ 1 / 10 ^ 6 * M := by gcongr
  have d1 : |δ'.val| ≤ 4.02 * M := by
    have := abs_add_le (δ'.val - δ) δ
    rw [sub_add_cancel] at this
    linarith
  have m1 : |n.val * δ'.val| ≤ 4.03 * M := by
    rw [abs_mul]
    have := mul_le_mul hn1 d1 (abs_nonneg _) (by norm_num)
    linarith
  obtain ⟨f1, e1⟩ := fmul_rel hn hδ' (lt_of_le_of_lt m1 (by linarith [show (4.03 : ℝ) * 2 ^ 60 < 2 ^ 127 by norm_num]))
  have tiny : (1 : ℝ) / 2 ^ 150 ≤ 0.01 * uro * M := by
    have := mul_le_mul_of_nonneg_left hM1 (show 0 ≤ 0.01 * uro by positivity)
    have : (1 : ℝ) / 2 ^ 150 ≤ 0.01 * uro * (1 / 2 ^ 100) := by unfold uro; norm_num
    linarith
  have e2 : |(fmul n δ').val - n.val * δ'.val| ≤ 4.04 * uro * M := by
    have := mul_le_mul_of_nonneg_left m1 hu.le
    linarith
  have m2 : |(fmul n δ').val| ≤ 4.04 * M := by
    have := abs_add_le ((fmul n δ').val - n.val * δ'.val) (n.val * δ'.val)
    rw [sub_add_cancel] at this
    linarith
  have m3 : |p.val - (fmul n δ').val| ≤ 5.04 * M := by
    have := abs_sub p.val (fmul n δ').val
    linarith
  obtain ⟨f2, e3⟩ := fsub_err' hp f1 (lt_of_le_of_lt m3 (by linarith [show (5.04 : ℝ) * 2 ^ 60 < 2 ^ 127 by norm_num]))
  refine ⟨f2, ?_⟩
  change |(fsub p (fmul n δ')).val - _| ≤ _
  have e4 := mul_le_mul_of_nonneg_left m3 hu.le
  obtain ⟨s1, s2⟩ := abs_le.1 hs
  have sp : 0.999 ≤ s := by norm_num at s1 ⊢; linarith
  have e5 : |n.val * (δ / s) - n.val * δ| ≤ 65 * uro * M := by
    have e : n.val * (δ / s) - n.val * δ = n.val * (δ * ((1 - s) / s)) := by field_simp
    have k : |(1 - s) / s| ≤ 16.02 * uro := by
      rw [abs_div, abs_of_pos (show 0 < s by linarith), abs_sub_comm, div_le_iff₀ (by linarith)]
      refine hs.trans ?_
      have : (1 : ℝ) / 2 ^ 20 ≤ 16.02 * uro * 0.999 := by unfold uro; norm_num
      refine this.trans ?_
      gcongr
    rw [e, abs_mul, abs_mul]
    have g1 := mul_le_mul hδ k (abs_nonneg _) (by linarith)
    have g2 := mul_le_mul hn1 g1 (by positivity) (by norm_num)
    have : 0 ≤ uro * M := by positivity
    linarith
  have e6 : |n.val * δ'.val - n.val * δ| ≤ 13.4 * uro * M := by
    rw [← mul_sub, abs_mul]
    have := mul_le_mul hn1 hd (abs_nonneg _) (by norm_num)
    have : 0 ≤ uro * M := by positivity
    linarith
  have t1 := abs_sub_le (fsub p (fmul n δ')).val (p.val - (fmul n δ').val) (p.val - n.val * (δ / s))
  have t2 : |p.val - (fmul n δ').val - (p.val - n.val * (δ / s))| ≤ (65 + 13.4 + 4.04) * uro * M := by
    have e : p.val - (fmul n δ').val - (p.val - n.val * (δ / s)) = (n.val * (δ / s) - n.val * δ) -
      (n.val * δ'.val - n.val * δ) - ((fmul n δ').val - n.val * δ'.val) := by ring
    rw [e]
    have a := abs_sub (n.val * (δ / s) - n.val * δ - (n.val * δ'.val - n.val * δ)) ((fmul n δ').val - n.val * δ'.val)
    have b := abs_sub (n.val * (δ / s) - n.val * δ) (n.val * δ'.val - n.val * δ)
    linarith
  have : 128 * uro * M = M / 2 ^ 17 := by unfold uro; ring
  rw [← this]
  linarith

end ClosestF32

/-- C126: in binary32, on every backend, the projection of a point on a plane with a unit normal (to within `2^-20`) is within `M / 2^17`, in
every coordinate, of the point of the plane nearest to it, `M` bounding the coordinates of the point and the distance of the
plane. -/
theorem plane_closest_targets_f32 (k : Backend) (pl : Plane F32) (p : V4 F32) (M : ℝ) (hp : CoordsLe M p)
    (hf : AllFinite [pl.normDist.x, pl.normDist.y, pl.normDist.z, pl.normDist.w]) (hw : |rv pl.normDist.w| ≤ M)
    (hn : |dot (pos pl.normDist) (pos pl.normDist) - 1| ≤ 1 / 2 ^ 20) (hM1 : 1 / 2 ^ 100 ≤ M) (hM : M ≤ 2 ^ 60) :
    ∃ c, Nearest (PlanePts (pos pl.normDist) (rv pl.normDist.w)) (pos p) c ∧ NearPt (F32x4.planeClosest k pl p) c (M / 2 ^ 17) := by
  obtain ⟨fp, p1, p2, p3⟩ := hp
  have fp1 := fp p.x (by simp); have fp2 := fp p.y (by simp); have fp3 := fp p.z (by simp)
  have f1 := hf pl.normDist.x (by simp); have f2 := hf pl.normDist.y (by simp); have f3 := hf pl.normDist.z (by simp)
  have f4 := hf pl.normDist.w (by simp)
  have hu := uro_pos
  have M0 : 0 < M := lt_of_lt_of_le (by positivity) hM1
  obtain ⟨l1, l2⟩ := abs_le.1 hn
  set N := pos pl.normDist with hN
  have nb (x y z : ℝ) (h : x * x + y * y + z * z ≤ 1 + 1 / 2 ^ 20) : |x| ≤ 1.001 := by
    apply abs_le_of_sq_le_sq _ (by norm_num)
    have := mul_self_nonneg y
    have := mul_self_nonneg z
    rw [pow_two]
    norm_num at h ⊢; linarith
  have hNN : dot N N ≤ 1 + 1 / 2 ^ 20 := by linarith
  have n1 : |N.x| ≤ 1.001 := nb N.x N.y N.z hNN
  have n2 : |N.y| ≤ 1.001 := nb N.y N.x N.z (by simp only [dot] at hNN; linarith)
  have n3 : |N.z| ≤ 1.001 := nb N.z N.x N.y (by simp only [dot] at hNN; linarith)
  have S0 : 0 < dot N N := by norm_num at l1; linarith
  set q := pos p with hq
  have g1 := mul_le_mul n1 p1 (abs_nonneg _) (by norm_num)
  have g2 := mul_le_mul n2 p2 (abs_nonneg _) (by norm_num)
  have g3 := mul_le_mul n3 p3 (abs_nonneg _) (by norm_num)
  have hsum : |N.x| * |q.x| + |N.y| * |q.y| + |N.z| * |q.z| ≤ 3.003 * M := by linarith
  obtain ⟨fd, ed⟩ := dot_on k (c := pl.normDist) (a := p)
    (by intro x hx; simp only [List.mem_cons, List.not_mem_nil, or_false] at hx; rcases hx with rfl | rfl | rfl <;> assumption)
    fp (hsum.trans (by linarith [show (3.003 : ℝ) * 2 ^ 60 ≤ 2 ^ 126 by norm_num]))
  have ed' : |(k.dot3 pl.normDist p).val - dot N q| ≤ 3.01 * uro * (3.003 * M) + 1 / 2 ^ 147 := by
    have := mul_le_mul_of_nonneg_left hsum (show 0 ≤ 3.01 * uro by positivity)
    have e : (k.dot3 pl.normDist p).val - dot N q = (k.dot3 pl.normDist p).val -
      (pl.normDist.x.val * p.x.val + pl.normDist.y.val * p.y.val + pl.normDist.z.val * p.z.val) := rfl
    rw [e]
    exact ed.trans (by
      change 3.01 * uro * (|N.x| * |q.x| + |N.y| * |q.y| + |N.z| * |q.z|) + _ ≤ _
      linarith)
  have tiny : (1 : ℝ) / 2 ^ 147 ≤ 0.1 * uro * M := by
    have := mul_le_mul_of_nonneg_left hM1 (show 0 ≤ 0.1 * uro by positivity)
    have : (1 : ℝ) / 2 ^ 147 ≤ 0.1 * uro * (1 / 2 ^ 100) := by unfold uro; norm_num
    linarith
  have u1 : uro ≤ 1 / 10 ^ 6 := by unfold uro; norm_num
  have uM : uro * M ≤ 1 / 10 ^ 6 * M := by gcongr
  have dNq : |dot N q| ≤ 3.003 * M := by
    have a := abs3 (N.x * q.x) (N.y * q.y) (N.z * q.z)
    rw [abs_mul, abs_mul, abs_mul] at a
    exact a.trans hsum
  have dv : |(k.dot3 pl.normDist p).val| ≤ 3.004 * M := by
    have := abs_add_le ((k.dot3 pl.normDist p).val - dot N q) (dot N q)
    rw [sub_add_cancel] at this
    linarith
  have hw' : |pl.normDist.w.val| ≤ M := hw
  have sv : |(k.dot3 pl.normDist p).val + pl.normDist.w.val| ≤ 4.01 * M := by
    have := abs_add_le (k.dot3 pl.normDist p).val pl.normDist.w.val
    linarith
  obtain ⟨fδ, eδ⟩ := fadd_err' fd f4 (lt_of_le_of_lt sv (by linarith [show (4.01 : ℝ) * 2 ^ 60 < 2 ^ 127 by norm_num]))
  set δ := dot N q + rv pl.normDist.w with hδ
  have δb : |δ| ≤ 4.01 * M := by
    have := abs_add_le (dot N q) (rv pl.normDist.w)
    linarith
  have ee : |(fadd (k.dot3 pl.normDist p) pl.normDist.w).val - δ| ≤ 13.3 * uro * M := by
    have t := abs_sub_le (fadd (k.dot3 pl.normDist p) pl.normDist.w).val
      ((k.dot3 pl.normDist p).val + pl.normDist.w.val) δ
    have e : (k.dot3 pl.normDist p).val + pl.normDist.w.val - δ = (k.dot3 pl.normDist p).val - dot N q := by
      rw [hδ]; change _ + pl.normDist.w.val - (_ + pl.normDist.w.val) = _; ring
    rw [e] at t
    have := mul_le_mul_of_nonneg_left sv hu.le
    linarith
  have c1 : Near (fsub p.x (fmul pl.normDist.x (fadd (k.dot3 pl.normDist p) pl.normDist.w)))
    (p.x.val - pl.normDist.x.val * (δ / dot N N)) (M / 2 ^ 17) := coord_plane fp1 f1 fδ p1 hM1 hM n1 δb ee hn
  have c2 : Near (fsub p.y (fmul pl.normDist.y (fadd (k.dot3 pl.normDist p) pl.normDist.w)))
    (p.y.val - pl.normDist.y.val * (δ / dot N N)) (M / 2 ^ 17) := coord_plane fp2 f2 fδ p2 hM1 hM n2 δb ee hn
  have c3 : Near (fsub p.z (fmul pl.normDist.z (fadd (k.dot3 pl.normDist p) pl.normDist.w)))
    (p.z.val - pl.normDist.z.val * (δ / dot N N)) (M / 2 ^ 17) := coord_plane fp3 f3 fδ p3 hM1 hM n3 δb ee hn
  have hr : F32x4.planeClosest k pl p = ⟨fsub p.x (fmul pl.normDist.x (fadd (k.dot3 pl.normDist p) pl.normDist.w)),
    fsub p.y (fmul pl.normDist.y (fadd (k.dot3 pl.normDist p) pl.normDist.w)),
    fsub p.z (fmul pl.normDist.z (fadd (k.dot3 pl.normDist p) pl.normDist.w)),
    fsub p.w (fmul pl.normDist.w (fadd (k.dot3 pl.normDist p) pl.normDist.w))⟩ := rfl
  rw [hr]
  exact ⟨_, plane_nearest N q (rv pl.normDist.w) S0, c1, c2, c3⟩

/-- C126: the same on SSE4.1. -/
theorem plane_closest_f32 (pl : Plane F32) (p : V4 F32) (M : ℝ) (hp : CoordsLe M p)
    (hf : AllFinite [pl.normDist.x, pl.normDist.y, pl.normDist.z, pl.normDist.w]) (hw : |rv pl.normDist.w| ≤ M)
    (hn : |dot (pos pl.normDist) (pos pl.normDist) - 1| ≤ 1 / 2 ^ 20) (hM1 : 1 / 2 ^ 100 ≤ M) (hM : M ≤ 2 ^ 60) :
    ∃ c, Nearest (PlanePts (pos pl.normDist) (rv pl.normDist.w)) (pos p) c ∧ NearPt (pl.closestPoint p) c (M / 2 ^ 17) :=
  plane_closest_targets_f32 .sse41 pl p M hp hf hw hn hM1 hM

/-- Non-vacuity: the vector of whole numbers. -/
noncomputable def ClosestF32.whole (x y z : ℤ) : V4 F32 := ⟨ofInt x, ofInt y, ofInt z, ofInt 0⟩

theorem ClosestF32.whole_pos (x y z : ℤ) (e1 : x.natAbs ≤ 2 ^ 24) (e2 : y.natAbs ≤ 2 ^ 24) (e3 : z.natAbs ≤ 2 ^ 24) :
    AllFinite [(whole x y z).x, (whole x y z).y, (whole x y z).z] ∧ pos (whole x y z) = ⟨x, y, z⟩ := by
  obtain ⟨a, b⟩ := ofInt_exact x e1
  obtain ⟨c, d⟩ := ofInt_exact y e2
  obtain ⟨e, f⟩ := ofInt_exact z e3
  refine ⟨?_, ?_⟩
  · intro v hv
    simp only [List.mem_cons, List.not_mem_nil, or_false] at hv
    rcases hv with rfl | rfl | rfl
    exacts [a, c, e]
  · change (⟨(ofInt x).val, (ofInt y).val, (ofInt z).val⟩ : V3 ℝ) = _
    rw [b, d, f]

/-- Non-vacuity of `line_closest_targets_f32`: the segment from (0,0,0) to (3,4,0) and the point (10,-7,5), with `M = 10`. -/
example (k : Backend) (tg : FTarget) : ∃ n, Nearest (Segment ⟨0, 0, 0⟩ ⟨3, 4, 0⟩) ⟨10, -7, 5⟩ n ∧
    NearPt (F32x4.lineClosest k tg ⟨whole 0 0 0, whole 3 4 0⟩ (whole 10 (-7) 5)) n (10 / 2 ^ 16) := by
  obtain ⟨f1, e1⟩ := whole_pos 0 0 0 (by norm_num) (by norm_num) (by norm_num)
  obtain ⟨f2, e2⟩ := whole_pos 3 4 0 (by norm_num) (by norm_num) (by norm_num)
  obtain ⟨f3, e3⟩ := whole_pos 10 (-7) 5 (by norm_num) (by norm_num) (by norm_num)
  have := line_closest_targets_f32 k tg ⟨whole 0 0 0, whole 3 4 0⟩ (whole 10 (-7) 5) 10 ⟨f1, by rw [e1]; norm_num⟩
    ⟨f2, by rw [e2]; norm_num [abs_le]⟩ ⟨f3, by rw [e3]; norm_num [abs_le]⟩ (by norm_num) (by
      change _ ≤ dist2 (pos (whole 3 4 0)) (pos (whole 0 0 0))
      rw [e1, e2]; simp only [dist2]; norm_num)
  simp only [e1, e2, e3] at this
  push_cast at this
  exact this

/-- Non-vacuity of `ray_closest_targets_f32_partial`: the ray from (1,2,3) along y and the point (5,6,7), with `M = 7`. -/
example (k : Backend) (tg : FTarget) : ∃ n, Nearest (RayPts ⟨1, 2, 3⟩ ⟨0, 1, 0⟩) ⟨5, 6, 7⟩ n ∧
    NearPt (F32x4.rayClosest k tg ⟨whole 0 1 0, ⟨0, 0, 0, 0⟩, whole 1 2 3⟩ (whole 5 6 7)) n (7 ^ 2 / 2 ^ 15) := by
  obtain ⟨f1, e1⟩ := whole_pos 0 1 0 (by norm_num) (by norm_num) (by norm_num)
  obtain ⟨f2, e2⟩ := whole_pos 1 2 3 (by norm_num) (by norm_num) (by norm_num)
  obtain ⟨f3, e3⟩ := whole_pos 5 6 7 (by norm_num) (by norm_num) (by norm_num)
  have := ray_closest_targets_f32_partial k tg ⟨whole 0 1 0, ⟨0, 0, 0, 0⟩, whole 1 2 3⟩ (whole 5 6 7) 7 ⟨f2, by rw [e2]; norm_num [abs_le]⟩
    ⟨f3, by rw [e3]; norm_num [abs_le]⟩ f1 (by rw [e1]; simp only [dot]; norm_num) (by norm_num) (by norm_num)
  simp only [e1, e2, e3] at this
  push_cast at this
  exact this

/-- Non-vacuity of `plane_closest_targets_f32`: the plane z = 2 and the point (5,6,7), with `M = 7`. -/
example (k : Backend) : ∃ c, Nearest (PlanePts ⟨0, 0, 1⟩ (-2)) ⟨5, 6, 7⟩ c ∧
    NearPt (F32x4.planeClosest k ⟨⟨ofInt 0, ofInt 0, ofInt 1, ofInt (-2)⟩⟩ (whole 5 6 7)) c (7 / 2 ^ 17) := by
  obtain ⟨f1, e1⟩ := whole_pos 0 0 1 (by norm_num) (by norm_num) (by norm_num)
  obtain ⟨f3, e3⟩ := whole_pos 5 6 7 (by norm_num) (by norm_num) (by norm_num)
  obtain ⟨f2, e2⟩ := ofInt_exact (-2) (by norm_num)
  have e1' : pos (⟨ofInt 0, ofInt 0, ofInt 1, ofInt (-2)⟩ : V4 F32) = ⟨0, 0, 1⟩ := by
    have : pos (⟨ofInt 0, ofInt 0, ofInt 1, ofInt (-2)⟩ : V4 F32) = pos (whole 0 0 1) := rfl
    rw [this, e1]; norm_num
  have e2' : rv (ofInt (-2)) = -2 := by
    change (ofInt (-2)).val = _
    rw [e2]; norm_num
  have := plane_closest_targets_f32 k ⟨⟨ofInt 0, ofInt 0, ofInt 1, ofInt (-2)⟩⟩ (whole 5 6 7) 7 ⟨f3, by rw [e3]; norm_num [abs_le]⟩
    (by
      intro v hv
      simp only [List.mem_cons, List.not_mem_nil, or_false] at hv
      rcases hv with rfl | rfl | rfl | rfl
      exacts [f1 _ (by simp [whole]), f1 _ (by simp [whole]), f1 _ (by simp [whole]), f2])
    (by rw [e2']; norm_num) (by rw [e1']; simp only [dot]; norm_num) (by norm_num) (by norm_num)
  simp only [e1', e2', e3] at this
  push_cast at this
  exact this

/-- The hypotheses of `ray_closest_targets_nan`: the ray from (2^30, 2^30, 2^30) along z. -/
example : CoordsLe (2 ^ 60) (⟨⟨0x4E800000⟩, ⟨0x4E800000⟩, ⟨0x4E800000⟩, ⟨0⟩⟩ : V4 F32) ∧
    2 ^ 26 ≤ |(pos (⟨⟨0x4E800000⟩, ⟨0x4E800000⟩, ⟨0x4E800000⟩, ⟨0⟩⟩ : V4 F32)).x| ∧ CoordsLe 1 (whole 0 0 1) := by
  have e : (⟨0x4E800000⟩ : F32).val = 2 ^ 30 := by
    rw [val_units, show (⟨0x4E800000⟩ : F32).units = 2 ^ 30 * 2 ^ 149 by decide +kernel]; push_cast; norm_num
  have fin : (⟨0x4E800000⟩ : F32).isFinite = true := by decide +kernel
  obtain ⟨f1, e1⟩ := whole_pos 0 0 1 (by norm_num) (by norm_num) (by norm_num)
  refine ⟨⟨?_, ?_, ?_, ?_⟩, ?_, f1, by rw [e1]; norm_num⟩
  · intro v hv
    simp only [List.mem_cons, List.not_mem_nil, or_false] at hv
    rcases hv with rfl | rfl | rfl <;> exact fin
  all_goals
    first
    | (change |(⟨0x4E800000⟩ : F32).val| ≤ _; rw [e]; norm_num)
    | (change _ ≤ |(⟨0x4E800000⟩ : F32).val|; rw [e]; norm_num)

end Verif
