import Verif.Props.Rotate
import Verif.Props.LengthAccuracy
import Verif.Model.TransformTargets
import Verif.Spec.Place

/-!
# C111: model matrices in binary32
-/

namespace Verif
open F32 Spec Quaternion VecAcc ProductsP RotateP

namespace PlaceP

/-- A real number that is the value of a finite float. -/
def Rep (x : ℝ) : Prop := ∃ y : F32, y.isFinite = true ∧ y.val = x

theorem zero_lit : (ofRat 0).isFinite = true ∧ (ofRat 0).val = 0 := by
  have h : (ofRat 0).isFinite = true ∧ (ofRat 0).units = 0 := by decide +kernel
  refine ⟨h.1, ?_⟩
  rw [val_units, h.2]; simp

theorem one_lit : (ofRat 1).isFinite = true ∧ (ofRat 1).val = 1 := by
  have h : (ofRat 1).isFinite = true ∧ (ofRat 1).units = 2 ^ 149 := by decide +kernel
  refine ⟨h.1, ?_⟩
  rw [val_units, h.2]; push_cast; norm_num

theorem rep0 : Rep 0 := ⟨_, zero_lit⟩
theorem rep_val {x : F32} (h : x.isFinite = true) : Rep x.val := ⟨x, h, rfl⟩

/-- A multiply-add whose product and sum are floats is exact. -/
theorem fma_exact (t : FTarget) {a b c : F32} (ha : a.isFinite = true) (hb : b.isFinite = true) (hc : c.isFinite = true)
    (hp : Rep (a.val * b.val)) (hs : Rep (a.val * b.val + c.val)) : Approx (F32x4.fma1 t a b c) (a.val * b.val + c.val) 0 := by
  obtain ⟨p, fp, ep⟩ := hp
  obtain ⟨s, fs, es⟩ := hs
  have m := fmul_exact ha hb fp ep
  have fused : Approx (ffma a b c) (a.val * b.val + c.val) 0 := by
    have hq : s.toRat = a.toRat * b.toRat + c.toRat := by unfold val at es; exact_mod_cast es
    have hn := ffma_nearest ha hb hc (by rw [← hq]; exact val_le_max fs)
    have e : a.val * b.val + c.val = ((a.toRat * b.toRat + c.toRat : Rat) : ℝ) := by unfold val; push_cast; rfl
    rw [e] at es ⊢
    exact ⟨hn.1, by rw [nearest_exact hn fs es]; simp⟩
  have u1 : Approx (fadd c (fmul a b)) (a.val * b.val + c.val) 0 := by
    have := fadd_exact hc m.1 fs (by rw [es, m.eq]; ring)
    rw [m.eq, add_comm c.val] at this
    exact this
  have u2 : Approx (fadd (fmul a b) c) (a.val * b.val + c.val) 0 := by
    have := fadd_exact m.1 hc fs (by rw [es, m.eq])
    rwa [m.eq] at this
  unfold F32x4.fma1
  split <;> first | exact fused | exact u1 | exact u2 | (split <;> first | exact fused | exact u1 | exact u2)

/-- One entry of a product on a target. -/
def entry (k : Backend) (t : FTarget) (a0 v0 a1 v1 a2 v2 a3 v3 : F32) : F32 :=
  match k with
  | .scalar => fadd (fadd (fadd (fmul a0 v0) (fmul a1 v1)) (fmul a2 v2)) (fmul a3 v3)
  | .sse2 | .sse41 | .neon => F32x4.fma1 t a3 v3 (F32x4.fma1 t a2 v2 (F32x4.fma1 t a1 v1 (fmul a0 v0)))

theorem mulVOn_eq (k : Backend) (t : FTarget) (m : M4 F32) (v : V4 F32) :
    F32x4.mulVOn k t m v =
      ⟨entry k t m.c0.x v.x m.c1.x v.y m.c2.x v.z m.c3.x v.w, entry k t m.c0.y v.x m.c1.y v.y m.c2.y v.z m.c3.y v.w,
       entry k t m.c0.z v.x m.c1.z v.y m.c2.z v.z m.c3.z v.w, entry k t m.c0.w v.x m.c1.w v.y m.c2.w v.z m.c3.w v.w⟩ := by
  cases k <;> rfl

/-- When all products and partial sums are floats, the entry is exact. -/
theorem entry_exact (k : Backend) (t : FTarget) {a0 v0 a1 v1 a2 v2 a3 v3 : F32}
    (f0 : a0.isFinite = true) (g0 : v0.isFinite = true) (f1 : a1.isFinite = true) (g1 : v1.isFinite = true)
    (f2 : a2.isFinite = true) (g2 : v2.isFinite = true) (f3 : a3.isFinite = true) (g3 : v3.isFinite = true)
    {p0 p1 p2 p3 : ℝ} (e0 : a0.val * v0.val = p0) (e1 : a1.val * v1.val = p1) (e2 : a2.val * v2.val = p2) (e3 : a3.val * v3.val = p3)
    (r0 : Rep p0) (r1 : Rep p1) (r2 : Rep p2) (r3 : Rep p3) (s1 : Rep (p1 + p0)) (s2 : Rep (p2 + (p1 + p0)))
    (s3 : Rep (p3 + (p2 + (p1 + p0)))) :
    Approx (entry k t a0 v0 a1 v1 a2 v2 a3 v3) (p3 + (p2 + (p1 + p0))) 0 := by
  subst e0 e1 e2 e3
  have ex : ∀ {a b : F32}, a.isFinite = true → b.isFinite = true → Rep (a.val * b.val) → Approx (fmul a b) (a.val * b.val) 0 := by
    rintro a b ha hb ⟨y, fy, ey⟩
    exact fmul_exact ha hb fy ey
  have m0 := ex f0 g0 r0; have m1 := ex f1 g1 r1; have m2 := ex f2 g2 r2; have m3 := ex f3 g3 r3
  have simd : Approx (F32x4.fma1 t a3 v3 (F32x4.fma1 t a2 v2 (F32x4.fma1 t a1 v1 (fmul a0 v0))))
      (a3.val * v3.val + (a2.val * v2.val + (a1.val * v1.val + a0.val * v0.val))) 0 := by
    have n1 := fma_exact t f1 g1 m0.1 r1 (by rw [m0.eq]; exact s1)
    rw [m0.eq] at n1
    have n2 := fma_exact t f2 g2 n1.1 r2 (by rw [n1.eq]; exact s2)
    rw [n1.eq] at n2
    have n3 := fma_exact t f3 g3 n2.1 r3 (by rw [n2.eq]; exact s3)
    rw [n2.eq] at n3
    exact n3
  have scal : Approx (fadd (fadd (fadd (fmul a0 v0) (fmul a1 v1)) (fmul a2 v2)) (fmul a3 v3))
      (a3.val * v3.val + (a2.val * v2.val + (a1.val * v1.val + a0.val * v0.val))) 0 := by
    have ad : ∀ {a b : F32} {x y : ℝ}, Approx a x 0 → Approx b y 0 → Rep (y + x) → Approx (fadd a b) (y + x) 0 := by
      rintro a b x y ha hb ⟨z, fz, ez⟩
      have := fadd_exact ha.1 hb.1 fz (by rw [ez, ha.eq, hb.eq]; ring)
      rw [ha.eq, hb.eq, add_comm] at this
      exact this
    exact ad (ad (ad m0 m1 s1) m2 s2) m3 s3
  cases k <;> first | exact simd | exact scal

/-- One entry of a product is a sum of four products with few roundings. -/
theorem entry_ok (k : Backend) (t : FTarget) {m : M4 F32} {v : V4 F32} (hm : FinM m) (hv : AllFinite v.toList) :
    MulVOk m v (F32x4.mulVOn k t m v) := by
  cases k
  · exact mulV_accuracy.2.2.2.1 t m v hm hv
  · exact mulV_accuracy.2.2.2.1 t m v hm hv
  · exact mulV_accuracy.2.2.2.1 t m v hm hv
  · exact mulV_accuracy.2.2.1 m v hm hv

/-! ## The rotation matrix -/

/-- The computed value of a component of the normalised quaternion. -/
def Comp (c : F32) (n : ℝ) : Prop := Approx c n (6 / 2 ^ 24 * |n| + 1 / 2 ^ 149)

theorem prod {a b : F32} {x y : ℝ} (ha : Comp a x) (hb : Comp b y) (hx : |x| ≤ 1) (hy : |y| ≤ 1) :
    Approx (fmul a b) (x * y) (131 / 10 / 2 ^ 24 * |x * y| + 1 / 2 ^ 146) := by
  have x0 := abs_nonneg x; have y0 := abs_nonneg y
  have xy : |x| * |y| ≤ 1 := by nlinarith
  have xy0 : 0 ≤ |x| * |y| := by positivity
  have e : (|x| + (6 / 2 ^ 24 * |x| + 1 / 2 ^ 149)) * (|y| + (6 / 2 ^ 24 * |y| + 1 / 2 ^ 149)) ≤
      (1 + 1 / 2 ^ 20) * (|x| * |y|) + 1 / 2 ^ 147 := by nlinarith
  have := Approx.mul ha hb |x| |y| le_rfl le_rfl (lt_of_le_of_lt e (by norm_num; linarith))
  refine this.mono ?_
  rw [abs_mul]
  unfold ulp
  nlinarith

/-- An entry off the diagonal. -/
theorem off {P Q : F32} {p q : ℝ} (hP : Approx P p (131 / 10 / 2 ^ 24 * |p| + 1 / 2 ^ 146))
    (hQ : Approx Q q (131 / 10 / 2 ^ 24 * |q| + 1 / 2 ^ 146)) (h : |p| + |q| ≤ 1 / 2) :
    Approx (fmul (ofRat 2) (fadd P Q)) (2 * (p + q)) (16 / 2 ^ 24) ∧ Approx (fmul (ofRat 2) (fsub P Q)) (2 * (p - q)) (16 / 2 ^ 24) := by
  have p0 := abs_nonneg p; have q0 := abs_nonneg q
  have e1 := abs_add_le p q
  have e2 := abs_sub p q
  have fin : ∀ {R : F32} {r : ℝ}, |r| ≤ |p| + |q| → Approx R r (131 / 10 / 2 ^ 24 * |p| + 1 / 2 ^ 146 + (131 / 10 / 2 ^ 24 * |q| + 1 / 2 ^ 146) +
      ulp ((1 + 1 / 2 ^ 16) * (|p| + |q|) + 1 / 2 ^ 140)) → Approx (fmul (ofRat 2) R) (2 * r) (16 / 2 ^ 24) := by
    intro R r hr hR
    have h1 : Approx R r (71 / 10 / 2 ^ 24) := hR.mono (by unfold ulp; norm_num at *; linarith)
    have := Approx.mul two_exact h1 2 (1 / 2) (by norm_num) (hr.trans h) (by norm_num)
    refine this.mono ?_
    unfold ulp
    norm_num
  exact ⟨fin e1 (Approx.add hP hQ _ (by norm_num; linarith) (by norm_num; linarith)),
    fin e2 (Approx.sub hP hQ _ (by norm_num; linarith) (by norm_num; linarith))⟩

/-- An entry on the diagonal. -/
theorem diag {P Q : F32} {p q : ℝ} (hP : Approx P p (131 / 10 / 2 ^ 24 * |p| + 1 / 2 ^ 146))
    (hQ : Approx Q q (131 / 10 / 2 ^ 24 * |q| + 1 / 2 ^ 146)) (p0 : 0 ≤ p) (q0 : 0 ≤ q) (h : p + q ≤ 1) :
    Approx (fsub (ofRat 1) (fmul (ofRat 2) (fadd P Q))) (1 - 2 * (p + q)) (32 / 2 ^ 24) := by
  rw [abs_of_nonneg p0] at hP
  rw [abs_of_nonneg q0] at hQ
  have s := Approx.add hP hQ (1 + 1 / 2 ^ 16) (by rw [abs_of_nonneg (by linarith)]; norm_num; linarith) (by norm_num)
  have s' : Approx (fadd P Q) (p + q) (1411 / 100 / 2 ^ 24) := s.mono (by unfold ulp; norm_num; linarith)
  have m := Approx.mul two_exact s' 2 1 (by norm_num) (by rw [abs_of_nonneg (by linarith)]; exact h) (by norm_num)
  have m' : Approx (fmul (ofRat 2) (fadd P Q)) (2 * (p + q)) (3023 / 100 / 2 ^ 24) := m.mono (by unfold ulp; norm_num)
  have o : Approx (ofRat 1) 1 0 := ⟨one_lit.1, by rw [one_lit.2]; simp⟩
  have d := Approx.sub o m' (1 + 1 / 2 ^ 16) (by
    have : |1 - 2 * (p + q)| ≤ 1 := abs_le.2 ⟨by linarith, by linarith⟩
    norm_num; linarith) (by norm_num)
  exact d.mono (by unfold ulp; norm_num)

/-- The nine entries of the rotation matrix of the unit quaternion `n` near the computed one. -/
theorem rotate_entries {c : V4 F32} {x y z w : ℝ} (hx : Comp c.x x) (hy : Comp c.y y) (hz : Comp c.z z) (hw : Comp c.w w)
    (h : x ^ 2 + y ^ 2 + z ^ 2 + w ^ 2 = 1) :
    let m := Transform.rotate c
    (Approx m.c0.x (1 - 2 * (y * y + z * z)) (32 / 2 ^ 24) ∧ Approx m.c0.y (2 * (x * y + w * z)) (32 / 2 ^ 24) ∧
      Approx m.c0.z (2 * (x * z - w * y)) (32 / 2 ^ 24)) ∧
    (Approx m.c1.x (2 * (x * y - w * z)) (32 / 2 ^ 24) ∧ Approx m.c1.y (1 - 2 * (x * x + z * z)) (32 / 2 ^ 24) ∧
      Approx m.c1.z (2 * (y * z + w * x)) (32 / 2 ^ 24)) ∧
    (Approx m.c2.x (2 * (x * z + w * y)) (32 / 2 ^ 24) ∧ Approx m.c2.y (2 * (y * z - w * x)) (32 / 2 ^ 24) ∧
      Approx m.c2.z (1 - 2 * (x * x + y * y)) (32 / 2 ^ 24)) := by
  have x2 := sq_nonneg x; have y2 := sq_nonneg y; have z2 := sq_nonneg z; have w2 := sq_nonneg w
  have bd : ∀ {a : ℝ}, a ^ 2 ≤ 1 → |a| ≤ 1 := fun h => le_of_sq_le_sq (by rw [sq_abs, one_pow]; exact h) zero_le_one
  have bx : |x| ≤ 1 := bd (by linarith)
  have by' : |y| ≤ 1 := bd (by linarith)
  have bz : |z| ≤ 1 := bd (by linarith)
  have bw : |w| ≤ 1 := bd (by linarith)
  have half : ∀ {a b : ℝ}, |a * b| ≤ (a ^ 2 + b ^ 2) / 2 := by
    intro a b
    rw [abs_mul, ← sq_abs a, ← sq_abs b]
    nlinarith [sq_nonneg (|a| - |b|)]
  have two : ∀ {a b c d : ℝ}, a ^ 2 + b ^ 2 + (c ^ 2 + d ^ 2) = 1 → |a * b| + |c * d| ≤ 1 / 2 := by
    intro a b c d h
    have := half (a := a) (b := b)
    have := half (a := c) (b := d)
    linarith
  have mn : ∀ {r : F32} {v : ℝ}, Approx r v (16 / 2 ^ 24) → Approx r v (32 / 2 ^ 24) := fun h => h.mono (by norm_num)
  have xyz := off (prod hx hy bx by') (prod hw hz bw bz) (two (by linarith))
  have xzy := off (prod hx hz bx bz) (prod hw hy bw by') (two (by linarith))
  have yzx := off (prod hy hz by' bz) (prod hw hx bw bx) (two (by linarith))
  refine ⟨⟨?_, mn xyz.1, mn xzy.2⟩, ⟨mn xyz.2, ?_, mn yzx.1⟩, ⟨mn xzy.1, mn yzx.2, ?_⟩⟩
  · exact diag (prod hy hy by' by') (prod hz hz bz bz) (mul_self_nonneg _) (mul_self_nonneg _) (by nlinarith)
  · exact diag (prod hx hx bx bx) (prod hz hz bz bz) (mul_self_nonneg _) (mul_self_nonneg _) (by nlinarith)
  · exact diag (prod hx hx bx bx) (prod hy hy by' by') (mul_self_nonneg _) (mul_self_nonneg _) (by nlinarith)

/-- Conjugation by a quaternion in terms of its components divided by its length. -/
theorem conj_unit {X Y Z W N : ℝ} (hN : 0 < N) (h : X ^ 2 + Y ^ 2 + Z ^ 2 + W ^ 2 = N ^ 2) (a b c : ℝ) :
    let q : ℍ[ℝ] := ⟨W, X, Y, Z⟩
    let v : ℍ[ℝ] := ⟨0, a, b, c⟩
    let x := X / N; let y := Y / N; let z := Z / N; let w := W / N
    x ^ 2 + y ^ 2 + z ^ 2 + w ^ 2 = 1 ∧
    (q * v * q⁻¹).imI = (1 - 2 * (y * y + z * z)) * a + 2 * (x * y - w * z) * b + 2 * (x * z + w * y) * c ∧
    (q * v * q⁻¹).imJ = 2 * (x * y + w * z) * a + (1 - 2 * (x * x + z * z)) * b + 2 * (y * z - w * x) * c ∧
    (q * v * q⁻¹).imK = 2 * (x * z - w * y) * a + 2 * (y * z + w * x) * b + (1 - 2 * (x * x + y * y)) * c := by
  intro q v x y z w
  have u : x ^ 2 + y ^ 2 + z ^ 2 + w ^ 2 = 1 := by
    simp only [x, y, z, w]
    field_simp
    linarith
  refine ⟨u, ?_⟩
  obtain ⟨n, hn⟩ : ∃ n : ℍ[ℝ], n = ⟨w, x, y, z⟩ := ⟨_, rfl⟩
  have e : q * v * q⁻¹ = n * v * n⁻¹ := by
    have : q = (N : ℝ) • n := by
      ext <;> simp only [Quaternion.re_smul, Quaternion.imI_smul, Quaternion.imJ_smul, Quaternion.imK_smul, smul_eq_mul] <;>
        simp only [hn, q, x, y, z, w] <;> field_simp
    rw [this, smul_inv₀, smul_mul_assoc, smul_mul_smul_comm, mul_inv_cancel₀ hN.ne', one_smul]
  rw [e, hn]
  obtain ⟨h1, h2, h3⟩ := conj_formula x y z w a b c (by rw [u]; norm_num)
  rw [u, sub_self, zero_mul] at h1 h2 h3
  refine ⟨?_, ?_, ?_⟩
  · linarith
  · linarith
  · linarith

/-! ## The products -/

/-- Scaling an entry of the rotation. -/
theorem scaled {r : F32} {l : List (ℝ × ℝ)} {m s R : ℝ} (hs : SumOk r l) (e1 : sumProd l = m * s) (e2 : absProd l = |m * s|)
    (hl : l.length = 4) (hm : |m - R| ≤ 32 / 2 ^ 24) (hR : |R| ≤ 1) (h : |s| ≤ 2 ^ 60) :
    Approx r (s * R) (40 / 2 ^ 24 * |s| + 1 / 2 ^ 146) := by
  have m1 : |m| ≤ 1 + 32 / 2 ^ 24 := by
    have := abs_add_le (m - R) R
    rw [sub_add_cancel] at this
    linarith
  have s0 := abs_nonneg s
  have ms : |m * s| ≤ (1 + 32 / 2 ^ 24) * |s| := by rw [abs_mul]; exact mul_le_mul_of_nonneg_right m1 s0
  have := hs (by rw [e2]; refine ms.trans ?_; norm_num; linarith)
  rw [e1, e2, hl] at this
  have d : |m * s - s * R| ≤ 32 / 2 ^ 24 * |s| := by
    have : m * s - s * R = (m - R) * s := by ring
    rw [this, abs_mul]
    exact mul_le_mul_of_nonneg_right hm s0
  refine (Approx.trans (r := r) this d).mono ?_
  have u : ((1 : ℝ) + 1 / 2 ^ 24) ^ 4 - 1 ≤ 401 / 100 / 2 ^ 24 := by norm_num
  have := mul_le_mul u ms (abs_nonneg _) (by norm_num)
  push_cast
  linarith

theorem fin_mat {m : M4 F32} (h0 : AllFinite m.c0.toList) (h1 : AllFinite m.c1.toList) (h2 : AllFinite m.c2.toList)
    (h3 : AllFinite m.c3.toList) : FinM m := ⟨h0, h1, h2, h3⟩

theorem translate_eq (p : V4 F32) : Transform.translate p =
    ⟨⟨ofRat 1, ofRat 0, ofRat 0, ofRat 0⟩, ⟨ofRat 0, ofRat 1, ofRat 0, ofRat 0⟩, ⟨ofRat 0, ofRat 0, ofRat 1, ofRat 0⟩,
     ⟨p.x, p.y, p.z, ofRat 1⟩⟩ := rfl

/-- The products with a translation matrix, entry by entry. -/
theorem move_eq (k : Backend) (t : FTarget) (p v : V4 F32) :
    F32x4.mulVOn k t (Transform.translate p) v =
      ⟨entry k t (ofRat 1) v.x (ofRat 0) v.y (ofRat 0) v.z p.x v.w, entry k t (ofRat 0) v.x (ofRat 1) v.y (ofRat 0) v.z p.y v.w,
       entry k t (ofRat 0) v.x (ofRat 0) v.y (ofRat 1) v.z p.z v.w, entry k t (ofRat 0) v.x (ofRat 0) v.y (ofRat 0) v.z (ofRat 1) v.w⟩ :=
  (congrArg (fun m => F32x4.mulVOn k t m v) (translate_eq p)).trans (mulVOn_eq k t _ v)

/-- Moving by `p` a vector whose fourth lane is zero or one, when the sum is exact. -/
theorem move_exact (k : Backend) (t : FTarget) {p v : V4 F32} (hp : AllFinite p.xyz.toList) (hv : AllFinite v.toList)
    (h : v.w.val = 0 ∨ v.x.val = 0 ∧ v.y.val = 0 ∧ v.z.val = 0 ∧ v.w.val = 1) :
    let r := F32x4.mulVOn k t (Transform.translate p) v
    Approx r.x (p.x.val * v.w.val + v.x.val) 0 ∧ Approx r.y (p.y.val * v.w.val + v.y.val) 0 ∧
    Approx r.z (p.z.val * v.w.val + v.z.val) 0 ∧ Approx r.w v.w.val 0 := by
  obtain ⟨px, py, pz⟩ := fin3 hp
  simp only [V4.xyz] at px py pz
  obtain ⟨vx, vy, vz, vw⟩ := fin4 hv
  have rx := rep_val vx; have ry := rep_val vy; have rz := rep_val vz; have rw' := rep_val vw
  have qx := rep_val px; have qy := rep_val py; have qz := rep_val pz
  have r0 := rep0
  have r1 : Rep 1 := ⟨_, one_lit⟩
  intro r
  simp only [r, move_eq]
  obtain ⟨z1, z2⟩ := zero_lit
  obtain ⟨o1, o2⟩ := one_lit
  generalize ofRat 0 = Z at *
  generalize ofRat 1 = O at *
  refine ⟨?_, ?_, ?_, ?_⟩
  · refine (entry_exact k t o1 vx z1 vy z1 vz px vw rfl rfl rfl rfl ?_ ?_ ?_ ?_ ?_ ?_ ?_).of_eq ?_ <;>
      rcases h with h | ⟨h1, h2, h3, h4⟩ <;> simp only [*, one_mul, zero_mul, mul_zero, mul_one, zero_add, add_zero]
  · refine (entry_exact k t z1 vx o1 vy z1 vz py vw rfl rfl rfl rfl ?_ ?_ ?_ ?_ ?_ ?_ ?_).of_eq ?_ <;>
      rcases h with h | ⟨h1, h2, h3, h4⟩ <;> simp only [*, one_mul, zero_mul, mul_zero, mul_one, zero_add, add_zero]
  · refine (entry_exact k t z1 vx z1 vy o1 vz pz vw rfl rfl rfl rfl ?_ ?_ ?_ ?_ ?_ ?_ ?_).of_eq ?_ <;>
      rcases h with h | ⟨h1, h2, h3, h4⟩ <;> simp only [*, one_mul, zero_mul, mul_zero, mul_one, zero_add, add_zero]
  · refine (entry_exact k t z1 vx z1 vy z1 vz o1 vw rfl rfl rfl rfl ?_ ?_ ?_ ?_ ?_ ?_ ?_).of_eq ?_ <;>
      rcases h with h | ⟨h1, h2, h3, h4⟩ <;> simp only [*, one_mul, zero_mul, mul_zero, mul_one, zero_add, add_zero]

/-- The last column of a product with a scale. -/
theorem last_exact (k : Backend) (t : FTarget) {m : M4 F32} (hm : FinM m) (s : V4 F32) :
    let r := F32x4.mulVOn k t m (Transform.scale s).c3
    Approx r.x m.c3.x.val 0 ∧ Approx r.y m.c3.y.val 0 ∧ Approx r.z m.c3.z.val 0 ∧ Approx r.w m.c3.w.val 0 := by
  obtain ⟨h0, h1, h2, h3⟩ := hm
  obtain ⟨ax, ay, az, aw⟩ := fin4 h0
  obtain ⟨bx, by', bz, bw⟩ := fin4 h1
  obtain ⟨cx, cy, cz, cw⟩ := fin4 h2
  obtain ⟨dx, dy, dz, dw⟩ := fin4 h3
  have e : (Transform.scale s).c3 = ⟨ofRat 0, ofRat 0, ofRat 0, ofRat 1⟩ := rfl
  have qx := rep_val dx; have qy := rep_val dy; have qz := rep_val dz; have qw := rep_val dw
  have r0 := rep0
  intro r
  simp only [r, mulVOn_eq, e]
  obtain ⟨z1, z2⟩ := zero_lit
  obtain ⟨o1, o2⟩ := one_lit
  generalize ofRat 0 = Z at *
  generalize ofRat 1 = O at *
  refine ⟨?_, ?_, ?_, ?_⟩
  · refine (entry_exact k t ax z1 bx z1 cx z1 dx o1 rfl rfl rfl rfl ?_ ?_ ?_ ?_ ?_ ?_ ?_).of_eq ?_ <;>
      simp only [z2, o2, qx, r0, one_mul, zero_mul, mul_zero, mul_one, zero_add, add_zero]
  · refine (entry_exact k t ay z1 by' z1 cy z1 dy o1 rfl rfl rfl rfl ?_ ?_ ?_ ?_ ?_ ?_ ?_).of_eq ?_ <;>
      simp only [z2, o2, qy, r0, one_mul, zero_mul, mul_zero, mul_one, zero_add, add_zero]
  · refine (entry_exact k t az z1 bz z1 cz z1 dz o1 rfl rfl rfl rfl ?_ ?_ ?_ ?_ ?_ ?_ ?_).of_eq ?_ <;>
      simp only [z2, o2, qz, r0, one_mul, zero_mul, mul_zero, mul_one, zero_add, add_zero]
  · refine (entry_exact k t aw z1 bw z1 cw z1 dw o1 rfl rfl rfl rfl ?_ ?_ ?_ ?_ ?_ ?_ ?_).of_eq ?_ <;>
      simp only [z2, o2, qw, r0, one_mul, zero_mul, mul_zero, mul_one, zero_add, add_zero]

/-- The lowest row of a product of a matrix with lowest row `0 0 0 1`, when the factor has a zero fourth lane. -/
theorem low_exact (k : Backend) (t : FTarget) {m : M4 F32} {v : V4 F32} (hm : FinM m) (hv : AllFinite v.toList)
    (h0 : m.c0.w.val = 0) (h1 : m.c1.w.val = 0) (h2 : m.c2.w.val = 0) (hw : v.w.val = 0) :
    Approx (F32x4.mulVOn k t m v).w 0 0 := by
  obtain ⟨f0, f1, f2, f3⟩ := hm
  have aw := (fin4 f0).2.2.2; have bw := (fin4 f1).2.2.2; have cw := (fin4 f2).2.2.2; have dw := (fin4 f3).2.2.2
  obtain ⟨vx, vy, vz, vw⟩ := fin4 hv
  have r0 := rep0
  simp only [mulVOn_eq]
  refine (entry_exact k t aw vx bw vy cw vz dw vw rfl rfl rfl rfl ?_ ?_ ?_ ?_ ?_ ?_ ?_).of_eq ?_ <;>
      simp only [h0, h1, h2, hw, r0, one_mul, zero_mul, mul_zero, mul_one, zero_add, add_zero]

/-- The columns of `m` are near `a`, `b` and `c` times the columns of `r`, with the given errors. -/
def Cols (m : M4 F32) (r : Fin 3 → Fin 3 → ℝ) (a b c e f g : ℝ) : Prop :=
  (Approx m.c0.x (a * r 0 0) e ∧ Approx m.c0.y (a * r 1 0) e ∧ Approx m.c0.z (a * r 2 0) e) ∧
  (Approx m.c1.x (b * r 0 1) f ∧ Approx m.c1.y (b * r 1 1) f ∧ Approx m.c1.z (b * r 2 1) f) ∧
  (Approx m.c2.x (c * r 0 2) g ∧ Approx m.c2.y (c * r 1 2) g ∧ Approx m.c2.z (c * r 2 2) g)

/-- `r` is the rotation by conjugation with `q`. -/
def IsConj (q : ℍ[ℝ]) (r : Fin 3 → Fin 3 → ℝ) : Prop :=
  (∀ i j, |r i j| ≤ 1) ∧ ∀ a b c : ℝ,
    (q * imQ ⟨a, b, c, 0⟩ * q⁻¹).imI = r 0 0 * a + r 0 1 * b + r 0 2 * c ∧
    (q * imQ ⟨a, b, c, 0⟩ * q⁻¹).imJ = r 1 0 * a + r 1 1 * b + r 1 2 * c ∧
    (q * imQ ⟨a, b, c, 0⟩ * q⁻¹).imK = r 2 0 * a + r 2 1 * b + r 2 2 * c

/-- The rotation matrix of the normalised quaternion. -/
theorem rotation (k : Backend) (q : V4 F32) (fq : AllFinite q.toList) (h1 : 1 / 2 ^ 50 ≤ ‖quatOf q‖) (h2 : ‖quatOf q‖ ≤ 2 ^ 62) :
    ∃ r, IsConj (quatOf q) r ∧ Cols (Transform.rotate (k.normalize4 q)) r 1 1 1 (32 / 2 ^ 24) (32 / 2 ^ 24) (32 / 2 ^ 24) := by
  have hQ := quat_sq q
  have n0 : 0 < ‖quatOf q‖ := lt_of_lt_of_le (by positivity) h1
  have ns : Spec.normSq q.toList = ‖quatOf q‖ ^ 2 := by
    rw [hQ]; simp only [Spec.normSq, V4.toList, List.map_cons, List.map_nil, List.sum_cons, List.sum_nil]; ring
  have hn := normalize_accuracy.2.2.2.2 k q fq (by
      rw [ns]
      calc (1 / 2 ^ 100 : ℝ) = (1 / 2 ^ 50) ^ 2 := by norm_num
        _ ≤ _ := pow_le_pow_left₀ (by positivity) h1 2) (by
      rw [ns]
      calc ‖quatOf q‖ ^ 2 ≤ (2 ^ 62) ^ 2 := pow_le_pow_left₀ n0.le h2 2
        _ ≤ _ := by norm_num)
  rw [ns, Real.sqrt_sq n0.le] at hn
  simp only [V4.toList, List.forall₂_cons, List.forall₂_nil_right_iff] at hn
  obtain ⟨cx, cy, cz, cw, -⟩ := hn
  have cu := conj_unit (X := rv q.x) (Y := rv q.y) (Z := rv q.z) (W := rv q.w) n0 (by rw [hQ])
  have unit := (cu 0 0 0).1
  have re := rotate_entries (c := k.normalize4 q) cx cy cz cw unit
  set x := rv q.x / ‖quatOf q‖
  set y := rv q.y / ‖quatOf q‖
  set z := rv q.z / ‖quatOf q‖
  set w := rv q.w / ‖quatOf q‖
  refine ⟨![![1 - 2 * (y * y + z * z), 2 * (x * y - w * z), 2 * (x * z + w * y)],
    ![2 * (x * y + w * z), 1 - 2 * (x * x + z * z), 2 * (y * z - w * x)],
    ![2 * (x * z - w * y), 2 * (y * z + w * x), 1 - 2 * (x * x + y * y)]], ⟨?_, fun a b c => ?_⟩, ?_⟩
  · have sx := mul_self_nonneg x; have sy := mul_self_nonneg y; have sz := mul_self_nonneg z; have sw := mul_self_nonneg w
    have un : x * x + y * y + z * z + w * w = 1 := by rw [← unit]; ring
    have d : ∀ {a b : ℝ}, 0 ≤ a → 0 ≤ b → a + b ≤ 1 → |1 - 2 * (a + b)| ≤ 1 := fun h1 h2 h3 => abs_le.2 ⟨by linarith, by linarith⟩
    have o : ∀ {a b c e : ℝ}, a * a + b * b + (c * c + e * e) = 1 → |2 * (a * b + c * e)| ≤ 1 ∧ |2 * (a * b - c * e)| ≤ 1 := by
      intro a b c e h
      have := mul_self_nonneg (a + b); have := mul_self_nonneg (a - b)
      have := mul_self_nonneg (c + e); have := mul_self_nonneg (c - e)
      constructor <;> rw [abs_le] <;> constructor <;> nlinarith
    have o1 := o (a := x) (b := y) (c := w) (e := z) (by linarith)
    have o2 := o (a := x) (b := z) (c := w) (e := y) (by linarith)
    have o3 := o (a := y) (b := z) (c := w) (e := x) (by linarith)
    intro i j
    fin_cases i <;> fin_cases j
    · exact d sy sz (by linarith)
    · exact o1.2
    · exact o2.1
    · exact o1.1
    · exact d sx sz (by linarith)
    · exact o3.2
    · exact o2.2
    · exact o3.1
    · exact d sx sy (by linarith)
  · obtain ⟨-, e1, e2, e3⟩ := cu a b c
    exact ⟨e1, e2, e3⟩
  · obtain ⟨⟨a1, a2, a3⟩, ⟨b1, b2, b3⟩, ⟨c1, c2, c3⟩⟩ := re
    simp only [Cols, one_mul, Matrix.cons_val]
    exact ⟨⟨a1, a2, a3⟩, ⟨b1, b2, b3⟩, ⟨c1, c2, c3⟩⟩

/-- The size of the entries of a scaled rotation allowed by `scaled`. -/
noncomputable def err (s : ℝ) : ℝ := 40 / 2 ^ 24 * |s| + 1 / 2 ^ 146

theorem eq4_one {s : V4 F32} (h : Transform.eq4 s (V4.splat (ofRat 1)) = true) :
    s.x.val = 1 ∧ s.y.val = 1 ∧ s.z.val = 1 := by
  have e : ∀ {a : F32}, eqb a (ofRat 1) = true → a.val = 1 := by
    intro a h
    unfold val
    rw [key_toRat (eqb_iff.1 h).2.2]
    exact one_lit.2
  unfold Transform.eq4 at h
  rw [Bool.and_eq_true, Bool.and_eq_true, Bool.and_eq_true] at h
  exact ⟨e h.1.1.1, e h.1.1.2, e h.1.2⟩

/-- The whole model matrix. -/
theorem model (k : Backend) (t : FTarget) (p q s : V4 F32) (fp : AllFinite p.xyz.toList) (fq : AllFinite q.toList)
    (fs : AllFinite s.xyz.toList) (h1 : 1 / 2 ^ 50 ≤ ‖quatOf q‖) (h2 : ‖quatOf q‖ ≤ 2 ^ 62)
    (hs : |rv s.x| ≤ 2 ^ 60 ∧ |rv s.y| ≤ 2 ^ 60 ∧ |rv s.z| ≤ 2 ^ 60) :
    let m := F32x4.calcModel k t p q s
    ∃ r, IsConj (quatOf q) r ∧ Cols m r s.x.val s.y.val s.z.val (err s.x.val) (err s.y.val) (err s.z.val) ∧
      (Approx m.c3.x p.x.val 0 ∧ Approx m.c3.y p.y.val 0 ∧ Approx m.c3.z p.z.val 0) ∧
      Approx m.c0.w 0 0 ∧ Approx m.c1.w 0 0 ∧ Approx m.c2.w 0 0 ∧ Approx m.c3.w 1 0 := by
  intro m
  obtain ⟨r, hr, cols⟩ := rotation k q fq h1 h2
  refine ⟨r, hr, ?_⟩
  obtain ⟨px, py, pz⟩ := fin3 fp
  obtain ⟨sx, sy, sz⟩ := fin3 fs
  simp only [V4.xyz] at px py pz sx sy sz
  have w0 : (Transform.rotate (k.normalize4 q)).c0.w = ofRat 0 := rfl
  have w1 : (Transform.rotate (k.normalize4 q)).c1.w = ofRat 0 := rfl
  have w2 : (Transform.rotate (k.normalize4 q)).c2.w = ofRat 0 := rfl
  have l3 : (Transform.rotate (k.normalize4 q)).c3 = ⟨ofRat 0, ofRat 0, ofRat 0, ofRat 1⟩ := rfl
  have z0 := zero_lit
  have o0 := one_lit
  have az : Approx (ofRat 0) 0 0 := ⟨z0.1, by rw [z0.2]; simp⟩
  have ao : Approx (ofRat 1) 1 0 := ⟨o0.1, by rw [o0.2]; simp⟩
  by_cases he : Transform.eq4 s (V4.splat (ofRat 1)) = true
  · obtain ⟨e1, e2, e3⟩ := eq4_one he
    have em : m = Transform.translateL p (Transform.rotate (k.normalize4 q)) := if_pos he
    have c3 : m.c3 = ⟨fadd (ofRat 0) p.x, fadd (ofRat 0) p.y, fadd (ofRat 0) p.z, ofRat 1⟩ := by rw [em]; rfl
    have c0 : m.c0 = (Transform.rotate (k.normalize4 q)).c0 := by rw [em]; rfl
    have c1 : m.c1 = (Transform.rotate (k.normalize4 q)).c1 := by rw [em]; rfl
    have c2 : m.c2 = (Transform.rotate (k.normalize4 q)).c2 := by rw [em]; rfl
    have ad : ∀ {a : F32}, a.isFinite = true → Approx (fadd (ofRat 0) a) a.val 0 := by
      intro a fa
      have := fadd_exact z0.1 fa fa (by rw [z0.2, zero_add])
      rwa [z0.2, zero_add] at this
    rw [e1, e2, e3, c0, c1, c2, c3, w0, w1, w2]
    refine ⟨?_, ⟨ad px, ad py, ad pz⟩, az, az, az, ao⟩
    obtain ⟨⟨a1, a2, a3⟩, ⟨b1, b2, b3⟩, ⟨d1, d2, d3⟩⟩ := cols
    have u : (32 / 2 ^ 24 : ℝ) ≤ err 1 := by unfold err; norm_num
    simp only [Cols, c0, c1, c2]
    exact ⟨⟨a1.mono u, a2.mono u, a3.mono u⟩, ⟨b1.mono u, b2.mono u, b3.mono u⟩, ⟨d1.mono u, d2.mono u, d3.mono u⟩⟩
  · have em : m = F32x4.mulMOn k t (F32x4.mulMOn k t (Transform.translate p) (Transform.rotate (k.normalize4 q))) (Transform.scale s) := if_neg he
    generalize Transform.rotate (k.normalize4 q) = R at *
    obtain ⟨⟨a1, a2, a3⟩, ⟨b1, b2, b3⟩, ⟨d1, d2, d3⟩⟩ := cols
    simp only [one_mul] at a1 a2 a3 b1 b2 b3 d1 d2 d3
    have f0 : AllFinite R.c0.toList := fin_list a1.1 a2.1 a3.1 (by rw [w0]; exact z0.1)
    have f1 : AllFinite R.c1.toList := fin_list b1.1 b2.1 b3.1 (by rw [w1]; exact z0.1)
    have f2 : AllFinite R.c2.toList := fin_list d1.1 d2.1 d3.1 (by rw [w2]; exact z0.1)
    have f3 : AllFinite R.c3.toList := by rw [l3]; exact fin_list z0.1 z0.1 z0.1 o0.1
    obtain ⟨x0, y0, zz0, ww0⟩ := move_exact k t fp f0 (Or.inl (by rw [w0]; exact z0.2))
    obtain ⟨x1, y1, zz1, ww1⟩ := move_exact k t fp f1 (Or.inl (by rw [w1]; exact z0.2))
    obtain ⟨x2, y2, zz2, ww2⟩ := move_exact k t fp f2 (Or.inl (by rw [w2]; exact z0.2))
    obtain ⟨x3, y3, zz3, ww3⟩ := move_exact k t fp f3 (Or.inr (by rw [l3]; exact ⟨z0.2, z0.2, z0.2, o0.2⟩))
    rw [w0, z0.2] at x0 y0 zz0 ww0
    rw [w1, z0.2] at x1 y1 zz1 ww1
    rw [w2, z0.2] at x2 y2 zz2 ww2
    rw [l3] at x3 y3 zz3 ww3
    simp only [z0.2, o0.2] at x3 y3 zz3 ww3
    simp only [mul_zero, mul_one, zero_add, add_zero] at x0 y0 zz0 x1 y1 zz1 x2 y2 zz2 x3 y3 zz3
    obtain ⟨T, hT⟩ : ∃ T, T = F32x4.mulMOn k t (Transform.translate p) R := ⟨_, rfl⟩
    have t0 : F32x4.mulVOn k t (Transform.translate p) R.c0 = T.c0 := by rw [hT]; rfl
    have t1 : F32x4.mulVOn k t (Transform.translate p) R.c1 = T.c1 := by rw [hT]; rfl
    have t2 : F32x4.mulVOn k t (Transform.translate p) R.c2 = T.c2 := by rw [hT]; rfl
    have t3 : F32x4.mulVOn k t (Transform.translate p) ⟨ofRat 0, ofRat 0, ofRat 0, ofRat 1⟩ = T.c3 := by rw [hT, ← l3]; rfl
    rw [t0] at x0 y0 zz0 ww0
    rw [t1] at x1 y1 zz1 ww1
    rw [t2] at x2 y2 zz2 ww2
    rw [t3] at x3 y3 zz3 ww3
    have fT : FinM T := ⟨fin_list x0.1 y0.1 zz0.1 ww0.1, fin_list x1.1 y1.1 zz1.1 ww1.1, fin_list x2.1 y2.1 zz2.1 ww2.1,
      fin_list x3.1 y3.1 zz3.1 ww3.1⟩
    rw [← hT] at em
    obtain ⟨l1, l2, l3', l4⟩ := last_exact k t fT s
    have m0 : m.c0 = F32x4.mulVOn k t T ⟨s.x, ofRat 0, ofRat 0, ofRat 0⟩ := by rw [em]; rfl
    have m1 : m.c1 = F32x4.mulVOn k t T ⟨ofRat 0, s.y, ofRat 0, ofRat 0⟩ := by rw [em]; rfl
    have m2 : m.c2 = F32x4.mulVOn k t T ⟨ofRat 0, ofRat 0, s.z, ofRat 0⟩ := by rw [em]; rfl
    have m3 : m.c3 = F32x4.mulVOn k t T (Transform.scale s).c3 := by rw [em]; rfl
    have g0 : AllFinite (⟨s.x, ofRat 0, ofRat 0, ofRat 0⟩ : V4 F32).toList := fin_list sx z0.1 z0.1 z0.1
    have g1 : AllFinite (⟨ofRat 0, s.y, ofRat 0, ofRat 0⟩ : V4 F32).toList := fin_list z0.1 sy z0.1 z0.1
    have g2 : AllFinite (⟨ofRat 0, ofRat 0, s.z, ofRat 0⟩ : V4 F32).toList := fin_list z0.1 z0.1 sz z0.1
    rw [x3.eq] at l1
    rw [y3.eq] at l2
    rw [zz3.eq] at l3'
    rw [ww3.eq] at l4
    rw [m3]
    refine ⟨?_, ⟨l1, l2, l3'⟩, ?_, ?_, ?_, l4⟩
    · obtain ⟨k1, k2, k3, -⟩ := entry_ok k t fT g0
      obtain ⟨i1, i2, i3, -⟩ := entry_ok k t fT g1
      obtain ⟨j1, j2, j3, -⟩ := entry_ok k t fT g2
      have rz : rv (ofRat 0) = 0 := z0.2
      simp only [Cols, m0, m1, m2]
      have fs0 : ∀ {a b c d v : ℝ}, sumProd [(a, v), (b, 0), (c, 0), (d, 0)] = a * v ∧ absProd [(a, v), (b, 0), (c, 0), (d, 0)] = |a * v| := by
        intro a b c d v; simp [sumProd, absProd]
      have fs1 : ∀ {a b c d v : ℝ}, sumProd [(a, 0), (b, v), (c, 0), (d, 0)] = b * v ∧ absProd [(a, 0), (b, v), (c, 0), (d, 0)] = |b * v| := by
        intro a b c d v; simp [sumProd, absProd]
      have fs2 : ∀ {a b c d v : ℝ}, sumProd [(a, 0), (b, 0), (c, v), (d, 0)] = c * v ∧ absProd [(a, 0), (b, 0), (c, v), (d, 0)] = |c * v| := by
        intro a b c d v; simp [sumProd, absProd]
      simp only [row4, rz] at k1 k2 k3 i1 i2 i3 j1 j2 j3
      have cl : ∀ {a b : F32} {R : ℝ}, Approx a b.val 0 → Approx b R (32 / 2 ^ 24) → |rv a - R| ≤ 32 / 2 ^ 24 := by
        intro a b R ha hb
        rw [rv_eq, ha.eq]; exact hb.2
      exact ⟨⟨scaled k1 fs0.1 fs0.2 rfl (cl x0 a1) (hr.1 _ _) hs.1, scaled k2 fs0.1 fs0.2 rfl (cl y0 a2) (hr.1 _ _) hs.1,
          scaled k3 fs0.1 fs0.2 rfl (cl zz0 a3) (hr.1 _ _) hs.1⟩,
        ⟨scaled i1 fs1.1 fs1.2 rfl (cl x1 b1) (hr.1 _ _) hs.2.1, scaled i2 fs1.1 fs1.2 rfl (cl y1 b2) (hr.1 _ _) hs.2.1,
          scaled i3 fs1.1 fs1.2 rfl (cl zz1 b3) (hr.1 _ _) hs.2.1⟩,
        ⟨scaled j1 fs2.1 fs2.2 rfl (cl x2 d1) (hr.1 _ _) hs.2.2, scaled j2 fs2.1 fs2.2 rfl (cl y2 d2) (hr.1 _ _) hs.2.2,
          scaled j3 fs2.1 fs2.2 rfl (cl zz2 d3) (hr.1 _ _) hs.2.2⟩⟩
    · rw [m0]; exact low_exact k t fT g0 ww0.eq ww1.eq ww2.eq z0.2
    · rw [m1]; exact low_exact k t fT g1 ww0.eq ww1.eq ww2.eq z0.2
    · rw [m2]; exact low_exact k t fT g2 ww0.eq ww1.eq ww2.eq z0.2

/-- One coordinate of a placed point. -/
theorem point {r : F32} {m0 m1 m2 a b c x y z sx sy sz p P : ℝ} (hs : SumOk r [(m0, x), (m1, y), (m2, z), (p, 1)])
    (h0 : |m0 - sx * a| ≤ err sx) (h1 : |m1 - sy * b| ≤ err sy) (h2 : |m2 - sz * c| ≤ err sz)
    (ha : |a| ≤ 1) (hb : |b| ≤ 1) (hc : |c| ≤ 1) (kx : |sx| ≤ 2 ^ 60) (ky : |sy| ≤ 2 ^ 60) (kz : |sz| ≤ 2 ^ 60)
    (lx : |x| ≤ 2 ^ 60) (ly : |y| ≤ 2 ^ 60) (lz : |z| ≤ 2 ^ 60) (hp : |p| ≤ P) (hP : P ≤ 2 ^ 120) :
    Approx r (p + (a * (sx * x) + b * (sy * y) + c * (sz * z)))
      (45 / 2 ^ 24 * (|sx * x| + |sy * y| + |sz * z|) + 5 / 2 ^ 24 * P + (1 + |x| + |y| + |z|) / 2 ^ 145) := by
  have one : ∀ {m s a x : ℝ}, |m - s * a| ≤ err s → |a| ≤ 1 → |s| ≤ 2 ^ 60 → |x| ≤ 2 ^ 60 →
      |m * x| ≤ (1 + 1 / 2 ^ 18) * |s * x| + 1 / 2 ^ 146 * |x| ∧ |m * x - a * (s * x)| ≤ 40 / 2 ^ 24 * |s * x| + 1 / 2 ^ 146 * |x| ∧
      |s * x| ≤ 2 ^ 120 := by
    intro m s a x hm ha hs hx
    have x0 := abs_nonneg x; have s0 := abs_nonneg s
    have d : |m * x - a * (s * x)| ≤ 40 / 2 ^ 24 * |s * x| + 1 / 2 ^ 146 * |x| := by
      have e : m * x - a * (s * x) = (m - s * a) * x := by ring
      rw [e, abs_mul]
      refine (mul_le_mul_of_nonneg_right hm x0).trans (le_of_eq ?_)
      rw [err, abs_mul]; ring
    refine ⟨?_, d, ?_⟩
    · have := abs_add_le (m * x - a * (s * x)) (a * (s * x))
      rw [sub_add_cancel, abs_mul a] at this
      have h := mul_le_mul_of_nonneg_right ha (abs_nonneg (s * x))
      have := abs_nonneg (s * x)
      norm_num at *
      linarith
    · rw [abs_mul]
      refine (mul_le_mul hs hx x0 (by positivity)).trans (by norm_num)
  obtain ⟨u0, v0, w0⟩ := one h0 ha kx lx
  obtain ⟨u1, v1, w1⟩ := one h1 hb ky ly
  obtain ⟨u2, v2, w2⟩ := one h2 hc kz lz
  have n0 := abs_nonneg (sx * x); have n1 := abs_nonneg (sy * y); have n2 := abs_nonneg (sz * z)
  have i0 := abs_nonneg x; have i1 := abs_nonneg y; have i2 := abs_nonneg z; have p0 := abs_nonneg p
  have e1 : sumProd [(m0, x), (m1, y), (m2, z), (p, 1)] = m0 * x + m1 * y + m2 * z + p := by simp [sumProd]; ring
  have e2 : absProd [(m0, x), (m1, y), (m2, z), (p, 1)] = |m0 * x| + |m1 * y| + |m2 * z| + |p| := by simp [absProd, add_assoc]
  have hA : |m0 * x| + |m1 * y| + |m2 * z| + |p| ≤
      (1 + 1 / 2 ^ 18) * (|sx * x| + |sy * y| + |sz * z|) + 1 / 2 ^ 146 * (|x| + |y| + |z|) + P := by linarith
  have := hs (by rw [e2]; refine hA.trans ?_; norm_num at *; linarith)
  rw [e1, e2, show (List.length [(m0, x), (m1, y), (m2, z), (p, 1)]) = 4 from rfl] at this
  have tr : |m0 * x + m1 * y + m2 * z + p - (p + (a * (sx * x) + b * (sy * y) + c * (sz * z)))| ≤
      40 / 2 ^ 24 * (|sx * x| + |sy * y| + |sz * z|) + 1 / 2 ^ 146 * (|x| + |y| + |z|) := by
    have e : m0 * x + m1 * y + m2 * z + p - (p + (a * (sx * x) + b * (sy * y) + c * (sz * z))) =
        (m0 * x - a * (sx * x)) + (m1 * y - b * (sy * y)) + (m2 * z - c * (sz * z)) := by ring
    rw [e]
    refine (abs_add_three _ _ _).trans ?_
    linarith
  refine (Approx.trans (r := r) this tr).mono ?_
  have u : ((1 : ℝ) + 1 / 2 ^ 24) ^ 4 - 1 ≤ 401 / 100 / 2 ^ 24 := by norm_num
  have := mul_le_mul u hA (by positivity) (by norm_num)
  push_cast
  linarith

end PlaceP
open PlaceP

/-- C111: the columns of the matrix made from the normalised quaternion are within `2^-19` of the axes rotated exactly, for
quaternions of any length between `2^-50` and `2^62`. -/
theorem rotation_matrix_accuracy (k : Backend) (q : V4 F32) (fq : AllFinite q.toList) (h1 : 1 / 2 ^ 50 ≤ ‖quatOf q‖)
    (h2 : ‖quatOf q‖ ≤ 2 ^ 62) :
    let m := Transform.rotate (k.normalize4 q)
    NearIm m.c0 (quatOf q * imQ ⟨1, 0, 0, 0⟩ * (quatOf q)⁻¹) (1 / 2 ^ 19) ∧
    NearIm m.c1 (quatOf q * imQ ⟨0, 1, 0, 0⟩ * (quatOf q)⁻¹) (1 / 2 ^ 19) ∧
    NearIm m.c2 (quatOf q * imQ ⟨0, 0, 1, 0⟩ * (quatOf q)⁻¹) (1 / 2 ^ 19) := by
  obtain ⟨r, ⟨-, hr⟩, ⟨a1, a2, a3⟩, ⟨b1, b2, b3⟩, ⟨d1, d2, d3⟩⟩ := rotation k q fq h1 h2
  have u : (32 / 2 ^ 24 : ℝ) ≤ 1 / 2 ^ 19 := by norm_num
  refine ⟨?_, ?_, ?_⟩
  · obtain ⟨e1, e2, e3⟩ := hr 1 0 0
    rw [NearIm, e1, e2, e3]
    exact ⟨(a1.of_eq (by ring)).mono u, (a2.of_eq (by ring)).mono u, (a3.of_eq (by ring)).mono u⟩
  · obtain ⟨e1, e2, e3⟩ := hr 0 1 0
    rw [NearIm, e1, e2, e3]
    exact ⟨(b1.of_eq (by ring)).mono u, (b2.of_eq (by ring)).mono u, (b3.of_eq (by ring)).mono u⟩
  · obtain ⟨e1, e2, e3⟩ := hr 0 0 1
    rw [NearIm, e1, e2, e3]
    exact ⟨(d1.of_eq (by ring)).mono u, (d2.of_eq (by ring)).mono u, (d3.of_eq (by ring)).mono u⟩

/-- C111: the model matrix on every target: its last column is exactly the position and its lowest row exactly `0 0 0 1`, and
its other columns are the scaled axes rotated exactly, up to `40 / 2^24` of the scale. -/
theorem calcModel_matrix_accuracy (k : Backend) (t : FTarget) (p q s : V4 F32) (fp : AllFinite p.xyz.toList) (fq : AllFinite q.toList)
    (fs : AllFinite s.xyz.toList) (h1 : 1 / 2 ^ 50 ≤ ‖quatOf q‖) (h2 : ‖quatOf q‖ ≤ 2 ^ 62)
    (hs : |rv s.x| ≤ 2 ^ 60 ∧ |rv s.y| ≤ 2 ^ 60 ∧ |rv s.z| ≤ 2 ^ 60) :
    let m := F32x4.calcModel k t p q s
    (NearIm m.c0 (quatOf q * imQ ⟨rv s.x, 0, 0, 0⟩ * (quatOf q)⁻¹) (40 / 2 ^ 24 * |rv s.x| + 1 / 2 ^ 146) ∧
     NearIm m.c1 (quatOf q * imQ ⟨0, rv s.y, 0, 0⟩ * (quatOf q)⁻¹) (40 / 2 ^ 24 * |rv s.y| + 1 / 2 ^ 146) ∧
     NearIm m.c2 (quatOf q * imQ ⟨0, 0, rv s.z, 0⟩ * (quatOf q)⁻¹) (40 / 2 ^ 24 * |rv s.z| + 1 / 2 ^ 146)) ∧
    (rv m.c3.x = rv p.x ∧ rv m.c3.y = rv p.y ∧ rv m.c3.z = rv p.z) ∧
    (rv m.c0.w = 0 ∧ rv m.c1.w = 0 ∧ rv m.c2.w = 0 ∧ rv m.c3.w = 1) ∧ FinM m := by
  intro m
  obtain ⟨r, ⟨-, hr⟩, ⟨⟨a1, a2, a3⟩, ⟨b1, b2, b3⟩, ⟨d1, d2, d3⟩⟩, ⟨l1, l2, l3⟩, w0, w1, w2, w3⟩ := model k t p q s fp fq fs h1 h2 hs
  refine ⟨⟨?_, ?_, ?_⟩, ⟨l1.eq, l2.eq, l3.eq⟩, ⟨w0.eq, w1.eq, w2.eq, w3.eq⟩, fin_list a1.1 a2.1 a3.1 w0.1, fin_list b1.1 b2.1 b3.1 w1.1,
    fin_list d1.1 d2.1 d3.1 w2.1, fin_list l1.1 l2.1 l3.1 w3.1⟩
  · obtain ⟨e1, e2, e3⟩ := hr (rv s.x) 0 0
    rw [NearIm, e1, e2, e3]
    exact ⟨a1.of_eq (by simp only [rv_eq]; ring), a2.of_eq (by simp only [rv_eq]; ring), a3.of_eq (by simp only [rv_eq]; ring)⟩
  · obtain ⟨e1, e2, e3⟩ := hr 0 (rv s.y) 0
    rw [NearIm, e1, e2, e3]
    exact ⟨b1.of_eq (by simp only [rv_eq]; ring), b2.of_eq (by simp only [rv_eq]; ring), b3.of_eq (by simp only [rv_eq]; ring)⟩
  · obtain ⟨e1, e2, e3⟩ := hr 0 0 (rv s.z)
    rw [NearIm, e1, e2, e3]
    exact ⟨d1.of_eq (by simp only [rv_eq]; ring), d2.of_eq (by simp only [rv_eq]; ring), d3.of_eq (by simp only [rv_eq]; ring)⟩

/-- C111: the model matrix times a point: every coordinate is within `45 / 2^24` of the sizes of the scaled coordinates and
`5 / 2^24` of the distance of the position from the origin, of where the object's transform puts the point exactly. -/
theorem calcModel_point_accuracy (k : Backend) (t : FTarget) (p q s v : V4 F32) (fp : AllFinite p.xyz.toList) (fq : AllFinite q.toList)
    (fs : AllFinite s.xyz.toList) (fv : AllFinite v.xyz.toList) (h1 : 1 / 2 ^ 50 ≤ ‖quatOf q‖) (h2 : ‖quatOf q‖ ≤ 2 ^ 62)
    (hs : |rv s.x| ≤ 2 ^ 60 ∧ |rv s.y| ≤ 2 ^ 60 ∧ |rv s.z| ≤ 2 ^ 60) (hv : |rv v.x| ≤ 2 ^ 60 ∧ |rv v.y| ≤ 2 ^ 60 ∧ |rv v.z| ≤ 2 ^ 60)
    (hp : ‖pureOf p‖ ≤ 2 ^ 120) :
    NearIm (F32x4.mulVOn k t (F32x4.calcModel k t p q s) ⟨v.x, v.y, v.z, ofRat 1⟩) (placed p q s v)
      (45 / 2 ^ 24 * spread s v + 5 / 2 ^ 24 * ‖pureOf p‖ + (1 + |rv v.x| + |rv v.y| + |rv v.z|) / 2 ^ 145) := by
  obtain ⟨-, -, -, fm⟩ := calcModel_matrix_accuracy k t p q s fp fq fs h1 h2 hs
  obtain ⟨r, ⟨r1, hr⟩, ⟨⟨a1, a2, a3⟩, ⟨b1, b2, b3⟩, ⟨d1, d2, d3⟩⟩, ⟨l1, l2, l3⟩, -⟩ := model k t p q s fp fq fs h1 h2 hs
  obtain ⟨vx, vy, vz⟩ := fin3 fv
  obtain ⟨k1, k2, k3, -⟩ := entry_ok k t fm (v := ⟨v.x, v.y, v.z, ofRat 1⟩) (fin_list vx vy vz one_lit.1)
  obtain ⟨e1, e2, e3⟩ := hr (rv s.x * rv v.x) (rv s.y * rv v.y) (rv s.z * rv v.z)
  obtain ⟨p1, p2, p3⟩ := im_le (pureOf p)
  have o : rv (ofRat 1) = 1 := one_lit.2
  simp only [row4, o] at k1 k2 k3
  have q1 : rv (F32x4.calcModel k t p q s).c3.x = rv p.x := l1.eq
  have q2 : rv (F32x4.calcModel k t p q s).c3.y = rv p.y := l2.eq
  have q3 : rv (F32x4.calcModel k t p q s).c3.z = rv p.z := l3.eq
  rw [q1] at k1
  rw [q2] at k2
  rw [q3] at k3
  have x := point k1 a1.2 b1.2 d1.2 (r1 _ _) (r1 _ _) (r1 _ _) hs.1 hs.2.1 hs.2.2 hv.1 hv.2.1 hv.2.2 p1 hp
  have y := point k2 a2.2 b2.2 d2.2 (r1 _ _) (r1 _ _) (r1 _ _) hs.1 hs.2.1 hs.2.2 hv.1 hv.2.1 hv.2.2 p2 hp
  have z := point k3 a3.2 b3.2 d3.2 (r1 _ _) (r1 _ _) (r1 _ _) hs.1 hs.2.1 hs.2.2 hv.1 hv.2.1 hv.2.2 p3 hp
  refine ⟨x.of_eq ?_, y.of_eq ?_, z.of_eq ?_⟩
  · rw [placed, turned, Quaternion.imI_add, e1]; rfl
  · rw [placed, turned, Quaternion.imJ_add, e2]; rfl
  · rw [placed, turned, Quaternion.imK_add, e3]; rfl

/-- A scale of two in all directions. -/
def doubled : V4 F32 := V4.splat (ofRat 2)

/-- The hypotheses are met: an object at (1/2, 1/2, 1/2), turned by a third turn and doubled; its point (2, 2, 2). -/
example (k : Backend) (t : FTarget) :
    NearIm (F32x4.mulVOn k t (F32x4.calcModel k t thirdTurn thirdTurn doubled) ⟨doubled.x, doubled.y, doubled.z, ofRat 1⟩)
      (placed thirdTurn thirdTurn doubled doubled) (45 / 2 ^ 24 * 12 + 5 / 2 ^ 24 + 7 / 2 ^ 145) := by
  obtain ⟨f, n⟩ := thirdTurn_ok
  have f3 : AllFinite thirdTurn.xyz.toList := by
    obtain ⟨x, y, z, -⟩ := fin4 f
    intro a ha; simp only [V4.xyz, V3.toList, List.mem_cons, List.not_mem_nil, or_false] at ha
    rcases ha with rfl | rfl | rfl <;> assumption
  have d2 : (ofRat 2).isFinite = true ∧ rv (ofRat 2) = 2 := ⟨two_exact.1, two_exact.eq⟩
  have fd : AllFinite doubled.xyz.toList := by
    intro a ha; simp only [doubled, V4.splat, V4.xyz, V3.toList, List.mem_cons, List.not_mem_nil, or_false] at ha
    rcases ha with rfl | rfl | rfl <;> exact d2.1
  have hn : ‖pureOf thirdTurn‖ ≤ 1 := by
    have h1 := pure_sq thirdTurn
    have h2 := quat_sq thirdTurn
    rw [n] at h2
    refine le_of_sq_le_sq ?_ (by norm_num)
    rw [h1]; linarith [sq_nonneg (rv thirdTurn.w)]
  have e1 : rv doubled.x = 2 := d2.2
  have e2 : rv doubled.y = 2 := d2.2
  have e3 : rv doubled.z = 2 := d2.2
  have := calcModel_point_accuracy k t thirdTurn thirdTurn doubled doubled f3 f fd fd (by rw [n]; norm_num) (by rw [n]; norm_num)
    (by rw [e1, e2, e3]; norm_num) (by rw [e1, e2, e3]; norm_num) (hn.trans (by norm_num))
  simp only [spread, e1, e2, e3] at this
  refine ⟨⟨this.1.1, this.1.2.trans ?_⟩, ⟨this.2.1.1, this.2.1.2.trans ?_⟩, ⟨this.2.2.1, this.2.2.2.trans ?_⟩⟩ <;>
    (norm_num; linarith)

end Verif
