import Mathlib.Tactic.IntervalCases
import Mathlib.Tactic.Positivity
import Verif.Model.Ibl
import Verif.Spec.Sampling

/-!
# Cube map addressing (C68)
-/

namespace Verif
open Ibl Spec

private theorem faces {face : BitVec 32} (h : face.toNat < 6) :
    face = 0 ∨ face = 1 ∨ face = 2 ∨ face = 3 ∨ face = 4 ∨ face = 5 := by
  have e : face = BitVec.ofNat 32 face.toNat := by simp
  rw [e]
  generalize face.toNat = n at h
  interval_cases n <;> simp

/-- A value of `faceDir` scaled by a positive number: what `stToDir` returns. -/
private theorem dir_form {st : V2 ℝ} {face : BitVec 32} {d : V3 ℝ} (h : stToDir st face = some d) :
    ∃ (D : V3 ℝ) (k : ℝ), faceDir st face = some D ∧ k = 1 / Real.sqrt (D.x * D.x + D.y * D.y + D.z * D.z) ∧
      d = ⟨D.x * k, D.y * k, D.z * k⟩ := by
  unfold stToDir at h
  cases hD : faceDir st face with
  | none => rw [hD] at h; cases h
  | some D =>
    rw [hD] at h
    simp only [Option.map_some, Option.some.injEq] at h
    refine ⟨D, _, rfl, rfl, ?_⟩
    rw [← h]; simp only [vec]; push_cast; rfl

private theorem face_form {st : V2 ℝ} {face : BitVec 32} (hf : face.toNat < 6) {D : V3 ℝ}
    (h : faceDir st face = some D) :
    alongAxis D (faceNormal face.toNat) = 1 ∧ D.x * D.x + D.y * D.y + D.z * D.z = 1 + st.x * st.x + st.y * st.y := by
  rcases faces hf with rfl | rfl | rfl | rfl | rfl | rfl <;>
    · simp [faceDir] at h
      subst h
      constructor
      · simp [alongAxis, faceNormal]
      · ring

/-- C68: for every face 0..5 and every position in the closed square, `stToDir` returns a unit vector whose
component along the face normal is positive and at least as large as the absolute value of every component. -/
theorem stToDir_unit_major (st : V2 ℝ) (face : BitVec 32) (hf : face.toNat < 6)
    (hx : |st.x| ≤ 1) (hy : |st.y| ≤ 1) :
    ∃ d, stToDir st face = some d ∧ d.x ^ 2 + d.y ^ 2 + d.z ^ 2 = 1 ∧
      0 < alongAxis d (faceNormal face.toNat) ∧ |d.x| ≤ alongAxis d (faceNormal face.toNat) ∧
      |d.y| ≤ alongAxis d (faceNormal face.toNat) ∧ |d.z| ≤ alongAxis d (faceNormal face.toNat) := by
  have hs : ∃ d, stToDir st face = some d := by
    rcases faces hf with rfl | rfl | rfl | rfl | rfl | rfl <;> simp [stToDir, faceDir]
  obtain ⟨d, hd⟩ := hs
  obtain ⟨D, k, hD, hk, rfl⟩ := dir_form hd
  obtain ⟨h1, h2⟩ := face_form hf hD
  rw [h2] at hk
  have hpos : 0 < 1 + st.x * st.x + st.y * st.y := by nlinarith [mul_self_nonneg st.x, mul_self_nonneg st.y]
  have hk0 : 0 < k := by rw [hk]; exact one_div_pos.2 (Real.sqrt_pos.2 hpos)
  have hk2 : k ^ 2 * (1 + st.x * st.x + st.y * st.y) = 1 := by
    rw [hk, div_pow, one_pow, Real.sq_sqrt hpos.le]; field_simp
  have ha : alongAxis ⟨D.x * k, D.y * k, D.z * k⟩ (faceNormal face.toNat) = k := by
    have : alongAxis ⟨D.x * k, D.y * k, D.z * k⟩ (faceNormal face.toNat) = alongAxis D (faceNormal face.toNat) * k := by
      simp only [alongAxis]; ring
    rw [this, h1, one_mul]
  refine ⟨_, hd, ?_, ?_⟩
  · simp only; rw [← hk2, ← h2]; ring
  · rw [ha]
    simp only [abs_mul, abs_of_pos hk0]
    refine ⟨hk0, ?_⟩
    have b : |D.x| ≤ 1 ∧ |D.y| ≤ 1 ∧ |D.z| ≤ 1 := by
      rcases faces hf with rfl | rfl | rfl | rfl | rfl | rfl <;>
        · simp [faceDir] at hD
          subst hD
          simp [hx, hy]
    refine ⟨?_, ?_, ?_⟩
    · nlinarith [b.1]
    · nlinarith [b.2.1]
    · nlinarith [b.2.2]

/-- C68: faces outside 0..5 are rejected, whatever the position. -/
theorem stToDir_rejects (st : V2 ℝ) (face : BitVec 32) (hf : 6 ≤ face.toNat) (coords : V2 (BitVec 32)) (inv : ℝ) :
    stToDir st face = none ∧ coordsToDir ⟨coords.x, coords.y, face⟩ inv = none := by
  have h : ∀ n : BitVec 32, n.toNat < 6 → face ≠ n := by rintro n hn rfl; omega
  have hn : ∀ st : V2 ℝ, faceDir st face = none := by
    intro st
    unfold faceDir
    rw [if_neg (h 0 (by decide)), if_neg (h 1 (by decide)), if_neg (h 2 (by decide)), if_neg (h 3 (by decide)),
      if_neg (h 4 (by decide)), if_neg (h 5 (by decide))]
  constructor
  · simp [stToDir, hn]
  · simp [coordsToDir, stToDir, hn]

private theorem same_face {st st' : V2 ℝ} {face : BitVec 32} (hf : face.toNat < 6) {d : V3 ℝ}
    (h : stToDir st face = some d) (h' : stToDir st' face = some d) : st = st' := by
  obtain ⟨D, k, hD, hk, e⟩ := dir_form h
  obtain ⟨D', k', hD', hk', e'⟩ := dir_form h'
  obtain ⟨h1, h2⟩ := face_form hf hD
  obtain ⟨h1', h2'⟩ := face_form hf hD'
  rw [h2] at hk
  rw [h2'] at hk'
  have hpos : ∀ s : V2 ℝ, 0 < 1 + s.x * s.x + s.y * s.y :=
    fun s => by nlinarith [mul_self_nonneg s.x, mul_self_nonneg s.y]
  have hk0 : 0 < k := by rw [hk]; exact one_div_pos.2 (Real.sqrt_pos.2 (hpos st))
  have ha : alongAxis d (faceNormal face.toNat) = k := by
    have : alongAxis d (faceNormal face.toNat) = alongAxis D (faceNormal face.toNat) * k := by
      rw [e]; simp only [alongAxis]; ring
    rw [this, h1, one_mul]
  have ha' : alongAxis d (faceNormal face.toNat) = k' := by
    have : alongAxis d (faceNormal face.toNat) = alongAxis D' (faceNormal face.toNat) * k' := by
      rw [e']; simp only [alongAxis]; ring
    rw [this, h1', one_mul]
  have ek : k' = k := by rw [← ha', ha]
  rw [e, ek, V3.mk.injEq] at e'
  have hc : ∀ {a b : ℝ}, a * k = b * k → a = b := fun h => mul_right_cancel₀ hk0.ne' h
  obtain ⟨x1, x2, x3⟩ := e'
  have x1 := hc x1; have x2 := hc x2; have x3 := hc x3
  cases st; cases st'
  rcases faces hf with rfl | rfl | rfl | rfl | rfl | rfl <;>
    · simp [faceDir] at hD hD'
      subst hD hD'
      simp at x1 x2 x3
      simp [x1, x2, x3]

/-- C68: on one face distinct positions give distinct directions (no bound on the positions needed); positions
strictly inside different faces never give the same direction. -/
theorem stToDir_injective (st st' : V2 ℝ) (face face' : BitVec 32) (hf : face.toNat < 6) (hf' : face'.toNat < 6)
    (h : stToDir st face = stToDir st' face') :
    (face = face' → st = st') ∧
    (|st.x| < 1 → |st.y| < 1 → |st'.x| < 1 → |st'.y| < 1 → face = face' ∧ st = st') := by
  have hs : ∃ d, stToDir st face = some d := by
    rcases faces hf with rfl | rfl | rfl | rfl | rfl | rfl <;> simp [stToDir, faceDir]
  obtain ⟨d, hd⟩ := hs
  have hd' := h ▸ hd
  have one : face = face' → st = st' := by rintro rfl; exact same_face hf hd hd'
  refine ⟨one, fun a b a' b' => ?_⟩
  suffices hfe : face = face' from ⟨hfe, one hfe⟩
  obtain ⟨D, k, hD, hk, e⟩ := dir_form hd
  obtain ⟨D', k', hD', hk', e'⟩ := dir_form hd'
  have hpos : ∀ s : V2 ℝ, 0 < 1 + s.x * s.x + s.y * s.y :=
    fun s => by nlinarith [mul_self_nonneg s.x, mul_self_nonneg s.y]
  rw [(face_form hf hD).2] at hk
  rw [(face_form hf' hD').2] at hk'
  have hk0 : 0 < k := by rw [hk]; exact one_div_pos.2 (Real.sqrt_pos.2 (hpos st))
  have hk0' : 0 < k' := by rw [hk']; exact one_div_pos.2 (Real.sqrt_pos.2 (hpos st'))
  clear hk hk' hd hd' h one
  rw [e, V3.mk.injEq] at e'
  obtain ⟨x1, x2, x3⟩ := e'
  rw [abs_lt] at a b a' b'
  have p1 : st.x * k < k := by nlinarith
  have p2 : -k < st.x * k := by nlinarith
  have p3 : st.y * k < k := by nlinarith
  have p4 : -k < st.y * k := by nlinarith
  have q1 : st'.x * k' < k' := by nlinarith
  have q2 : -k' < st'.x * k' := by nlinarith
  have q3 : st'.y * k' < k' := by nlinarith
  have q4 : -k' < st'.y * k' := by nlinarith
  rcases faces hf with rfl | rfl | rfl | rfl | rfl | rfl <;>
    rcases faces hf' with rfl | rfl | rfl | rfl | rfl | rfl <;>
    first
    | rfl
    | · exfalso
        simp [faceDir] at hD hD'
        subst hD hD'
        simp only [neg_mul, one_mul, neg_neg, Flt.real_lit, Rat.cast_one, Rat.cast_neg, Flt.real_neg] at x1 x2 x3
        linarith

/-- C68: texel centers map strictly inside the face: for a texture of any size `n >= 1` (with `invDim = 1/n`) and
any texel, both coordinates are strictly between -1 and 1, and they are `1 - (2 c + 1) / n`. -/
theorem coordsToST_inside (c : V2 (BitVec 32)) (n : Nat) (hx : c.x.toNat < n) (hy : c.y.toNat < n) :
    coordsToST c (1 / (n : ℝ)) = ⟨1 - (2 * c.x.toNat + 1) / n, 1 - (2 * c.y.toNat + 1) / n⟩ ∧
    |(coordsToST c (1 / (n : ℝ))).x| < 1 ∧ |(coordsToST c (1 / (n : ℝ))).y| < 1 := by
  have e : coordsToST c (1 / (n : ℝ)) = ⟨1 - (2 * c.x.toNat + 1) / n, 1 - (2 * c.y.toNat + 1) / n⟩ := by
    simp only [coordsToST, vec, V2.mk.injEq]
    constructor
    · show (_ - (((c.x.toNat : ℤ) : ℝ) + _) * _) * _ + _ = _
      push_cast; ring
    · show (_ - (((c.y.toNat : ℤ) : ℝ) + _) * _) * _ + _ = _
      push_cast; ring
  rw [e]
  have hn : (0 : ℝ) < n := by exact_mod_cast (by omega : 0 < n)
  have b : ∀ m : Nat, m < n → |1 - (2 * (m : ℝ) + 1) / n| < 1 := by
    intro m hm
    have h1 : (m : ℝ) + 1 ≤ n := by exact_mod_cast hm
    have h2 : (0 : ℝ) ≤ m := Nat.cast_nonneg m
    have h3 : 0 < (2 * (m : ℝ) + 1) / n := by positivity
    have h4 : (2 * (m : ℝ) + 1) / n < 2 := by rw [div_lt_iff₀ hn]; linarith
    rw [abs_lt]; constructor <;> linarith
  exact ⟨rfl, b _ hx, b _ hy⟩

/-- C68: for a cube map of any size, distinct texels (of the same or of different faces) have distinct
directions, and every texel of faces 0..5 has one. -/
theorem coordsToDir_injective (a b : V3 (BitVec 32)) (n : Nat)
    (ha : a.x.toNat < n ∧ a.y.toNat < n ∧ a.z.toNat < 6) (hb : b.x.toNat < n ∧ b.y.toNat < n ∧ b.z.toNat < 6)
    (h : coordsToDir a (1 / (n : ℝ)) = coordsToDir b (1 / (n : ℝ))) :
    a = b ∧ ∃ d, coordsToDir a (1 / (n : ℝ)) = some d := by
  obtain ⟨e1, i1, i2⟩ := coordsToST_inside ⟨a.x, a.y⟩ n ha.1 ha.2.1
  obtain ⟨e2, i3, i4⟩ := coordsToST_inside ⟨b.x, b.y⟩ n hb.1 hb.2.1
  have := (stToDir_injective _ _ _ _ ha.2.2 hb.2.2 h).2 i1 i2 i3 i4
  obtain ⟨hz, hst⟩ := this
  rw [e1, e2, V2.mk.injEq] at hst
  have hn : (n : ℝ) ≠ 0 := by exact_mod_cast (by omega : n ≠ 0)
  have c : ∀ p q : Nat, 1 - (2 * (p : ℝ) + 1) / n = 1 - (2 * (q : ℝ) + 1) / n → p = q := by
    intro p q h
    field_simp at h
    have : (p : ℝ) = q := by linarith
    exact_mod_cast this
  have hx := BitVec.eq_of_toNat_eq (c _ _ hst.1)
  have hy := BitVec.eq_of_toNat_eq (c _ _ hst.2)
  refine ⟨?_, ?_⟩
  · cases a; cases b; simp_all
  · obtain ⟨d, hd, _⟩ := stToDir_unit_major (coordsToST ⟨a.x, a.y⟩ (1 / (n : ℝ))) a.z ha.2.2 i1.le i2.le
    exact ⟨d, hd⟩

/-- C68: looking the returned direction up in a cube map (the OpenGL and Vulkan rule: `sc / |ma|`, `tc / |ma|` on
the major face) gives back the position, with both axes reversed as `coordsToST` reverses them. -/
theorem stToDir_lookup (st : V2 ℝ) (face : BitVec 32) (hf : face.toNat < 6) (d : V3 ℝ)
    (h : stToDir st face = some d) :
    cubeS face.toNat d / |cubeMajor face.toNat d| = -st.x ∧ cubeT face.toNat d / |cubeMajor face.toNat d| = -st.y := by
  obtain ⟨D, k, hD, hk, rfl⟩ := dir_form h
  rw [(face_form hf hD).2] at hk
  have hpos : 0 < 1 + st.x * st.x + st.y * st.y := by nlinarith [mul_self_nonneg st.x, mul_self_nonneg st.y]
  have hk0 : 0 < k := by rw [hk]; exact one_div_pos.2 (Real.sqrt_pos.2 hpos)
  clear hk
  rcases faces hf with rfl | rfl | rfl | rfl | rfl | rfl <;>
    · simp [faceDir] at hD
      subst hD
      constructor <;> simp [cubeS, cubeT, cubeMajor, abs_of_pos hk0, hk0.ne', neg_div]

/-- C68: the direction of a texel looks up the center of that texel: in a cube map of any size `n`, the texture
coordinates `(sc / |ma| + 1) / 2` of the direction of texel `c` are `(c + 1/2) / n`. -/
theorem coordsToDir_lookup (c : V3 (BitVec 32)) (n : Nat) (hx : c.x.toNat < n) (hy : c.y.toNat < n)
    (hz : c.z.toNat < 6) (d : V3 ℝ) (h : coordsToDir c (1 / (n : ℝ)) = some d) :
    (cubeS c.z.toNat d / |cubeMajor c.z.toNat d| + 1) / 2 = (c.x.toNat + 1 / 2) / n ∧
    (cubeT c.z.toNat d / |cubeMajor c.z.toNat d| + 1) / 2 = (c.y.toNat + 1 / 2) / n := by
  obtain ⟨l1, l2⟩ := stToDir_lookup _ _ hz d h
  have hn : (n : ℝ) ≠ 0 := by exact_mod_cast (by omega : n ≠ 0)
  rw [l1, l2, (coordsToST_inside ⟨c.x, c.y⟩ n hx hy).1]
  constructor
  · simp only; field_simp; ring
  · simp only; field_simp; ring

/-- Concrete case: the center of face 2 is the +y axis. -/
example : stToDir (⟨0, 0⟩ : V2 ℝ) 2 = some ⟨0, 1, 0⟩ := by
  simp [stToDir, faceDir, V3.normalize, V3.smul, V3.length, V3.dot]

end Verif
