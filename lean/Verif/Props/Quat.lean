import Mathlib.Tactic.NormNum
import Mathlib.Tactic.LinearCombination
import Mathlib.Tactic.Positivity
import Verif.Model.Transform
import Verif.Spec.Quat
import Verif.Props.MatAlgebra

/-! # C51, C52, C53, C54: quaternions (exact arithmetic) -/

namespace Verif
open Spec Matrix Quaternion

/-! ## C51 -/

/-- The squared length of a non-zero quaternion is positive. -/
theorem quat_pos (q : V4 ℝ) (h : q ≠ ⟨0, 0, 0, 0⟩) : 0 < q.x * q.x + q.y * q.y + (q.z * q.z + q.w * q.w) := by
  have h0 := mul_self_nonneg q.x
  have h1 := mul_self_nonneg q.y
  have h2 := mul_self_nonneg q.z
  have h3 := mul_self_nonneg q.w
  rcases lt_or_eq_of_le (show 0 ≤ q.x * q.x + q.y * q.y + (q.z * q.z + q.w * q.w) by linarith) with hp | hp
  · exact hp
  · refine absurd ?_ h
    have hx : q.x = 0 := mul_self_eq_zero.mp (by linarith)
    have hy : q.y = 0 := mul_self_eq_zero.mp (by linarith)
    have hz : q.z = 0 := mul_self_eq_zero.mp (by linarith)
    have hw : q.w = 0 := mul_self_eq_zero.mp (by linarith)
    obtain ⟨x, y, z, w⟩ := q
    simp only at hx hy hz hw
    rw [hx, hy, hz, hw]

/-- C51: the product, conjugate, identity and (for a non-zero quaternion) inverse are those of Hamilton quaternions. -/
theorem quat_spec (p q : V4 ℝ) :
    toQ (Quat.mul p q) = toQ p * toQ q ∧ toQ (Quat.conjugate q) = star (toQ q) ∧
    toQ (Quat.identity : V4 ℝ) = 1 ∧ (q ≠ ⟨0, 0, 0, 0⟩ → toQ (Quat.inverse q) * toQ q = 1 ∧ toQ q * toQ (Quat.inverse q) = 1) := by
  refine ⟨?_, ?_, ?_, ?_⟩
  · ext <;> simp [vec] <;> ring
  · ext <;> simp [vec]
  · ext <;> simp [vec]
  · intro h
    have hn := (quat_pos q h).ne'
    have hw : q.w * q.w = (q.x * q.x + q.y * q.y + (q.z * q.z + q.w * q.w)) - q.x * q.x - q.y * q.y - q.z * q.z := by ring
    constructor <;> ext <;> simp [vec]
    all_goals
      generalize q.x * q.x + q.y * q.y + (q.z * q.z + q.w * q.w) = n at hn hw
      field_simp
      first | ring1 | linear_combination hw

/-- C51: for a unit quaternion, `q * v` is `q v q⁻¹` of the Hamilton quaternions, and `v * q` the inverse rotation. -/
theorem quat_rotate_spec (q v : V4 ℝ) (h : UnitQuat q) :
    imQ (Quat.rotate q v) = toQ q * imQ v * star (toQ q) ∧
    imQ (Quat.rotateInv v q) = star (toQ q) * imQ v * toQ q := by
  have h' : q.x * q.x + q.y * q.y + (q.z * q.z + q.w * q.w) = 1 := by rw [← h]; ring
  have h1 := h; unfold UnitQuat at h1
  constructor
  · ext <;> simp [vec]
    · ring
    · linear_combination (-v.x) * h1
    · linear_combination (-v.y) * h1
    · linear_combination (-v.z) * h1
  · ext <;> simp [vec, h']
    · ring
    · linear_combination (-v.x) * h1
    · linear_combination (-v.y) * h1
    · linear_combination (-v.z) * h1

/-- C51: associativity, identity, closure of unit quaternions, and `conjugate` as the inverse, in the API's own terms. -/
theorem quat_algebra (p q r : V4 ℝ) :
    Quat.mul (Quat.mul p q) r = Quat.mul p (Quat.mul q r) ∧
    Quat.mul p Quat.identity = p ∧ Quat.mul Quat.identity p = p ∧
    UnitQuat (Quat.identity : V4 ℝ) ∧
    (UnitQuat p → UnitQuat q → UnitQuat (Quat.mul p q)) ∧
    (UnitQuat q → UnitQuat (Quat.conjugate q) ∧ Quat.conjugate q = Quat.inverse q ∧
      Quat.mul q (Quat.conjugate q) = Quat.identity ∧ Quat.mul (Quat.conjugate q) q = Quat.identity) ∧
    (q ≠ ⟨0, 0, 0, 0⟩ → Quat.mul q (Quat.inverse q) = Quat.identity ∧ Quat.mul (Quat.inverse q) q = Quat.identity ∧
      UnitQuat (Quat.normalize q)) := by
  have hm := fun p q => (quat_spec p q).1
  have hi := (quat_spec p q).2.2.1
  refine ⟨toQ_inj.mp ?_, toQ_inj.mp ?_, toQ_inj.mp ?_, ?_, ?_, ?_, ?_⟩
  · simp only [hm, mul_assoc]
  · simp [hm, hi]
  · simp [hm, hi]
  · simp [UnitQuat, vec]
  · intro h1 h2
    unfold UnitQuat at *
    simp only [vec]
    linear_combination (q.x ^ 2 + q.y ^ 2 + q.z ^ 2 + q.w ^ 2) * h1 + h2
  · intro h
    have h' : q.x * q.x + q.y * q.y + (q.z * q.z + q.w * q.w) = 1 := by rw [← h]; ring
    have e : Quat.conjugate q = Quat.inverse q := by simp [vec, h']
    have hne : q ≠ ⟨0, 0, 0, 0⟩ := by
      rintro rfl; simp [UnitQuat] at h
    refine ⟨?_, e, toQ_inj.mp ?_, toQ_inj.mp ?_⟩
    · unfold UnitQuat at *; simp [vec]; linarith
    · rw [hm, hi, e]; exact ((quat_spec p q).2.2.2 hne).2
    · rw [hm, hi, e]; exact ((quat_spec p q).2.2.2 hne).1
  · intro hne
    refine ⟨toQ_inj.mp ?_, toQ_inj.mp ?_, ?_⟩
    · rw [hm, hi]; exact ((quat_spec p q).2.2.2 hne).2
    · rw [hm, hi]; exact ((quat_spec p q).2.2.2 hne).1
    · have hpos := quat_pos q hne
      unfold UnitQuat
      simp only [vec, div_pow, Real.sq_sqrt hpos.le, ← add_div]
      rw [div_eq_one_iff_eq hpos.ne']
      ring

/-- C51: rotation by a product is the composition of the rotations; the identity does not move anything; rotating by a
quaternion and then by its conjugate gives back the vector. -/
theorem quat_rotate_comp (p q v : V4 ℝ) (hp : UnitQuat p) (hq : UnitQuat q) :
    xyz (Quat.rotate (Quat.mul p q) v) = xyz (Quat.rotate p (Quat.rotate q v)) ∧
    Quat.rotate Quat.identity v = v ∧
    xyz (Quat.rotate (Quat.conjugate q) (Quat.rotate q v)) = xyz v ∧
    xyz (Quat.rotateInv (Quat.rotate q v) q) = xyz v := by
  have key : ∀ a b : V4 ℝ, imQ a = imQ b → xyz a = xyz b := by
    intro a b h
    have h1 := congrArg QuaternionAlgebra.imI h
    have h2 := congrArg QuaternionAlgebra.imJ h
    have h3 := congrArg QuaternionAlgebra.imK h
    simp only [imQ] at h1 h2 h3
    simp [xyz, h1, h2, h3]
  have hpq := (quat_algebra p q q).2.2.2.2.1 hp hq
  have hc := ((quat_algebra p q q).2.2.2.2.2.1 hq).1
  have hss : star (toQ q) * toQ q = 1 := by
    rw [← (quat_spec p q).2.1, ← (quat_spec _ q).1, ((quat_algebra p q q).2.2.2.2.2.1 hq).2.2.2]
    exact (quat_spec p q).2.2.1
  refine ⟨key _ _ ?_, ?_, key _ _ ?_, key _ _ ?_⟩
  · rw [(quat_rotate_spec _ v hpq).1, (quat_rotate_spec _ _ hp).1, (quat_rotate_spec _ v hq).1, (quat_spec p q).1,
      star_mul]
    simp only [mul_assoc]
  · cases v; simp [vec]
  · rw [(quat_rotate_spec _ _ hc).1, (quat_rotate_spec _ v hq).1, (quat_spec p q).2.1, star_star]
    calc _ = star (toQ q) * toQ q * imQ v * (star (toQ q) * toQ q) := by simp only [mul_assoc]
      _ = _ := by rw [hss, one_mul, mul_one]
  · rw [(quat_rotate_spec _ _ hq).2, (quat_rotate_spec _ v hq).1]
    calc _ = star (toQ q) * toQ q * imQ v * (star (toQ q) * toQ q) := by simp only [mul_assoc]
      _ = _ := by rw [hss, one_mul, mul_one]

/-- C51: rotation by a unit quaternion preserves dot products (hence lengths) and cross products (hence
orientation). -/
theorem quat_rotate_isometry (q a b : V4 ℝ) (h : UnitQuat q) :
    xyz (Quat.rotate q a) ⬝ᵥ xyz (Quat.rotate q b) = xyz a ⬝ᵥ xyz b ∧
    Simd.length3 (Quat.rotate q a) = Simd.length3 a ∧
    crossProduct (xyz (Quat.rotate q a)) (xyz (Quat.rotate q b)) = xyz (Quat.rotate q (Simd.cross3 a b)) := by
  have h1 : q.w ^ 2 = 1 - q.x ^ 2 - q.y ^ 2 - q.z ^ 2 := by unfold UnitQuat at h; linarith
  have hd : ∀ a b : V4 ℝ, xyz (Quat.rotate q a) ⬝ᵥ xyz (Quat.rotate q b) = xyz a ⬝ᵥ xyz b := by
    intro a b
    simp [xyz, vec, dotProduct, Fin.sum_univ_three]
    ring_nf
    simp only [h1]
    ring
  refine ⟨hd a b, ?_, ?_⟩
  · have := hd a a
    simp only [xyz, dotProduct, Fin.sum_univ_three] at this
    simp only [Simd.length3, Simd.dot3, Flt.real_sqrt, Flt.real_mul, Flt.real_add, Flt.real_lit, Rat.cast_zero, add_zero]
    congr 1
  · ext i
    fin_cases i <;> simp [xyz, vec, crossProduct]
    all_goals
      ring_nf
      simp only [h1]
      ring

/-- Non-vacuity: a unit quaternion that is not the identity, and what it does (a quarter turn about x takes y to z). -/
example : UnitQuat ⟨3/5, 0, 0, 4/5⟩ ∧ Quat.rotate (⟨1, 0, 0, 0⟩ : V4 ℝ) ⟨1, 2, 3, 3⟩ = ⟨1, -2, -3, -3⟩ ∧
    Quat.mul (⟨1, 0, 0, 0⟩ : V4 ℝ) ⟨0, 1, 0, 0⟩ = ⟨0, 0, 1, 0⟩ := by
  refine ⟨by norm_num [UnitQuat], ?_, ?_⟩ <;> norm_num [vec]

/-! ## C52 -/

/-- C52: the matrix of a unit quaternion acts on vectors as the quaternion does; it is affine without translation. -/
theorem quat_matrix_acts (q v : V4 ℝ) (h : UnitQuat q) :
    block3 (Transform.rotate q) *ᵥ xyz v = xyz (Quat.rotate q v) ∧
    (Transform.rotate q).c3 = ⟨0, 0, 0, 1⟩ ∧
    (Transform.rotate q).c0.w = 0 ∧ (Transform.rotate q).c1.w = 0 ∧ (Transform.rotate q).c2.w = 0 := by
  refine ⟨?_, ?_, ?_, ?_, ?_⟩
  · have h1 : q.w ^ 2 = 1 - q.x ^ 2 - q.y ^ 2 - q.z ^ 2 := by unfold UnitQuat at h; linarith
    ext i
    fin_cases i <;> simp [xyz, block3, vec, Matrix.mulVec, dotProduct, Fin.sum_univ_three] <;> ring
  all_goals simp [vec]

theorem det3 (m : M4 ℝ) : (block3 m).det =
    m.c0.x * (m.c1.y * m.c2.z - m.c2.y * m.c1.z) - m.c1.x * (m.c0.y * m.c2.z - m.c2.y * m.c0.z) +
      m.c2.x * (m.c0.y * m.c1.z - m.c1.y * m.c0.z) := by
  simp [Matrix.det_fin_three, block3]; ring

/-- C52: the matrix of a unit quaternion is a rotation matrix (orthogonal, determinant one). -/
theorem quat_matrix_rotation (q : V4 ℝ) (h : UnitQuat q) : IsRotation (block3 (Transform.rotate q)) := by
  have h1 : q.w ^ 2 = 1 - q.x ^ 2 - q.y ^ 2 - q.z ^ 2 := by unfold UnitQuat at h; linarith
  constructor
  · ext i j
    fin_cases i <;> fin_cases j <;>
      simp [block3, vec, Matrix.mul_apply, Fin.sum_univ_three] <;> ring_nf <;> simp only [h1] <;> ring
  · rw [det3]
    simp only [vec]
    ring_nf
    simp only [h1]
    ring

/-- The squares of the components, read off the matrix. -/
theorem biggest_cases (m : M4 ℝ) :
    Transform.biggest m = (0, m.c0.x + m.c1.y + m.c2.z) ∨ Transform.biggest m = (1, m.c0.x - m.c1.y - m.c2.z) ∨
    Transform.biggest m = (2, m.c1.y - m.c0.x - m.c2.z) ∨ Transform.biggest m = (3, m.c2.z - m.c0.x - m.c1.y) := by
  simp only [Transform.biggest, vec, decide_eq_true_eq]
  split_ifs <;> simp

/-- The chosen value is the maximum of the four candidates, hence non-negative (they sum to zero). -/
theorem biggest_nonneg (m : M4 ℝ) : 0 ≤ (Transform.biggest m).2 := by
  simp only [Transform.biggest, vec, decide_eq_true_eq]
  split_ifs <;> simp only at * <;> linarith

/-- `extractQuat` in terms of the value `v` of the biggest component: `v` is positive and determined by the
diagonal, the other components are quotients by `4 v`. -/
theorem extractQuat_cases (m : M4 ℝ) : ∃ v : ℝ, 0 < v ∧
    ((4 * v ^ 2 = m.c0.x + m.c1.y + m.c2.z + 1 ∧ Transform.extractQuat m =
        ⟨(m.c1.z - m.c2.y) / (4 * v), (m.c2.x - m.c0.z) / (4 * v), (m.c0.y - m.c1.x) / (4 * v), v⟩) ∨
     (4 * v ^ 2 = m.c0.x - m.c1.y - m.c2.z + 1 ∧ Transform.extractQuat m =
        ⟨v, (m.c0.y + m.c1.x) / (4 * v), (m.c2.x + m.c0.z) / (4 * v), (m.c1.z - m.c2.y) / (4 * v)⟩) ∨
     (4 * v ^ 2 = m.c1.y - m.c0.x - m.c2.z + 1 ∧ Transform.extractQuat m =
        ⟨(m.c0.y + m.c1.x) / (4 * v), v, (m.c1.z + m.c2.y) / (4 * v), (m.c2.x - m.c0.z) / (4 * v)⟩) ∨
     (4 * v ^ 2 = m.c2.z - m.c0.x - m.c1.y + 1 ∧ Transform.extractQuat m =
        ⟨(m.c2.x + m.c0.z) / (4 * v), (m.c1.z + m.c2.y) / (4 * v), v, (m.c0.y - m.c1.x) / (4 * v)⟩)) := by
  have hn := biggest_nonneg m
  have hpos : 0 < Real.sqrt ((Transform.biggest m).2 + 1) * (1 / 2) :=
    mul_pos (Real.sqrt_pos.mpr (by linarith)) (by norm_num)
  have hsq : 4 * (Real.sqrt ((Transform.biggest m).2 + 1) * (1 / 2)) ^ 2 = (Transform.biggest m).2 + 1 := by
    rw [mul_pow, Real.sq_sqrt (by linarith)]; ring
  have hdiv : ∀ a v : ℝ, a * (1 / 4 / v) = a / (4 * v) := by intro a v; field_simp
  refine ⟨_, hpos, ?_⟩
  rcases biggest_cases m with hb | hb | hb | hb <;> rw [hb] at hsq ⊢
  · refine Or.inl ⟨hsq, ?_⟩
    simp only [Transform.extractQuat, hb, vec]
    norm_num [← hdiv]
  · refine Or.inr (Or.inl ⟨hsq, ?_⟩)
    simp only [Transform.extractQuat, hb, vec]
    norm_num [← hdiv]
  · refine Or.inr (Or.inr (Or.inl ⟨hsq, ?_⟩))
    simp only [Transform.extractQuat, hb, vec]
    norm_num [← hdiv]
  · refine Or.inr (Or.inr (Or.inr ⟨hsq, ?_⟩))
    simp only [Transform.extractQuat, hb, vec]
    norm_num [← hdiv]

/-- C52: extracting a quaternion from the matrix of a unit quaternion gives that quaternion or its negative (the same
rotation). -/
theorem extractQuat_rotate (q : V4 ℝ) (h : UnitQuat q) :
    Transform.extractQuat (Transform.rotate q) = q ∨ Transform.extractQuat (Transform.rotate q) = V4.neg q := by
  unfold UnitQuat at h
  obtain ⟨x, y, z, w⟩ := q
  simp only at h
  obtain ⟨v, hv, hc⟩ := extractQuat_cases (Transform.rotate ⟨x, y, z, w⟩)
  rcases hc with ⟨h4, he⟩ | ⟨h4, he⟩ | ⟨h4, he⟩ | ⟨h4, he⟩ <;> rw [he] <;> simp only [vec] at h4 ⊢ <;>
    norm_num at h4 <;> simp only [V4.mk.injEq] <;> push_cast
  · have : v ^ 2 = w ^ 2 := by linarith
    rcases sq_eq_sq_iff_eq_or_eq_neg.mp this with rfl | rfl
    · left; refine ⟨?_, ?_, ?_, ?_⟩ <;> first | rfl | (field_simp; done) | (field_simp; ring1)
    · have h0 : w ≠ 0 := by rintro rfl; simp at hv
      right; refine ⟨?_, ?_, ?_, ?_⟩ <;> first | rfl | (field_simp; done) | (field_simp; ring1)
  · have : v ^ 2 = x ^ 2 := by linarith
    rcases sq_eq_sq_iff_eq_or_eq_neg.mp this with rfl | rfl
    · left; refine ⟨?_, ?_, ?_, ?_⟩ <;> first | rfl | (field_simp; done) | (field_simp; ring1)
    · have h0 : x ≠ 0 := by rintro rfl; simp at hv
      right; refine ⟨?_, ?_, ?_, ?_⟩ <;> first | rfl | (field_simp; done) | (field_simp; ring1)
  · have : v ^ 2 = y ^ 2 := by linarith
    rcases sq_eq_sq_iff_eq_or_eq_neg.mp this with rfl | rfl
    · left; refine ⟨?_, ?_, ?_, ?_⟩ <;> first | rfl | (field_simp; done) | (field_simp; ring1)
    · have h0 : y ≠ 0 := by rintro rfl; simp at hv
      right; refine ⟨?_, ?_, ?_, ?_⟩ <;> first | rfl | (field_simp; done) | (field_simp; ring1)
  · have : v ^ 2 = z ^ 2 := by linarith
    rcases sq_eq_sq_iff_eq_or_eq_neg.mp this with rfl | rfl
    · left; refine ⟨?_, ?_, ?_, ?_⟩ <;> first | rfl | (field_simp; done) | (field_simp; ring1)
    · have h0 : z ≠ 0 := by rintro rfl; simp at hv
      right; refine ⟨?_, ?_, ?_, ?_⟩ <;> first | rfl | (field_simp; done) | (field_simp; ring1)

/-- The polynomial relations between the entries of a rotation matrix: columns and rows orthonormal, and every entry
equal to its cofactor. -/
theorem rot_rel (m : M4 ℝ) (h : IsRotation (block3 m)) :
    (m.c0.x^2+m.c0.y^2+m.c0.z^2=1 ∧ m.c1.x^2+m.c1.y^2+m.c1.z^2=1 ∧ m.c2.x^2+m.c2.y^2+m.c2.z^2=1) ∧
    (m.c0.x^2+m.c1.x^2+m.c2.x^2=1 ∧ m.c0.y^2+m.c1.y^2+m.c2.y^2=1 ∧ m.c0.z^2+m.c1.z^2+m.c2.z^2=1) ∧
    (m.c0.x*m.c1.x+m.c0.y*m.c1.y+m.c0.z*m.c1.z=0 ∧ m.c0.x*m.c2.x+m.c0.y*m.c2.y+m.c0.z*m.c2.z=0 ∧
      m.c1.x*m.c2.x+m.c1.y*m.c2.y+m.c1.z*m.c2.z=0) ∧
    (m.c0.x*m.c0.y+m.c1.x*m.c1.y+m.c2.x*m.c2.y=0 ∧ m.c0.x*m.c0.z+m.c1.x*m.c1.z+m.c2.x*m.c2.z=0 ∧
      m.c0.y*m.c0.z+m.c1.y*m.c1.z+m.c2.y*m.c2.z=0) ∧
    (m.c1.y*m.c2.z-m.c1.z*m.c2.y = m.c0.x ∧ m.c1.z*m.c2.x-m.c1.x*m.c2.z=m.c0.y ∧ m.c1.x*m.c2.y-m.c1.y*m.c2.x=m.c0.z) ∧
    (m.c2.y*m.c0.z-m.c2.z*m.c0.y = m.c1.x ∧ m.c2.z*m.c0.x-m.c2.x*m.c0.z=m.c1.y ∧ m.c2.x*m.c0.y-m.c2.y*m.c0.x=m.c1.z) ∧
    (m.c0.y*m.c1.z-m.c0.z*m.c1.y = m.c2.x ∧ m.c0.z*m.c1.x-m.c0.x*m.c1.z=m.c2.y ∧ m.c0.x*m.c1.y-m.c0.y*m.c1.x=m.c2.z) := by
  obtain ⟨h1, hd⟩ := h
  have h2 := mul_eq_one_comm.mp h1
  have h3 : (block3 m).adjugate = (block3 m)ᵀ := by
    calc (block3 m).adjugate = ((block3 m)ᵀ * block3 m) * (block3 m).adjugate := by rw [h1, one_mul]
      _ = (block3 m)ᵀ := by rw [Matrix.mul_assoc, Matrix.mul_adjugate, hd, one_smul, mul_one]
  rw [Matrix.adjugate_fin_three] at h3
  have h1 := fun i j => congrFun (congrFun h1 i) j
  have h2 := fun i j => congrFun (congrFun h2 i) j
  have h3 := fun i j => congrFun (congrFun h3 i) j
  simp [block3, Fin.forall_fin_succ, Matrix.mul_apply, Fin.sum_univ_three] at h1 h2 h3
  obtain ⟨⟨a1,a2,a3⟩,⟨a4,a5,a6⟩,a7,a8,a9⟩ := h1
  obtain ⟨⟨b1,b2,b3⟩,⟨b4,b5,b6⟩,b7,b8,b9⟩ := h2
  obtain ⟨⟨d1,d2,d3⟩,⟨d4,d5,d6⟩,d7,d8,d9⟩ := h3
  refine ⟨⟨?_,?_,?_⟩,⟨?_,?_,?_⟩,⟨?_,?_,?_⟩,⟨?_,?_,?_⟩,⟨?_,?_,?_⟩,⟨?_,?_,?_⟩,?_,?_,?_⟩ <;> linarith

/-- C52, converse direction: from every rotation matrix a unit quaternion is extracted, whose matrix is the given one. -/
theorem extractQuat_rotation (m : M4 ℝ) (h : IsRotation (block3 m)) :
    UnitQuat (Transform.extractQuat m) ∧ block3 (Transform.rotate (Transform.extractQuat m)) = block3 m := by
  obtain ⟨⟨a1,a2,a3⟩,⟨b1,b2,b3⟩,⟨c1,c2,c3⟩,⟨d1,d2,d3⟩,⟨e1,e2,e3⟩,⟨f1,f2,f3⟩,g1,g2,g3⟩ := rot_rel m h
  obtain ⟨v, hv, hc⟩ := extractQuat_cases m
  clear h
  obtain ⟨⟨X0, Y0, Z0, W0⟩, ⟨X1, Y1, Z1, W1⟩, ⟨X2, Y2, Z2, W2⟩, C3⟩ := m
  simp only at *
  have hv' : v ≠ 0 := hv.ne'
  clear hv
  rcases hc with ⟨h4, he⟩ | ⟨h4, he⟩ | ⟨h4, he⟩ | ⟨h4, he⟩ <;> rw [he] <;> clear he
  all_goals
    constructor
    · simp only [UnitQuat]
      field_simp
      grind
    · ext i j
      fin_cases i <;> fin_cases j <;> simp [block3, vec] <;> field_simp <;> grind

/-- Non-vacuity for C52: a unit quaternion whose biggest component is not `w`, its matrix and the extraction. -/
example : UnitQuat ⟨0, 4/5, 0, 3/5⟩ ∧ IsRotation (block3 (Transform.rotate (⟨0, 4/5, 0, 3/5⟩ : V4 ℝ))) ∧
    (Transform.rotate (⟨0, 4/5, 0, 3/5⟩ : V4 ℝ)).c0 = ⟨-7/25, 0, -24/25, 0⟩ := by
  have h : UnitQuat ⟨0, 4/5, 0, 3/5⟩ := by norm_num [UnitQuat]
  refine ⟨h, quat_matrix_rotation _ h, ?_⟩
  norm_num [vec]

/-! ## C53 -/

/-- The exact sine and cosine of a lane. -/
noncomputable def sinCosR (a : ℝ) : ℝ × ℝ := (Real.sin a, Real.cos a)

/-- C53: the quaternion of a unit axis and an angle is a unit quaternion, leaves the axis fixed, and rotates every
vector about the axis by the angle, right-handed; angles add when the axis is the same. -/
theorem axisAngle_spec (a b : ℝ) (u v : V4 ℝ) (h : UnitVec u) :
    UnitQuat (Quat.ofAxisAngle sinCosR a u) ∧
    xyz (Quat.rotate (Quat.ofAxisAngle sinCosR a u) u) = xyz u ∧
    xyz (Quat.rotate (Quat.ofAxisAngle sinCosR a u) v) = rodrigues (xyz u) a (xyz v) ∧
    Quat.mul (Quat.ofAxisAngle sinCosR a u) (Quat.ofAxisAngle sinCosR b u) = Quat.ofAxisAngle sinCosR (a + b) u := by
  have hq : Quat.ofAxisAngle sinCosR a u =
      ⟨u.x * Real.sin (a / 2), u.y * Real.sin (a / 2), u.z * Real.sin (a / 2), Real.cos (a / 2)⟩ := by
    simp [vec, sinCosR, top, div_eq_mul_inv]
  have hq' : ∀ c, Quat.ofAxisAngle sinCosR c u =
      ⟨u.x * Real.sin (c / 2), u.y * Real.sin (c / 2), u.z * Real.sin (c / 2), Real.cos (c / 2)⟩ := by
    intro c; simp [vec, sinCosR, top, div_eq_mul_inv]
  have hs : Real.sin a = 2 * Real.sin (a / 2) * Real.cos (a / 2) := by
    rw [← Real.sin_two_mul]; congr 1; ring
  have hc : Real.cos a = 2 * Real.cos (a / 2) ^ 2 - 1 := by
    rw [← Real.cos_two_mul]; congr 1; ring
  have h1 := Real.sin_sq_add_cos_sq (a / 2)
  unfold UnitVec at h
  have hr : xyz (Quat.rotate (Quat.ofAxisAngle sinCosR a u) v) = rodrigues (xyz u) a (xyz v) := by
    rw [hq]
    ext i
    fin_cases i <;> simp [vec, xyz, rodrigues, crossProduct, dotProduct, Fin.sum_univ_three, hs, hc] <;> grind
  refine ⟨?_, ?_, hr, ?_⟩
  · rw [hq]; simp only [UnitQuat]; grind
  · rw [hq]
    ext i
    fin_cases i <;> simp [vec, xyz] <;> ring
  · rw [hq', hq', hq']
    rw [add_div, Real.sin_add, Real.cos_add]
    simp only [vec, V4.mk.injEq]
    refine ⟨?_, ?_, ?_, ?_⟩ <;> grind

/-- The three axes as SIMD vectors. -/
def axisX : V4 ℝ := ⟨1, 0, 0, 0⟩
@[inherit_doc axisX] def axisY : V4 ℝ := ⟨0, 1, 0, 0⟩
@[inherit_doc axisX] def axisZ : V4 ℝ := ⟨0, 0, 1, 0⟩

/-- C53: the quaternion of Euler angles is the rotation about x, followed by the one about y, followed by the one about
z; it is a unit quaternion. -/
theorem euler_spec (e : V4 ℝ) :
    Quat.fromEulerAngles sinCosR e =
      Quat.mul (Quat.mul (Quat.ofAxisAngle sinCosR e.z axisZ) (Quat.ofAxisAngle sinCosR e.y axisY))
        (Quat.ofAxisAngle sinCosR e.x axisX) ∧
    UnitQuat (Quat.fromEulerAngles sinCosR e) := by
  have h : Quat.fromEulerAngles sinCosR e =
      Quat.mul (Quat.mul (Quat.ofAxisAngle sinCosR e.z axisZ) (Quat.ofAxisAngle sinCosR e.y axisY))
        (Quat.ofAxisAngle sinCosR e.x axisX) := by
    simp [vec, sinCosR, top, axisX, axisY, axisZ]
    refine ⟨?_, ?_, ?_, ?_⟩ <;> ring
  have hu : ∀ u, UnitVec u → ∀ a, UnitQuat (Quat.ofAxisAngle sinCosR a u) := fun u hu a => (axisAngle_spec a a u u hu).1
  have hm := fun p q hp hq => (quat_algebra p q q).2.2.2.2.1 hp hq
  refine ⟨h, ?_⟩
  rw [h]
  exact hm _ _ (hm _ _ (hu _ (by norm_num [UnitVec, axisZ]) _) (hu _ (by norm_num [UnitVec, axisY]) _))
    (hu _ (by norm_num [UnitVec, axisX]) _)

/-- Non-vacuity for C53: a unit axis with three non-zero components. -/
example : UnitVec ⟨1/3, 2/3, -2/3, 7⟩ := by norm_num [UnitVec]

/-! ## C54 -/

/-- The quaternion `slerp` moves towards: `b`, or `-b` when that is nearer. -/
noncomputable def nearer (a b : V4 ℝ) : V4 ℝ := if vec4 a ⬝ᵥ vec4 b < 0 then V4.neg b else b

theorem dot4_eq (a b : V4 ℝ) : Simd.dot4 a b = vec4 a ⬝ᵥ vec4 b := by
  simp [vec, vec4, dotProduct, Fin.sum_univ_four]; ring

theorem nearer_dot (a b : V4 ℝ) : 0 ≤ vec4 a ⬝ᵥ vec4 (nearer a b) ∧
    |vec4 a ⬝ᵥ vec4 b| = vec4 a ⬝ᵥ vec4 (nearer a b) := by
  unfold nearer
  split_ifs with h
  · have : vec4 a ⬝ᵥ vec4 (V4.neg b) = -(vec4 a ⬝ᵥ vec4 b) := by
      simp [vec, vec4, dotProduct, Fin.sum_univ_four]; ring
    rw [this, abs_of_neg h]; constructor <;> linarith
  · push Not at h
    exact ⟨h, abs_of_nonneg h⟩

theorem nearer_unit (a b : V4 ℝ) (h : UnitQuat b) : UnitQuat (nearer a b) := by
  unfold nearer
  split_ifs
  · unfold UnitQuat at *; simp [vec]; linarith
  · exact h

/-- `slerp` as the usual formula. -/
theorem slerp_eq (a b : V4 ℝ) (t : ℝ) :
    Quat.slerp a b t =
      let c := nearer a b
      let d := vec4 a ⬝ᵥ vec4 c
      if 1 - 1 / 8388608 < d then
        ⟨a.x * (1 - t) + c.x * t, a.y * (1 - t) + c.y * t, a.z * (1 - t) + c.z * t, a.w * (1 - t) + c.w * t⟩
      else
        let s := Real.sin ((1 - t) * Real.arccos d)
        let r := Real.sin (t * Real.arccos d)
        let n := Real.sin (Real.arccos d)
        ⟨(a.x * s + c.x * r) / n, (a.y * s + c.y * r) / n, (a.z * s + c.z * r) / n, (a.w * s + c.w * r) / n⟩ := by
  have hd : (if vec4 a ⬝ᵥ vec4 b < 0 then -(vec4 a ⬝ᵥ vec4 b) else vec4 a ⬝ᵥ vec4 b) = vec4 a ⬝ᵥ vec4 (nearer a b) := by
    rw [← (nearer_dot a b).2]
    split_ifs with h
    · rw [abs_of_neg h]
    · rw [abs_of_nonneg (not_lt.mp h)]
  have hc : (if vec4 a ⬝ᵥ vec4 b < 0 then V4.neg b else b) = nearer a b := rfl
  unfold Quat.slerp
  simp only [dot4_eq, Flt.real_lt, Flt.real_lit, Flt.real_neg, Rat.cast_zero, decide_eq_true_eq, hd, hc, Quat.eps,
    Flt.real_sub, Rat.cast_one, Quat.lerp, FltT.real_acos, FltT.real_sin, Flt.real_mul]
  push_cast
  split_ifs <;> simp [vec]

/-- Two unit quaternions have a dot product of at most one. -/
theorem unit_dot_le (a c : V4 ℝ) (ha : UnitQuat a) (hc : UnitQuat c) : vec4 a ⬝ᵥ vec4 c ≤ 1 := by
  unfold UnitQuat at ha hc
  simp only [vec4, dotProduct, Fin.sum_univ_four]
  simp
  nlinarith [sq_nonneg (a.x - c.x), sq_nonneg (a.y - c.y), sq_nonneg (a.z - c.z), sq_nonneg (a.w - c.w)]

/-- The combination in the numerator of `slerp`: its length and its dot products with both ends. -/
theorem slerp_core (a c : V4 ℝ) (t θ : ℝ) (ha : UnitQuat a) (hc : UnitQuat c) (hd : vec4 a ⬝ᵥ vec4 c = Real.cos θ)
    (hs : Real.sin θ ≠ 0) (r : V4 ℝ)
    (hr : r = ⟨(a.x * Real.sin ((1 - t) * θ) + c.x * Real.sin (t * θ)) / Real.sin θ,
      (a.y * Real.sin ((1 - t) * θ) + c.y * Real.sin (t * θ)) / Real.sin θ,
      (a.z * Real.sin ((1 - t) * θ) + c.z * Real.sin (t * θ)) / Real.sin θ,
      (a.w * Real.sin ((1 - t) * θ) + c.w * Real.sin (t * θ)) / Real.sin θ⟩) :
    UnitQuat r ∧ vec4 a ⬝ᵥ vec4 r = Real.cos (t * θ) ∧ vec4 r ⬝ᵥ vec4 c = Real.cos ((1 - t) * θ) := by
  have h1 : Real.sin ((1 - t) * θ) = Real.sin θ * Real.cos (t * θ) - Real.cos θ * Real.sin (t * θ) := by
    rw [← Real.sin_sub]; congr 1; ring
  have h2 : Real.cos ((1 - t) * θ) = Real.cos θ * Real.cos (t * θ) + Real.sin θ * Real.sin (t * θ) := by
    rw [← Real.cos_sub]; congr 1; ring
  have h3 := Real.sin_sq_add_cos_sq (t * θ)
  have h4 := Real.sin_sq_add_cos_sq θ
  unfold UnitQuat at ha hc
  simp only [vec4, dotProduct, Fin.sum_univ_four] at hd ⊢
  simp at hd ⊢
  subst hr
  rw [h1, h2]
  simp only [UnitQuat]
  generalize Real.sin (t * θ) = S at *
  generalize Real.cos (t * θ) = C at *
  generalize Real.sin θ = s at *
  generalize Real.cos θ = k at *
  refine ⟨?_, ?_, ?_⟩
  · simp only [div_pow, ← add_div]
    rw [div_eq_one_iff_eq (pow_ne_zero 2 hs)]
    linear_combination (s * C - k * S) ^ 2 * ha + S ^ 2 * hc + 2 * (s * C - k * S) * S * hd + s ^ 2 * h3 + (- S ^ 2) * h4
  · field_simp
    linear_combination (s * C - k * S) * ha + S * hd
  · field_simp
    linear_combination (s * C - k * S) * hd + S * hc + (- S) * h4

/-- C54: the ends of the interpolation. At 0 it is `a`; at 1 it is `b` or `-b`, which are the same rotation. -/
theorem slerp_ends (a b : V4 ℝ) (ha : UnitQuat a) (hb : UnitQuat b) :
    Quat.slerp a b 0 = a ∧ (Quat.slerp a b 1 = b ∨ Quat.slerp a b 1 = V4.neg b) ∧
    ∀ v, xyz (Quat.rotate (Quat.slerp a b 1) v) = xyz (Quat.rotate b v) := by
  have hc := nearer_unit a b hb
  have hd0 := (nearer_dot a b).1
  have hne : ∀ d : ℝ, 0 ≤ d → ¬ (1 - 1 / 8388608 < d) → Real.sin (Real.arccos d) ≠ 0 := by
    intro d h0 h1
    rw [Real.sin_arccos]
    exact (Real.sqrt_pos.mpr (by nlinarith)).ne'
  have h0 : Quat.slerp a b 0 = a := by
    rw [slerp_eq]
    simp only
    split_ifs with h
    · cases a; simp
    · have := hne _ hd0 h
      cases a; simp; field_simp; simp
  have h1 : Quat.slerp a b 1 = nearer a b := by
    rw [slerp_eq]
    simp only
    split_ifs with h
    · generalize nearer a b = c; cases c; simp
    · have := hne _ hd0 h
      generalize nearer a b = c at *; cases c; simp; field_simp; simp
  refine ⟨h0, ?_, ?_⟩
  · rw [h1]; unfold nearer; split_ifs
    · exact Or.inr rfl
    · exact Or.inl rfl
  · intro v
    rw [h1]; unfold nearer; split_ifs
    · ext i; fin_cases i <;> simp [vec, xyz] <;> ring
    · rfl

/-- C54: when the quaternions are not nearly the same rotation, every interpolated quaternion is a unit quaternion, at
angle `t θ` from `a` and `(1 - t) θ` from the other end, where `θ` is the angle between the ends (at most π/2). -/
theorem slerp_unit (a b : V4 ℝ) (t : ℝ) (ha : UnitQuat a) (hb : UnitQuat b)
    (h : |vec4 a ⬝ᵥ vec4 b| ≤ 1 - 1 / 8388608) :
    UnitQuat (Quat.slerp a b t) ∧
    vec4 a ⬝ᵥ vec4 (Quat.slerp a b t) = Real.cos (t * Real.arccos |vec4 a ⬝ᵥ vec4 b|) ∧
    vec4 (Quat.slerp a b t) ⬝ᵥ vec4 (Quat.slerp a b 1) = Real.cos ((1 - t) * Real.arccos |vec4 a ⬝ᵥ vec4 b|) := by
  have hc := nearer_unit a b hb
  obtain ⟨hd0, hd1⟩ := nearer_dot a b
  rw [hd1] at h ⊢
  have hs : Real.sin (Real.arccos (vec4 a ⬝ᵥ vec4 (nearer a b))) ≠ 0 := by
    rw [Real.sin_arccos]
    exact (Real.sqrt_pos.mpr (by nlinarith)).ne'
  have hcos : vec4 a ⬝ᵥ vec4 (nearer a b) = Real.cos (Real.arccos (vec4 a ⬝ᵥ vec4 (nearer a b))) := by
    rw [Real.cos_arccos (by linarith) (by linarith)]
  have hr : ∀ t, Quat.slerp a b t = _ := fun t => slerp_eq a b t
  simp only [if_neg (not_lt.mpr h)] at hr
  have h1 : Quat.slerp a b 1 = nearer a b := by
    rw [hr]
    generalize nearer a b = c at *; cases c; simp; field_simp; simp
  rw [h1]
  exact slerp_core a (nearer a b) t _ ha hc hcos hs _ (hr t)

/-- C54, on the other branch (nearly equal rotations, where the code interpolates linearly): the squared length of the
result stays within 2^-24 below one. -/
theorem slerp_near (a b : V4 ℝ) (t : ℝ) (ha : UnitQuat a) (hb : UnitQuat b) (ht : 0 ≤ t ∧ t ≤ 1)
    (h : 1 - 1 / 8388608 < |vec4 a ⬝ᵥ vec4 b|) :
    1 - 1 / 16777216 ≤ vec4 (Quat.slerp a b t) ⬝ᵥ vec4 (Quat.slerp a b t) ∧
    vec4 (Quat.slerp a b t) ⬝ᵥ vec4 (Quat.slerp a b t) ≤ 1 := by
  have hc := nearer_unit a b hb
  obtain ⟨hd0, hd1⟩ := nearer_dot a b
  rw [hd1] at h
  have hle := unit_dot_le a _ ha hc
  have hn : vec4 (Quat.slerp a b t) ⬝ᵥ vec4 (Quat.slerp a b t) =
      1 - 2 * (t * (1 - t)) * (1 - vec4 a ⬝ᵥ vec4 (nearer a b)) := by
    rw [slerp_eq]
    simp only [if_pos h]
    unfold UnitQuat at ha hc
    simp only [vec4, dotProduct, Fin.sum_univ_four]
    simp
    linear_combination (1 - t) ^ 2 * ha + t ^ 2 * hc
  rw [hn]
  have h1 : 0 ≤ t * (1 - t) := mul_nonneg ht.1 (by linarith)
  have h2 : t * (1 - t) ≤ 1 / 4 := by nlinarith [sq_nonneg (t - 1 / 2)]
  constructor <;> nlinarith

/-- Non-vacuity for C54: unit quaternions on each branch, on either side of the flip. -/
example : UnitQuat ⟨0, 0, 0, 1⟩ ∧ UnitQuat ⟨3/5, 0, 0, -4/5⟩ ∧
    |vec4 (⟨0, 0, 0, 1⟩ : V4 ℝ) ⬝ᵥ vec4 ⟨3/5, 0, 0, -4/5⟩| ≤ 1 - 1 / 8388608 ∧
    1 - 1 / 8388608 < |vec4 (⟨0, 0, 0, 1⟩ : V4 ℝ) ⬝ᵥ vec4 ⟨0, 0, 0, -1⟩| := by
  refine ⟨by norm_num [UnitQuat], by norm_num [UnitQuat], ?_, ?_⟩ <;>
    simp [vec4, dotProduct, Fin.sum_univ_four, abs_neg] <;> norm_num [abs_of_pos]

end Verif
