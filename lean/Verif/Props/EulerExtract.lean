import Verif.Props.Quat
import Mathlib.Analysis.SpecialFunctions.Complex.Arg
import Mathlib.Analysis.Real.Pi.Bounds

/-!
# Reading Euler angles back from a quaternion (C123)
-/

namespace Verif
open Spec Real

namespace Euler

/-- The entries of the rotation that the extraction reads, for a quaternion made of Euler angles. -/
theorem entries (e : V4 ℝ) :
    let q := Quat.fromEulerAngles sinCosR e
    2 * (q.y * q.z + q.w * q.x) = cos e.y * sin e.x ∧
    q.w * q.w - q.x * q.x - q.y * q.y + q.z * q.z = cos e.y * cos e.x ∧
    -2 * (q.x * q.z - q.w * q.y) = sin e.y ∧
    2 * (q.x * q.y + q.w * q.z) = cos e.y * sin e.z ∧
    q.w * q.w + q.x * q.x - q.y * q.y - q.z * q.z = cos e.y * cos e.z := by
  have ex : e.x = 2 * (e.x * (1 / 2)) := by ring
  have ey : e.y = 2 * (e.y * (1 / 2)) := by ring
  have ez : e.z = 2 * (e.z * (1 / 2)) := by ring
  have hx := sin_sq_add_cos_sq (e.x * (1 / 2))
  have hy := sin_sq_add_cos_sq (e.y * (1 / 2))
  have hz := sin_sq_add_cos_sq (e.z * (1 / 2))
  have sx : sin e.x = 2 * sin (e.x * (1 / 2)) * cos (e.x * (1 / 2)) := by rw [← sin_two_mul, ← ex]
  have sy : sin e.y = 2 * sin (e.y * (1 / 2)) * cos (e.y * (1 / 2)) := by rw [← sin_two_mul, ← ey]
  have sz : sin e.z = 2 * sin (e.z * (1 / 2)) * cos (e.z * (1 / 2)) := by rw [← sin_two_mul, ← ez]
  have cx : cos e.x = cos (e.x * (1 / 2)) ^ 2 - sin (e.x * (1 / 2)) ^ 2 := by rw [← cos_two_mul', ← ex]
  have cy : cos e.y = cos (e.y * (1 / 2)) ^ 2 - sin (e.y * (1 / 2)) ^ 2 := by rw [← cos_two_mul', ← ey]
  have cz : cos e.z = cos (e.z * (1 / 2)) ^ 2 - sin (e.z * (1 / 2)) ^ 2 := by rw [← cos_two_mul', ← ez]
  rw [sx, sy, sz, cx, cy, cz]
  intro q
  have qx : q.x = sin (e.x * (1 / 2)) * cos (e.y * (1 / 2)) * cos (e.z * (1 / 2)) - cos (e.x * (1 / 2)) * sin (e.y * (1 / 2)) * sin (e.z * (1 / 2)) := by
    simp [q, vec, sinCosR]
  have qy : q.y = cos (e.x * (1 / 2)) * sin (e.y * (1 / 2)) * cos (e.z * (1 / 2)) + sin (e.x * (1 / 2)) * cos (e.y * (1 / 2)) * sin (e.z * (1 / 2)) := by
    simp [q, vec, sinCosR]
  have qz : q.z = cos (e.x * (1 / 2)) * cos (e.y * (1 / 2)) * sin (e.z * (1 / 2)) - sin (e.x * (1 / 2)) * sin (e.y * (1 / 2)) * cos (e.z * (1 / 2)) := by
    simp [q, vec, sinCosR]
  have qw : q.w = cos (e.x * (1 / 2)) * cos (e.y * (1 / 2)) * cos (e.z * (1 / 2)) + sin (e.x * (1 / 2)) * sin (e.y * (1 / 2)) * sin (e.z * (1 / 2)) := by
    simp [q, vec, sinCosR]
  rw [qx, qy, qz, qw]
  generalize sin (e.x * (1 / 2)) = a at *
  generalize cos (e.x * (1 / 2)) = a' at *
  generalize sin (e.y * (1 / 2)) = b at *
  generalize cos (e.y * (1 / 2)) = b' at *
  generalize sin (e.z * (1 / 2)) = c at *
  generalize cos (e.z * (1 / 2)) = c' at *
  clear qx qy qz qw q sx sy sz cx cy cz ex ey ez
  refine ⟨?_, ?_, ?_, ?_, ?_⟩
  · linear_combination (2 * a * a' * (b' ^ 2 - b ^ 2)) * hz
  · linear_combination ((a' ^ 2 - a ^ 2) * (b' ^ 2 - b ^ 2)) * hz
  · linear_combination (2 * b * b' * (a ^ 2 + a' ^ 2)) * hz + (2 * b * b') * hx
  · linear_combination (2 * c * c' * (b' ^ 2 - b ^ 2)) * hx
  · linear_combination ((c' ^ 2 - c ^ 2) * (b' ^ 2 - b ^ 2)) * hx

theorem arg_polar {r θ : ℝ} (hr : 0 < r) (h1 : -π < θ) (h2 : θ ≤ π) : Complex.arg ⟨r * cos θ, r * sin θ⟩ = θ := by
  have := Complex.arg_mul_cos_add_sin_mul_I hr ⟨h1, h2⟩
  refine Eq.trans ?_ this
  congr 1
  apply Complex.ext <;> simp [Complex.cos_ofReal_re, Complex.sin_ofReal_re]

theorem clamp_id {x : ℝ} (h : |x| ≤ 1) : Flt.stdClamp x (Flt.lit (-1)) (Flt.lit 1) = x := by
  obtain ⟨a, b⟩ := abs_le.1 h
  simp only [vec, Flt.stdClamp]
  norm_num
  rw [if_neg (by linarith), if_neg (by linarith)]


theorem yaw_eq (q : V4 ℝ) (h : |-2 * (q.x * q.z - q.w * q.y)| ≤ 1) :
    Quat.extractYaw q = arcsin (-2 * (q.x * q.z - q.w * q.y)) := by
  have e : (Flt.lit (-2) : ℝ) *. (q.x *. q.z -. q.w *. q.y) = -2 * (q.x * q.z - q.w * q.y) := by simp [vec]
  unfold Quat.extractYaw
  rw [e, clamp_id h]
  rfl

theorem roll_eq (q : V4 ℝ) : Quat.extractRoll q =
    Complex.arg ⟨q.w * q.w + q.x * q.x - q.y * q.y - q.z * q.z, 2 * (q.x * q.y + q.w * q.z)⟩ := by
  have e : (Flt.lit 2 : ℝ) *. (q.x *. q.y +. q.w *. q.z) = 2 * (q.x * q.y + q.w * q.z) := by simp [vec]
  unfold Quat.extractRoll
  rw [e]
  rfl

theorem eps_eq : (Quat.eps : ℝ) = 1 / 2 ^ 23 := by
  simp [vec]; norm_num

theorem pitch_eq (q : V4 ℝ) : Quat.extractPitch q =
    if |q.w * q.w - q.x * q.x - q.y * q.y + q.z * q.z| ≤ 1 / 2 ^ 23 ∨ |2 * (q.y * q.z + q.w * q.x)| ≤ 1 / 2 ^ 23
    then 2 * Complex.arg ⟨q.w, q.x⟩
    else Complex.arg ⟨q.w * q.w - q.x * q.x - q.y * q.y + q.z * q.z, 2 * (q.y * q.z + q.w * q.x)⟩ := by
  have e : (Flt.lit 2 : ℝ) *. (q.y *. q.z +. q.w *. q.x) = 2 * (q.y * q.z + q.w * q.x) := by simp [vec]
  have e2 : (Flt.lit 2 : ℝ) = 2 := by simp [vec]
  unfold Quat.extractPitch
  simp only [e, eps_eq]
  rw [e2]
  by_cases h : |q.w * q.w - q.x * q.x - q.y * q.y + q.z * q.z| ≤ 1 / 2 ^ 23 ∨ |2 * (q.y * q.z + q.w * q.x)| ≤ 1 / 2 ^ 23
  · rw [if_pos h, if_pos]
    · rfl
    · rw [Bool.or_eq_true]
      exact h.imp (fun h => decide_eq_true h) (fun h => decide_eq_true h)
  · rw [if_neg h, if_neg]
    · rfl
    · rw [Bool.or_eq_true]
      exact fun k => h (k.imp (fun k => of_decide_eq_true k) (fun k => of_decide_eq_true k))

theorem sq_add_sq {a b : ℝ} (h : a ^ 2 + b ^ 2 = 0) : a = 0 ∧ b = 0 := by
  have := sq_nonneg a
  have := sq_nonneg b
  exact ⟨pow_eq_zero_iff two_ne_zero |>.1 (by linarith), pow_eq_zero_iff two_ne_zero |>.1 (by linarith)⟩

/-- Two unit quaternions whose rotations agree in the entries the extraction reads are equal up to sign, unless the
x axis is taken to the z axis. -/
theorem determined (p q : V4 ℝ) (hp : UnitQuat p) (hq : UnitQuat q)
    (h1 : 2 * (p.y * p.z + p.w * p.x) = 2 * (q.y * q.z + q.w * q.x))
    (h2 : p.w * p.w - p.x * p.x - p.y * p.y + p.z * p.z = q.w * q.w - q.x * q.x - q.y * q.y + q.z * q.z)
    (h3 : -2 * (p.x * p.z - p.w * p.y) = -2 * (q.x * q.z - q.w * q.y))
    (h4 : 2 * (p.x * p.y + p.w * p.z) = 2 * (q.x * q.y + q.w * q.z))
    (h5 : p.w * p.w + p.x * p.x - p.y * p.y - p.z * p.z = q.w * q.w + q.x * q.x - q.y * q.y - q.z * q.z)
    (h : |-2 * (q.x * q.z - q.w * q.y)| < 1) :
    toQ p = toQ q ∨ toQ p = -toQ q := by
  rcases p with ⟨a, b, c, d⟩
  rcases q with ⟨x, y, z, w⟩
  simp only [UnitQuat] at *
  -- the quotient of the two, on either side
  have u0 : (d * y - b * w - c * x + a * z) ^ 2 + (d * z - c * w - a * y + b * x) ^ 2 = 0 := by
    have i1 : (a ^ 2 + b ^ 2 + c ^ 2 + d ^ 2) * (x ^ 2 + y ^ 2 + z ^ 2 + w ^ 2)
        - 2 * ((d * y - b * w - c * x + a * z) ^ 2 + (d * z - c * w - a * y + b * x) ^ 2)
        = (d * d + a * a - b * b - c * c) * (w * w + x * x - y * y - z * z) + 2 * (a * b + d * c) * (2 * (x * y + w * z))
          + -2 * (a * c - d * b) * (-2 * (x * z - w * y)) := by ring
    have i2 : (d * d + a * a - b * b - c * c) * (d * d + a * a - b * b - c * c) + 2 * (a * b + d * c) * (2 * (a * b + d * c))
          + -2 * (a * c - d * b) * (-2 * (a * c - d * b)) = (a ^ 2 + b ^ 2 + c ^ 2 + d ^ 2) ^ 2 := by ring
    rw [← h5, ← h4, ← h3, i2, hp, hq] at i1
    linarith
  have v0 : (x * d - w * a - y * c + z * b) ^ 2 + (y * d - w * b - z * a + x * c) ^ 2 = 0 := by
    have i1 : (a ^ 2 + b ^ 2 + c ^ 2 + d ^ 2) * (x ^ 2 + y ^ 2 + z ^ 2 + w ^ 2)
        - 2 * ((x * d - w * a - y * c + z * b) ^ 2 + (y * d - w * b - z * a + x * c) ^ 2)
        = (d * d - a * a - b * b + c * c) * (w * w - x * x - y * y + z * z) + 2 * (b * c + d * a) * (2 * (y * z + w * x))
          + -2 * (a * c - d * b) * (-2 * (x * z - w * y)) := by ring
    have i2 : (d * d - a * a - b * b + c * c) * (d * d - a * a - b * b + c * c) + 2 * (b * c + d * a) * (2 * (b * c + d * a))
          + -2 * (a * c - d * b) * (-2 * (a * c - d * b)) = (a ^ 2 + b ^ 2 + c ^ 2 + d ^ 2) ^ 2 := by ring
    rw [← h2, ← h1, ← h3, i2, hp, hq] at i1
    linarith
  have uy : d * y - b * w - c * x + a * z = 0 := (sq_add_sq u0).1
  have uz : d * z - c * w - a * y + b * x = 0 := (sq_add_sq u0).2
  have vx : x * d - w * a - y * c + z * b = 0 := (sq_add_sq v0).1
  have vy : y * d - w * b - z * a + x * c = 0 := (sq_add_sq v0).2
  obtain ⟨t, ht⟩ : ∃ t, t = d * x - a * w - b * z + c * y := ⟨_, rfl⟩
  obtain ⟨s, hs⟩ : ∃ s, s = d * w + a * x + b * y + c * z := ⟨_, rfl⟩
  -- the second in terms of the first
  have ex : x = a * s + d * t := by rw [hs, ht]; linear_combination x * (-hp) + b * uz - c * uy
  have ey : y = b * s + c * t := by rw [hs, ht]; linear_combination y * (-hp) + d * uy - a * uz
  have ez : z = c * s - b * t := by rw [hs, ht]; linear_combination z * (-hp) + d * uz + a * uy
  have ew : w = d * s - a * t := by rw [hs, ht]; linear_combination w * (-hp) - b * uy - c * uz
  have t0 : t = 0 := by
    have k1 : t * (d * d + a * a - b * b - c * c) = 0 := by
      rw [ex, ey, ez, ew] at vx; linear_combination vx
    have k2 : t * (2 * (a * b + d * c)) = 0 := by
      rw [ex, ey, ez, ew] at vy; linear_combination vy
    by_contra hne
    have k1' := (mul_eq_zero.1 k1).resolve_left hne
    have k2' := (mul_eq_zero.1 k2).resolve_left hne
    have i2 : (d * d + a * a - b * b - c * c) * (d * d + a * a - b * b - c * c) + 2 * (a * b + d * c) * (2 * (a * b + d * c))
          + -2 * (a * c - d * b) * (-2 * (a * c - d * b)) = (a ^ 2 + b ^ 2 + c ^ 2 + d ^ 2) ^ 2 := by ring
    rw [k1', k2', h3, hp] at i2
    have h' := (sq_lt_one_iff_abs_lt_one _).2 h
    generalize -2 * (x * z - w * y) = m at i2 h'
    clear * - i2 h'
    linarith [i2, h', sq m]
  rw [t0] at ex ey ez ew
  have s1 : s * s = 1 := by
    have : x ^ 2 + y ^ 2 + z ^ 2 + w ^ 2 = s * s * (a ^ 2 + b ^ 2 + c ^ 2 + d ^ 2) := by
      rw [ex, ey, ez, ew]; ring
    rw [hp, hq] at this
    linarith
  rcases mul_self_eq_one_iff.1 s1 with h | h <;> rw [h] at ex ey ez ew
  · left
    apply Quaternion.ext <;> simp only [toQ] <;> linarith
  · right
    apply Quaternion.ext
    · change d = -w; linarith
    · change a = -x; linarith
    · change b = -y; linarith
    · change c = -z; linarith

theorem norm_mk {a b : ℝ} : ‖(⟨a, b⟩ : ℂ)‖ = √(a ^ 2 + b ^ 2) := by
  rw [Complex.norm_def, Complex.normSq_mk]; congr 1; ring

/-- A point given by its polar angle. -/
theorem polar {a b r : ℝ} (hr : 0 < r) (h : a ^ 2 + b ^ 2 = r ^ 2) :
    r * cos (Complex.arg ⟨a, b⟩) = a ∧ r * sin (Complex.arg ⟨a, b⟩) = b := by
  have n : ‖(⟨a, b⟩ : ℂ)‖ = r := by rw [norm_mk, h, sqrt_sq hr.le]
  have c := Complex.norm_mul_cos_arg ⟨a, b⟩
  have d := Complex.norm_mul_sin_arg ⟨a, b⟩
  rw [n] at c d
  exact ⟨c, d⟩

end Euler

open Euler

/-- C123: yaw is read back for any angles with the yaw within a quarter turn. -/
theorem extractYaw_euler (e : V4 ℝ) (hy : |e.y| ≤ π / 2) :
    Quat.extractYaw (Quat.fromEulerAngles sinCosR e) = e.y := by
  obtain ⟨_, _, h, _, _⟩ := entries e
  obtain ⟨a, b⟩ := abs_le.1 hy
  rw [yaw_eq _ (by rw [h]; exact abs_sin_le_one _), h, arcsin_sin (by linarith) b]

/-- C123: roll is read back too, short of gimbal lock. -/
theorem extractRoll_euler (e : V4 ℝ) (hy : |e.y| < π / 2) (h1 : -π < e.z) (h2 : e.z ≤ π) :
    Quat.extractRoll (Quat.fromEulerAngles sinCosR e) = e.z := by
  obtain ⟨_, _, _, h, k⟩ := entries e
  rw [roll_eq, h, k]
  exact arg_polar (cos_pos_of_mem_Ioo (by rw [abs_lt] at hy; exact ⟨by linarith [hy.1], hy.2⟩)) h1 h2

/-- C123 (partial): pitch is read back when neither of the two entries it is computed from is within FLT_EPSILON of
zero. Missing: the other angles, where `extractPitch_wrong` shows it is not. -/
theorem extractPitch_euler_partial (e : V4 ℝ) (hy : |e.y| < π / 2) (h1 : -π < e.x) (h2 : e.x ≤ π)
    (hs : 1 / 2 ^ 23 < |cos e.y * sin e.x|) (hc : 1 / 2 ^ 23 < |cos e.y * cos e.x|) :
    Quat.extractPitch (Quat.fromEulerAngles sinCosR e) = e.x := by
  obtain ⟨h, k, _⟩ := entries e
  rw [pitch_eq, h, k, if_neg (by rw [not_or, not_le, not_le]; exact ⟨hc, hs⟩)]
  exact arg_polar (cos_pos_of_mem_Ioo (by rw [abs_lt] at hy; exact ⟨by linarith [hy.1], hy.2⟩)) h1 h2

/-- C123: a turn about the x axis alone is read back whatever the angle. -/
theorem extractPitch_alone (a : ℝ) (h1 : -π < a) (h2 : a ≤ π) :
    Quat.extractPitch (Quat.fromEulerAngles sinCosR ⟨a, 0, 0, 0⟩) = a := by
  obtain ⟨h, k, _⟩ := entries ⟨a, 0, 0, 0⟩
  have qx : (Quat.fromEulerAngles sinCosR ⟨a, 0, 0, 0⟩).x = sin (a / 2) := by simp [vec, sinCosR, div_eq_mul_inv]
  have qw : (Quat.fromEulerAngles sinCosR ⟨a, 0, 0, 0⟩).w = cos (a / 2) := by simp [vec, sinCosR, div_eq_mul_inv]
  rw [pitch_eq, h, k]
  split
  · have := arg_polar (θ := a / 2) one_pos (by linarith) (by linarith [pi_pos])
    rw [qx, qw]
    simp only [one_mul] at this
    rw [this]; ring
  · simp only [cos_zero]
    exact arg_polar one_pos h1 h2

/-- C123, the code's bug: with no pitch at all, but both a yaw and a roll, the pitch read back is not zero. -/
theorem extractPitch_wrong (e : V4 ℝ) (hx : e.x = 0) (hy : |e.y| < π / 2) (hz : |e.z| < π) (y0 : e.y ≠ 0) (z0 : e.z ≠ 0) :
    Quat.extractPitch (Quat.fromEulerAngles sinCosR e) ≠ 0 := by
  obtain ⟨h, k, _⟩ := entries e
  rw [pitch_eq, h, k, if_pos (by right; rw [hx]; simp)]
  intro h0
  have h0 : Complex.arg ⟨(Quat.fromEulerAngles sinCosR e).w, (Quat.fromEulerAngles sinCosR e).x⟩ = 0 := by linarith
  have := (Complex.arg_eq_zero_iff.1 h0).2
  have hs : (Quat.fromEulerAngles sinCosR e).x = - (sin (e.y / 2) * sin (e.z / 2)) := by
    simp [vec, sinCosR, div_eq_mul_inv, hx]
  simp only [hs, neg_eq_zero, mul_eq_zero] at this
  rw [abs_lt] at hy hz
  have pp := pi_pos
  rcases this with h | h
  · rw [sin_eq_zero_iff_of_lt_of_lt (by linarith) (by linarith)] at h
    exact y0 (by linarith)
  · rw [sin_eq_zero_iff_of_lt_of_lt (by linarith) (by linarith)] at h
    exact z0 (by linarith)

/-- C123 (partial): the angles read from a unit quaternion make up the same rotation again, when neither of the entries
the pitch is computed from is within FLT_EPSILON of zero. -/
theorem extractEuler_rebuild_partial (q : V4 ℝ) (hq : UnitQuat q)
    (hs : 1 / 2 ^ 23 < |2 * (q.y * q.z + q.w * q.x)|)
    (hc : 1 / 2 ^ 23 < |q.w * q.w - q.x * q.x - q.y * q.y + q.z * q.z|) :
    let p := Quat.fromEulerAngles sinCosR (Quat.extractEulerAngles q)
    (toQ p = toQ q ∨ toQ p = -toQ q) ∧ ∀ v, xyz (Quat.rotate p v) = xyz (Quat.rotate q v) := by
  intro p
  have hp : UnitQuat p := (euler_spec _).2
  have n1 : (-2 * (q.x * q.z - q.w * q.y)) ^ 2 + ((q.w * q.w - q.x * q.x - q.y * q.y + q.z * q.z) ^ 2
      + (2 * (q.y * q.z + q.w * q.x)) ^ 2) = 1 := by
    have : (q.x ^ 2 + q.y ^ 2 + q.z ^ 2 + q.w ^ 2) ^ 2 = 1 := by rw [hq]; norm_num
    linear_combination this
  have n2 : (-2 * (q.x * q.z - q.w * q.y)) ^ 2 + ((q.w * q.w + q.x * q.x - q.y * q.y - q.z * q.z) ^ 2
      + (2 * (q.x * q.y + q.w * q.z)) ^ 2) = 1 := by
    have : (q.x ^ 2 + q.y ^ 2 + q.z ^ 2 + q.w ^ 2) ^ 2 = 1 := by rw [hq]; norm_num
    linear_combination this
  have lt : |-2 * (q.x * q.z - q.w * q.y)| < 1 := by
    rw [← sq_lt_one_iff_abs_lt_one]
    have : 0 < |2 * (q.y * q.z + q.w * q.x)| := lt_trans (by norm_num) hs
    have : 0 < |2 * (q.y * q.z + q.w * q.x)| ^ 2 := by positivity
    rw [sq_abs] at this
    nlinarith [sq_nonneg (q.w * q.w - q.x * q.x - q.y * q.y + q.z * q.z)]
  obtain ⟨l1, l2⟩ := abs_lt.1 lt
  have sq := (sq_lt_one_iff_abs_lt_one _).2 lt
  obtain ⟨e1, e2, e3, e4, e5⟩ := entries (Quat.extractEulerAngles q)
  have ex : (Quat.extractEulerAngles q).x = Quat.extractPitch q := rfl
  have ey : (Quat.extractEulerAngles q).y = Quat.extractYaw q := rfl
  have ez : (Quat.extractEulerAngles q).z = Quat.extractRoll q := rfl
  rw [ex, ey, yaw_eq _ lt.le, cos_arcsin, pitch_eq, if_neg (by rw [not_or, not_le, not_le]; exact ⟨hc, hs⟩)] at e1 e2
  rw [ey, yaw_eq _ lt.le, sin_arcsin l1.le l2.le] at e3
  rw [ey, ez, yaw_eq _ lt.le, cos_arcsin, roll_eq] at e4 e5
  have rp : 0 < √(1 - (-2 * (q.x * q.z - q.w * q.y)) ^ 2) := sqrt_pos.2 (by linarith)
  have rs : √(1 - (-2 * (q.x * q.z - q.w * q.y)) ^ 2) ^ 2 = 1 - (-2 * (q.x * q.z - q.w * q.y)) ^ 2 := sq_sqrt (by linarith)
  rw [(polar rp (by rw [rs]; linarith)).2] at e1 e4
  rw [(polar rp (by rw [rs]; linarith)).1] at e2 e5
  have key := determined p q hp hq e1 e2 e3 e4 e5 lt
  refine ⟨key, fun v => ?_⟩
  rcases key with h | h
  · rw [toQ_inj.1 h]
  · have hx : p.x = -q.x := congrArg QuaternionAlgebra.imI h
    have hy : p.y = -q.y := congrArg QuaternionAlgebra.imJ h
    have hz : p.z = -q.z := congrArg QuaternionAlgebra.imK h
    have hw : p.w = -q.w := congrArg QuaternionAlgebra.re h
    have hP : p = ⟨-q.x, -q.y, -q.z, -q.w⟩ := by rw [← hx, ← hy, ← hz, ← hw]
    rw [hP]
    funext i
    fin_cases i <;> simp [vec, xyz] <;> ring

/-- C123: at gimbal lock — the x axis taken to the z axis, up or down — the angles read from the quaternion make up
the same quaternion again. -/
theorem extractEuler_gimbal (q : V4 ℝ) (hq : UnitQuat q) (h : |-2 * (q.x * q.z - q.w * q.y)| = 1) :
    toQ (Quat.fromEulerAngles sinCosR (Quat.extractEulerAngles q)) = toQ q := by
  obtain ⟨σ, hσ, hy, hz⟩ : ∃ σ : ℝ, (σ = 1 ∨ σ = -1) ∧ q.y = σ * q.w ∧ q.z = -σ * q.x := by
    unfold UnitQuat at hq
    rcases (abs_eq one_pos.le).1 h with h | h
    · refine ⟨1, .inl rfl, ?_, ?_⟩ <;> nlinarith [sq_nonneg (q.w - q.y), sq_nonneg (q.x + q.z)]
    · refine ⟨-1, .inr rfl, ?_, ?_⟩ <;> nlinarith [sq_nonneg (q.w + q.y), sq_nonneg (q.x - q.z)]
  have σ2 : σ * σ = 1 := by rcases hσ with h | h <;> rw [h] <;> norm_num
  have half : q.w ^ 2 + q.x ^ 2 = (√2 / 2) ^ 2 := by
    unfold UnitQuat at hq
    rw [hy, hz] at hq
    rw [div_pow, sq_sqrt (by norm_num)]
    nlinarith
  have half' : q.w ^ 2 + q.x ^ 2 = 1 / 2 := by rw [half, div_pow, sq_sqrt (by norm_num)]; norm_num
  have yy : 2 * (q.y * q.z + q.w * q.x) = 0 := by
    rw [hy, hz]; linear_combination (-2 * q.w * q.x) * σ2
  have rr : 2 * (q.x * q.y + q.w * q.z) = 0 := by rw [hy, hz]; ring
  have rx : q.w * q.w + q.x * q.x - q.y * q.y - q.z * q.z = 0 := by
    rw [hy, hz]; linear_combination (-q.w ^ 2 - q.x ^ 2) * σ2
  have ry : -2 * (q.x * q.z - q.w * q.y) = σ := by
    rw [hy, hz]; linear_combination (2 * σ) * half'
  have r2 : (0 : ℝ) < √2 / 2 := by positivity
  obtain ⟨pc, ps⟩ := polar r2 half
  have ex : (Quat.extractEulerAngles q).x = 2 * Complex.arg ⟨q.w, q.x⟩ := by
    change Quat.extractPitch q = _
    rw [pitch_eq, if_pos (by right; rw [yy]; norm_num)]
  have ey : (Quat.extractEulerAngles q).y = σ * (π / 2) := by
    change Quat.extractYaw q = _
    rw [yaw_eq _ h.le, ry]
    rcases hσ with h | h <;> rw [h] <;> simp
  have ez : (Quat.extractEulerAngles q).z = 0 := by
    change Quat.extractRoll q = _
    rw [roll_eq, rr, rx]
    exact Complex.arg_zero
  have cy : cos (σ * (π / 2) * (1 / 2)) = √2 / 2 := by
    rcases hσ with h | h <;> rw [h]
    · rw [← cos_pi_div_four]; congr 1; ring
    · rw [← cos_pi_div_four, ← cos_neg]; congr 1; ring
  have sy : sin (σ * (π / 2) * (1 / 2)) = σ * (√2 / 2) := by
    rcases hσ with h | h <;> rw [h]
    · rw [← sin_pi_div_four, one_mul, one_mul]; congr 1; ring
    · rw [← sin_pi_div_four, neg_one_mul, neg_one_mul, ← sin_neg]; congr 1; ring
  have ea : 2 * Complex.arg ⟨q.w, q.x⟩ * (1 / 2) = Complex.arg ⟨q.w, q.x⟩ := by ring
  generalize Quat.extractEulerAngles q = e at *
  apply Quaternion.ext
  · have : (Quat.fromEulerAngles sinCosR e).w = cos (e.x * (1 / 2)) * cos (e.y * (1 / 2)) * cos (e.z * (1 / 2)) + sin (e.x * (1 / 2)) * sin (e.y * (1 / 2)) * sin (e.z * (1 / 2)) := by
      simp [vec, sinCosR]
    rw [toQ_re, toQ_re, this, ex, ey, ez, cy, sy, ea, zero_mul, cos_zero, sin_zero]
    linear_combination pc
  · have : (Quat.fromEulerAngles sinCosR e).x = sin (e.x * (1 / 2)) * cos (e.y * (1 / 2)) * cos (e.z * (1 / 2)) - cos (e.x * (1 / 2)) * sin (e.y * (1 / 2)) * sin (e.z * (1 / 2)) := by
      simp [vec, sinCosR]
    rw [toQ_imI, toQ_imI, this, ex, ey, ez, cy, sy, ea, zero_mul, cos_zero, sin_zero]
    linear_combination ps
  · have : (Quat.fromEulerAngles sinCosR e).y = cos (e.x * (1 / 2)) * sin (e.y * (1 / 2)) * cos (e.z * (1 / 2)) + sin (e.x * (1 / 2)) * cos (e.y * (1 / 2)) * sin (e.z * (1 / 2)) := by
      simp [vec, sinCosR]
    rw [toQ_imJ, toQ_imJ, this, ex, ey, ez, cy, sy, ea, zero_mul, cos_zero, sin_zero, hy]
    linear_combination σ * pc
  · have : (Quat.fromEulerAngles sinCosR e).z = cos (e.x * (1 / 2)) * cos (e.y * (1 / 2)) * sin (e.z * (1 / 2)) - sin (e.x * (1 / 2)) * sin (e.y * (1 / 2)) * cos (e.z * (1 / 2)) := by
      simp [vec, sinCosR]
    rw [toQ_imK, toQ_imK, this, ex, ey, ez, cy, sy, ea, zero_mul, cos_zero, sin_zero, hz]
    linear_combination -σ * ps

/-- Non-vacuity for C123: an eighth of a turn in pitch with any yaw short of a sixth of a turn. -/
example (y : ℝ) (h : |y| ≤ π / 3) : Quat.extractPitch (Quat.fromEulerAngles sinCosR ⟨π / 4, y, 1, 1⟩) = π / 4 := by
  have pp := pi_pos
  have c : 1 / 2 ≤ cos y := by
    rw [← cos_abs y, ← cos_pi_div_three]
    exact cos_le_cos_of_nonneg_of_le_pi (abs_nonneg y) (by linarith) h
  have r : 1 ≤ √2 := one_le_sqrt.2 (by norm_num)
  have k : 1 / 2 ^ 23 < cos y * (√2 / 2) := by nlinarith
  refine extractPitch_euler_partial _ (by simp only; linarith) (by simp only; linarith) (by simp only; linarith) ?_ ?_
  · simp only [sin_pi_div_four]; exact lt_of_lt_of_le k (le_abs_self _)
  · simp only [cos_pi_div_four]; exact lt_of_lt_of_le k (le_abs_self _)

/-- Non-vacuity for C123: a yaw and a roll of one radian. -/
example : Quat.extractPitch (Quat.fromEulerAngles sinCosR ⟨0, 1, 1, 1⟩) ≠ 0 :=
  extractPitch_wrong _ rfl (by rw [abs_one]; linarith [pi_gt_three]) (by rw [abs_one]; linarith [pi_gt_three]) one_ne_zero one_ne_zero

/-- Non-vacuity for C123: a unit quaternion with four non-zero components, and one at gimbal lock. -/
example : UnitQuat ⟨2 / 5, 1 / 5, 2 / 5, 4 / 5⟩ ∧ (1 / 2 ^ 23 : ℝ) < |2 * (1 / 5 * (2 / 5) + 4 / 5 * (2 / 5))| ∧
    (1 / 2 ^ 23 : ℝ) < |4 / 5 * (4 / 5) - 2 / 5 * (2 / 5) - 1 / 5 * (1 / 5) + 2 / 5 * (2 / 5)| ∧
    UnitQuat ⟨1 / 2, 1 / 2, -1 / 2, 1 / 2⟩ ∧ |(-2 : ℝ) * (1 / 2 * (-1 / 2) - 1 / 2 * (1 / 2))| = 1 := by
  unfold UnitQuat
  refine ⟨by norm_num, ?_, ?_, by norm_num, ?_⟩
  · rw [abs_of_pos] <;> norm_num
  · rw [abs_of_pos] <;> norm_num
  · rw [abs_of_pos] <;> norm_num

end Verif
