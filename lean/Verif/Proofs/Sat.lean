import Mathlib.Analysis.Convex.KreinMilman
import Mathlib.Analysis.LocallyConvex.Separation
import Verif.Props.TriangleBox

/-!
# Thirteen axes are enough

A direction that separates a box from a triangle can be moved, keeping the signs of its coordinates and the nearest vertex,
to a corner of the cone of such directions. A corner is orthogonal to two of the five constraints of the cone, so it is one of
the thirteen candidates.
-/

namespace Verif
open Spec

/-- The vector with the coordinates of a point of `ℝ × ℝ × ℝ`. -/
def vecOf (a : ℝ × ℝ × ℝ) : V3 ℝ := ⟨a.1, a.2.1, a.2.2⟩

/-- The linear form of a vector. -/
noncomputable def formOf (w : V3 ℝ) : (ℝ × ℝ × ℝ) →L[ℝ] ℝ :=
  w.x • ContinuousLinearMap.fst ℝ ℝ (ℝ × ℝ) + w.y • (ContinuousLinearMap.fst ℝ ℝ ℝ).comp (ContinuousLinearMap.snd ℝ ℝ (ℝ × ℝ))
    + w.z • (ContinuousLinearMap.snd ℝ ℝ ℝ).comp (ContinuousLinearMap.snd ℝ ℝ (ℝ × ℝ))

theorem formOf_apply (w : V3 ℝ) (a : ℝ × ℝ × ℝ) : formOf w a = dot (vecOf a) w := by
  simp [formOf, dot, vecOf]; ring

theorem cross_zero_dot {a m n : V3 ℝ} (h : crossP m n = ⟨0, 0, 0⟩) (hm : m ≠ ⟨0, 0, 0⟩) (hd : dot a m = 0) : dot a n = 0 := by
  obtain ⟨mx, my, mz⟩ := m
  obtain ⟨nx, ny, nz⟩ := n
  obtain ⟨ax, ay, az⟩ := a
  simp only [crossP, dot, V3.mk.injEq] at *
  obtain ⟨h1, h2, h3⟩ := h
  have hp : 0 < mx ^ 2 + my ^ 2 + mz ^ 2 := by
    by_contra hc
    have : mx = 0 := by nlinarith [sq_nonneg mx, sq_nonneg my, sq_nonneg mz]
    have : my = 0 := by nlinarith [sq_nonneg mx, sq_nonneg my, sq_nonneg mz]
    have : mz = 0 := by nlinarith [sq_nonneg mx, sq_nonneg my, sq_nonneg mz]
    simp_all
  have : (mx ^ 2 + my ^ 2 + mz ^ 2) * (ax * nx + ay * ny + az * nz) = 0 := by
    linear_combination (mx * nx + my * ny + mz * nz) * hd - (ay * mz - az * my) * h1 - (az * mx - ax * mz) * h2 - (ax * my - ay * mx) * h3
  exact (mul_eq_zero.1 this).resolve_left hp.ne'

theorem along_cross {a m n : V3 ℝ} (h : crossP m n ≠ ⟨0, 0, 0⟩) (hm : dot a m = 0) (hn : dot a n = 0) :
    ∃ μ : ℝ, a = ⟨μ * (crossP m n).x, μ * (crossP m n).y, μ * (crossP m n).z⟩ := by
  obtain ⟨c, hc⟩ : ∃ c, c = crossP m n := ⟨_, rfl⟩
  have hp : 0 < c.x ^ 2 + c.y ^ 2 + c.z ^ 2 := by
    by_contra hn
    have h1 : c.x = 0 := by nlinarith [sq_nonneg c.x, sq_nonneg c.y, sq_nonneg c.z]
    have h2 : c.y = 0 := by nlinarith [sq_nonneg c.x, sq_nonneg c.y, sq_nonneg c.z]
    have h3 : c.z = 0 := by nlinarith [sq_nonneg c.x, sq_nonneg c.y, sq_nonneg c.z]
    exact h (hc ▸ (by obtain ⟨x, y, z⟩ := c; simp_all))
  refine ⟨dot a c / (c.x ^ 2 + c.y ^ 2 + c.z ^ 2), ?_⟩
  rw [← hc]
  obtain ⟨ax, ay, az⟩ := a
  obtain ⟨mx, my, mz⟩ := m
  obtain ⟨nx, ny, nz⟩ := n
  obtain ⟨cx, cy, cz⟩ := c
  simp only [crossP, V3.mk.injEq] at hc
  simp only [dot] at *
  obtain ⟨h1, h2, h3⟩ := hc
  have e1 : ay * cz - az * cy = 0 := by rw [h2, h3]; linear_combination mx * hn - nx * hm
  have e2 : az * cx - ax * cz = 0 := by rw [h1, h3]; linear_combination my * hn - ny * hm
  have e3 : ax * cy - ay * cx = 0 := by rw [h1, h2]; linear_combination mz * hn - nz * hm
  congr 1 <;> field_simp
  · linear_combination cy * e3 - cz * e2
  · linear_combination -cx * e3 + cz * e1
  · linear_combination cx * e2 - cy * e1

/-- A cone of directions inside an octant has a corner on which a positive linear form is positive. -/
theorem corner_axis (ν : Fin 5 → V3 ℝ) (s : V3 ℝ) (hs : |s.x| = 1 ∧ |s.y| = 1 ∧ |s.z| = 1)
    (h0 : ν 0 = ⟨s.x, 0, 0⟩) (h1 : ν 1 = ⟨0, s.y, 0⟩) (h2 : ν 2 = ⟨0, 0, s.z⟩) (w a : V3 ℝ)
    (ha : ∀ i, 0 ≤ dot a (ν i)) (hw : 0 < dot a w) :
    ∃ b, (∀ i, 0 ≤ dot b (ν i)) ∧ 0 < dot b w ∧
      ∃ (i j : Fin 5) (μ : ℝ), b = ⟨μ * (crossP (ν i) (ν j)).x, μ * (crossP (ν i) (ν j)).y, μ * (crossP (ν i) (ν j)).z⟩ := by
  obtain ⟨K, hK⟩ : ∃ K : Set (ℝ × ℝ × ℝ), K = {b | (∀ i, 0 ≤ dot (vecOf b) (ν i)) ∧ dot (vecOf b) s = 1} := ⟨_, rfl⟩
  -- coordinates are bounded
  have sgn : ∀ t x : ℝ, |t| = 1 → 0 ≤ x * t → x * t = |x| := by
    intro t x ht hx
    rw [← abs_of_nonneg hx, abs_mul, ht, mul_one]
  have coord : ∀ b : V3 ℝ, (∀ i, 0 ≤ dot b (ν i)) → b.x * s.x = |b.x| ∧ b.y * s.y = |b.y| ∧ b.z * s.z = |b.z| := by
    intro b hb
    have g0 := hb 0; have g1 := hb 1; have g2 := hb 2
    rw [h0] at g0; rw [h1] at g1; rw [h2] at g2
    simp only [dot, mul_zero, add_zero, zero_add] at g0 g1 g2
    exact ⟨sgn _ _ hs.1 g0, sgn _ _ hs.2.1 g1, sgn _ _ hs.2.2 g2⟩
  have size : ∀ b : V3 ℝ, (∀ i, 0 ≤ dot b (ν i)) → dot b s = |b.x| + |b.y| + |b.z| := by
    intro b hb
    obtain ⟨c1, c2, c3⟩ := coord b hb
    simp only [dot, c1, c2, c3]
  have cont : ∀ n : V3 ℝ, Continuous fun b : ℝ × ℝ × ℝ => dot (vecOf b) n := by
    intro n; simp only [dot, vecOf]; fun_prop
  have Kcl : IsClosed K := by
    have : K = (⋂ i, {b | 0 ≤ dot (vecOf b) (ν i)}) ∩ {b | dot (vecOf b) s = 1} := by
      rw [hK]; ext b; simp
    rw [this]
    exact (isClosed_iInter fun i => isClosed_le continuous_const (cont _)).inter (isClosed_eq (cont _) continuous_const)
  have Kc : IsCompact K := by
    have hb : K ⊆ Set.Icc (-1 : ℝ) 1 ×ˢ (Set.Icc (-1 : ℝ) 1 ×ˢ Set.Icc (-1 : ℝ) 1) := by
      rw [hK]
      rintro b ⟨hb, hb1⟩
      rw [size _ hb] at hb1
      have n1 := abs_nonneg (vecOf b).x
      have n2 := abs_nonneg (vecOf b).y
      have n3 := abs_nonneg (vecOf b).z
      exact ⟨abs_le.1 (by change |(vecOf b).x| ≤ 1; linarith), abs_le.1 (by change |(vecOf b).y| ≤ 1; linarith),
        abs_le.1 (by change |(vecOf b).z| ≤ 1; linarith)⟩
    exact (isCompact_Icc.prod (isCompact_Icc.prod isCompact_Icc)).of_isClosed_subset Kcl hb
  -- the given direction, scaled
  have hpos : 0 < dot a s := by
    rw [size a ha]
    by_contra hc
    have n1 := abs_nonneg a.x
    have n2 := abs_nonneg a.y
    have n3 := abs_nonneg a.z
    have e1 : a.x = 0 := abs_eq_zero.1 (by linarith)
    have e2 : a.y = 0 := abs_eq_zero.1 (by linarith)
    have e3 : a.z = 0 := abs_eq_zero.1 (by linarith)
    simp [dot, e1, e2, e3] at hw
  obtain ⟨a', ha'⟩ : ∃ a' : ℝ × ℝ × ℝ, a' = (a.x / dot a s, a.y / dot a s, a.z / dot a s) := ⟨_, rfl⟩
  have scale : ∀ n, dot (vecOf a') n = dot a n / dot a s := by
    intro n; rw [ha']; simp only [vecOf]; generalize dot a s = q; simp only [dot]; ring
  have aK : a' ∈ K := by
    rw [hK]; exact ⟨fun i => by rw [scale]; exact div_nonneg (ha i) hpos.le, by rw [scale, div_self hpos.ne']⟩
  -- the extreme point
  obtain ⟨m, mK, hm⟩ := Kc.exists_isMaxOn ⟨a', aK⟩ (formOf w).continuous.continuousOn
  have Fc : IsCompact ((formOf w).toExposed K) := ContinuousLinearMap.toExposed.isExposed.isCompact Kc
  obtain ⟨b, hb⟩ := Fc.extremePoints_nonempty ⟨m, mK, hm⟩
  have hbm : ∀ y ∈ K, formOf w y ≤ formOf w b := hb.1.2
  have hbK := ContinuousLinearMap.toExposed.isExposed.isExtreme.extremePoints_subset_extremePoints hb
  rw [mem_extremePoints] at hbK
  obtain ⟨bK, bx⟩ := hbK
  have bw : 0 < dot (vecOf b) w := by
    have := hbm a' aK
    rw [formOf_apply, formOf_apply, scale] at this
    exact lt_of_lt_of_le (div_pos hw hpos) this
  have bK' := bK
  rw [hK] at bK'
  obtain ⟨bc, b1⟩ := bK'
  refine ⟨vecOf b, bc, bw, ?_⟩
  -- no direction in which both sides can be followed
  have stuck : ∀ d : ℝ × ℝ × ℝ, (∀ i, dot (vecOf b) (ν i) = 0 → dot (vecOf d) (ν i) = 0) → dot (vecOf d) s = 0 → d = 0 := by
    intro d hd hds
    have ev : ∀ᶠ ε : ℝ in nhdsWithin 0 (Set.Ioi 0), ∀ i, ε * |dot (vecOf d) (ν i)| ≤ dot (vecOf b) (ν i) := by
      rw [Filter.eventually_all]
      intro i
      rcases eq_or_lt_of_le (bc i) with h | h
      · rw [hd i h.symm, ← h]; simp
      · have : Filter.Tendsto (fun ε : ℝ => ε * |dot (vecOf d) (ν i)|) (nhdsWithin 0 (Set.Ioi 0)) (nhds (0 * |dot (vecOf d) (ν i)|)) :=
          ((continuous_id.mul continuous_const).tendsto 0).mono_left nhdsWithin_le_nhds
        rw [zero_mul] at this
        exact (this.eventually (gt_mem_nhds h)).mono fun _ h => h.le
    obtain ⟨ε, hε, ε0⟩ := (ev.and self_mem_nhdsWithin).exists
    have ε0' : (0 : ℝ) < ε := ε0
    have lin : ∀ (t : ℝ) n, dot (vecOf (b + t • d)) n = dot (vecOf b) n + t * dot (vecOf d) n := by
      intro t n; simp [dot, vecOf]; ring
    have inK : ∀ t : ℝ, |t| = ε → b + t • d ∈ K := by
      intro t ht
      rw [hK]
      refine ⟨fun i => ?_, by rw [lin, hds, b1]; ring⟩
      rw [lin]
      have := neg_abs_le (t * dot (vecOf d) (ν i))
      rw [abs_mul, ht] at this
      linarith [hε i]
    have := (bx _ (inK ε (abs_of_pos ε0')) _ (inK (-ε) (by rw [abs_neg, abs_of_pos ε0'])) (by
      refine ⟨1 / 2, 1 / 2, by norm_num, by norm_num, by norm_num, ?_⟩
      module)).1
    have h3 : ε • d = 0 := by simpa using this
    exact (smul_eq_zero.1 h3).resolve_left ε0'.ne'
  -- two tight constraints that are not parallel
  by_contra hno
  push Not at hno
  have par : ∀ i j, dot (vecOf b) (ν i) = 0 → dot (vecOf b) (ν j) = 0 → crossP (ν i) (ν j) = ⟨0, 0, 0⟩ := by
    intro i j hi hj
    by_contra hc
    obtain ⟨μ, hμ⟩ := along_cross hc hi hj
    exact hno i j μ hμ
  have bn : vecOf b ≠ ⟨0, 0, 0⟩ := by
    intro h; rw [h] at b1; simp [dot] at b1
  have none : ∀ d : V3 ℝ, (∀ i, dot (vecOf b) (ν i) = 0 → dot d (ν i) = 0) →
      d = ⟨dot d s * (vecOf b).x, dot d s * (vecOf b).y, dot d s * (vecOf b).z⟩ := by
    intro d hd
    have := stuck (d.x - dot d s * (vecOf b).x, d.y - dot d s * (vecOf b).y, d.z - dot d s * (vecOf b).z) (fun i hi => by
      have h1 : dot (vecOf b) (ν i) = 0 := hi
      have h2 := hd i hi
      generalize dot d s = q at *
      simp only [dot, vecOf] at *
      linear_combination h2 - q * h1) (by
      generalize hq : dot d s = q
      simp only [dot, vecOf] at *
      linear_combination hq - q * b1)
    simp only [Prod.mk_eq_zero, sub_eq_zero] at this
    obtain ⟨dx, dy, dz⟩ := d
    simp only at this
    exact V3.mk.injEq .. ▸ this
  by_cases ht : ∃ i, dot (vecOf b) (ν i) = 0 ∧ ν i ≠ ⟨0, 0, 0⟩
  · obtain ⟨i, hi, hn⟩ := ht
    have h3 := none (crossP (vecOf b) (ν i)) (fun j hj => by
      refine cross_zero_dot (par i j hi hj) hn ?_
      simp only [dot, crossP]; ring)
    -- the cross product with a non-zero orthogonal vector is not parallel
    generalize dot (crossP (vecOf b) (ν i)) s = q at h3
    generalize vecOf b = B at *
    generalize ν i = N at *
    obtain ⟨x, y, z⟩ := B
    obtain ⟨l, m', n⟩ := N
    simp only [crossP, V3.mk.injEq] at h3
    simp only [dot] at hi
    obtain ⟨e1, e2, e3⟩ := h3
    have hB : 0 < x ^ 2 + y ^ 2 + z ^ 2 := by
      by_contra hc
      have z1 : x = 0 := by nlinarith [sq_nonneg x, sq_nonneg y, sq_nonneg z]
      have z2 : y = 0 := by nlinarith [sq_nonneg x, sq_nonneg y, sq_nonneg z]
      have z3 : z = 0 := by nlinarith [sq_nonneg x, sq_nonneg y, sq_nonneg z]
      exact bn (by rw [z1, z2, z3])
    have hN : 0 < l ^ 2 + m' ^ 2 + n ^ 2 := by
      by_contra hc
      have z1 : l = 0 := by nlinarith [sq_nonneg l, sq_nonneg m', sq_nonneg n]
      have z2 : m' = 0 := by nlinarith [sq_nonneg l, sq_nonneg m', sq_nonneg n]
      have z3 : n = 0 := by nlinarith [sq_nonneg l, sq_nonneg m', sq_nonneg n]
      exact hn (by rw [z1, z2, z3])
    have q0 : q * (x ^ 2 + y ^ 2 + z ^ 2) = 0 := by linear_combination -x * e1 - y * e2 - z * e3
    have q1 : q = 0 := (mul_eq_zero.1 q0).resolve_right hB.ne'
    subst q1
    have : (x ^ 2 + y ^ 2 + z ^ 2) * (l ^ 2 + m' ^ 2 + n ^ 2) = 0 := by
      linear_combination (y * n - z * m') * e1 + (z * l - x * n) * e2 + (x * m' - y * l) * e3 + (x * l + y * m' + z * n) * hi
    exact (mul_pos hB hN).ne' this
  · push Not at ht
    have free : ∀ d : V3 ℝ, ∀ i, dot (vecOf b) (ν i) = 0 → dot d (ν i) = 0 := by
      intro d i hi; rw [ht i hi]; simp [dot]
    have f1 := none ⟨1, 0, 0⟩ (free _)
    have f2 := none ⟨0, 1, 0⟩ (free _)
    have f3 := none ⟨0, 0, 1⟩ (free _)
    simp only [V3.mk.injEq, dot] at f1 f2 f3
    obtain ⟨p1, p2, p3⟩ := f1
    obtain ⟨q1, q2, q3⟩ := f2
    rcases mul_eq_zero.1 p2.symm with h | h
    · rw [h] at p1; simp at p1
    · rw [h] at q2; simp at q2

theorem radius_scale (e n : V3 ℝ) (μ : ℝ) : projRadius e ⟨μ * n.x, μ * n.y, μ * n.z⟩ = |μ| * projRadius e n := by
  simp only [projRadius, abs_mul]; ring

theorem dot_scale (n p : V3 ℝ) (μ : ℝ) : dot ⟨μ * n.x, μ * n.y, μ * n.z⟩ p = μ * dot n p := by
  simp only [dot]; ring

/-- Separation does not depend on the length of the axis. -/
theorem beyond_scale {c e u v w n : V3 ℝ} {μ : ℝ} (h : Beyond c e u v w ⟨μ * n.x, μ * n.y, μ * n.z⟩) : Beyond c e u v w n := by
  unfold Beyond at *
  simp only [radius_scale, dot_scale] at h
  rcases lt_trichotomy μ 0 with m | m | m
  · rw [abs_of_neg m] at h
    rcases h with ⟨h1, h2, h3⟩ | ⟨h1, h2, h3⟩
    · right
      refine ⟨?_, ?_, ?_⟩ <;> nlinarith
    · left
      refine ⟨?_, ?_, ?_⟩ <;> nlinarith
  · subst m; simp at h
  · rw [abs_of_pos m] at h
    rcases h with ⟨h1, h2, h3⟩ | ⟨h1, h2, h3⟩
    · left
      refine ⟨?_, ?_, ?_⟩ <;> nlinarith
    · right
      refine ⟨?_, ?_, ?_⟩ <;> nlinarith

/-- The axes of the cone at the vertex `p`. -/
def coneAxes (p q r : V3 ℝ) : List (V3 ℝ) :=
  boxAxes ++ [crossP (diff q p) (diff r p)] ++ boxAxes.flatMap fun e => [crossP e (diff q p), crossP e (diff r p)]

/-- A separating axis for which `p` is the nearest vertex can be replaced by one of the cone axes. -/
theorem near_axis {c e p q r a : V3 ℝ} (h : projRadius e a < dot a (diff p c)) (hq : 0 ≤ dot a (diff q p))
    (hr : 0 ≤ dot a (diff r p)) : ∃ n ∈ coneAxes p q r, Beyond c e p q r n := by
  obtain ⟨s, hs⟩ : ∃ s : V3 ℝ, s = ⟨signed a.x 1, signed a.y 1, signed a.z 1⟩ := ⟨_, rfl⟩
  have abs1 : ∀ x : ℝ, |signed x 1| = 1 := by intro x; unfold signed; split_ifs <;> simp
  have hs1 : |s.x| = 1 ∧ |s.y| = 1 ∧ |s.z| = 1 := by rw [hs]; exact ⟨abs1 _, abs1 _, abs1 _⟩
  have m1 := signed_mul a.x 1
  have m2 := signed_mul a.y 1
  have m3 := signed_mul a.z 1
  obtain ⟨W, hW⟩ : ∃ W : V3 ℝ, W = ⟨p.x - c.x - s.x * e.x, p.y - c.y - s.y * e.y, p.z - c.z - s.z * e.z⟩ := ⟨_, rfl⟩
  have val : ∀ b : V3 ℝ, b.x * s.x = |b.x| → b.y * s.y = |b.y| → b.z * s.z = |b.z| →
      dot b W = dot b (diff p c) - projRadius e b := by
    intro b b1 b2 b3
    rw [hW]; simp only [dot, projRadius, diff]
    rw [← b1, ← b2, ← b3]; ring
  obtain ⟨ν, hν⟩ : ∃ ν : Fin 5 → V3 ℝ, ν = ![⟨s.x, 0, 0⟩, ⟨0, s.y, 0⟩, ⟨0, 0, s.z⟩, diff q p, diff r p] := ⟨_, rfl⟩
  have n0 : ν 0 = ⟨s.x, 0, 0⟩ := by rw [hν]; rfl
  have n1 : ν 1 = ⟨0, s.y, 0⟩ := by rw [hν]; rfl
  have n2 : ν 2 = ⟨0, 0, s.z⟩ := by rw [hν]; rfl
  have n3 : ν 3 = diff q p := by rw [hν]; rfl
  have n4 : ν 4 = diff r p := by rw [hν]; rfl
  have ax : a.x * s.x = |a.x| := by rw [hs]; simpa using m1
  have ay : a.y * s.y = |a.y| := by rw [hs]; simpa using m2
  have az : a.z * s.z = |a.z| := by rw [hs]; simpa using m3
  obtain ⟨b, bc, bw, i, j, μ, hb⟩ := corner_axis ν s hs1 n0 n1 n2 W a (by
    intro i
    fin_cases i
    · change 0 ≤ dot a (ν 0); rw [n0]; simp only [dot, mul_zero, add_zero]; rw [ax]; exact abs_nonneg _
    · change 0 ≤ dot a (ν 1); rw [n1]; simp only [dot, mul_zero, add_zero, zero_add]; rw [ay]; exact abs_nonneg _
    · change 0 ≤ dot a (ν 2); rw [n2]; simp only [dot, mul_zero, zero_add]; rw [az]; exact abs_nonneg _
    · change 0 ≤ dot a (ν 3); rw [n3]; exact hq
    · change 0 ≤ dot a (ν 4); rw [n4]; exact hr) (by rw [val a ax ay az]; linarith)
  have sgn : ∀ t x : ℝ, |t| = 1 → 0 ≤ x * t → x * t = |x| := by
    intro t x ht hx
    rw [← abs_of_nonneg hx, abs_mul, ht, mul_one]
  have bB : Beyond c e p q r b := by
    have g0 := bc 0; have g1 := bc 1; have g2 := bc 2; have g3 := bc 3; have g4 := bc 4
    rw [n0] at g0; rw [n1] at g1; rw [n2] at g2; rw [n3] at g3; rw [n4] at g4
    simp only [dot, mul_zero, add_zero, zero_add] at g0 g1 g2
    rw [val b (sgn _ _ hs1.1 g0) (sgn _ _ hs1.2.1 g1) (sgn _ _ hs1.2.2 g2)] at bw
    have e1 : dot b (diff q c) = dot b (diff p c) + dot b (diff q p) := by simp only [dot, diff]; ring
    have e2 : dot b (diff r c) = dot b (diff p c) + dot b (diff r p) := by simp only [dot, diff]; ring
    left
    rw [e1, e2]
    refine ⟨?_, ?_, ?_⟩ <;> linarith
  rw [hb] at bB
  have bB := beyond_scale bB
  have key : ∀ n ∈ coneAxes p q r, ∀ κ : ℝ, crossP (ν i) (ν j) = ⟨κ * n.x, κ * n.y, κ * n.z⟩ →
      ∃ n ∈ coneAxes p q r, Beyond c e p q r n := by
    intro n hn κ hκ
    rw [hκ] at bB
    exact ⟨n, hn, beyond_scale bB⟩
  have zero : ∀ m : V3 ℝ, crossP m m = ⟨0 * 1, 0 * 0, 0 * 0⟩ := by intro m; simp only [crossP, V3.mk.injEq]; refine ⟨?_, ?_, ?_⟩ <;> ring
  have neg : ∀ m n : V3 ℝ, crossP m n = ⟨-1 * (crossP n m).x, -1 * (crossP n m).y, -1 * (crossP n m).z⟩ := by
    intro m n; simp only [crossP, V3.mk.injEq]; refine ⟨?_, ?_, ?_⟩ <;> ring
  have mem : ∀ (k : ℕ) (hk : k < 10), (coneAxes p q r)[k]'hk ∈ coneAxes p q r := fun k hk => List.getElem_mem _
  clear bc hb bB
  fin_cases i <;> fin_cases j
  all_goals
    revert key
    simp only [Fin.mk_zero, Fin.mk_one, Fin.reduceFinMk, n0, n1, n2, n3, n4]
    intro key
  · exact key _ (mem 0 (by norm_num)) 0 (by simp [crossP])
  · exact key _ (mem 2 (by norm_num)) (s.x * s.y) (by simp [crossP, coneAxes, boxAxes])
  · exact key _ (mem 1 (by norm_num)) (-s.x * s.z) (by simp [crossP, coneAxes, boxAxes])
  · exact key _ (mem 4 (by norm_num)) s.x (by simp [crossP, coneAxes, boxAxes])
  · exact key _ (mem 5 (by norm_num)) s.x (by simp [crossP, coneAxes, boxAxes])
  · exact key _ (mem 2 (by norm_num)) (-s.x * s.y) (by simp [crossP, coneAxes, boxAxes]; ring)
  · exact key _ (mem 0 (by norm_num)) 0 (by simp [crossP])
  · exact key _ (mem 0 (by norm_num)) (s.y * s.z) (by simp [crossP, coneAxes, boxAxes])
  · exact key _ (mem 6 (by norm_num)) s.y (by simp [crossP, coneAxes, boxAxes])
  · exact key _ (mem 7 (by norm_num)) s.y (by simp [crossP, coneAxes, boxAxes])
  · exact key _ (mem 1 (by norm_num)) (s.x * s.z) (by simp [crossP, coneAxes, boxAxes]; ring)
  · exact key _ (mem 0 (by norm_num)) (-s.y * s.z) (by simp [crossP, coneAxes, boxAxes]; ring)
  · exact key _ (mem 0 (by norm_num)) 0 (by simp [crossP])
  · exact key _ (mem 8 (by norm_num)) s.z (by simp [crossP, coneAxes, boxAxes])
  · exact key _ (mem 9 (by norm_num)) s.z (by simp [crossP, coneAxes, boxAxes])
  · exact key _ (mem 4 (by norm_num)) (-s.x) (by simp [crossP, coneAxes, boxAxes]; ring_nf; simp)
  · exact key _ (mem 6 (by norm_num)) (-s.y) (by simp [crossP, coneAxes, boxAxes]; ring_nf; simp)
  · exact key _ (mem 8 (by norm_num)) (-s.z) (by simp [crossP, coneAxes, boxAxes]; ring_nf; simp)
  · exact key _ (mem 0 (by norm_num)) 0 (by simp [crossP]; refine ⟨?_, ?_, ?_⟩ <;> ring)
  · exact key _ (mem 3 (by norm_num)) 1 (by simp [crossP, coneAxes, boxAxes])
  · exact key _ (mem 5 (by norm_num)) (-s.x) (by simp [crossP, coneAxes, boxAxes]; ring_nf; simp)
  · exact key _ (mem 7 (by norm_num)) (-s.y) (by simp [crossP, coneAxes, boxAxes]; ring_nf; simp)
  · exact key _ (mem 9 (by norm_num)) (-s.z) (by simp [crossP, coneAxes, boxAxes]; ring_nf; simp)
  · exact key _ (mem 3 (by norm_num)) (-1) (neg _ _)
  · exact key _ (mem 0 (by norm_num)) 0 (by simp [crossP]; refine ⟨?_, ?_, ?_⟩ <;> ring)

theorem beyond_rotate {c e u v w n : V3 ℝ} (h : Beyond c e v w u n) : Beyond c e u v w n := by
  unfold Beyond at *; tauto

/-- The cone axes of every vertex are candidates, up to their length and sign. -/
theorem cone_candidate {c e u v w n : V3 ℝ} (hn : n ∈ coneAxes u v w) (h : Beyond c e u v w n) :
    ∃ a ∈ candidates u v w, Beyond c e u v w a := by
  have neg : ∀ a : V3 ℝ, n = ⟨-1 * a.x, -1 * a.y, -1 * a.z⟩ → Beyond c e u v w a := fun a ha => beyond_scale (μ := -1) (ha ▸ h)
  simp only [coneAxes, boxAxes, List.flatMap_cons, List.flatMap_nil, List.cons_append, List.nil_append, List.append_nil,
    List.mem_cons, List.not_mem_nil, or_false] at hn
  have mem : ∀ (k : ℕ) (hk : k < 13), (candidates u v w)[k]'hk ∈ candidates u v w := fun k hk => List.getElem_mem _
  rcases hn with rfl | rfl | rfl | h3 | rfl | h5 | rfl | h7 | rfl | h9
  · exact ⟨_, mem 0 (by norm_num), h⟩
  · exact ⟨_, mem 1 (by norm_num), h⟩
  · exact ⟨_, mem 2 (by norm_num), h⟩
  · refine ⟨crossP (diff v u) (diff w v), by simp [candidates], ?_⟩
    have : n = crossP (diff v u) (diff w v) := by
      rw [h3]; simp only [crossP, diff, V3.mk.injEq]; refine ⟨?_, ?_, ?_⟩ <;> ring
    rw [← this]; exact h
  · exact ⟨_, mem 4 (by norm_num), h⟩
  · refine ⟨_, mem 6 (by norm_num), neg _ ?_⟩
    rw [h5]; simp [candidates, boxAxes, edges, crossP, diff]
  · exact ⟨_, mem 7 (by norm_num), h⟩
  · refine ⟨_, mem 9 (by norm_num), neg _ ?_⟩
    rw [h7]; simp [candidates, boxAxes, edges, crossP, diff]
  · exact ⟨_, mem 10 (by norm_num), h⟩
  · refine ⟨_, mem 12 (by norm_num), neg _ ?_⟩
    rw [h9]; simp [candidates, boxAxes, edges, crossP, diff]

theorem candidates_rotate {c e u v w : V3 ℝ} (h : ∃ a ∈ candidates v w u, Beyond c e v w u a) :
    ∃ a ∈ candidates u v w, Beyond c e u v w a := by
  obtain ⟨a, ha, h⟩ := h
  have h := beyond_rotate h
  simp only [candidates, boxAxes, edges, List.flatMap_cons, List.flatMap_nil, List.map_cons, List.map_nil,
    List.cons_append, List.nil_append, List.append_nil, List.mem_cons, List.not_mem_nil, or_false] at ha ⊢
  have e : crossP (diff w v) (diff u w) = crossP (diff v u) (diff w v) := by
    simp only [crossP, diff, V3.mk.injEq]; refine ⟨?_, ?_, ?_⟩ <;> ring
  rw [e] at ha
  exact ⟨a, by tauto, h⟩

/-- Any separating axis can be replaced by a candidate. -/
theorem some_candidate {c e u v w a : V3 ℝ} (h : Beyond c e u v w a) : ∃ n ∈ candidates u v w, Beyond c e u v w n := by
  -- towards the triangle
  have main : ∀ a, projRadius e a < dot a (diff u c) → projRadius e a < dot a (diff v c) → projRadius e a < dot a (diff w c) →
      ∃ n ∈ candidates u v w, Beyond c e u v w n := by
    intro a h1 h2 h3
    have d : ∀ p q : V3 ℝ, dot a (diff q p) = dot a (diff q c) - dot a (diff p c) := by
      intro p q; simp only [dot, diff]; ring
    rcases le_total (dot a (diff u c)) (dot a (diff v c)) with l1 | l1
    · rcases le_total (dot a (diff u c)) (dot a (diff w c)) with l2 | l2
      · obtain ⟨n, hn, hB⟩ := near_axis (q := v) (r := w) h1 (by rw [d]; linarith) (by rw [d]; linarith)
        exact cone_candidate hn hB
      · obtain ⟨n, hn, hB⟩ := near_axis (q := u) (r := v) h3 (by rw [d]; linarith) (by rw [d]; linarith)
        exact candidates_rotate (candidates_rotate (cone_candidate hn hB))
    · rcases le_total (dot a (diff v c)) (dot a (diff w c)) with l2 | l2
      · obtain ⟨n, hn, hB⟩ := near_axis (q := w) (r := u) h2 (by rw [d]; linarith) (by rw [d]; linarith)
        exact candidates_rotate (cone_candidate hn hB)
      · obtain ⟨n, hn, hB⟩ := near_axis (q := u) (r := v) h3 (by rw [d]; linarith) (by rw [d]; linarith)
        exact candidates_rotate (candidates_rotate (cone_candidate hn hB))
  rcases h with ⟨h1, h2, h3⟩ | ⟨h1, h2, h3⟩
  · exact main a h1 h2 h3
  · have r := radius_scale e a (-1)
    rw [abs_neg, abs_one, one_mul] at r
    refine main ⟨-1 * a.x, -1 * a.y, -1 * a.z⟩ ?_ ?_ ?_ <;> rw [r, dot_scale] <;> linarith

/-- Disjoint boxes and triangles are separated by some axis. -/
theorem disjoint_axis {c e u v w : V3 ℝ} (he : 0 ≤ e.x ∧ 0 ≤ e.y ∧ 0 ≤ e.z)
    (h : ¬ (Box (diff c e) ⟨c.x + e.x, c.y + e.y, c.z + e.z⟩ ∩ Tri u v w).Nonempty) :
    ∃ a, Beyond c e u v w a := by
  obtain ⟨S, hS⟩ : ∃ S : Set (ℝ × ℝ × ℝ), S = Set.Icc (c.x - e.x) (c.x + e.x) ×ˢ (Set.Icc (c.y - e.y) (c.y + e.y) ×ˢ
    Set.Icc (c.z - e.z) (c.z + e.z)) := ⟨_, rfl⟩
  obtain ⟨T, hT⟩ : ∃ T : Set (ℝ × ℝ × ℝ), T = convexHull ℝ {(u.x, u.y, u.z), (v.x, v.y, v.z), (w.x, w.y, w.z)} := ⟨_, rfl⟩
  have Sc : IsCompact S := by rw [hS]; exact isCompact_Icc.prod (isCompact_Icc.prod isCompact_Icc)
  have Sv : Convex ℝ S := by rw [hS]; exact (convex_Icc _ _).prod ((convex_Icc _ _).prod (convex_Icc _ _))
  have Tc : IsCompact T := by rw [hT]; exact (Set.Finite.isCompact_convexHull ℝ (Set.toFinite _))
  have Tv : Convex ℝ T := by rw [hT]; exact convex_convexHull _ _
  have Tt : ∀ p ∈ T, vecOf p ∈ Tri u v w := by
    have hc : Convex ℝ {p : ℝ × ℝ × ℝ | vecOf p ∈ Tri u v w} := by
      rintro x ⟨a, b, g, a0, b0, g0, s, hx⟩ y ⟨a', b', g', a0', b0', g0', s', hy⟩ k l k0 l0 kl
      refine ⟨k * a + l * a', k * b + l * b', k * g + l * g', by positivity, by positivity, by positivity, ?_, ?_⟩
      · linear_combination k * s + l * s' + kl
      · simp only [combo, vecOf, V3.mk.injEq, Prod.fst_add, Prod.snd_add, Prod.smul_fst, Prod.smul_snd, smul_eq_mul] at hx hy ⊢
        obtain ⟨x1, x2, x3⟩ := hx
        obtain ⟨y1, y2, y3⟩ := hy
        rw [x1, x2, x3, y1, y2, y3]
        refine ⟨?_, ?_, ?_⟩ <;> ring
    obtain ⟨tu, tv, tw⟩ := tri_vertices u v w
    intro p hp
    rw [hT] at hp
    refine convexHull_min ?_ hc hp
    rintro q (rfl | rfl | rfl)
    exacts [tu, tv, tw]
  have dis : Disjoint S T := by
    rw [Set.disjoint_left]
    intro p hp hq
    apply h
    rw [hS] at hp
    obtain ⟨⟨p1, p2⟩, ⟨p3, p4⟩, p5, p6⟩ := hp
    exact ⟨vecOf p, ⟨⟨p1, p2⟩, ⟨p3, p4⟩, p5, p6⟩, Tt p hq⟩
  obtain ⟨f, m, m', hf, hm, hg⟩ := geometric_hahn_banach_compact_closed Sv Sc Tv Tc.isClosed dis
  obtain ⟨a, ha⟩ : ∃ a : V3 ℝ, a = ⟨f (1, 0, 0), f (0, 1, 0), f (0, 0, 1)⟩ := ⟨_, rfl⟩
  have fa : ∀ p : ℝ × ℝ × ℝ, f p = dot a (vecOf p) := by
    intro p
    have : p = p.1 • ((1 : ℝ), (0 : ℝ), (0 : ℝ)) + p.2.1 • ((0 : ℝ), (1 : ℝ), (0 : ℝ)) + p.2.2 • ((0 : ℝ), (0 : ℝ), (1 : ℝ)) := by
      ext <;> simp
    conv_lhs => rw [this]
    rw [map_add, map_add, map_smul, map_smul, map_smul, ha]
    simp only [dot, vecOf, smul_eq_mul]; ring
  refine ⟨a, Or.inl ?_⟩
  have s1 := signed_le a.x e.x he.1
  have s2 := signed_le a.y e.y he.2.1
  have s3 := signed_le a.z e.z he.2.2
  have m1 := signed_mul a.x e.x
  have m2 := signed_mul a.y e.y
  have m3 := signed_mul a.z e.z
  have k := hf (c.x + signed a.x e.x, c.y + signed a.y e.y, c.z + signed a.z e.z) (by
    rw [hS]; exact ⟨⟨by linarith, by linarith⟩, ⟨by linarith, by linarith⟩, by linarith, by linarith⟩)
  rw [fa] at k
  have ku := hg (u.x, u.y, u.z) (by rw [hT]; exact subset_convexHull _ _ (by simp))
  have kv := hg (v.x, v.y, v.z) (by rw [hT]; exact subset_convexHull _ _ (by simp))
  have kw := hg (w.x, w.y, w.z) (by rw [hT]; exact subset_convexHull _ _ (by simp))
  rw [fa] at ku kv kw
  simp only [dot, vecOf, projRadius, diff] at *
  refine ⟨?_, ?_, ?_⟩ <;> nlinarith

end Verif
