import Verif.Spec.BoxF32
import Verif.Proofs.F32Rel
import Verif.Props.ClosestF32
import Verif.Props.Reliable

/-!
# C134: measuring and placing boxes in binary32
-/

namespace Verif
open F32 Spec

namespace BoxF32

theorem nearest_ge {r y : F32} {q : ℝ} (h : IsNearest r q) (hy : y.isFinite = true) (hq : y.val ≤ q) : y.val ≤ r.val := by
  by_contra hc
  push Not at hc
  have := h.2 y hy
  change |r.val - q| ≤ |y.val - q| at this
  rw [abs_of_neg (by linarith), abs_of_nonpos (by linarith)] at this
  linarith

theorem nearest_le {r y : F32} {q : ℝ} (h : IsNearest r q) (hy : y.isFinite = true) (hq : q ≤ y.val) : r.val ≤ y.val := by
  by_contra hc
  push Not at hc
  have := h.2 y hy
  change |r.val - q| ≤ |y.val - q| at this
  rw [abs_of_pos (by linarith), abs_of_nonneg (by linarith)] at this
  linarith

/-- Twice a moderate value is representable. -/
theorem double {a : F32} (h : |a.val| ≤ 2 ^ 124) : ∃ y : F32, y.isFinite = true ∧ y.val = 2 * a.val := by
  obtain ⟨s, k, hm, hk, hs⟩ := mag_decomp a.mag
  have hmu : magUnits a.mag = k * 2 ^ s := by rw [hm]; exact magUnits_eq s k hk.le hs
  have hb : s ≤ 251 := by
    by_contra hc
    push Not at hc
    have h23 : 2 ^ 23 ≤ k := hs.resolve_left (by omega)
    have h1 : 2 ^ 23 * 2 ^ 252 ≤ magUnits a.mag := by
      rw [hmu]; exact Nat.mul_le_mul h23 (Nat.pow_le_pow_right (by norm_num) (by omega))
    have h2 : |a.val| = (magUnits a.mag : ℝ) / 2 ^ 149 := by
      rw [val_units, abs_div, abs_of_pos (by positivity : (0:ℝ) < 2 ^ 149)]
      congr 1
      unfold units
      split <;> push_cast <;> simp
    rw [h2, div_le_iff₀ (by positivity)] at h
    have h3 : ((2 ^ 23 * 2 ^ 252 : ℕ) : ℝ) ≤ (magUnits a.mag : ℝ) := by exact_mod_cast h1
    push_cast at h3
    norm_num at h h3
    linarith
  have : ∃ K : Int, K.natAbs = k ∧ a.units = K * 2 ^ s := by
    unfold units
    split
    · exact ⟨-k, by simp, by rw [hmu]; push_cast; ring⟩
    · exact ⟨k, by simp, by rw [hmu]; push_cast; ring⟩
  obtain ⟨K, hK, hu⟩ := this
  obtain ⟨y, hy, hyu⟩ := representable K (s + 1) (by omega) (by omega)
  refine ⟨y, hy, ?_⟩
  rw [val_units, val_units, hyu, hu]
  push_cast
  ring

theorem add_near {a b : F32} (ha : a.isFinite = true) (hb : b.isFinite = true) (h : |a.val + b.val| < 2 ^ 127) :
    IsNearest (fadd a b) (a.val + b.val) := by
  have e : a.val + b.val = ((a.toRat + b.toRat : Rat) : ℝ) := by unfold val; push_cast; rfl
  rw [e] at h ⊢
  exact fadd_nearest ha hb (rat_le_max le_rfl h)

theorem sub_near {a b : F32} (ha : a.isFinite = true) (hb : b.isFinite = true) (h : |a.val - b.val| < 2 ^ 127) :
    IsNearest (fsub a b) (a.val - b.val) := by
  have e : a.val - b.val = ((a.toRat - b.toRat : Rat) : ℝ) := by unfold val; push_cast; rfl
  rw [e] at h ⊢
  exact fsub_nearest ha hb (rat_le_max le_rfl h)

theorem mul_near {a b : F32} (ha : a.isFinite = true) (hb : b.isFinite = true) (h : |a.val * b.val| < 2 ^ 127) :
    IsNearest (fmul a b) (a.val * b.val) := by
  have e : a.val * b.val = ((a.toRat * b.toRat : Rat) : ℝ) := by unfold val; push_cast; rfl
  rw [e] at h ⊢
  exact fmul_nearest ha hb (rat_le_max le_rfl h)

/-- The literal `0.5f`. -/
theorem half_lit : (ofRat (1 / 2)).isFinite = true ∧ (ofRat (1 / 2)).val = 1 / 2 := by
  have h : (ofRat (1 / 2)).isFinite = true ∧ (ofRat (1 / 2)).units = 2 ^ 148 := by decide +kernel
  refine ⟨h.1, ?_⟩
  rw [val_units, h.2]
  norm_num

/-- Halving. -/
theorem half {a h : F32} (hh : h.isFinite = true ∧ h.val = 1 / 2) (fa : a.isFinite = true) (ha : |a.val| < 2 ^ 127) :
    IsNearest (fmul a h) (a.val / 2) ∧ |(fmul a h).val - a.val / 2| ≤ uro * |a.val / 2| + 1 / 2 ^ 150 := by
  have e : a.val * h.val = a.val / 2 := by rw [hh.2]; ring
  have hb : |a.val * h.val| < 2 ^ 127 := by
    rw [e, abs_div, abs_two]; linarith [abs_nonneg a.val]
  have h1 := mul_near fa hh.1 hb
  have h2 := (fmul_rel fa hh.1 hb).2
  rw [e] at h1 h2
  exact ⟨h1, h2⟩

/-- Halving is exact away from underflow. -/
theorem half_exact {a h : F32} (hh : h.isFinite = true ∧ h.val = 1 / 2) (fa : a.isFinite = true) (h0 : 1 / 2 ^ 125 ≤ a.val)
    (ha : |a.val| < 2 ^ 127) : (fmul a h).val = a.val / 2 := by
  obtain ⟨y, hy, hv⟩ := scale_representable fa (-125) (by norm_num) (by norm_num at h0 ⊢; exact h0) (-1) (by norm_num)
    (by norm_num; have := (abs_lt.1 ha).2; norm_num at this; linarith)
  exact nearest_exact (half hh fa ha).1 hy (by rw [hv]; norm_num; ring)

theorem small_u : uro = 1 / 2 ^ 24 := rfl

/-- The size along one axis. -/
theorem size {lo hi : F32} (fl : lo.isFinite = true) (fh : hi.isFinite = true) (hl : |lo.val| ≤ 2 ^ 122) (hh : |hi.val| ≤ 2 ^ 122)
    (h : lo.val ≤ hi.val) : Near (fsub hi lo) (hi.val - lo.val) (uro * (hi.val - lo.val)) ∧ 0 ≤ (fsub hi lo).val := by
  have b : |hi.val - lo.val| < 2 ^ 127 := by
    have := abs_sub hi.val lo.val
    norm_num at *; linarith
  have h1 := fsub_err' fh fl b
  have n : 0 ≤ hi.val - lo.val := by linarith
  rw [abs_of_nonneg n] at h1
  have hu : uro ≤ 1 := by unfold uro; norm_num
  refine ⟨h1, ?_⟩
  have := (abs_le.1 h1.2).1
  nlinarith

/-- Half of a value that is near `x`. -/
theorem half_of {a h : F32} {x e : ℝ} (hh : h.isFinite = true ∧ h.val = 1 / 2) (hn : Near a x e) (hx : |x| ≤ 2 ^ 123) (he : e ≤ 2 ^ 123) :
    Near (fmul a h) (x / 2) (uro * |x / 2| + 1 / 2 ^ 150 + (1 + uro) * (e / 2)) := by
  have fa := hn.1
  have hv : |a.val - x| ≤ e := hn.2
  have b := abs_add_le (a.val - x) x
  rw [sub_add_cancel] at b
  have h1 := half hh fa (by norm_num at *; linarith)
  refine ⟨h1.1.1, ?_⟩
  have t := abs_add_le ((fmul a h).val - a.val / 2) (a.val / 2 - x / 2)
  rw [sub_add_sub_cancel] at t
  have e1 : |a.val / 2 - x / 2| = |a.val - x| / 2 := by rw [← sub_div, abs_div, abs_two]
  have e2 : |a.val / 2| = |a.val| / 2 := by rw [abs_div, abs_two]
  have e3 : |x / 2| = |x| / 2 := by rw [abs_div, abs_two]
  have h3 := h1.2
  rw [e1] at t
  rw [e2] at h3
  rw [e3]
  change |(fmul a h).val - x / 2| ≤ _
  have := uro_pos
  nlinarith

/-- The middle along one axis. -/
theorem middle {lo hi h : F32} (hf : h.isFinite = true ∧ h.val = 1 / 2) (fl : lo.isFinite = true) (fh : hi.isFinite = true)
    (hl : |lo.val| ≤ 2 ^ 122) (hh : |hi.val| ≤ 2 ^ 122) :
    Near (fmul (fadd lo hi) h) ((lo.val + hi.val) / 2) (2.01 * uro * |(lo.val + hi.val) / 2| + 1 / 2 ^ 150) ∧
    (lo.val ≤ hi.val → lo.val ≤ (fmul (fadd lo hi) h).val ∧ (fmul (fadd lo hi) h).val ≤ hi.val) := by
  have b : |lo.val + hi.val| ≤ 2 ^ 123 := by
    have := abs_add_le lo.val hi.val
    norm_num at *; linarith
  have h1 := fadd_err' fl fh (by norm_num at *; linarith)
  have hu := uro_pos
  have hu' : uro ≤ 1 / 1000 := by unfold uro; norm_num
  have h2 := half_of hf (show Near (fadd lo hi) (lo.val + hi.val) (uro * |lo.val + hi.val|) from h1)
    (by norm_num at *; linarith) (by nlinarith)
  constructor
  · refine ⟨h2.1, h2.2.trans ?_⟩
    rw [abs_div, abs_two]
    have := abs_nonneg (lo.val + hi.val)
    have : uro * |lo.val + hi.val| * uro ≤ uro * |lo.val + hi.val| * (1 / 1000) := by gcongr
    nlinarith
  · intro h
    have n1 := add_near fl fh (by norm_num at *; linarith)
    have bs : |(fadd lo hi).val| < 2 ^ 127 := by
      have := abs_add_le ((fadd lo hi).val - (lo.val + hi.val)) (lo.val + hi.val)
      rw [sub_add_cancel] at this
      nlinarith [h1.2]
    have n2 := (half hf h1.1 bs).1
    obtain ⟨y, fy, hy⟩ := double (a := lo) (by norm_num at *; linarith)
    obtain ⟨z, fz, hz⟩ := double (a := hi) (by norm_num at *; linarith)
    have a1 := nearest_ge n1 fy (by linarith)
    have a2 := nearest_le n1 fz (by linarith)
    exact ⟨nearest_ge n2 fl (by linarith), nearest_le n2 fh (by linarith)⟩

/-- The two faces of a box placed about `p` with half size `e`, where `e` is near `E`. -/
theorem faces {p e : F32} {E d : ℝ} (fp : p.isFinite = true) (hp : |p.val| ≤ 2 ^ 120) (he : Near e E d) (h0 : 0 ≤ e.val) (hE : 0 ≤ E)
    (hE' : E ≤ 2 ^ 120) (hd : d ≤ uro * E + 1 / 2 ^ 150) :
    Near (fsub p e) (p.val - E) (uro * (|p.val| + E) + (1 + uro) * d) ∧ Near (fadd p e) (p.val + E) (uro * (|p.val| + E) + (1 + uro) * d) ∧
      (fsub p e).val ≤ p.val ∧ p.val ≤ (fadd p e).val ∧ |(fsub p e).val| ≤ 2 ^ 122 ∧ |(fadd p e).val| ≤ 2 ^ 122 := by
  have hu := uro_pos
  have hu' : uro ≤ 1 / 1000 := by unfold uro; norm_num
  have hv : |e.val - E| ≤ d := he.2
  obtain ⟨v1, v2⟩ := abs_le.1 hv
  have g1 := abs_sub p.val e.val
  have g2 := abs_add_le p.val e.val
  rw [abs_of_nonneg h0] at g1 g2
  have q : uro * E ≤ 1 / 1000 * 2 ^ 120 := by gcongr
  have eb : e.val ≤ 2 ^ 121 := by norm_num at *; linarith
  have s1 := fsub_err' fp he.1 (by norm_num at *; linarith)
  have s2 := fadd_err' fp he.1 (by norm_num at *; linarith)
  have m1 := sub_near fp he.1 (by norm_num at *; linarith)
  have m2 := add_near fp he.1 (by norm_num at *; linarith)
  have t1 := mul_le_mul_of_nonneg_left g1 hu.le
  have t2 := mul_le_mul_of_nonneg_left g2 hu.le
  have t3 := mul_le_mul_of_nonneg_left v2 hu.le
  have t4 : uro * (|p.val| + e.val) ≤ 1 / 1000 * (2 ^ 120 + 2 ^ 121) := by gcongr
  refine ⟨⟨s1.1, ?_⟩, ⟨s2.1, ?_⟩, nearest_le m1 fp (by linarith), nearest_ge m2 fp (by linarith), ?_, ?_⟩
  · change |(fsub p e).val - _| ≤ _
    have := s1.2
    rw [abs_le] at this ⊢
    constructor <;> linarith
  · change |(fadd p e).val - _| ≤ _
    have := s2.2
    rw [abs_le] at this ⊢
    constructor <;> linarith
  · have := abs_add_le ((fsub p e).val - (p.val - e.val)) (p.val - e.val)
    rw [sub_add_cancel] at this
    norm_num at *; linarith [s1.2]
  · have := abs_add_le ((fadd p e).val - (p.val + e.val)) (p.val + e.val)
    rw [sub_add_cancel] at this
    norm_num at *; linarith [s2.2]

/-- The measurements of a box placed about `p` with half size `e` near `E`. -/
theorem placed {p e h : F32} {E d : ℝ} (hf : h.isFinite = true ∧ h.val = 1 / 2) (fp : p.isFinite = true) (hp : |p.val| ≤ 2 ^ 120)
    (he : Near e E d) (h0 : 0 ≤ e.val) (hE : 0 ≤ E) (hE' : E ≤ 2 ^ 120) (hd : d ≤ uro * E + 1 / 2 ^ 150) :
    Near (fsub p e) (p.val - E) (2.01 * uro * (|p.val| + E) + 1 / 2 ^ 149) ∧
    Near (fadd p e) (p.val + E) (2.01 * uro * (|p.val| + E) + 1 / 2 ^ 149) ∧
    (fsub p e).val ≤ p.val ∧ p.val ≤ (fadd p e).val ∧
    Near (fsub (fadd p e) (fsub p e)) (2 * E) (6.1 * uro * (|p.val| + E) + 1 / 2 ^ 147) ∧
    Near (fmul (fsub (fadd p e) (fsub p e)) h) E (4.1 * uro * (|p.val| + E) + 1 / 2 ^ 147) ∧
    Near (fmul (fadd (fsub p e) (fadd p e)) h) p.val (4.1 * uro * (|p.val| + E) + 1 / 2 ^ 147) := by
  obtain ⟨n1, n2, o1, o2, b1, b2⟩ := faces fp hp he h0 hE hE' hd
  have hu := uro_pos
  have hu' : uro ≤ 1 / 1000 := by unfold uro; norm_num
  have d0 : 0 ≤ d := (abs_nonneg _).trans he.2
  have hP := abs_nonneg p.val
  generalize hlo : fsub p e = lo at *
  generalize hhi : fadd p e = hi at *
  have w : uro * (|p.val| + E) + (1 + uro) * d ≤ 2.001 * uro * (|p.val| + E) + 1.001 / 2 ^ 150 := by
    have k1 : (1 + uro) * d ≤ 1.001 * (uro * E + 1 / 2 ^ 150) := by gcongr; linarith
    have := mul_nonneg hu.le hP
    linarith
  have n1' : |lo.val - (p.val - E)| ≤ 2.001 * uro * (|p.val| + E) + 1.001 / 2 ^ 150 := n1.2.trans w
  have n2' : |hi.val - (p.val + E)| ≤ 2.001 * uro * (|p.val| + E) + 1.001 / 2 ^ 150 := n2.2.trans w
  obtain ⟨x1, x2⟩ := abs_le.1 n1'
  obtain ⟨y1, y2⟩ := abs_le.1 n2'
  have S := size n1.1 n2.1 b1 b2 (o1.trans o2)
  have Mi := (middle hf n1.1 n2.1 b1 b2).1
  have PE : |p.val| + E ≤ 2 ^ 121 := by norm_num at *; linarith
  have PE0 : 0 ≤ |p.val| + E := by linarith
  generalize hX : |p.val| + E = X at *
  have EX : E ≤ X := by linarith
  have PX : |p.val| ≤ X := by linarith
  have uX : uro * X ≤ 1 / 1000 * X := by gcongr
  have uX0 : 0 ≤ uro * X := by positivity
  have uu : uro * (uro * X) ≤ 1 / 1000 * (uro * X) := by gcongr
  have k5 : uro * (1 / 2 ^ 149) ≤ 1 / 1000 * (1 / 2 ^ 149) := by gcongr
  have size_err : uro * (hi.val - lo.val) ≤ uro * (2 * E) + 0.01 * (uro * X) + 0.01 * (1 / 2 ^ 149) := by
    have : hi.val - lo.val ≤ 2 * E + (4.002 * (uro * X) + 2.002 * (1 / 2 ^ 150)) := by linarith
    have := mul_le_mul_of_nonneg_left this hu.le
    norm_num at *
    linarith
  have sz : Near (fsub hi lo) (2 * E) (4.02 * (uro * X) + uro * (2 * E) + 2.1 / 2 ^ 150) := by
    refine ⟨S.1.1, ?_⟩
    change |(fsub hi lo).val - _| ≤ _
    have hs : |(fsub hi lo).val - (hi.val - lo.val)| ≤ _ := S.1.2
    rw [abs_le] at hs ⊢
    norm_num at *
    constructor <;> linarith
  have uE : uro * E ≤ uro * X := by gcongr
  refine ⟨⟨n1.1, n1'.trans ?_⟩, ⟨n2.1, n2'.trans ?_⟩, o1, o2, ⟨sz.1, sz.2.trans ?_⟩, ?_, ?_⟩
  · norm_num at *; linarith
  · norm_num at *; linarith
  · norm_num at *; linarith
  · have hh := half_of hf sz (by rw [abs_of_nonneg (by linarith)]; norm_num at *; linarith) (by norm_num at *; linarith)
    have e1 : 2 * E / 2 = E := by ring
    rw [e1, abs_of_nonneg hE] at hh
    refine ⟨hh.1, hh.2.trans ?_⟩
    have g : (1 + uro) * ((4.02 * (uro * X) + uro * (2 * E) + 2.1 / 2 ^ 150) / 2) ≤
        1.001 * ((4.02 * (uro * X) + uro * (2 * E) + 2.1 / 2 ^ 150) / 2) := by
      gcongr
      linarith
    norm_num at *
    linarith
  · have hs : |(fmul (fadd lo hi) h).val - (lo.val + hi.val) / 2| ≤ _ := Mi.2
    refine ⟨Mi.1, ?_⟩
    change |(fmul (fadd lo hi) h).val - _| ≤ _
    have c : |(lo.val + hi.val) / 2| ≤ |p.val| + (2.001 * uro * X + 1.001 / 2 ^ 150) := by
      have := abs_add_le ((lo.val + hi.val) / 2 - p.val) p.val
      rw [sub_add_cancel] at this
      have : |(lo.val + hi.val) / 2 - p.val| ≤ 2.001 * uro * X + 1.001 / 2 ^ 150 := by
        rw [abs_le]; constructor <;> linarith
      linarith
    have c' := mul_le_mul_of_nonneg_left c hu.le
    have c2 := mul_le_mul_of_nonneg_left PX hu.le
    rw [abs_le] at hs ⊢
    norm_num at *
    constructor <;> linarith

/-- The check of the setters passes for sizes that are not negative. -/
theorem nonneg_ok {s : V4 F32} (h : ∀ c ∈ axes, Mild (c s) ∧ 0 ≤ rv (c s)) : Aabb.nonneg s = true := by
  have z : (ofRat 0).isFinite = true ∧ (ofRat 0).val = 0 := SatF32.lit0
  have o : Flt.le (Flt.lit 0 : F32) (Flt.lit 1) = true := by decide +kernel
  have hx := h V4.x (by simp [axes])
  have hy := h V4.y (by simp [axes])
  have hz := h V4.z (by simp [axes])
  have k {a : F32} (ha : Mild a ∧ 0 ≤ rv a) : Flt.le (Flt.lit 0 : F32) a = true :=
    (Reliable.fle_iff z.1 ha.1.1).2 (by rw [z.2]; exact ha.2)
  simp only [vec, o, k hx, k hy, k hz, Bool.and_self]

theorem of_axes {P : (V4 F32 → F32) → Prop} (hx : P V4.x) (hy : P V4.y) (hz : P V4.z) : ∀ c ∈ axes, P c := by
  intro c hc
  simp only [axes, List.mem_cons, List.not_mem_nil, or_false] at hc
  rcases hc with rfl | rfl | rfl
  exacts [hx, hy, hz]

/-- A box that is symmetric about the origin. -/
theorem symm_box {a g : F32} (hg : g.isFinite = true ∧ g.val = 1 / 2) (fa : a.isFinite = true) (ha : |a.val| ≤ 2 ^ 122) :
    (fmul (fadd (fneg a) a) g).val = 0 ∧ Approx (fsub a (fneg a)) (2 * a.val) 0 ∧ (fmul (fsub a (fneg a)) g).val = a.val := by
  have z : (ofRat 0).isFinite = true ∧ (ofRat 0).val = 0 := SatF32.lit0
  have fn : (fneg a).isFinite = true := by rw [fneg_finite]; exact fa
  have vn := SatF32.neg_val a
  obtain ⟨y, fy, hy⟩ := double (a := a) (by norm_num at *; linarith)
  have s1 := fadd_exact fn fa z.1 (by rw [z.2, vn]; ring)
  have s2 := fsub_exact fa fn fy (by rw [hy, vn]; ring)
  have e1 : (fadd (fneg a) a).val = 0 := by rw [s1.eq, vn]; ring
  have e2 : (fsub a (fneg a)).val = 2 * a.val := by rw [s2.eq, vn]; ring
  have b2 : |(fsub a (fneg a)).val| < 2 ^ 127 := by rw [e2, abs_mul, abs_two]; norm_num at *; linarith
  refine ⟨nearest_exact (half hg s1.1 (by rw [e1]; norm_num)).1 z.1 (by rw [z.2, e1]; ring) |>.trans (by rw [e1]; ring),
    ⟨s2.1, by rw [e2]; simp⟩, ?_⟩
  rw [nearest_exact (half hg s2.1 b2).1 fa (by rw [e2]; ring), e2]; ring

/-- A product of two near lengths. -/
theorem prod2 {a b x y : ℝ} (hx : 0 ≤ x) (hy : 0 ≤ y) (ha : |a - x| ≤ uro * x) (hb : |b - y| ≤ uro * y) :
    |a * b - x * y| ≤ 2.01 * uro * (x * y) := by
  have hu := uro_pos
  have hu' : uro ≤ 1 / 1000 := by unfold uro; norm_num
  rw [show a * b - x * y = (a - x) * (b - y) + x * (b - y) + (a - x) * y by ring]
  refine (abs_add_le _ _).trans ?_
  have := abs_add_le ((a - x) * (b - y)) (x * (b - y))
  rw [abs_mul, abs_mul] at this
  rw [abs_mul (a - x) y, abs_of_nonneg hy]
  rw [abs_of_nonneg hx] at this
  have m1 := mul_le_mul ha hb (abs_nonneg _) (by positivity)
  have m2 := mul_le_mul_of_nonneg_left hb hx
  have m3 := mul_le_mul_of_nonneg_right ha hy
  have m4 := mul_le_mul_of_nonneg_left hu' (mul_nonneg hu.le (mul_nonneg hx hy))
  have m5 := mul_nonneg hu.le (mul_nonneg hx hy)
  linarith

theorem area_form (b : Aabb F32) : b.calcArea = fmul (Simd.dot3
    ⟨fsub b.max.x b.min.x, fsub b.max.x b.min.x, fsub b.max.y b.min.y, fsub b.max.z b.min.z⟩
    ⟨fsub b.max.y b.min.y, fsub b.max.z b.min.z, fsub b.max.z b.min.z, fsub b.max.z b.min.z⟩) (ofRat 2) := by exact rfl

theorem volume_form (b : Aabb F32) : b.calcVolume =
    fmul (fmul (fsub b.max.x b.min.x) (fsub b.max.y b.min.y)) (fsub b.max.z b.min.z) := by exact rfl

theorem two_lit : (ofRat 2).isFinite = true ∧ (ofRat 2).val = 2 := by
  have h : (ofRat 2).isFinite = true ∧ (ofRat 2).units = 2 ^ 150 := by decide +kernel
  refine ⟨h.1, ?_⟩
  rw [val_units, h.2]
  norm_num

theorem area {x y z t w1 w2 : F32} {X Y Z : ℝ} (ht : t.isFinite = true ∧ t.val = 2) (hX : 0 ≤ X) (hY : 0 ≤ Y) (hZ : 0 ≤ Z)
    (hx : Near x X (uro * X)) (hy : Near y Y (uro * Y)) (hz : Near z Z (uro * Z)) (x0 : 0 ≤ x.val) (y0 : 0 ≤ y.val) (z0 : 0 ≤ z.val)
    (h : X * Y + X * Z + Y * Z ≤ 2 ^ 120) :
    Near (fmul (Simd.dot3 ⟨x, x, y, w1⟩ ⟨y, z, z, w2⟩) t) (2 * (X * Y + X * Z + Y * Z))
      (6.1 * uro * (2 * (X * Y + X * Z + Y * Z)) + 1 / 2 ^ 145) := by
  have hu := uro_pos
  have hu' : uro ≤ 1 / 1000 := by unfold uro; norm_num
  have p1 := prod2 hX hY hx.2 hy.2
  have p2 := prod2 hX hZ hx.2 hz.2
  have p3 := prod2 hY hZ hy.2 hz.2
  change |x.val * y.val - _| ≤ _ at p1
  change |x.val * z.val - _| ≤ _ at p2
  change |y.val * z.val - _| ≤ _ at p3
  have S0 : 0 ≤ X * Y + X * Z + Y * Z := by positivity
  generalize hS : X * Y + X * Z + Y * Z = S at *
  obtain ⟨a1, a2⟩ := abs_le.1 p1
  obtain ⟨b1, b2⟩ := abs_le.1 p2
  obtain ⟨c1, c2⟩ := abs_le.1 p3
  have uS0 : 0 ≤ uro * S := by positivity
  have uS : uro * S ≤ 1 / 1000 * S := by gcongr
  have uuS : uro * (uro * S) ≤ 1 / 1000 * (uro * S) := by gcongr
  have T1 : |x.val * y.val + x.val * z.val + y.val * z.val - S| ≤ 2.01 * (uro * S) := by
    rw [← hS, abs_le]; constructor <;> linarith
  have d := ClosestF32.dot_near (c := ⟨x, x, y, w1⟩) (a := ⟨y, z, z, w2⟩)
    (by intro v hv; simp at hv; rcases hv with rfl | rfl; exacts [hx.1, hy.1])
    (by intro v hv; simp at hv; rcases hv with rfl | rfl; exacts [hy.1, hz.1])
    (by
      simp only [abs_of_nonneg x0, abs_of_nonneg y0, abs_of_nonneg z0]
      have := (abs_le.1 T1).2
      norm_num at *; linarith)
  simp only [abs_of_nonneg x0, abs_of_nonneg y0, abs_of_nonneg z0] at d
  generalize Simd.dot3 (⟨x, x, y, w1⟩ : V4 F32) ⟨y, z, z, w2⟩ = D at *
  generalize x.val * y.val + x.val * z.val + y.val * z.val = T at *
  obtain ⟨t1, t2⟩ := abs_le.1 T1
  have d2 : |D.val - S| ≤ 5.03 * (uro * S) + 1 / 2 ^ 147 := by
    have uT : uro * T ≤ uro * (S + 2.01 * (uro * S)) := by gcongr; linarith
    have := d.2
    rw [abs_le] at this ⊢
    constructor <;> linarith
  have e : D.val * t.val = 2 * D.val := by rw [ht.2]; ring
  obtain ⟨q1, q2⟩ := abs_le.1 d2
  have db : |D.val| ≤ S + (5.03 * (uro * S) + 1 / 2 ^ 147) := by rw [abs_le]; constructor <;> linarith
  have r := fmul_rel d.1 ht.1 (by rw [e, abs_mul, abs_two]; norm_num at *; linarith)
  rw [e, abs_mul, abs_two] at r
  refine ⟨r.1, ?_⟩
  change |(fmul D t).val - _| ≤ _
  have r2 := r.2
  have g := mul_le_mul_of_nonneg_left db hu.le
  have k5 : uro * (1 / 2 ^ 147) ≤ 1 / 1000 * (1 / 2 ^ 147) := by gcongr
  rw [abs_le] at r2 ⊢
  norm_num at *
  constructor <;> linarith

theorem volume {x y z : F32} {X Y Z : ℝ} (hX : 0 ≤ X) (hY : 0 ≤ Y) (hZ : 0 ≤ Z) (hx : Near x X (uro * X)) (hy : Near y Y (uro * Y))
    (hz : Near z Z (uro * Z)) (h1 : X * Y ≤ 2 ^ 120) (hz1 : Z ≤ 2 ^ 121) (h : X * Y * Z ≤ 2 ^ 120) :
    Near (fmul (fmul x y) z) (X * Y * Z) (5.1 * uro * (X * Y * Z) + (Z + 1) / 2 ^ 149) := by
  have hu := uro_pos
  have hu' : uro ≤ 1 / 2 ^ 20 := by unfold uro; norm_num
  have rx : F32.Rel x.val X uro 0 := by unfold F32.Rel; rw [abs_of_nonneg hX, add_zero]; exact hx.2
  have ry : F32.Rel y.val Y uro 0 := by unfold F32.Rel; rw [abs_of_nonneg hY, add_zero]; exact hy.2
  have rz : F32.Rel z.val Z uro 0 := by unfold F32.Rel; rw [abs_of_nonneg hZ, add_zero]; exact hz.2
  have m1 := rx.mul ry
  simp only [mul_zero, add_zero] at m1
  have XY : 0 ≤ X * Y := mul_nonneg hX hY
  have V0 : 0 ≤ X * Y * Z := mul_nonneg XY hZ
  have b1 := m1.abs_le
  rw [abs_of_nonneg XY] at b1
  have k1 : uro + uro + uro * uro ≤ 2.01 * uro := by nlinarith
  have k1' : (1 + (uro + uro + uro * uro)) * (X * Y) ≤ 1.01 * 2 ^ 120 := by
    have : 1 + (uro + uro + uro * uro) ≤ 1.01 := by norm_num at *; linarith
    exact mul_le_mul this h1 XY (by norm_num)
  have f1 := fmul_rel hx.1 hy.1 (by norm_num at *; linarith)
  have n1 := (m1.round f1.2 hu.le).mono (e' := 3.02 * uro) (a' := 1 / 2 ^ 150) (by nlinarith) (by norm_num)
  have m2 := n1.mul rz
  rw [abs_of_nonneg hZ] at m2
  have b2 := m2.abs_le
  rw [abs_of_nonneg V0] at b2
  have m2' : F32.Rel ((fmul x y).val * z.val) (X * Y * Z) (4.03 * uro) (1.01 * (Z / 2 ^ 150)) := by
    refine m2.mono (by nlinarith) ?_
    have : (1 + uro) * Z * (1 / 2 ^ 150) ≤ 1.01 * Z * (1 / 2 ^ 150) := by gcongr; norm_num at *; linarith
    simp only [mul_zero, add_zero, zero_add]
    linarith
  have b3 := m2'.abs_le
  rw [abs_of_nonneg V0] at b3
  have k3 : (1 + 4.03 * uro) * (X * Y * Z) ≤ 1.01 * 2 ^ 120 := by
    have : 1 + 4.03 * uro ≤ 1.01 := by norm_num at *; linarith
    exact mul_le_mul this h V0 (by norm_num)
  have f2 := fmul_rel f1.1 hz.1 (by norm_num at *; linarith)
  have n2 := (m2'.round f2.2 hu.le).mono (e' := 5.1 * uro) (a' := (Z + 1) / 2 ^ 149) (by nlinarith) (by
    have : (1 + uro) * (1.01 * (Z / 2 ^ 150)) ≤ 1.01 * (1.01 * (Z / 2 ^ 150)) := by gcongr; norm_num at *; linarith
    have e : Z / 2 ^ 149 = 2 * (Z / 2 ^ 150) := by ring
    have : 0 ≤ Z / 2 ^ 150 := div_nonneg hZ (by norm_num)
    rw [add_div, e]
    norm_num at *
    linarith)
  unfold F32.Rel at n2
  rw [abs_of_nonneg V0] at n2
  exact ⟨f2.1, n2⟩

end BoxF32

open BoxF32

/-- C134: the size, extent and position read from a box are correct in every coordinate up to a few roundings, and the
position lies in the box. -/
theorem box_get_f32 (b : Aabb F32)
    (h : ∀ c ∈ axes, Mild (c b.min) ∧ Mild (c b.max) ∧ rv (c b.min) ≤ rv (c b.max)) : ∀ c ∈ axes,
    Near (c b.getSize) (rv (c b.max) - rv (c b.min)) (1 / 2 ^ 24 * (rv (c b.max) - rv (c b.min))) ∧
    Near (c b.getExtent) ((rv (c b.max) - rv (c b.min)) / 2) (2.01 / 2 ^ 24 * ((rv (c b.max) - rv (c b.min)) / 2) + 1 / 2 ^ 150) ∧
    Near (c b.getPosition) ((rv (c b.min) + rv (c b.max)) / 2) (2.01 / 2 ^ 24 * |(rv (c b.min) + rv (c b.max)) / 2| + 1 / 2 ^ 150) ∧
    rv (c b.min) ≤ rv (c b.getPosition) ∧ rv (c b.getPosition) ≤ rv (c b.max) := by
  have hf := half_lit
  have key : ∀ lo hi g : F32, (g.isFinite = true ∧ g.val = 1 / 2) → Mild lo ∧ Mild hi ∧ rv lo ≤ rv hi →
      Near (fsub hi lo) (rv hi - rv lo) (1 / 2 ^ 24 * (rv hi - rv lo)) ∧
      Near (fmul (fsub hi lo) g) ((rv hi - rv lo) / 2) (2.01 / 2 ^ 24 * ((rv hi - rv lo) / 2) + 1 / 2 ^ 150) ∧
      Near (fmul (fadd lo hi) g) ((rv lo + rv hi) / 2) (2.01 / 2 ^ 24 * |(rv lo + rv hi) / 2| + 1 / 2 ^ 150) ∧
      rv lo ≤ rv (fmul (fadd lo hi) g) ∧ rv (fmul (fadd lo hi) g) ≤ rv hi := by
    rintro lo hi g hg ⟨⟨fl, bl⟩, ⟨fh, bh⟩, ho⟩
    change |lo.val| ≤ _ at bl
    change |hi.val| ≤ _ at bh
    change lo.val ≤ hi.val at ho
    have bl' : |lo.val| ≤ 2 ^ 122 := by norm_num at *; linarith
    have bh' : |hi.val| ≤ 2 ^ 122 := by norm_num at *; linarith
    have S := size fl fh bl' bh' ho
    have M := middle hg fl fh bl' bh'
    have hu := uro_pos
    have hu' : uro ≤ 1 / 1000 := by unfold uro; norm_num
    have n : 0 ≤ hi.val - lo.val := by linarith
    have nb : hi.val - lo.val ≤ 2 ^ 121 := by
      have := (abs_le.1 bh).2; have := (abs_le.1 bl).1
      norm_num at *; linarith
    have H := half_of hg S.1 (by rw [abs_of_nonneg n]; norm_num at *; linarith) (by nlinarith)
    refine ⟨S.1, ⟨H.1, H.2.trans ?_⟩, ?_, M.2 ho⟩
    · rw [abs_of_nonneg (by linarith)]
      change _ ≤ 2.01 / 2 ^ 24 * ((hi.val - lo.val) / 2) + 1 / 2 ^ 150
      have e : (2.01 : ℝ) / 2 ^ 24 = 2.01 * uro := by unfold uro; ring
      rw [e]
      have := mul_le_mul_of_nonneg_left hu' (mul_nonneg hu.le n)
      nlinarith
    · have e : (2.01 : ℝ) / 2 ^ 24 = 2.01 * uro := by unfold uro; ring
      rw [e]; exact M.1
  have k1 := key b.min.x b.max.x _ hf (h V4.x (by simp [axes]))
  have k2 := key b.min.y b.max.y _ hf (h V4.y (by simp [axes]))
  have k3 := key b.min.z b.max.z _ hf (h V4.z (by simp [axes]))
  exact of_axes k1 k2 k3

/-- C134: a box made from a size and a position contains the position, and gives both back up to a few roundings of the
larger of the two. -/
theorem box_setSize_f32 (s p : V4 F32) (hs : ∀ c ∈ axes, Mild (c s) ∧ 0 ≤ rv (c s)) (hp : ∀ c ∈ axes, Mild (c p)) :
    ∃ b, Aabb.setSizeAt s p = some b ∧ ∀ c ∈ axes,
      rv (c b.min) ≤ rv (c p) ∧ rv (c p) ≤ rv (c b.max) ∧
      Near (c b.min) (rv (c p) - rv (c s) / 2) (2.01 / 2 ^ 24 * (|rv (c p)| + rv (c s) / 2) + 1 / 2 ^ 149) ∧
      Near (c b.max) (rv (c p) + rv (c s) / 2) (2.01 / 2 ^ 24 * (|rv (c p)| + rv (c s) / 2) + 1 / 2 ^ 149) ∧
      Near (c b.getSize) (rv (c s)) (6.1 / 2 ^ 24 * (|rv (c p)| + rv (c s) / 2) + 1 / 2 ^ 147) ∧
      Near (c b.getPosition) (rv (c p)) (4.1 / 2 ^ 24 * (|rv (c p)| + rv (c s) / 2) + 1 / 2 ^ 147) := by
  have hf := half_lit
  have key : ∀ s p g : F32, (g.isFinite = true ∧ g.val = 1 / 2) → (Mild s ∧ 0 ≤ rv s) → Mild p →
      rv (fsub p (fmul s g)) ≤ rv p ∧ rv p ≤ rv (fadd p (fmul s g)) ∧
      Near (fsub p (fmul s g)) (rv p - rv s / 2) (2.01 / 2 ^ 24 * (|rv p| + rv s / 2) + 1 / 2 ^ 149) ∧
      Near (fadd p (fmul s g)) (rv p + rv s / 2) (2.01 / 2 ^ 24 * (|rv p| + rv s / 2) + 1 / 2 ^ 149) ∧
      Near (fsub (fadd p (fmul s g)) (fsub p (fmul s g))) (rv s) (6.1 / 2 ^ 24 * (|rv p| + rv s / 2) + 1 / 2 ^ 147) ∧
      Near (fmul (fadd (fsub p (fmul s g)) (fadd p (fmul s g))) g) (rv p) (4.1 / 2 ^ 24 * (|rv p| + rv s / 2) + 1 / 2 ^ 147) := by
    rintro s p g hg ⟨⟨fs, bs⟩, s0⟩ ⟨fp, bp⟩
    change |s.val| ≤ _ at bs
    change 0 ≤ s.val at s0
    have H := half hg fs (by norm_num at *; linarith)
    have z : (ofRat 0).isFinite = true ∧ (ofRat 0).val = 0 := SatF32.lit0
    have e0 : 0 ≤ (fmul s g).val := by
      have := nearest_ge H.1 z.1 (by rw [z.2]; linarith)
      rwa [z.2] at this
    have hE : 0 ≤ s.val / 2 := by linarith
    rw [abs_of_nonneg hE] at H
    obtain ⟨a1, a2, a3, a4, a5, -, a7⟩ := placed hg fp bp ⟨H.1.1, H.2⟩ e0 hE
      (by rw [abs_of_nonneg s0] at bs; linarith) le_rfl
    rw [show 2 * (s.val / 2) = s.val by ring] at a5
    have e1 : (2.01 : ℝ) / 2 ^ 24 = 2.01 * uro := by unfold uro; ring
    have e2 : (6.1 : ℝ) / 2 ^ 24 = 6.1 * uro := by unfold uro; ring
    have e3 : (4.1 : ℝ) / 2 ^ 24 = 4.1 * uro := by unfold uro; ring
    rw [e1, e2, e3]
    exact ⟨a3, a4, a1, a2, a5, a7⟩
  refine ⟨_, if_pos (nonneg_ok hs), ?_⟩
  exact of_axes (key _ _ _ hf (hs _ (by simp [axes])) (hp _ (by simp [axes])))
    (key _ _ _ hf (hs _ (by simp [axes])) (hp _ (by simp [axes]))) (key _ _ _ hf (hs _ (by simp [axes])) (hp _ (by simp [axes])))

/-- C134: a box made from an extent and a position contains the position, and gives both back up to a few roundings of
the larger of the two. -/
theorem box_setExtent_f32 (s p : V4 F32) (hs : ∀ c ∈ axes, Mild (c s) ∧ 0 ≤ rv (c s)) (hp : ∀ c ∈ axes, Mild (c p)) :
    ∃ b, Aabb.setExtentAt s p = some b ∧ ∀ c ∈ axes,
      rv (c b.min) ≤ rv (c p) ∧ rv (c p) ≤ rv (c b.max) ∧
      Near (c b.min) (rv (c p) - rv (c s)) (2.01 / 2 ^ 24 * (|rv (c p)| + rv (c s)) + 1 / 2 ^ 149) ∧
      Near (c b.max) (rv (c p) + rv (c s)) (2.01 / 2 ^ 24 * (|rv (c p)| + rv (c s)) + 1 / 2 ^ 149) ∧
      Near (c b.getExtent) (rv (c s)) (4.1 / 2 ^ 24 * (|rv (c p)| + rv (c s)) + 1 / 2 ^ 147) ∧
      Near (c b.getPosition) (rv (c p)) (4.1 / 2 ^ 24 * (|rv (c p)| + rv (c s)) + 1 / 2 ^ 147) := by
  have hf := half_lit
  have key : ∀ s p g : F32, (g.isFinite = true ∧ g.val = 1 / 2) → (Mild s ∧ 0 ≤ rv s) → Mild p →
      rv (fsub p s) ≤ rv p ∧ rv p ≤ rv (fadd p s) ∧
      Near (fsub p s) (rv p - rv s) (2.01 / 2 ^ 24 * (|rv p| + rv s) + 1 / 2 ^ 149) ∧
      Near (fadd p s) (rv p + rv s) (2.01 / 2 ^ 24 * (|rv p| + rv s) + 1 / 2 ^ 149) ∧
      Near (fmul (fsub (fadd p s) (fsub p s)) g) (rv s) (4.1 / 2 ^ 24 * (|rv p| + rv s) + 1 / 2 ^ 147) ∧
      Near (fmul (fadd (fsub p s) (fadd p s)) g) (rv p) (4.1 / 2 ^ 24 * (|rv p| + rv s) + 1 / 2 ^ 147) := by
    rintro s p g hg ⟨⟨fs, bs⟩, s0⟩ ⟨fp, bp⟩
    change |s.val| ≤ _ at bs
    change 0 ≤ s.val at s0
    obtain ⟨a1, a2, a3, a4, -, a6, a7⟩ := placed hg fp bp (E := s.val) (d := 0) ⟨fs, by change |s.val - s.val| ≤ 0; simp⟩ s0 s0
      (by rwa [abs_of_nonneg s0] at bs) (by have := uro_pos; positivity)
    have e1 : (2.01 : ℝ) / 2 ^ 24 = 2.01 * uro := by unfold uro; ring
    have e3 : (4.1 : ℝ) / 2 ^ 24 = 4.1 * uro := by unfold uro; ring
    rw [e1, e3]
    exact ⟨a3, a4, a1, a2, a6, a7⟩
  refine ⟨_, if_pos (nonneg_ok hs), ?_⟩
  exact of_axes (key _ _ _ hf (hs _ (by simp [axes])) (hp _ (by simp [axes])))
    (key _ _ _ hf (hs _ (by simp [axes])) (hp _ (by simp [axes]))) (key _ _ _ hf (hs _ (by simp [axes])) (hp _ (by simp [axes])))

/-- C134: without a position the box is centred at the origin exactly; the extent is given back exactly, and the size too
unless halving it underflows. -/
theorem box_origin_f32 (s : V4 F32) (hs : ∀ c ∈ axes, Mild (c s) ∧ 0 ≤ rv (c s)) :
    (∃ b, Aabb.setSize s = some b ∧ ∀ c ∈ axes, rv (c b.getPosition) = 0 ∧ Near (c b.getSize) (rv (c s)) (1 / 2 ^ 149) ∧
      (1 / 2 ^ 125 ≤ rv (c s) → rv (c b.getSize) = rv (c s))) ∧
    (∃ b, Aabb.setExtent s = some b ∧ ∀ c ∈ axes, rv (c b.getPosition) = 0 ∧ rv (c b.getExtent) = rv (c s)) := by
  have hf := half_lit
  have key : ∀ s g : F32, (g.isFinite = true ∧ g.val = 1 / 2) → (Mild s ∧ 0 ≤ rv s) →
      (rv (fmul (fadd (fneg (fmul s g)) (fmul s g)) g) = 0 ∧ Near (fsub (fmul s g) (fneg (fmul s g))) (rv s) (1 / 2 ^ 149) ∧
        (1 / 2 ^ 125 ≤ rv s → rv (fsub (fmul s g) (fneg (fmul s g))) = rv s)) ∧
      (rv (fmul (fadd (fneg s) s) g) = 0 ∧ rv (fmul (fsub s (fneg s)) g) = rv s) := by
    rintro s g hg ⟨⟨fs, bs⟩, s0⟩
    change |s.val| ≤ _ at bs
    change 0 ≤ s.val at s0
    have bs1 : |s.val| < 2 ^ 127 := by norm_num at *; linarith
    have H := half hg fs bs1
    have hu' : uro ≤ 1 / 1000 := by unfold uro; norm_num
    have hb : |(fmul s g).val| ≤ 2 ^ 122 := by
      have := abs_add_le ((fmul s g).val - s.val / 2) (s.val / 2)
      rw [sub_add_cancel] at this
      have e : |s.val / 2| = |s.val| / 2 := by rw [abs_div, abs_two]
      have h2 := H.2
      rw [e] at this h2
      have := mul_le_mul_of_nonneg_right hu' (show 0 ≤ |s.val| / 2 by positivity)
      norm_num at *; linarith
    obtain ⟨a1, a2, -⟩ := symm_box hg H.1.1 hb
    obtain ⟨b1, -, b3⟩ := symm_box hg fs (by norm_num at *; linarith)
    have ex : 1 / 2 ^ 125 ≤ s.val → (fsub (fmul s g) (fneg (fmul s g))).val = s.val := by
      intro h
      rw [a2.eq, half_exact hg fs h bs1]; ring
    refine ⟨⟨a1, ⟨a2.1, ?_⟩, ex⟩, b1, b3⟩
    change |(fsub (fmul s g) (fneg (fmul s g))).val - s.val| ≤ _
    by_cases h : 1 / 2 ^ 125 ≤ s.val
    · rw [ex h, sub_self, abs_zero]; positivity
    · push Not at h
      rw [a2.eq]
      have h2 := H.2
      rw [abs_of_nonneg (show 0 ≤ s.val / 2 by linarith)] at h2
      have tiny : |(fmul s g).val - s.val / 2| ≤ 1 / 2 ^ 149 / 2 := by
        refine (H.1.err ?_).trans (max_le ?_ (by norm_num))
        · rw [abs_of_nonneg (show 0 ≤ s.val / 2 by linarith)]
          have := maxRat_big
          norm_num at *; linarith
        · rw [abs_of_nonneg (show 0 ≤ s.val / 2 by linarith)]
          norm_num at *; linarith
      rw [abs_le] at tiny ⊢
      constructor <;> linarith
  have k1 := key s.x _ hf (hs V4.x (by simp [axes]))
  have k2 := key s.y _ hf (hs V4.y (by simp [axes]))
  have k3 := key s.z _ hf (hs V4.z (by simp [axes]))
  exact ⟨⟨_, if_pos (nonneg_ok hs), of_axes k1.1 k2.1 k3.1⟩, ⟨_, if_pos (nonneg_ok hs), of_axes k1.2 k2.2 k3.2⟩⟩

/-- C134: the surface area and the volume of a box. -/
theorem box_area_volume_f32 (b : Aabb F32)
    (h : ∀ c ∈ axes, Mild (c b.min) ∧ Mild (c b.max) ∧ rv (c b.min) ≤ rv (c b.max)) (X Y Z : ℝ)
    (hX : X = rv b.max.x - rv b.min.x) (hY : Y = rv b.max.y - rv b.min.y) (hZ : Z = rv b.max.z - rv b.min.z) :
    (X * Y + X * Z + Y * Z ≤ 2 ^ 120 →
      Near b.calcArea (2 * (X * Y + X * Z + Y * Z)) (6.1 / 2 ^ 24 * (2 * (X * Y + X * Z + Y * Z)) + 1 / 2 ^ 145)) ∧
    (X * Y ≤ 2 ^ 120 → X * Y * Z ≤ 2 ^ 120 →
      Near b.calcVolume (X * Y * Z) (5.1 / 2 ^ 24 * (X * Y * Z) + (Z + 1) / 2 ^ 149)) := by
  have key : ∀ lo hi : F32, Mild lo ∧ Mild hi ∧ rv lo ≤ rv hi →
      (Near (fsub hi lo) (rv hi - rv lo) (uro * (rv hi - rv lo)) ∧ 0 ≤ (fsub hi lo).val) ∧ 0 ≤ rv hi - rv lo ∧ rv hi - rv lo ≤ 2 ^ 121 := by
    rintro lo hi ⟨⟨fl, bl⟩, ⟨fh, bh⟩, ho⟩
    change |lo.val| ≤ _ at bl
    change |hi.val| ≤ _ at bh
    refine ⟨size fl fh (by norm_num at *; linarith) (by norm_num at *; linarith) ho, by linarith, ?_⟩
    change hi.val - lo.val ≤ _
    have := (abs_le.1 bh).2; have := (abs_le.1 bl).1
    norm_num at *; linarith
  have kx := key _ _ (h V4.x (by simp [axes]))
  have ky := key _ _ (h V4.y (by simp [axes]))
  have kz := key _ _ (h V4.z (by simp [axes]))
  rw [← hX] at kx
  rw [← hY] at ky
  rw [← hZ] at kz
  have e1 : (6.1 : ℝ) / 2 ^ 24 = 6.1 * uro := by unfold uro; ring
  have e2 : (5.1 : ℝ) / 2 ^ 24 = 5.1 * uro := by unfold uro; ring
  rw [area_form, volume_form, e1, e2]
  exact ⟨fun g => area two_lit kx.2.1 ky.2.1 kz.2.1 kx.1.1 ky.1.1 kz.1.1 kx.1.2 ky.1.2 kz.1.2 g,
    fun g1 g2 => volume kx.2.1 ky.2.1 kz.2.1 kx.1.1 ky.1.1 kz.1.1 g1 kz.2.2 g2⟩

/-- The hypotheses are met, e.g. by the box from `(0, 0, 0)` to `(1, 1, 1)`, the size `(1, 1, 1)` and the position `(0, 0, 0)`,
whose area and volume are in range. -/
example (z o : F32) (hz : z.isFinite = true ∧ rv z = 0) (ho : o.isFinite = true ∧ rv o = 1) :
    (∀ c ∈ axes, Mild (c (⟨V4.splat z, V4.splat o⟩ : Aabb F32).min) ∧ Mild (c (⟨V4.splat z, V4.splat o⟩ : Aabb F32).max) ∧
      rv (c (⟨V4.splat z, V4.splat o⟩ : Aabb F32).min) ≤ rv (c (⟨V4.splat z, V4.splat o⟩ : Aabb F32).max)) ∧
    (∀ c ∈ axes, Mild (c (V4.splat o)) ∧ 0 ≤ rv (c (V4.splat o))) ∧ (∀ c ∈ axes, Mild (c (V4.splat z))) ∧
    (1 : ℝ) / 2 ^ 125 ≤ rv o ∧ (rv o - rv z) * (rv o - rv z) + (rv o - rv z) * (rv o - rv z) + (rv o - rv z) * (rv o - rv z) ≤ 2 ^ 120 ∧
    (rv o - rv z) * (rv o - rv z) * (rv o - rv z) ≤ 2 ^ 120 := by
  have mz : Mild z := ⟨hz.1, by rw [hz.2]; norm_num⟩
  have mo : Mild o := ⟨ho.1, by rw [ho.2]; norm_num⟩
  have le : rv z ≤ rv o := by rw [hz.2, ho.2]; norm_num
  have o0 : 0 ≤ rv o := by rw [ho.2]; norm_num
  exact ⟨of_axes ⟨mz, mo, le⟩ ⟨mz, mo, le⟩ ⟨mz, mo, le⟩, of_axes ⟨mo, o0⟩ ⟨mo, o0⟩ ⟨mo, o0⟩, of_axes mz mz mz,
    by rw [ho.2]; norm_num, by rw [hz.2, ho.2]; norm_num, by rw [hz.2, ho.2]; norm_num⟩

/-- The values `0` and `1` exist. -/
example : ∃ z o : F32, (z.isFinite = true ∧ rv z = 0) ∧ (o.isFinite = true ∧ rv o = 1) := by
  have e0 : f0.toRat = 0 := by decide +kernel
  have e1 : f1.toRat = 1 := by decide +kernel
  exact ⟨f0, f1, ⟨by decide, by unfold rv; rw [e0]; simp⟩, ⟨by decide, by unfold rv; rw [e1]; simp⟩⟩

end Verif
