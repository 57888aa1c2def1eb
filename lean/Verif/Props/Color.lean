import Verif.Model.Color
import Verif.Proofs.F32Arith
import Verif.Proofs.Decimal
import Verif.Props.Hex

/-!
# C08 - C12: colors
-/

namespace Verif
open Color

section
open Flt

/-! ## C08: integer and hexadecimal forms -/

theorem toU32_toNat (c : Color) : (toU32 c).toNat =
    c.r.toNat + 256 * c.g.toNat + 65536 * c.b.toNat + 16777216 * c.a.toNat := by
  have hr := c.r.isLt; have hg := c.g.isLt; have hb := c.b.isLt; have ha := c.a.isLt
  simp only [toU32, BitVec.toNat_append]
  rw [← Nat.shiftLeft_add_eq_or_of_lt hr, ← Nat.shiftLeft_add_eq_or_of_lt hg, ← Nat.shiftLeft_add_eq_or_of_lt hb]
  simp only [Nat.shiftLeft_eq]
  omega

/-- **C08** (integers): converting a color to `uint32` and back, and an integer to a color and back, are
the identity. -/
theorem color_u32_roundtrip (c : Color) (n : BitVec 32) :
    ofU32 (toU32 c) = c ∧ toU32 (ofU32 n) = n := by
  have hex : ∀ n : BitVec 32, (ofU32 n).r.toNat = n.toNat % 256 ∧ (ofU32 n).g.toNat = n.toNat / 256 % 256 ∧
      (ofU32 n).b.toNat = n.toNat / 65536 % 256 ∧ (ofU32 n).a.toNat = n.toNat / 16777216 % 256 := by
    intro n
    simp [ofU32, BitVec.extractLsb'_toNat, Nat.shiftRight_eq_div_pow]
  constructor
  · have h := hex (toU32 c)
    rw [toU32_toNat] at h
    have hr := c.r.isLt; have hg := c.g.isLt; have hb := c.b.isLt; have ha := c.a.isLt
    cases hc : ofU32 (toU32 c) with
    | mk r g b a =>
      rw [hc] at h
      cases c
      simp only [Color.mk.injEq] at *
      refine ⟨?_, ?_, ?_, ?_⟩ <;> apply BitVec.eq_of_toNat_eq <;> omega
  · apply BitVec.eq_of_toNat_eq
    rw [toU32_toNat]
    have h := hex n
    have := n.isLt
    omega

theorem hex2 (n : BitVec 8) :
    ∃ x y, Hex.toHex false n = some [x, y] ∧ Hex.toInt32 [x, y] = some (n.setWidth 32) := by
  obtain ⟨s, h1, h2, -, -⟩ := hex_format 1 (by decide) n
  have h3 := hex_roundtrip32 1 (by decide) (by decide) n
  match s, h2 with
  | [x, y], _ =>
    refine ⟨x, y, h1, ?_⟩
    rw [h1] at h3
    exact h3

/-- **C08** (RGBA hex): `Color(c.toHex4()) == c`, and the string has eight characters. -/
theorem color_hex4_roundtrip (c : Color) :
    ∃ s, toHex4 c = some s ∧ s.length = 8 ∧ ofHex s = some c := by
  obtain ⟨x1, y1, h1, k1⟩ := hex2 c.r
  obtain ⟨x2, y2, h2, k2⟩ := hex2 c.g
  obtain ⟨x3, y3, h3, k3⟩ := hex2 c.b
  obtain ⟨x4, y4, h4, k4⟩ := hex2 c.a
  refine ⟨[x1, y1, x2, y2, x3, y3, x4, y4], by simp [toHex4, h1, h2, h3, h4], rfl, ?_⟩
  simp [ofHex, channelOfHex, k1, k2, k3, k4]

/-- **C08** (RGB hex): `Color(c.toHex3())` has `c`'s red, green and blue and zero alpha. -/
theorem color_hex3_roundtrip (c : Color) :
    ∃ s, toHex3 c = some s ∧ s.length = 6 ∧ ofHex s = some { c with a := 0 } := by
  obtain ⟨x1, y1, h1, k1⟩ := hex2 c.r
  obtain ⟨x2, y2, h2, k2⟩ := hex2 c.g
  obtain ⟨x3, y3, h3, k3⟩ := hex2 c.b
  refine ⟨[x1, y1, x2, y2, x3, y3], by simp [toHex3, h1, h2, h3], rfl, ?_⟩
  simp [ofHex, channelOfHex, k1, k2, k3]

example : toHex4 ⟨1, 0x2B, 0xFF, 0x80⟩ = some "012BFF80".toList := by decide
example : ofHex "012bff".toList = some ⟨1, 0x2B, 0xFF, 0⟩ := by decide
example : toU32 ⟨1, 0x2B, 0xFF, 0x80⟩ = 0x80FF2B01#32 := by decide

/-! ## C09, C10: normalized floats -/

theorem lit0 : (lit 0 : F32) = ⟨0⟩ := by decide +kernel
theorem lit1 : (lit 1 : F32) = ⟨0x3F800000⟩ := by decide +kernel
theorem lit255 : (lit 255 : F32) = ⟨0x437F0000⟩ := by decide +kernel
theorem litHalf : (lit (1/2) : F32) = ⟨0x3F000000⟩ := by decide +kernel

theorem inv255 : (lit 1 : F32) /. lit 255 = ⟨0x3B808081⟩ := by decide +kernel

theorem quantize_getNorm (n : BitVec 8) : quantize (getNorm n) = some n := by
  simp only [quantize, getNorm, inv255]
  rw [lit0, lit1, lit255, litHalf]
  revert n; decide +kernel

theorem quantizeFused_getNorm (n : BitVec 8) : quantizeFused (getNorm n) = some n := by
  simp only [quantizeFused, getNorm, inv255]
  rw [lit0, lit1, lit255, litHalf]
  revert n; decide +kernel

theorem quantizeSimd_getNorm (n : BitVec 8) : quantizeSimd (getNorm n) = some n := by
  simp only [quantizeSimd, getNorm, inv255]
  rw [lit0, lit1, lit255, litHalf]
  revert n; decide +kernel

theorem quantizeSimdFused_getNorm (n : BitVec 8) : quantizeSimdFused (getNorm n) = some n := by
  simp only [quantizeSimdFused, getNorm, inv255]
  rw [lit0, lit1, lit255, litHalf]
  revert n; decide +kernel

theorem setNorm_getNorm (n : BitVec 8) : setNorm (getNorm n) = some n := by
  simp only [setNorm, getNorm, inv255]
  rw [lit0, lit1, lit255]
  revert n; decide +kernel

theorem lanes_roundtrip {q : F32 → Option (BitVec 8)} {g : BitVec 8 → F32} (h : ∀ n, q (g n) = some n)
    (c : Color) : ofLanes4 q (toLanes4 g c) = some c ∧ ofLanes3 q (toLanes3 g c) = some { c with a := 0 } ∧
      ofLanes2 q (toLanes2 g c) = some { c with b := 0, a := 0 } := by
  simp only [ofLanes4, toLanes4, ofLanes3, toLanes3, ofLanes2, toLanes2, h, and_self]

/-- **C09**: every color survives the conversion to normalized floats (scalar or SIMD vectors) and back,
whether or not the compiler fuses the multiplication with the rounding term. -/
theorem color_float_roundtrip (c : Color) :
    ofFloat4 (toFloat4 c) = some c ∧ ofSimd (toFloat4 c) = some c ∧
    ofFloat3 (toFloat3 c) = some { c with a := 0 } ∧ ofFloat2 (toFloat2 c) = some { c with b := 0, a := 0 } ∧
    ofLanes4 quantizeFused (toFloat4 c) = some c ∧ ofLanes4 quantizeSimdFused (toFloat4 c) = some c :=
  ⟨(lanes_roundtrip quantize_getNorm c).1, (lanes_roundtrip quantizeSimd_getNorm c).1,
    (lanes_roundtrip quantize_getNorm c).2.1, (lanes_roundtrip quantize_getNorm c).2.2,
    (lanes_roundtrip quantizeFused_getNorm c).1, (lanes_roundtrip quantizeSimdFused_getNorm c).1⟩

/-- **C10**: setting any channel to its own normalized value leaves the color unchanged. -/
theorem color_norm_roundtrip (c : Color) :
    setNormR c (getNorm c.r) = some c ∧ setNormG c (getNorm c.g) = some c ∧
    setNormB c (getNorm c.b) = some c ∧ setNormA c (getNorm c.a) = some c := by
  simp only [setNormR, setNormG, setNormB, setNormA, setNorm_getNorm, Option.map_some, and_self]

/-- The conversion is not trivial: neighbouring channels have different normalized values. -/
example : getNorm 127 ≠ getNorm 128 ∧ getNorm 255 = lit 1 := by decide +kernel

/-! ## C11: saturation and monotonicity -/

theorem clamp_key (x : F32) (hx : x.isNaN = false) :
    (stdClamp x (lit 0) (lit 1)).isNaN = false ∧
    (stdClamp x (lit 0) (lit 1)).key = max 0 (min x.key (0x3F800000 : Int)) := by
  rw [lit0, lit1]
  have k0 : (⟨0⟩ : F32).key = 0 := by decide
  have k1 : (⟨0x3F800000⟩ : F32).key = 0x3F800000 := by decide
  have n0 : (⟨0⟩ : F32).isNaN = false := by decide
  have n1 : (⟨0x3F800000⟩ : F32).isNaN = false := by decide
  unfold stdClamp
  change (if F32.ltb x ⟨0⟩ then (⟨0⟩ : F32) else if F32.ltb ⟨0x3F800000⟩ x then ⟨0x3F800000⟩ else x).isNaN = false ∧
    (if F32.ltb x ⟨0⟩ then (⟨0⟩ : F32) else if F32.ltb ⟨0x3F800000⟩ x then ⟨0x3F800000⟩ else x).key = _
  by_cases h1 : F32.ltb x ⟨0⟩
  · rw [if_pos h1]
    rw [F32.ltb_iff, k0] at h1
    refine ⟨n0, ?_⟩
    rw [k0]; omega
  · rw [if_neg h1]
    rw [F32.ltb_iff, k0] at h1
    by_cases h2 : F32.ltb ⟨0x3F800000⟩ x
    · rw [if_pos h2]
      rw [F32.ltb_iff, k1] at h2
      refine ⟨n1, ?_⟩
      rw [k1]; omega
    · rw [if_neg h2]
      rw [F32.ltb_iff, k1] at h2
      refine ⟨hx, ?_⟩
      simp only [hx, n0, n1, true_and] at h1 h2
      omega

theorem clampSimd_key (x : F32) :
    (mmMax (mmMin x (lit 1)) (lit 0)).isNaN = false ∧
    (mmMax (mmMin x (lit 1)) (lit 0)).key =
      if x.isNaN then 0x3F800000 else max 0 (min x.key (0x3F800000 : Int)) := by
  rw [lit0, lit1]
  have k0 : (⟨0⟩ : F32).key = 0 := by decide
  have k1 : (⟨0x3F800000⟩ : F32).key = 0x3F800000 := by decide
  have n0 : (⟨0⟩ : F32).isNaN = false := by decide
  have n1 : (⟨0x3F800000⟩ : F32).isNaN = false := by decide
  have hmin : (mmMin x ⟨0x3F800000⟩).isNaN = false ∧
      (mmMin x ⟨0x3F800000⟩).key = if x.isNaN then 0x3F800000 else min x.key (0x3F800000 : Int) := by
    unfold mmMin
    change (if F32.ltb x ⟨0x3F800000⟩ then x else ⟨0x3F800000⟩).isNaN = false ∧
      (if F32.ltb x ⟨0x3F800000⟩ then x else ⟨0x3F800000⟩).key = _
    by_cases h : F32.ltb x ⟨0x3F800000⟩
    · rw [if_pos h]
      rw [F32.ltb_iff, k1] at h
      refine ⟨h.1, ?_⟩
      rw [h.1]
      simp; omega
    · rw [if_neg h]
      rw [F32.ltb_iff, k1] at h
      refine ⟨n1, ?_⟩
      rw [k1]
      cases hx : x.isNaN
      · simp only [hx, n1, true_and] at h
        simp; omega
      · simp
  obtain ⟨hn, hk⟩ := hmin
  generalize mmMin x (⟨0x3F800000⟩ : F32) = m at hn hk
  unfold mmMax
  change (if F32.ltb ⟨0⟩ m then m else ⟨0⟩).isNaN = false ∧ (if F32.ltb ⟨0⟩ m then m else ⟨0⟩).key = _
  by_cases h : F32.ltb ⟨0⟩ m
  · rw [if_pos h]
    rw [F32.ltb_iff, k0] at h
    refine ⟨hn, ?_⟩
    rw [hk] at h ⊢
    split at h <;> rename_i hx <;> simp [hx] at h ⊢
    omega
  · rw [if_neg h]
    rw [F32.ltb_iff, k0] at h
    refine ⟨n0, ?_⟩
    simp only [n0, hn, true_and, hk] at h
    rw [k0]
    split at h <;> rename_i hx <;> simp [hx] at h ⊢
    omega

/-- Scaling and rounding of a clamped value: defined, monotone. `f` is one of the two evaluations. -/
theorem scale_facts (f : F32 → F32) (lo hi : F32)
    (hf : (f = fun c => c *. lit 255 +. lit (1/2)) ∨ (f = fun c => fma c (lit 255) (lit (1/2))) ∨
      (f = fun c => c *. lit 255))
    (hlo : f ⟨0⟩ = lo) (hhi : f ⟨0x3F800000⟩ = hi)
    {a b : F32} (ha0 : 0 ≤ a.key) (hab : a.key ≤ b.key) (hb1 : b.key ≤ 0x3F800000) :
    lo.key ≤ (f a).key ∧ (f a).key ≤ (f b).key ∧ (f b).key ≤ hi.key := by
  have k0 : (⟨0⟩ : F32).key = 0 := by decide
  have k1 : (⟨0x3F800000⟩ : F32).key = 0x3F800000 := by decide
  have f0 : (⟨0⟩ : F32).isFinite := by decide
  have f1 : (⟨0x3F800000⟩ : F32).isFinite := by decide
  have key : ∀ x y : F32, 0 ≤ x.key → x.key ≤ y.key → y.key ≤ 0x3F800000 → (f x).key ≤ (f y).key := by
    intro x y hx hxy hy
    have fx : x.isFinite := F32.finite_between f0 f1 (by rw [k0]; exact hx) (by rw [k1]; omega)
    have fy : y.isFinite := F32.finite_between f0 f1 (by rw [k0]; omega) (by rw [k1]; exact hy)
    have c255 : (⟨0x437F0000⟩ : F32).isFinite ∧ 0 ≤ (⟨0x437F0000⟩ : F32).key := by decide
    have hhalf : (⟨0x3F000000⟩ : F32).isFinite := by decide
    have hmul : ∀ {u v : F32}, u.isFinite → v.isFinite → u.key ≤ v.key →
        (F32.fmul u ⟨0x437F0000⟩).key ≤ (F32.fmul v ⟨0x437F0000⟩).key := fun hu hv h =>
      F32.fmul_mono hu hv c255.1 c255.2 h
    have mfin : ∀ {u : F32}, u.isFinite → 0 ≤ u.key → u.key ≤ 0x3F800000 →
        (F32.fmul u ⟨0x437F0000⟩).isFinite := by
      intro u hu h0 h1
      have e0 := hmul f0 hu (by rw [k0]; exact h0)
      have e1 := hmul hu f1 (by rw [k1]; exact h1)
      exact F32.finite_between (by decide +kernel) (by decide +kernel) e0 e1
    rcases hf with rfl | rfl | rfl
    · simp only [lit255, litHalf]
      exact F32.fadd_mono (mfin fx hx (by omega)) (mfin fy (by omega) hy) hhalf (hmul fx fy hxy)
    · simp only [lit255, litHalf]
      exact F32.ffma_mono fx fy c255.1 hhalf c255.2 hxy
    · simp only [lit255]
      exact hmul fx fy hxy
  refine ⟨?_, key a b ha0 hab hb1, ?_⟩
  · rw [← hlo]; exact key _ _ (by decide) (by rw [k0]; exact ha0) (by omega)
  · rw [← hhi]; exact key _ _ (by omega) (by rw [k1]; exact hb1) (by decide)

theorem toU8_of_bounds {x lo hi : F32} (hlo : lo.isFinite) (hhi : hi.isFinite) (h1 : lo.key ≤ x.key)
    (h2 : x.key ≤ hi.key) (l0 : 0 ≤ lo.truncInt) (h255 : hi.truncInt ≤ 255) :
    ∃ n, toU8 x = some n ∧ (n.toNat : Int) = x.truncInt := by
  have fx := F32.finite_between hlo hhi h1 h2
  have t1 := F32.truncInt_mono h1
  have t2 := F32.truncInt_mono h2
  refine ⟨_, by unfold toU8; rw [if_pos ⟨fx, by omega, by omega⟩], ?_⟩
  rw [BitVec.toNat_ofInt]
  omega

/-- What **C11** asks of a conversion `q` from one float component to a channel. -/
def Saturating (q : F32 → Option (BitVec 8)) : Prop :=
  (∀ x : F32, x.isNaN = false → (q x).isSome) ∧
  (∀ x : F32, x <=. (lit 0 : F32) → q x = some 0) ∧
  (∀ x : F32, (lit 1 : F32) <=. x → q x = some 255) ∧
  (∀ x y : F32, x <=. y → ∀ m n, q x = some m → q y = some n → m ≤ n)

theorem saturating_of (clampF f : F32 → F32) (lo hi : F32)
    (hc : ∀ x : F32, x.isNaN = false →
      (clampF x).isNaN = false ∧ (clampF x).key = max 0 (min x.key (0x3F800000 : Int)))
    (hf : (f = fun c => c *. lit 255 +. lit (1/2)) ∨ (f = fun c => fma c (lit 255) (lit (1/2))) ∨
      (f = fun c => c *. lit 255))
    (hlo : f ⟨0⟩ = lo) (hhi : f ⟨0x3F800000⟩ = hi) (hlof : lo.isFinite) (hhif : hi.isFinite)
    (l0 : lo.truncInt = 0) (l255 : hi.truncInt = 255) :
    Saturating (fun x => toU8 (f (clampF x))) := by
  have k0 : (⟨0⟩ : F32).key = 0 := by decide
  have k1 : (⟨0x3F800000⟩ : F32).key = 0x3F800000 := by decide
  have main : ∀ x y : F32, x.isNaN = false → y.isNaN = false → x.key ≤ y.key →
      lo.key ≤ (f (clampF x)).key ∧ (f (clampF x)).key ≤ (f (clampF y)).key ∧
        (f (clampF y)).key ≤ hi.key := by
    intro x y hx hy hxy
    have cx := hc x hx; have cy := hc y hy
    exact scale_facts f lo hi hf hlo hhi (by omega) (by omega) (by omega)
  have def' : ∀ x : F32, x.isNaN = false →
      ∃ n, toU8 (f (clampF x)) = some n ∧ (n.toNat : Int) = (f (clampF x)).truncInt := by
    intro x hx
    have := main x x hx hx le_rfl
    exact toU8_of_bounds hlof hhif this.1 this.2.2 (by omega) (by omega)
  have same : ∀ u v : F32, u.key = v.key → u.truncInt = v.truncInt := fun u v h =>
    le_antisymm (F32.truncInt_mono (le_of_eq h)) (F32.truncInt_mono (le_of_eq h.symm))
  refine ⟨?_, ?_, ?_, ?_⟩
  · intro x hx
    obtain ⟨n, hn, -⟩ := def' x hx
    simp [hn]
  · intro x hx
    have hx' : F32.leb x (lit 0) = true := hx
    rw [lit0, F32.leb_iff, k0] at hx'
    obtain ⟨n, hn, hv⟩ := def' x hx'.1
    have ck := hc x hx'.1
    have e : (clampF x).key = 0 := by omega
    have m := scale_facts f lo hi hf hlo hhi (a := clampF x) (b := ⟨0⟩) (by omega) (by omega)
      (by rw [k0]; decide)
    rw [hlo] at m
    have := same (f (clampF x)) lo (by omega)
    simp only [hn, Option.some.injEq]
    apply BitVec.eq_of_toNat_eq
    simp; omega
  · intro x hx
    have hx' : F32.leb (lit 1) x = true := hx
    rw [lit1, F32.leb_iff, k1] at hx'
    obtain ⟨n, hn, hv⟩ := def' x hx'.2.1
    have ck := hc x hx'.2.1
    have e : (clampF x).key = 0x3F800000 := by omega
    have m := scale_facts f lo hi hf hlo hhi (a := ⟨0x3F800000⟩) (b := clampF x)
      (by rw [k1]; decide) (by rw [k1]; omega) (by omega)
    rw [hhi] at m
    have := same (f (clampF x)) hi (by omega)
    simp only [hn, Option.some.injEq]
    apply BitVec.eq_of_toNat_eq
    simp; omega
  · intro x y hxy m n hm hn
    have hxy' : F32.leb x y = true := hxy
    rw [F32.leb_iff] at hxy'
    obtain ⟨m', hm', vm⟩ := def' x hxy'.1
    obtain ⟨n', hn', vn⟩ := def' y hxy'.2.1
    have e1 : m' = m := Option.some.inj (hm'.symm.trans hm)
    have e2 : n' = n := Option.some.inj (hn'.symm.trans hn)
    subst e1 e2
    have := F32.truncInt_mono (main x y hxy'.1 hxy'.2.1 hxy'.2.2).2.1
    rw [BitVec.le_def]
    omega

/-- **C11, partial** (NaN excluded): every way of building a color channel from a float — the constructors
from `float2/3/4` and from `f32x4`, with or without contraction, and the `setNorm` functions — is defined
for every non-NaN value including infinities, gives 0 at and below 0 and 255 at and above 1, and is
monotone. Missing: the NaN half, see `color_nan_undefined`. -/
theorem color_saturates_partial :
    Saturating quantize ∧ Saturating quantizeFused ∧ Saturating quantizeSimd ∧
    Saturating quantizeSimdFused ∧ Saturating setNorm := by
  have hs : ∀ x : F32, x.isNaN = false →
      (mmMax (mmMin x (lit 1)) (lit 0)).isNaN = false ∧
      (mmMax (mmMin x (lit 1)) (lit 0)).key = max 0 (min x.key (0x3F800000 : Int)) := by
    intro x hx
    have := clampSimd_key x
    rw [hx] at this
    simpa using this
  refine ⟨?_, ?_, ?_, ?_, ?_⟩
  · exact saturating_of (fun x => stdClamp x (lit 0) (lit 1)) (fun c => c *. lit 255 +. lit (1/2)) ⟨0x3F000000⟩ ⟨0x437F8000⟩ clamp_key (Or.inl rfl)
      (by simp only [lit255, litHalf]; decide +kernel) (by simp only [lit255, litHalf]; decide +kernel)
      (by decide +kernel) (by decide +kernel) (by decide +kernel) (by decide +kernel)
  · exact saturating_of (fun x => stdClamp x (lit 0) (lit 1)) (fun c => fma c (lit 255) (lit (1/2))) ⟨0x3F000000⟩ ⟨0x437F8000⟩ clamp_key (Or.inr (Or.inl rfl))
      (by simp only [lit255, litHalf]; decide +kernel) (by simp only [lit255, litHalf]; decide +kernel)
      (by decide +kernel) (by decide +kernel) (by decide +kernel) (by decide +kernel)
  · exact saturating_of (fun x => mmMax (mmMin x (lit 1)) (lit 0)) (fun c => c *. lit 255 +. lit (1/2)) ⟨0x3F000000⟩ ⟨0x437F8000⟩ hs (Or.inl rfl)
      (by simp only [lit255, litHalf]; decide +kernel) (by simp only [lit255, litHalf]; decide +kernel)
      (by decide +kernel) (by decide +kernel) (by decide +kernel) (by decide +kernel)
  · exact saturating_of (fun x => mmMax (mmMin x (lit 1)) (lit 0)) (fun c => fma c (lit 255) (lit (1/2))) ⟨0x3F000000⟩ ⟨0x437F8000⟩ hs (Or.inr (Or.inl rfl))
      (by simp only [lit255, litHalf]; decide +kernel) (by simp only [lit255, litHalf]; decide +kernel)
      (by decide +kernel) (by decide +kernel) (by decide +kernel) (by decide +kernel)
  · exact saturating_of (fun x => stdClamp x (lit 0) (lit 1)) (fun c => c *. lit 255) ⟨0⟩ ⟨0x437F0000⟩ clamp_key (Or.inr (Or.inr rfl))
      (by simp only [lit255]; decide +kernel) (by simp only [lit255]; decide +kernel)
      (by decide +kernel) (by decide +kernel) (by decide +kernel) (by decide +kernel)

example : quantize (lit (1/4)) = some 64 ∧ quantize (F32.inf true) = some 0 ∧
    quantize (F32.inf false) = some 255 ∧ quantize (lit (3/4)) = some 191 := by decide +kernel

/-- **C11 fails for NaN**: constructing a color from a `float4` with a NaN component (and `setNorm` of NaN)
converts NaN to an integer, which is undefined behaviour; `std::clamp` lets NaN through. -/
theorem color_nan_undefined :
    ¬ (∀ x : F32, (quantize x).isSome) ∧ ¬ (∀ x : F32, (setNorm x).isSome) := by
  constructor
  · intro h; have := h F32.nan; revert this; decide +kernel
  · intro h; have := h F32.nan; revert this; decide +kernel

/-- **C11** (SIMD): the `f32x4` constructor is defined for every bit pattern; NaN gives 255. -/
theorem color_simd_total (x : F32) : (quantizeSimd x).isSome ∧ (quantizeSimdFused x).isSome ∧
    (x.isNaN → quantizeSimd x = some 255 ∧ quantizeSimdFused x = some 255) := by
  cases hx : x.isNaN
  · exact ⟨color_saturates_partial.2.2.1.1 x hx, color_saturates_partial.2.2.2.1.1 x hx, by simp⟩
  · have hm : mmMax (mmMin x (lit 1)) (lit 0) = (lit 1 : F32) := by
      have : mmMin x (lit 1) = (lit 1 : F32) := by
        unfold mmMin
        have : (x <. lit 1) = false := by
          change F32.ltb x (lit 1) = false
          simp [F32.ltb, hx]
        rw [this]; rfl
      rw [this]; decide +kernel
    have e1 : quantizeSimd x = some 255 := by unfold quantizeSimd; rw [hm]; decide +kernel
    have e2 : quantizeSimdFused x = some 255 := by unfold quantizeSimdFused; rw [hm]; decide +kernel
    simp [e1, e2]

end

/-! ## C12: comparisons -/

/-- Componentwise relation on colors. -/
def Channelwise (R : Nat → Nat → Prop) (x y : Color) : Prop :=
  R x.r.toNat y.r.toNat ∧ R x.g.toNat y.g.toNat ∧ R x.b.toNat y.b.toNat ∧ R x.a.toNat y.a.toNat

/-- **C12** (meaning): every comparison operator of two colors, with its scalar overloads on both sides,
decides the stated relation. -/
theorem color_compare (x y : Color) (n : BitVec 8) :
    (eq x y ↔ x = y) ∧ (ne x y ↔ x ≠ y) ∧
    (lt x y ↔ Channelwise (· < ·) x y) ∧ (gt x y ↔ Channelwise (· > ·) x y) ∧
    (le x y ↔ Channelwise (· ≤ ·) x y) ∧ (ge x y ↔ Channelwise (· ≥ ·) x y) ∧
    eqS x n = eq x (splat n) ∧ neS x n = ne x (splat n) ∧ ltS x n = lt x (splat n) ∧
    gtS x n = gt x (splat n) ∧ leS x n = le x (splat n) ∧ geS x n = ge x (splat n) ∧
    sEq n x = eq (splat n) x ∧ sNe n x = ne (splat n) x ∧ sLt n x = lt (splat n) x ∧
    sGt n x = gt (splat n) x ∧ sLe n x = le (splat n) x ∧ sGe n x = ge (splat n) x := by
  have heq : eq x y ↔ x = y := by
    cases x; cases y; simp [eq, and_assoc]
  refine ⟨heq, ?_, ?_, ?_, ?_, ?_, rfl, rfl, rfl, rfl, rfl, rfl, rfl, rfl, rfl, rfl, rfl, rfl⟩
  · rw [ne_eq, ← heq]
    simp [ne, eq]
    tauto
  all_goals simp [lt, gt, le, ge, Channelwise, BitVec.lt_def, BitVec.le_def, and_assoc]

/-- **C12** (laws): `==`/`!=` are complementary; `<=` is a partial order, `<` is contained in it and is
irreflexive and asymmetric; `>`, `>=` are the converses. -/
theorem color_order_laws :
    (∀ x y, ne x y = !eq x y) ∧ (∀ x, le x x) ∧ (∀ x y, le x y → le y x → x = y) ∧
    (∀ x y z, le x y → le y z → le x z) ∧ (∀ x y, lt x y → le x y) ∧ (∀ x y, lt x y → ¬ lt y x) ∧
    (∀ x y z, lt x y → lt y z → lt x z) ∧ (∀ x y, gt x y = lt y x) ∧ (∀ x y, ge x y = le y x) := by
  have hle : ∀ x y, le x y ↔ Channelwise (· ≤ ·) x y := fun x y => (color_compare x y 0).2.2.2.2.1
  have hlt : ∀ x y, lt x y ↔ Channelwise (· < ·) x y := fun x y => (color_compare x y 0).2.2.1
  refine ⟨?_, ?_, ?_, ?_, ?_, ?_, ?_, ?_, ?_⟩
  · intro x y
    rw [Bool.eq_iff_iff, Bool.not_eq_true', ← Bool.not_eq_true, (color_compare x y 0).2.1,
      (color_compare x y 0).1]
  · intro x; rw [hle]; simp [Channelwise]
  · intro x y h1 h2
    rw [hle] at h1 h2
    unfold Channelwise at h1 h2
    cases x; cases y
    simp only [Color.mk.injEq]
    refine ⟨?_, ?_, ?_, ?_⟩ <;> apply BitVec.eq_of_toNat_eq <;> simp only at h1 h2 <;> omega
  · intro x y z h1 h2
    rw [hle] at h1 h2 ⊢
    unfold Channelwise at *; omega
  · intro x y h
    rw [hle]; rw [hlt] at h
    unfold Channelwise at *; omega
  · intro x y h h2
    rw [hlt] at h h2
    unfold Channelwise at *; omega
  · intro x y z h1 h2
    rw [hlt] at h1 h2 ⊢
    unfold Channelwise at *; omega
  · intro x y; simp [gt, lt]
  · intro x y; simp [ge, le]

/-- **C12** (`isBinaryLess`): comparison of the 32-bit values (alpha most significant), a strict total
order whose incomparable pairs are exactly the equal ones. -/
theorem color_isBinaryLess :
    (∀ x y, isBinaryLess x y ↔
      x.r.toNat + 256 * x.g.toNat + 65536 * x.b.toNat + 16777216 * x.a.toNat <
      y.r.toNat + 256 * y.g.toNat + 65536 * y.b.toNat + 16777216 * y.a.toNat) ∧
    (∀ x, ¬ isBinaryLess x x) ∧ (∀ x y z, isBinaryLess x y → isBinaryLess y z → isBinaryLess x z) ∧
    (∀ x y, ¬ isBinaryLess x y → ¬ isBinaryLess y x → eq x y) := by
  have h : ∀ x y, isBinaryLess x y ↔
      x.r.toNat + 256 * x.g.toNat + 65536 * x.b.toNat + 16777216 * x.a.toNat <
      y.r.toNat + 256 * y.g.toNat + 65536 * y.b.toNat + 16777216 * y.a.toNat := by
    intro x y
    rw [← toU32_toNat, ← toU32_toNat]
    simp [isBinaryLess, BitVec.lt_def]
  refine ⟨h, ?_, ?_, ?_⟩
  · intro x; rw [h]; omega
  · intro x y z; rw [h, h, h]; omega
  · intro x y; rw [h, h, (color_compare x y 0).1]
    intro h1 h2
    have := x.r.isLt; have := x.g.isLt; have := x.b.isLt; have := x.a.isLt
    have := y.r.isLt; have := y.g.isLt; have := y.b.isLt; have := y.a.isLt
    cases x; cases y
    simp only [Color.mk.injEq] at *
    refine ⟨?_, ?_, ?_, ?_⟩ <;> apply BitVec.eq_of_toNat_eq <;> omega

example : lt ⟨1, 2, 3, 4⟩ ⟨2, 3, 4, 5⟩ ∧ ¬ lt ⟨1, 2, 3, 4⟩ ⟨2, 3, 4, 4⟩ ∧ le ⟨1, 2, 3, 4⟩ ⟨2, 3, 4, 4⟩ ∧
    isBinaryLess ⟨255, 0, 0, 1⟩ ⟨0, 0, 0, 2⟩ := by decide

end Verif
