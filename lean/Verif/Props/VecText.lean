import Verif.Model.VecText
import Verif.Model.Color
import Verif.Spec.VecText
import Verif.Proofs.Decimal
import Verif.Proofs.F32Err

/-!
# C113: text forms of vectors
-/

namespace Verif
open Spec VecText

namespace VecTextP

theorem minus_notMem (n : Nat) : '-' ∉ toDecimal n := by
  intro h
  obtain ⟨d, hd, hc⟩ := toDecimal_chars n _ h
  interval_cases d <;> revert hc <;> decide

theorem readInteger_pos {s : List Char} (h : '-' ∉ s) : readInteger s = (readDecimal s).map fun n : Nat => (n : Int) := by
  unfold readInteger
  split
  · simp at h
  · rfl

theorem readNumber_pos {s : List Char} (h : '-' ∉ s) : readNumber s = readPoint s := by
  unfold readNumber
  split
  · simp at h
  · rfl

theorem int_reads (n : BitVec 32) : readInteger (ofInt n) = some n.toInt := by
  unfold ofInt
  split
  · next h =>
    simp only [readInteger, readDecimal_toDecimal, Option.map_some, Option.some.injEq]
    omega
  · next h =>
    rw [readInteger_pos (minus_notMem _), readDecimal_toDecimal, Option.map_some, Option.some.injEq]
    omega

theorem uint_reads (n : BitVec 32) : readDecimal (ofUint n) = some n.toNat := readDecimal_toDecimal _

theorem int_space (n : BitVec 32) : ' ' ∉ ofInt n := by
  unfold ofInt
  have := space_notMem_toDecimal n.toInt.natAbs
  split <;> simp_all

theorem uint_space (n : BitVec 32) : ' ' ∉ ofUint n := space_notMem_toDecimal _

/-! ### Floats -/

theorem lastDigits_length (k n : Nat) : (lastDigits k n).length = k := by
  induction k generalizing n with
  | zero => rfl
  | succ k ih => simp [lastDigits, ih]

theorem lastDigits_chars (k n : Nat) : ∀ c ∈ lastDigits k n, ∃ d < 10, c = decDigit d := by
  induction k generalizing n with
  | zero => simp [lastDigits]
  | succ k ih =>
    intro c hc
    rcases List.mem_append.1 hc with hc | hc
    · exact ih _ c hc
    · exact ⟨n % 10, Nat.mod_lt _ (by decide), by simpa using hc⟩

theorem foldl_lastDigits (k n : Nat) :
    (lastDigits k n).foldl (fun (acc : Option Nat) c => do return 10 * (← acc) + (← decimalDigit? c)) (some 0)
      = some (n % 10 ^ k) := by
  induction k generalizing n with
  | zero => simp [lastDigits, Nat.mod_one]
  | succ k ih =>
    rw [lastDigits, List.foldl_append, ih]
    simp [decimalDigit?_decDigit (n % 10) (Nat.mod_lt _ (by decide))]
    rw [pow_succ', Nat.mod_mul]; omega

theorem readDecimal_lastDigits (n : Nat) : readDecimal (lastDigits 6 n) = some (n % 10 ^ 6) := by
  unfold readDecimal
  split
  · next h => have := lastDigits_length 6 n; rw [h] at this; simp at this
  · exact foldl_lastDigits 6 n

theorem digit_not {c : Char} (h : ∃ d < 10, c = decDigit d) : c ≠ '.' ∧ c ≠ ' ' ∧ c ≠ '-' := by
  obtain ⟨d, hd, rfl⟩ := h
  interval_cases d <;> decide

/-- The number printed for `n` millionths. -/
theorem readPoint_fixed (n : Nat) : readPoint (toDecimal (n / 10 ^ 6) ++ '.' :: lastDigits 6 n) = some ((n : ℚ) / 10 ^ 6) := by
  have e : Spec.splitAt '.' (toDecimal (n / 10 ^ 6) ++ '.' :: lastDigits 6 n) = [toDecimal (n / 10 ^ 6), lastDigits 6 n] := by
    rw [splitAt_append _ _ _ (dot_notMem_toDecimal _), splitAt_of_notMem]
    intro h; exact (digit_not (lastDigits_chars _ _ _ h)).1 rfl
  unfold readPoint
  rw [e]
  simp only [readDecimal_toDecimal, readDecimal_lastDigits, lastDigits_length]
  have := Nat.div_add_mod n (10 ^ 6)
  have q : (n : ℚ) = 10 ^ 6 * ((n / 10 ^ 6 : Nat) : ℚ) + ((n % 10 ^ 6 : Nat) : ℚ) := by exact_mod_cast this.symm
  show some _ = some _
  rw [Option.some.injEq, q]
  field_simp

theorem fixed_not (n : Nat) : ' ' ∉ toDecimal (n / 10 ^ 6) ++ '.' :: lastDigits 6 n ∧
    '-' ∉ toDecimal (n / 10 ^ 6) ++ '.' :: lastDigits 6 n := by
  constructor <;>
  · intro h
    rcases List.mem_append.1 h with h | h
    · have := digit_not (toDecimal_chars _ _ h); simp at this
    · rcases List.mem_cons.1 h with h | h
      · revert h; decide
      · have := digit_not (lastDigits_chars _ _ _ h); simp at this

/-- Millionths, rounded. -/
def millionths (x : F32) : Nat := F32.rne (F32.magUnits x.mag * 10 ^ 6) (2 ^ 149)

theorem ofFloat_finite {x : F32} (h : x.isFinite = true) : ofFloat x =
    (if x.signBit then '-' :: (toDecimal (millionths x / 10 ^ 6) ++ '.' :: lastDigits 6 (millionths x))
      else toDecimal (millionths x / 10 ^ 6) ++ '.' :: lastDigits 6 (millionths x)) := by
  have h' : x.mag < F32.infMag := by simpa [F32.isFinite] using h
  unfold ofFloat
  have n1 : x.isNaN = false := by simp [F32.isNaN]; omega
  have n2 : x.isInf = false := by simp [F32.isInf]; omega
  simp only [n1, n2, Bool.false_eq_true, if_false]; rfl

theorem float_space {x : F32} (h : x.isFinite = true) : ' ' ∉ ofFloat x := by
  rw [ofFloat_finite h]
  have := (fixed_not (millionths x)).1
  split
  · rw [List.mem_cons, not_or]; exact ⟨by decide, this⟩
  · exact this

/-- The number read back. -/
theorem float_reads {x : F32} (h : x.isFinite = true) :
    readNumber (ofFloat x) = some (if x.signBit then -((millionths x : ℚ) / 10 ^ 6) else (millionths x : ℚ) / 10 ^ 6) := by
  rw [ofFloat_finite h]
  split
  · simp only [readNumber, readPoint_fixed, Option.map_some]
  · rw [readNumber_pos (fixed_not _).2, readPoint_fixed]

theorem scaled_err {n u d : Nat} (hd : 0 < d) (h : 2 * |(n : Int) * d - (u * 10 ^ 6 : Nat)| ≤ d) :
    (2 : ℚ) * 10 ^ 6 * |(n : ℚ) / 10 ^ 6 - (u : ℚ) / d| ≤ 1 := by
  have d0 : (0 : ℚ) < d := by exact_mod_cast hd
  have h' : (2 : ℚ) * |(n : ℚ) * d - (u : ℚ) * 10 ^ 6| ≤ (d : ℚ) := by exact_mod_cast h
  have e : (n : ℚ) / 10 ^ 6 - (u : ℚ) / d = ((n : ℚ) * d - (u : ℚ) * 10 ^ 6) / (10 ^ 6 * d) := by field_simp
  rw [e, abs_div, abs_of_pos (show (0 : ℚ) < 10 ^ 6 * d by positivity), ← mul_div_assoc, div_le_iff₀ (by positivity)]
  linarith

theorem millionths_err (x : F32) :
    (2 : ℚ) * 10 ^ 6 * |(millionths x : ℚ) / 10 ^ 6 - (F32.magUnits x.mag : ℚ) / (2 ^ 149 : Nat)| ≤ 1 :=
  scaled_err (Nat.two_pow_pos _) (F32.rne_err (F32.magUnits x.mag * 10 ^ 6) (2 ^ 149) (Nat.two_pow_pos _))

theorem float_near {x : F32} (h : x.isFinite = true) : ReadsNear (ofFloat x) x := by
  refine ⟨_, float_reads h, ?_⟩
  have e := millionths_err x
  unfold F32.toRat F32.units
  generalize ((2 ^ 149 : Nat) : ℚ) = D at *
  generalize millionths x = n at *
  generalize F32.magUnits x.mag = u at *
  split
  · rw [show -((n : ℚ) / 10 ^ 6) - ((-(u : Int) : Int) : ℚ) / D = -((n : ℚ) / 10 ^ 6 - (u : ℚ) / D) by push_cast; ring, abs_neg]
    exact e
  · rw [Int.cast_natCast]; exact e

variable {α : Type} {str : α → List Char}

theorem split2 {v : V2 α} (h : ∀ x ∈ v.toList, ' ' ∉ str x) : Spec.splitAt ' ' (text2 str v) = v.toList.map str := by
  simp only [V2.toList, List.mem_cons, List.not_mem_nil, or_false, forall_eq_or_imp, forall_eq] at h
  simp [text2, V2.toList, splitAt_append, splitAt_of_notMem, h]

theorem split3 {v : V3 α} (h : ∀ x ∈ v.toList, ' ' ∉ str x) : Spec.splitAt ' ' (text3 str v) = v.toList.map str := by
  simp only [V3.toList, List.mem_cons, List.not_mem_nil, or_false, forall_eq_or_imp, forall_eq] at h
  simp [text3, V3.toList, splitAt_append, splitAt_of_notMem, h]

theorem split4 {v : V4 α} (h : ∀ x ∈ v.toList, ' ' ∉ str x) : Spec.splitAt ' ' (text4 str v) = v.toList.map str := by
  simp only [V4.toList, List.mem_cons, List.not_mem_nil, or_false, forall_eq_or_imp, forall_eq] at h
  simp [text4, V4.toList, splitAt_append, splitAt_of_notMem, h]

end VecTextP
open VecTextP

/-- C113: the text of a signed integer vector, split at the spaces and read as integers, gives the components back. -/
theorem int_text :
    (∀ v : V2 (BitVec 32), (Spec.splitAt ' ' (text2 ofInt v)).map readInteger = v.toList.map fun n => some n.toInt) ∧
    (∀ v : V3 (BitVec 32), (Spec.splitAt ' ' (text3 ofInt v)).map readInteger = v.toList.map fun n => some n.toInt) ∧
    (∀ v : V4 (BitVec 32), (Spec.splitAt ' ' (text4 ofInt v)).map readInteger = v.toList.map fun n => some n.toInt) := by
  refine ⟨fun v => ?_, fun v => ?_, fun v => ?_⟩
  · rw [split2 fun x _ => int_space x, List.map_map]; exact List.map_congr_left fun x _ => int_reads x
  · rw [split3 fun x _ => int_space x, List.map_map]; exact List.map_congr_left fun x _ => int_reads x
  · rw [split4 fun x _ => int_space x, List.map_map]; exact List.map_congr_left fun x _ => int_reads x

/-- C113: the text of an unsigned integer vector gives the components back. -/
theorem uint_text :
    (∀ v : V2 (BitVec 32), (Spec.splitAt ' ' (text2 ofUint v)).map readDecimal = v.toList.map fun n => some n.toNat) ∧
    (∀ v : V3 (BitVec 32), (Spec.splitAt ' ' (text3 ofUint v)).map readDecimal = v.toList.map fun n => some n.toNat) ∧
    (∀ v : V4 (BitVec 32), (Spec.splitAt ' ' (text4 ofUint v)).map readDecimal = v.toList.map fun n => some n.toNat) := by
  refine ⟨fun v => ?_, fun v => ?_, fun v => ?_⟩
  · rw [split2 fun x _ => uint_space x, List.map_map]; exact List.map_congr_left fun x _ => uint_reads x
  · rw [split3 fun x _ => uint_space x, List.map_map]; exact List.map_congr_left fun x _ => uint_reads x
  · rw [split4 fun x _ => uint_space x, List.map_map]; exact List.map_congr_left fun x _ => uint_reads x

/-- C113: the text of a finite float vector, split at the spaces and read as decimal numbers, gives every component back up to
half a millionth. -/
theorem float_text :
    (∀ v : V2 F32, (∀ x ∈ v.toList, x.isFinite = true) →
      List.Forall₂ ReadsNear (Spec.splitAt ' ' (text2 ofFloat v)) v.toList) ∧
    (∀ v : V3 F32, (∀ x ∈ v.toList, x.isFinite = true) →
      List.Forall₂ ReadsNear (Spec.splitAt ' ' (text3 ofFloat v)) v.toList) ∧
    (∀ v : V4 F32, (∀ x ∈ v.toList, x.isFinite = true) →
      List.Forall₂ ReadsNear (Spec.splitAt ' ' (text4 ofFloat v)) v.toList) := by
  refine ⟨fun v h => ?_, fun v h => ?_, fun v h => ?_⟩
  · rw [split2 fun x hx => float_space (h x hx), List.forall₂_map_left_iff, List.forall₂_same]
    exact fun x hx => float_near (h x hx)
  · rw [split3 fun x hx => float_space (h x hx), List.forall₂_map_left_iff, List.forall₂_same]
    exact fun x hx => float_near (h x hx)
  · rw [split4 fun x hx => float_space (h x hx), List.forall₂_map_left_iff, List.forall₂_same]
    exact fun x hx => float_near (h x hx)

/-- C113: the text of a color gives its channels back. -/
theorem color_text (c : Color) :
    (Spec.splitAt ' ' c.toString4).map readDecimal = [some c.r.toNat, some c.g.toNat, some c.b.toNat, some c.a.toNat] ∧
    (Spec.splitAt ' ' c.toString3).map readDecimal = [some c.r.toNat, some c.g.toNat, some c.b.toNat] ∧
    (Spec.splitAt ' ' c.toString2).map readDecimal = [some c.r.toNat, some c.g.toNat] ∧
    (Spec.splitAt ' ' c.toString1).map readDecimal = [some c.r.toNat] := by
  simp [Color.toString1, Color.toString2, Color.toString3, Color.toString4, splitAt_append, splitAt_of_notMem,
    space_notMem_toDecimal, readDecimal_toDecimal]

namespace VecTextP

/-- From 16 on the values are multiples of 2^130 units. -/
theorem coarse {x : F32} (h : 16 ≤ |x.toRat|) : ∃ k : Nat, F32.magUnits x.mag = k * 2 ^ 130 := by
  have hu : 16 * 2 ^ 149 ≤ F32.magUnits x.mag := by
    have e : |x.toRat| = (F32.magUnits x.mag : ℚ) / (2 ^ 149 : Nat) := by
      unfold F32.toRat F32.units
      rw [abs_div, Nat.abs_cast]
      split <;> simp
    rw [e, le_div_iff₀ (by exact_mod_cast Nat.two_pow_pos 149)] at h
    exact_mod_cast h
  unfold F32.magUnits at hu ⊢
  generalize x.mag = m at hu ⊢
  have hf : m % 2 ^ 23 < 2 ^ 23 := Nat.mod_lt _ (by norm_num)
  split at hu
  · norm_num at hu hf; omega
  · next h0 =>
    rw [if_neg h0]
    have he : 130 ≤ m / 2 ^ 23 - 1 := by
      by_contra hc
      have : 2 ^ (m / 2 ^ 23 - 1) ≤ 2 ^ 129 := Nat.pow_le_pow_right (by norm_num) (by omega)
      have h2 := Nat.mul_le_mul (show 2 ^ 23 + m % 2 ^ 23 ≤ 2 ^ 24 - 1 by omega) this
      norm_num at h2 hu
      omega
    obtain ⟨t, ht⟩ := Nat.exists_eq_add_of_le he
    exact ⟨(2 ^ 23 + m % 2 ^ 23) * 2 ^ t, by rw [ht, pow_add]; ring⟩

theorem text_sign {x y : F32} (hx : x.isFinite = true) (hy : y.isFinite = true) (h : ofFloat x = ofFloat y) :
    x.signBit = y.signBit ∧ millionths x = millionths y := by
  have key : ∀ {x : F32}, x.isFinite = true → (x.signBit = true ↔ '-' ∈ ofFloat x) := by
    intro x hx
    rw [ofFloat_finite hx]
    by_cases hs : x.signBit = true
    · simp [hs]
    · have := (fixed_not (millionths x)).2
      rw [if_neg hs]
      exact ⟨fun h => absurd h hs, fun h => absurd h this⟩
  have s : x.signBit = y.signBit := by
    have := key hx; have := key hy
    rw [h] at *
    cases hx' : x.signBit <;> cases hy' : y.signBit <;> simp_all
  refine ⟨s, ?_⟩
  have h1 := float_reads hx
  have h2 := float_reads hy
  rw [h, h2, s] at h1
  have h3 := Option.some.inj h1
  have q : (millionths y : ℚ) / 10 ^ 6 = (millionths x : ℚ) / 10 ^ 6 := by
    split at h3 <;> linarith
  have : (millionths y : ℚ) = millionths x := by
    field_simp at q; exact q
  exact_mod_cast this.symm

theorem separated {n u v D : Nat} {a b : Nat} (hu : u = a * 2 ^ 130) (hv : v = b * 2 ^ 130) (hD : D = 2 ^ 149)
    (h1 : (2 : ℚ) * 10 ^ 6 * |(n : ℚ) / 10 ^ 6 - (u : ℚ) / D| ≤ 1) (h2 : (2 : ℚ) * 10 ^ 6 * |(n : ℚ) / 10 ^ 6 - (v : ℚ) / D| ≤ 1) :
    u = v := by
  have e1 : (u : ℚ) / D = a / 2 ^ 19 := by rw [hu, hD]; push_cast; rw [div_eq_div_iff (by positivity) (by positivity)]; ring
  have e2 : (v : ℚ) / D = b / 2 ^ 19 := by rw [hv, hD]; push_cast; rw [div_eq_div_iff (by positivity) (by positivity)]; ring
  rw [e1] at h1; rw [e2] at h2
  have f1 := abs_le.1 (show |(n : ℚ) / 10 ^ 6 - a / 2 ^ 19| ≤ 1 / 2 / 10 ^ 6 by linarith)
  have f2 := abs_le.1 (show |(n : ℚ) / 10 ^ 6 - b / 2 ^ 19| ≤ 1 / 2 / 10 ^ 6 by linarith)
  have g1 : (a : ℚ) < b + 1 := by linarith [f1.1, f2.2]
  have g2 : (b : ℚ) < a + 1 := by linarith [f1.2, f2.1]
  have g1' : a < b + 1 := by exact_mod_cast g1
  have g2' : b < a + 1 := by exact_mod_cast g2
  rw [hu, hv, show a = b by omega]

end VecTextP

/-- C113: for values from 16 on the text identifies the float. -/
theorem float_text_identifies (x y : F32) (hx : x.isFinite = true) (hy : y.isFinite = true) (ax : 16 ≤ |x.toRat|)
    (ay : 16 ≤ |y.toRat|) (h : ofFloat x = ofFloat y) : x = y := by
  obtain ⟨s, n⟩ := text_sign hx hy h
  obtain ⟨a, ha⟩ := coarse ax
  obtain ⟨b, hb⟩ := coarse ay
  have e1 := millionths_err x
  have e2 := millionths_err y
  rw [← n] at e2
  have u := separated ha hb rfl e1 e2
  have m : x.mag = y.mag := F32.magUnits_strictMono.injective u
  exact F32.ext_parts s m

/-- C113: below, different floats can have the same text: 2^-30 and 2^-40 both print as 0.000000. -/
theorem float_text_collides :
    ofFloat ⟨0x30800000⟩ = "0.000000".toList ∧ ofFloat ⟨0x2B800000⟩ = "0.000000".toList := by decide +kernel

/-- Concrete texts: -1.5, 16.000002 (the float after 16), 1/3, -0, infinity. -/
example : ofFloat ⟨0xBFC00000⟩ = "-1.500000".toList ∧ ofFloat ⟨0x41800001⟩ = "16.000002".toList ∧
    ofFloat ⟨0x3EAAAAAB⟩ = "0.333333".toList ∧ ofFloat ⟨0x80000000⟩ = "-0.000000".toList ∧
    ofFloat ⟨0x7F800000⟩ = "inf".toList := by decide +kernel

example : text3 ofInt ⟨5, -17, 0x80000000⟩ = "5 -17 -2147483648".toList := by decide +kernel

end Verif
