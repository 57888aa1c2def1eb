import Verif.Proofs.Hex

/-!
# C06, C07: hexadecimal strings
-/

namespace Verif
open Hex

theorem toHexLen_eq {w : Nat} (s : Bool) (v : BitVec w) (n : Nat) (hn : 4 * n ≤ max w 32) :
    toHexLen s v n =
      some ((List.range n).reverse.map (fun i => digits.getD ((promote s v).toNat / 16 ^ i % 16) '?')) :=
  toHexLoop_eq (by omega) _ n hn

theorem readHex_digits (v n : Nat) (hn : 0 < n) :
    Spec.readHex ((List.range n).reverse.map (fun i => digits.getD (v / 16 ^ i % 16) '?')) =
      some (v % 16 ^ n) := by
  unfold Spec.readHex
  split
  · next h =>
    have := congrArg List.length h
    simp at this; omega
  · rw [foldl_digits]; simp

theorem promote_unsigned_toNat {w : Nat} (v : BitVec w) : (promote false v).toNat = v.toNat := by
  have h : v.toNat < 2 ^ max w 32 :=
    lt_of_lt_of_le v.isLt (Nat.pow_le_pow_right (by decide) (by omega))
  simp [promote, Nat.mod_eq_of_lt h]

/-- **C06** (shape): for every unsigned integer type of `b ≥ 1` bytes, `toHex` is defined and yields exactly
`2 b` characters, all of them upper-case hexadecimal digits, whose value (most significant digit first)
is the number. -/
theorem hex_format (b : Nat) (hb : 0 < b) (v : BitVec (8 * b)) :
    ∃ s, toHex false v = some s ∧ s.length = 2 * b ∧
      (∀ c ∈ s, c ∈ ("0123456789ABCDEF".toList)) ∧ Spec.readHex s = some v.toNat := by
  have hlen : (8 * b / 8) <<< 1 = 2 * b := by rw [Nat.shiftLeft_eq]; omega
  refine ⟨_, by rw [toHex, hlen]; exact toHexLen_eq false v (2 * b) (by omega), by simp, ?_, ?_⟩
  · intro c hc
    obtain ⟨i, -, rfl⟩ := List.mem_map.1 hc
    exact (digits_facts _ (Nat.mod_lt _ (by decide))).2.2.2.2.2.2.2
  · rw [readHex_digits _ _ (by omega), promote_unsigned_toNat]
    congr 1
    apply Nat.mod_eq_of_lt
    have := v.isLt
    rwa [show (16 : Nat) = 2 ^ 4 from rfl, ← Nat.pow_mul, show 4 * (2 * b) = 8 * b by omega]

/-- **C06** (round trip, 64 bit): for unsigned types of up to 8 bytes, `toInt64(toHex(v)) == v`. -/
theorem hex_roundtrip64 (b : Nat) (hb : 0 < b) (hb8 : b ≤ 8) (v : BitVec (8 * b)) :
    ((toHex false v).bind toInt64) = some (v.setWidth 64) := by
  have hlen : (8 * b / 8) <<< 1 = 2 * b := by rw [Nat.shiftLeft_eq]; omega
  have hlt : v.toNat < 16 ^ (2 * b) := by
    have := v.isLt
    rwa [show (16 : Nat) = 2 ^ 4 from rfl, ← Nat.pow_mul, show 4 * (2 * b) = 8 * b by omega]
  have h64 : v.toNat < 2 ^ 64 := lt_of_lt_of_le v.isLt (Nat.pow_le_pow_right (by decide) (by omega))
  rw [toHex, hlen, toHexLen_eq false v (2 * b) (by omega), promote_unsigned_toNat]
  simp only [Option.bind_some, toInt64]
  rw [stoull16_digits _ _ (by omega) (by rw [Nat.mod_eq_of_lt hlt]; exact h64), Nat.mod_eq_of_lt hlt]
  congr 1
  apply BitVec.eq_of_toNat_eq
  simp

/-- **C06** (round trip, 32 bit): for unsigned types of up to 4 bytes, `toInt32(toHex(v)) == v`. -/
theorem hex_roundtrip32 (b : Nat) (hb : 0 < b) (hb4 : b ≤ 4) (v : BitVec (8 * b)) :
    ((toHex false v).bind toInt32) = some (v.setWidth 32) := by
  have h := hex_roundtrip64 b hb (by omega) v
  have : (toHex false v).bind toInt32 = ((toHex false v).bind toInt64).map (·.setWidth 32) := by
    cases toHex false v <;> simp [toInt32, toInt64]
  rw [this, h]
  simp only [Option.map_some, Option.some.injEq]
  apply BitVec.eq_of_toNat_eq
  have : v.toNat < 2 ^ 32 := lt_of_lt_of_le v.isLt (Nat.pow_le_pow_right (by decide) (by omega))
  simp

example : toHex false (0xBEEF#16) = some "BEEF".toList := by decide
example : toInt64 "0xfF".toList = some 255#64 := by decide

/-- **C07, partial**: for every integer type of `w` bits, signed or unsigned, and every length of at most
`max(w, 32) / 4` digits, `toHex(value, length)` is defined, has exactly `length` digits, and denotes the
two's-complement value modulo `16^length` (so it truncates or pads). Missing: longer strings, see
`hex_length_counterexample`. -/
theorem hex_length_partial {w : Nat} (s : Bool) (v : BitVec w) (length : Nat) (hpos : 0 < length)
    (hlen : 4 * length ≤ max w 32) :
    ∃ str, toHexLen s v length = some str ∧ str.length = length ∧
      Spec.readHex str = some ((promote s v).toNat % 16 ^ length) ∧
      (((promote s v).toNat % 16 ^ length : Nat) : Int) =
        (if s then v.toInt else (v.toNat : Int)) % (16 ^ length : Nat) := by
  refine ⟨_, toHexLen_eq s v length hlen, by simp, readHex_digits _ _ hpos, ?_⟩
  cases s
  · simp [promote_unsigned_toNat]
  · have hw : w ≤ max w 32 := by omega
    have h1 : (promote true v).toInt = v.toInt := by
      simp [promote, BitVec.toInt_signExtend_of_le hw]
    have h2 : (((promote true v).toNat : Int)) % (16 ^ length : Nat) =
        (promote true v).toInt % (16 ^ length : Nat) := by
      rw [BitVec.toInt_eq_toNat_bmod]
      have hdvd : ((16 ^ length : Nat) : Int) ∣ ((2 ^ max w 32 : Nat) : Int) := by
        rw [Int.natCast_dvd_natCast, show (16 : Nat) = 2 ^ 4 from rfl, ← Nat.pow_mul]
        exact Nat.pow_dvd_pow 2 hlen
      have key : ((2 ^ max w 32 : Nat) : Int) ∣
          ((promote true v).toNat : Int) - Int.bmod ((promote true v).toNat : Int) (2 ^ max w 32) :=
        Int.dvd_self_sub_bmod
      exact Int.emod_eq_emod_iff_emod_sub_eq_zero.2 (Int.emod_eq_zero_of_dvd (hdvd.trans key))
    rw [Int.natCast_mod, h2, h1]; simp

/-- **C07 fails**: with a length beyond the promoted width the shift is undefined, e.g. formatting an
8-bit value with nine digits; in fact every longer length is undefined. -/
theorem hex_length_counterexample :
    ¬ (∀ (v : BitVec 8) (length : Nat), (toHexLen false v length).isSome) := by
  intro h
  have := h 1#8 9
  revert this; decide

/-- **C07** (extent of the failure): every length above `max(w, 32) / 4` is undefined behaviour. -/
theorem hex_length_undefined {w : Nat} (s : Bool) (v : BitVec w) (length : Nat)
    (h : max w 32 ≤ (length - 1) * 4) : toHexLen s v length = none := by
  apply toHexLoop_none <;> omega

example : toHexLen false 0xABC#16 5 = some "00ABC".toList := by decide
example : toHexLen true (-1#8) 4 = some "FFFF".toList := by decide

/-! ## C06, parsing of any digit string -/

theorem hexFold_none (s : List Char) :
    s.foldl (fun (acc : Option Nat) c => do return 16 * (← acc) + (← Spec.hexDigit? c)) none = none := by
  induction s with
  | nil => rfl
  | cons c s ih => exact ih

theorem hexFold_digits (s : List Char) (a v : Nat)
    (h : s.foldl (fun (acc : Option Nat) c => do return 16 * (← acc) + (← Spec.hexDigit? c)) (some a) = some v) :
    (leadingDigits s).foldl (fun acc d => 16 * acc + d) a = v ∧ (∀ c ∈ s, (Spec.hexDigit? c).isSome) ∧
      (leadingDigits s).length = s.length := by
  induction s generalizing a with
  | nil => simpa [leadingDigits] using h
  | cons c s ih =>
    rw [List.foldl_cons] at h
    cases hd : Spec.hexDigit? c with
    | none =>
      rw [hd] at h
      have := (hexFold_none s).symm.trans h
      simp at this
    | some d =>
      rw [hd] at h
      obtain ⟨h1, h2, h3⟩ := ih (16 * a + d) h
      have hd' : digitVal c = some d := hd
      refine ⟨?_, ?_, ?_⟩
      · rw [leadingDigits, hd']; exact h1
      · intro c' hc'
        rcases List.mem_cons.1 hc' with rfl | hc'
        · rw [hd]; rfl
        · exact h2 c' hc'
      · rw [leadingDigits, hd']; simp [h3]

theorem hexDigit_plain (c : Char) (h : (Spec.hexDigit? c).isSome) :
    isSpace c = false ∧ c ≠ '-' ∧ c ≠ '+' ∧ c ≠ 'x' ∧ c ≠ 'X' := by
  have hne : ∀ d : Char, Spec.hexDigit? d = none → c ≠ d := by
    rintro d hd rfl; rw [hd] at h; simp at h
  refine ⟨?_, hne _ (by decide), hne _ (by decide), hne _ (by decide), hne _ (by decide)⟩
  have h48 : ¬ c < '0' := by
    intro hlt
    have h0 : c.toNat < 48 := hlt
    have : Spec.hexDigit? c = none := by
      unfold Spec.hexDigit?
      rw [if_neg (by rintro ⟨h1, -⟩; have : 48 ≤ c.toNat := h1; omega),
        if_neg (by rintro ⟨h1, -⟩; have : 65 ≤ c.toNat := h1; omega),
        if_neg (by rintro ⟨h1, -⟩; have : 97 ≤ c.toNat := h1; omega)]
    rw [this] at h; simp at h
  have h48' : 48 ≤ c.toNat := by
    by_contra hc
    exact h48 (show c.toNat < 48 by omega)
  unfold isSpace
  have h1 : c ≠ ' ' := by rintro rfl; exact absurd h48' (by decide)
  have h2 : ¬ c ≤ '\r' := by intro hr; have : c.toNat ≤ 13 := hr; omega
  simp [h1, h2]

/-- **C06** (parsing): every non-empty string of hexadecimal digits, in upper, lower or mixed case and of any length,
with or without the prefix `0x` or `0X`, is read as the number it denotes; a number that does not fit into 64 bits is
reported (the exception of the standard parser), never silently reduced. -/
theorem hex_parse (s : List Char) (v : Nat) (h : Spec.readHex s = some v) :
    toInt64 s = (if v < 2 ^ 64 then some (BitVec.ofNat 64 v) else none) ∧
    toInt64 ('0' :: 'x' :: s) = toInt64 s ∧ toInt64 ('0' :: 'X' :: s) = toInt64 s ∧
    (v < 2 ^ 32 → toInt32 s = some (BitVec.ofNat 32 v)) := by
  have hs : s ≠ [] := by rintro rfl; simp [Spec.readHex] at h
  obtain ⟨c, t, rfl⟩ := List.exists_cons_of_ne_nil hs
  obtain ⟨h1, h2, h3⟩ := hexFold_digits (c :: t) 0 v h
  have hpl := hexDigit_plain c (h2 c (by simp))
  have hdv : (digitVal c).isSome := h2 c (by simp)
  have hsign : ∀ r : List Char, stripSign (c :: r) = (false, c :: r) := by
    intro r; unfold stripSign
    split
    · next heq => simp only [List.cons.injEq] at heq; exact absurd heq.1 hpl.2.1
    · next heq => simp only [List.cons.injEq] at heq; exact absurd heq.1 hpl.2.2.1
    · rfl
  have hpre : stripPrefix (c :: t) = c :: t := by
    unfold stripPrefix
    split
    · next x d u heq =>
      rw [heq, if_neg]
      rintro ⟨hx, -⟩
      have hmem : x ∈ c :: t := by rw [heq]; simp
      have := hexDigit_plain x (h2 x hmem)
      rcases hx with rfl | rfl
      · exact this.2.2.2.1 rfl
      · exact this.2.2.2.2 rfl
    · rfl
  have hne : leadingDigits (c :: t) ≠ [] := by
    intro h0; rw [h0] at h3; simp at h3
  have key : toInt64 (c :: t) = if v < 2 ^ 64 then some (BitVec.ofNat 64 v) else none := by
    unfold toInt64 stoull16
    rw [List.dropWhile_cons_of_neg (by simp [hpl.1]), hsign]
    simp only [hpre]
    rw [if_neg hne, h1]
    by_cases hv : v < 2 ^ 64
    · rw [if_neg (by omega), if_pos hv]; rfl
    · rw [if_pos (by omega), if_neg hv]
  have hx : ∀ x : Char, (x = 'x' ∨ x = 'X') → toInt64 ('0' :: x :: c :: t) = toInt64 (c :: t) := by
    intro x hx
    rw [key]
    unfold toInt64 stoull16
    have e1 : ('0' :: x :: c :: t).dropWhile isSpace = '0' :: x :: c :: t := List.dropWhile_cons_of_neg (by decide)
    have e2 : stripSign ('0' :: x :: c :: t) = (false, '0' :: x :: c :: t) := by
      unfold stripSign
      split
      · next heq => simp at heq
      · next heq => simp at heq
      · rfl
    have e3 : stripPrefix ('0' :: x :: c :: t) = c :: t := by
      unfold stripPrefix
      simp only
      rw [if_pos ⟨hx, hdv⟩]
    rw [e1, e2]
    simp only [e3]
    rw [if_neg hne, h1]
    by_cases hv : v < 2 ^ 64
    · rw [if_neg (by omega), if_pos hv]; rfl
    · rw [if_pos (by omega), if_neg hv]
  refine ⟨key, hx 'x' (Or.inl rfl), hx 'X' (Or.inr rfl), fun hv => ?_⟩
  have : toInt32 (c :: t) = (toInt64 (c :: t)).map (·.setWidth 32) := rfl
  rw [this, key, if_pos (by omega)]
  simp only [Option.map_some, Option.some.injEq]
  apply BitVec.eq_of_toNat_eq
  simp

example : Spec.readHex "dEadBeef".toList = some 0xDEADBEEF ∧
    Spec.readHex "10000000000000000".toList = some (2 ^ 64) := by decide

end Verif
