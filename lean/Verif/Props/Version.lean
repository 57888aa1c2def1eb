import Verif.Model.Version
import Verif.Proofs.Decimal
import Mathlib.Tactic.Ring

/-!
# C01 - C03: versions
-/

namespace Verif
open Version

theorem Version.encode_toNat (v : Version) : v.encode.toNat =
    v.major.toNat * 2 ^ 24 + v.minor.toNat * 2 ^ 16 + v.patch.toNat * 2 ^ 8 + v.build.toNat := by
  have h1 := v.major.isLt; have h2 := v.minor.isLt; have h3 := v.patch.isLt; have h4 := v.build.isLt
  have e1 : v.major.toNat % 2 ^ 32 = v.major.toNat := Nat.mod_eq_of_lt (by omega)
  have e2 : v.minor.toNat % 2 ^ 32 = v.minor.toNat := Nat.mod_eq_of_lt (by omega)
  have e3 : v.patch.toNat % 2 ^ 32 = v.patch.toNat := Nat.mod_eq_of_lt (by omega)
  have e4 : v.build.toNat % 2 ^ 32 = v.build.toNat := Nat.mod_eq_of_lt (by omega)
  have s1 : (v.major.toNat <<< 24) % 2 ^ 32 = v.major.toNat * 2 ^ 24 := by
    rw [Nat.shiftLeft_eq]; exact Nat.mod_eq_of_lt (by omega)
  have s2 : (v.minor.toNat <<< 16) % 2 ^ 32 = v.minor.toNat * 2 ^ 16 := by
    rw [Nat.shiftLeft_eq]; exact Nat.mod_eq_of_lt (by omega)
  have s3 : (v.patch.toNat <<< 8) % 2 ^ 32 = v.patch.toNat * 2 ^ 8 := by
    rw [Nat.shiftLeft_eq]; exact Nat.mod_eq_of_lt (by omega)
  simp only [encode, BitVec.toNat_or, BitVec.toNat_shiftLeft, BitVec.toNat_setWidth, e1, e2, e3, e4,
    s1, s2, s3]
  have a1 : v.major.toNat * 2 ^ 24 ||| v.minor.toNat * 2 ^ 16 =
      v.major.toNat * 2 ^ 24 + v.minor.toNat * 2 ^ 16 := by
    have := Nat.shiftLeft_add_eq_or_of_lt (b := v.minor.toNat * 2 ^ 16) (i := 24) (by omega) v.major.toNat
    rw [Nat.shiftLeft_eq] at this; exact this.symm
  have a2 : v.major.toNat * 2 ^ 24 + v.minor.toNat * 2 ^ 16 ||| v.patch.toNat * 2 ^ 8 =
      v.major.toNat * 2 ^ 24 + v.minor.toNat * 2 ^ 16 + v.patch.toNat * 2 ^ 8 := by
    have := Nat.shiftLeft_add_eq_or_of_lt (b := v.patch.toNat * 2 ^ 8) (i := 16) (by omega)
      (v.major.toNat * 2 ^ 8 + v.minor.toNat)
    rw [Nat.shiftLeft_eq] at this
    have e : (v.major.toNat * 2 ^ 8 + v.minor.toNat) * 2 ^ 16 =
      v.major.toNat * 2 ^ 24 + v.minor.toNat * 2 ^ 16 := by ring
    rw [e] at this; exact this.symm
  have a3 : v.major.toNat * 2 ^ 24 + v.minor.toNat * 2 ^ 16 + v.patch.toNat * 2 ^ 8 ||| v.build.toNat =
      v.major.toNat * 2 ^ 24 + v.minor.toNat * 2 ^ 16 + v.patch.toNat * 2 ^ 8 + v.build.toNat := by
    have := Nat.shiftLeft_add_eq_or_of_lt (b := v.build.toNat) (i := 8) (by omega)
      (v.major.toNat * 2 ^ 16 + v.minor.toNat * 2 ^ 8 + v.patch.toNat)
    rw [Nat.shiftLeft_eq] at this
    have e : (v.major.toNat * 2 ^ 16 + v.minor.toNat * 2 ^ 8 + v.patch.toNat) * 2 ^ 8 =
      v.major.toNat * 2 ^ 24 + v.minor.toNat * 2 ^ 16 + v.patch.toNat * 2 ^ 8 := by ring
    rw [e] at this; exact this.symm
  rw [a1, a2, a3]

theorem Version.decode_toNat (n : BitVec 32) :
    (decode n).major.toNat = n.toNat / 2 ^ 24 ∧ (decode n).minor.toNat = n.toNat / 2 ^ 16 % 2 ^ 8 ∧
    (decode n).patch.toNat = n.toNat / 2 ^ 8 % 2 ^ 8 ∧ (decode n).build.toNat = n.toNat % 2 ^ 8 := by
  have h := n.isLt
  have and255 : ∀ m : Nat, m &&& 255 = m % 2 ^ 8 := fun m => Nat.and_two_pow_sub_one_eq_mod m 8
  refine ⟨?_, ?_, ?_, ?_⟩ <;>
  simp only [decode, BitVec.toNat_setWidth, BitVec.toNat_and, BitVec.toNat_ushiftRight,
    Nat.shiftRight_eq_div_pow, BitVec.toNat_ofNat, Nat.reduceMod, Nat.reducePow, and255] <;> omega

/-- **C01** (decode after encode): constructing a version from its own encoding gives it back. -/
theorem version_decode_encode (v : Version) : decode (encode v) = v := by
  have h := encode_toNat v
  obtain ⟨d1, d2, d3, d4⟩ := decode_toNat (encode v)
  have h1 := v.major.isLt; have h2 := v.minor.isLt; have h3 := v.patch.isLt; have h4 := v.build.isLt
  have b1 : (decode (encode v)).major = v.major := BitVec.eq_of_toNat_eq (by omega)
  have b2 : (decode (encode v)).minor = v.minor := BitVec.eq_of_toNat_eq (by omega)
  have b3 : (decode (encode v)).patch = v.patch := BitVec.eq_of_toNat_eq (by omega)
  have b4 : (decode (encode v)).build = v.build := BitVec.eq_of_toNat_eq (by omega)
  cases hv : decode (encode v); cases v; simp_all

/-- **C01** (encode after decode): every 32-bit word is the encoding of the version decoded from it. -/
theorem version_encode_decode (n : BitVec 32) : encode (decode n) = n := by
  obtain ⟨d1, d2, d3, d4⟩ := decode_toNat n
  have h := n.isLt
  exact BitVec.eq_of_toNat_eq (by rw [encode_toNat]; omega)

/-- **C01** (layout): the encoding is the big-endian positional value of the four parts. -/
theorem version_encode_value (v : Version) : v.encode.toNat =
    ((v.major.toNat * 256 + v.minor.toNat) * 256 + v.patch.toNat) * 256 + v.build.toNat := by
  rw [encode_toNat]; omega

example : decode (encode ⟨1, 2, 3, 4⟩) = ⟨1, 2, 3, 4⟩ := version_decode_encode _
example : encode ⟨1, 2, 3, 4⟩ = 0x01020304#32 := by decide

/-- Specification for C02: lexicographic "older than" on the four parts. -/
def Spec.olderVersion (a b : Version) : Prop :=
  a.major.toNat < b.major.toNat ∨ (a.major = b.major ∧
    (a.minor.toNat < b.minor.toNat ∨ (a.minor = b.minor ∧
      (a.patch.toNat < b.patch.toNat ∨ (a.patch = b.patch ∧ a.build.toNat < b.build.toNat)))))

theorem olderVersion_iff (a b : Version) : Spec.olderVersion a b ↔ a.encode.toNat < b.encode.toNat := by
  rw [encode_toNat, encode_toNat]
  unfold Spec.olderVersion
  rw [← BitVec.toNat_inj, ← BitVec.toNat_inj, ← BitVec.toNat_inj]
  have := a.major.isLt; have := a.minor.isLt; have := a.patch.isLt; have := a.build.isLt
  have := b.major.isLt; have := b.minor.isLt; have := b.patch.isLt; have := b.build.isLt
  omega

theorem Version.encode_inj (a b : Version) : a.encode = b.encode ↔ a = b :=
  ⟨fun h => by rw [← version_decode_encode a, h, version_decode_encode], fun h => by rw [h]⟩

/-- **C02**: all six comparison operators agree with lexicographic comparison of the parts. -/
theorem version_compare (a b : Version) :
    (lt a b = true ↔ Spec.olderVersion a b) ∧
    (gt a b = true ↔ Spec.olderVersion b a) ∧
    (le a b = true ↔ Spec.olderVersion a b ∨ a = b) ∧
    (ge a b = true ↔ Spec.olderVersion b a ∨ a = b) ∧
    (eq a b = true ↔ a = b) ∧ (ne a b = true ↔ a ≠ b) := by
  have key : a = b ↔ a.encode.toNat = b.encode.toNat := by
    rw [← Version.encode_inj, BitVec.toNat_inj]
  refine ⟨?_, ?_, ?_, ?_, ?_, ?_⟩
  · simp [lt, BitVec.ult, olderVersion_iff]
  · simp [gt, BitVec.ult, olderVersion_iff]
  · rw [key]; simp [le, BitVec.ule, olderVersion_iff]; omega
  · rw [key]; simp [ge, BitVec.ule, olderVersion_iff]; omega
  · simp [eq, Version.encode_inj]
  · simp [ne, Version.encode_inj]

/-- **C02** (order laws): `<` is a strict total order on versions. -/
theorem version_strict_total_order :
    (∀ a, lt a a = false) ∧
    (∀ a b c, lt a b = true → lt b c = true → lt a c = true) ∧
    (∀ a b, lt a b = true ∨ a = b ∨ lt b a = true) := by
  have key : ∀ a b : Version, lt a b = true ↔ a.encode.toNat < b.encode.toNat := by
    intro a b; simp [lt, BitVec.ult]
  refine ⟨?_, ?_, ?_⟩
  · intro a; simp [lt, BitVec.ult]
  · intro a b c h1 h2; rw [key] at *; omega
  · intro a b
    rw [key, key, ← Version.encode_inj, ← BitVec.toNat_inj]; omega

example : lt ⟨1, 255, 255, 255⟩ ⟨2, 0, 0, 0⟩ = true := by decide
example : Spec.olderVersion ⟨1, 2, 3, 4⟩ ⟨1, 2, 4, 0⟩ := by
  right; refine ⟨rfl, Or.inr ⟨rfl, Or.inl ?_⟩⟩; decide

/-- **C03**: reading the printed string back — splitting at the dots and reading each piece as a decimal
number — gives exactly the four parts, for every version; likewise for the shorter forms. -/
theorem version_string_reads_back (v : Version) :
    (Spec.splitAt '.' v.toString4).map Spec.readDecimal =
      [some v.major.toNat, some v.minor.toNat, some v.patch.toNat, some v.build.toNat] ∧
    (Spec.splitAt '.' v.toString3).map Spec.readDecimal =
      [some v.major.toNat, some v.minor.toNat, some v.patch.toNat] ∧
    (Spec.splitAt '.' v.toString2).map Spec.readDecimal =
      [some v.major.toNat, some v.minor.toNat] ∧
    (Spec.splitAt '.' v.toString1).map Spec.readDecimal = [some v.major.toNat] := by
  refine ⟨?_, ?_, ?_, ?_⟩ <;>
  simp [toString1, toString2, toString3, toString4, splitAt_append, splitAt_of_notMem,
    dot_notMem_toDecimal, readDecimal_toDecimal]

/-- **C03** (injectivity): equal four-part strings come from equal versions. -/
theorem version_toString4_injective (a b : Version) (h : a.toString4 = b.toString4) : a = b := by
  have ha := (version_string_reads_back a).1
  rw [h, (version_string_reads_back b).1] at ha
  simp only [List.cons.injEq, Option.some.injEq, and_true] at ha
  obtain ⟨h1, h2, h3, h4⟩ := ha
  cases a; cases b
  simp only [Version.mk.injEq]
  exact ⟨BitVec.eq_of_toNat_eq h1.symm, BitVec.eq_of_toNat_eq h2.symm, BitVec.eq_of_toNat_eq h3.symm,
    BitVec.eq_of_toNat_eq h4.symm⟩

example : String.ofList (toString4 ⟨1, 20, 0, 255⟩) = "1.20.0.255" := by
  simp [toString4, toDecimal, decDigit]

/-- **C03** (indexing): `v[i]` is the i-th printed part, and indices above 3 are rejected. -/
theorem version_part (v : Version) (i : Nat) :
    v.part i = [v.major, v.minor, v.patch, v.build][i]? := by
  match i with
  | 0 | 1 | 2 | 3 => rfl
  | n + 4 => simp [part]

end Verif
