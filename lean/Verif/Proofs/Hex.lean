import Verif.Model.Hex
import Verif.Spec.Text
import Mathlib.Tactic.Common
import Mathlib.Tactic.IntervalCases
import Mathlib.Tactic.Ring

namespace Verif
open Hex

theorem digits_facts : ∀ d < 16,
    Spec.hexDigit? (digits.getD d '?') = some d ∧ digitVal (digits.getD d '?') = some d ∧
    isSpace (digits.getD d '?') = false ∧ digits.getD d '?' ≠ '-' ∧ digits.getD d '?' ≠ '+' ∧
    digits.getD d '?' ≠ 'x' ∧ digits.getD d '?' ≠ 'X' ∧ digits.getD d '?' ∈ digits := by
  intro d hd
  interval_cases d <;> decide

theorem nibble_toNat {p : Nat} (hp : 4 ≤ p) (v : BitVec p) (j : Nat) :
    ((v >>> j) &&& 0xF#p).toNat = v.toNat / 2 ^ j % 16 := by
  have h15 : 15 % 2 ^ p = 2 ^ 4 - 1 := by
    have h : 15 < 2 ^ p := lt_of_lt_of_le (by decide : 15 < 2 ^ 4) (Nat.pow_le_pow_right (by decide) hp)
    rw [Nat.mod_eq_of_lt h]; rfl
  rw [BitVec.toNat_and, BitVec.toNat_ushiftRight, Nat.shiftRight_eq_div_pow, BitVec.toNat_ofNat, h15,
    Nat.and_two_pow_sub_one_eq_mod]

/-- The loop yields exactly the base-16 digits of `v`, most significant first. -/
theorem toHexLoop_eq {p : Nat} (hp : 4 ≤ p) (v : BitVec p) (n : Nat) (hn : 4 * n ≤ p) :
    toHexLoop v n ((n - 1) * 4) =
      some ((List.range n).reverse.map (fun i => digits.getD (v.toNat / 16 ^ i % 16) '?')) := by
  induction n with
  | zero => simp [toHexLoop]
  | succ n ih =>
    have hj : (n + 1 - 1) * 4 - 4 = (n - 1) * 4 := by omega
    rw [toHexLoop, if_neg (by omega), hj, ih (by omega), nibble_toNat hp]
    simp only [List.range_succ, List.reverse_append, List.reverse_cons, List.reverse_nil, List.nil_append,
      List.singleton_append, List.map_cons]
    rw [show (n + 1 - 1) * 4 = 4 * n by omega, Nat.pow_mul]

theorem toHexLoop_none {p : Nat} (v : BitVec p) (n j : Nat) (hn : 0 < n) (hj : p ≤ j) :
    toHexLoop v n j = none := by
  cases n with
  | zero => omega
  | succ n => rw [toHexLoop, if_pos hj]

/-- The value of the digit list. -/
theorem foldl_digits (v : Nat) (n : Nat) (a : Nat) :
    ((List.range n).reverse.map (fun i => digits.getD (v / 16 ^ i % 16) '?')).foldl
      (fun (acc : Option Nat) c => do return 16 * (← acc) + (← Spec.hexDigit? c)) (some a)
      = some (a * 16 ^ n + v % 16 ^ n) := by
  induction n generalizing a with
  | zero => simp [Nat.mod_one]
  | succ n ih =>
    simp only [List.range_succ, List.reverse_append, List.reverse_cons, List.reverse_nil, List.nil_append,
      List.singleton_append, List.map_cons, List.foldl_cons]
    have hd := (digits_facts (v / 16 ^ n % 16) (Nat.mod_lt _ (by decide))).1
    rw [hd]
    refine (ih (16 * a + v / 16 ^ n % 16)).trans ?_
    congr 1
    have : v % 16 ^ (n + 1) = v % 16 ^ n + 16 ^ n * (v / 16 ^ n % 16) := by
      rw [Nat.pow_succ, Nat.mod_mul]
    rw [this]; ring

theorem leadingDigits_eq (v : Nat) (n : Nat) :
    leadingDigits ((List.range n).reverse.map (fun i => digits.getD (v / 16 ^ i % 16) '?')) =
      (List.range n).reverse.map (fun i => v / 16 ^ i % 16) := by
  generalize (List.range n).reverse = l
  induction l with
  | nil => rfl
  | cons i l ih =>
    have hd := (digits_facts (v / 16 ^ i % 16) (Nat.mod_lt _ (by decide))).2.1
    rw [List.map_cons, leadingDigits, hd]
    simp only [List.map_cons, ih]

theorem foldl_values (v : Nat) (n : Nat) (a : Nat) :
    ((List.range n).reverse.map (fun i => v / 16 ^ i % 16)).foldl (fun acc d => 16 * acc + d) a
      = a * 16 ^ n + v % 16 ^ n := by
  induction n generalizing a with
  | zero => simp [Nat.mod_one]
  | succ n ih =>
    simp only [List.range_succ, List.reverse_append, List.reverse_cons, List.reverse_nil, List.nil_append,
      List.singleton_append, List.map_cons, List.foldl_cons]
    rw [ih]
    have : v % 16 ^ (n + 1) = v % 16 ^ n + 16 ^ n * (v / 16 ^ n % 16) := by
      rw [Nat.pow_succ, Nat.mod_mul]
    rw [this]; ring

/-- `strtoul` reads a printed digit list back. -/
theorem stoull16_digits (v n : Nat) (hn : 0 < n) (hv : v % 16 ^ n < 2 ^ 64) :
    stoull16 ((List.range n).reverse.map (fun i => digits.getD (v / 16 ^ i % 16) '?')) =
      some (BitVec.ofNat 64 (v % 16 ^ n)) := by
  set f : Nat → Char := fun i => digits.getD (v / 16 ^ i % 16) '?' with hf
  have hfacts := fun i => digits_facts (v / 16 ^ i % 16) (Nat.mod_lt _ (by decide))
  have hdrop : ((List.range n).reverse.map f).dropWhile isSpace = (List.range n).reverse.map f := by
    cases h : (List.range n).reverse with
    | nil => simp
    | cons i l =>
      have : isSpace (f i) = false := (hfacts i).2.2.1
      simp [this]
  have hsign : stripSign ((List.range n).reverse.map f) = (false, (List.range n).reverse.map f) := by
    cases h : (List.range n).reverse with
    | nil => simp [stripSign]
    | cons i l =>
      have h1 : f i ≠ '-' := (hfacts i).2.2.2.1
      have h2 : f i ≠ '+' := (hfacts i).2.2.2.2.1
      simp only [List.map_cons]
      unfold stripSign
      split
      · next heq => simp only [List.cons.injEq] at heq; exact absurd heq.1 h1
      · next heq => simp only [List.cons.injEq] at heq; exact absurd heq.1 h2
      · rfl
  have hpre : stripPrefix ((List.range n).reverse.map f) = (List.range n).reverse.map f := by
    unfold stripPrefix
    split
    · next x c t heq =>
      rw [heq, if_neg]
      rintro ⟨hx, -⟩
      have : x ∈ (List.range n).reverse.map f := by rw [heq]; simp
      obtain ⟨i, -, hi⟩ := List.mem_map.1 this
      rcases hx with hx | hx
      · exact (hfacts i).2.2.2.2.2.1 (hi.trans hx)
      · exact (hfacts i).2.2.2.2.2.2.1 (hi.trans hx)
    · rfl
  unfold stoull16
  rw [hdrop, hsign]
  simp only [hpre]
  rw [hf, leadingDigits_eq, foldl_values]
  rw [if_neg (by simp; omega), if_neg (by simpa using hv)]
  simp

end Verif
