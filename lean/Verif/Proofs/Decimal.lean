import Verif.Model.Decimal
import Verif.Spec.Text
import Mathlib.Tactic.IntervalCases

namespace Verif
open Spec

theorem decimalDigit?_decDigit (d : Nat) (h : d < 10) : decimalDigit? (decDigit d) = some d := by
  interval_cases d <;> decide

theorem decDigit_ne_dot (d : Nat) (h : d < 10) : decDigit d ≠ '.' := by
  interval_cases d <;> decide

theorem decDigit_ne_space (d : Nat) (h : d < 10) : decDigit d ≠ ' ' := by
  interval_cases d <;> decide

theorem toDecimal_ne_nil (n : Nat) : toDecimal n ≠ [] := by
  rw [toDecimal]; split <;> simp

theorem toDecimal_chars (n : Nat) : ∀ c ∈ toDecimal n, ∃ d < 10, c = decDigit d := by
  induction n using Nat.strongRecOn with
  | ind n ih =>
    rw [toDecimal]
    split
    · next h => intro c hc; exact ⟨n, h, by simpa using hc⟩
    · next h =>
      intro c hc
      rcases List.mem_append.1 hc with hc | hc
      · exact ih _ (by omega) c hc
      · exact ⟨n % 10, Nat.mod_lt _ (by decide), by simpa using hc⟩

theorem foldl_toDecimal (n : Nat) :
    (toDecimal n).foldl (fun (acc : Option Nat) c => do return 10 * (← acc) + (← decimalDigit? c)) (some 0)
      = some n := by
  induction n using Nat.strongRecOn with
  | ind n ih =>
    rw [toDecimal]
    split
    · next h => simp [decimalDigit?_decDigit n h]
    · next h =>
      rw [List.foldl_append, ih _ (by omega)]
      simp [decimalDigit?_decDigit (n % 10) (Nat.mod_lt _ (by decide))]
      omega

theorem readDecimal_toDecimal (n : Nat) : readDecimal (toDecimal n) = some n := by
  unfold readDecimal
  split
  · next h => exact absurd h (toDecimal_ne_nil n)
  · exact foldl_toDecimal n

theorem splitAt_of_notMem (sep : Char) (s : List Char) (h : sep ∉ s) : Spec.splitAt sep s = [s] := by
  induction s with
  | nil => rfl
  | cons c cs ih =>
    simp only [List.mem_cons, not_or] at h
    rw [Spec.splitAt, ih h.2, if_neg (fun hc => h.1 hc.symm)]

theorem splitAt_append (sep : Char) (s t : List Char) (h : sep ∉ s) :
    Spec.splitAt sep (s ++ sep :: t) = s :: Spec.splitAt sep t := by
  induction s with
  | nil => simp [Spec.splitAt]
  | cons c cs ih =>
    simp only [List.mem_cons, not_or] at h
    rw [List.cons_append, Spec.splitAt, ih h.2, if_neg (fun hc => h.1 hc.symm)]

theorem dot_notMem_toDecimal (n : Nat) : '.' ∉ toDecimal n := by
  intro h
  obtain ⟨d, hd, hc⟩ := toDecimal_chars n _ h
  exact decDigit_ne_dot d hd hc.symm

theorem space_notMem_toDecimal (n : Nat) : ' ' ∉ toDecimal n := by
  intro h
  obtain ⟨d, hd, hc⟩ := toDecimal_chars n _ h
  exact decDigit_ne_space d hd hc.symm

end Verif
