import Verif.Model.Packed
import Mathlib.Tactic.Common
import Mathlib.Tactic.IntervalCases

/-!
# C13 - C17: packed vectors
-/

namespace Verif
open Packed

/-! ### Bit-level facts -/

theorem shift_eq (k : Bits) (i : Nat) : shift k i = i % (8 / k.num) * k.num ∧ shift k i + k.num ≤ 8 := by
  cases k <;> simp [shift, Bits.num] <;> omega

theorem mask_bit (k : Bits) (j : Nat) : (mask k).getLsbD j = decide (j < k.num) := by
  by_cases h : j < 8
  · cases k <;> (simp only [mask, Bits.num]; interval_cases j <;> rfl)
  · have h2 : ¬ j < k.num := by cases k <;> simp [Bits.num] <;> omega
    rw [BitVec.getLsbD_of_ge _ _ (by omega)]
    simp [h2]

theorem getByte_bit (k : Bits) (b : BitVec 8) (sh j : Nat) (h : sh + k.num ≤ 8) :
    (toByte ((toInt b >>> sh) &&& toInt (mask k))).getLsbD j = (decide (j < k.num) && b.getLsbD (sh + j)) := by
  have := mask_bit k j
  simp only [toByte, toInt, BitVec.getLsbD_setWidth, BitVec.getLsbD_and, BitVec.getLsbD_ushiftRight, this]
  by_cases hj : j < k.num
  · have : j < 8 := by omega
    have : j < 32 := by omega
    have : sh + j < 32 := by omega
    simp [*]
  · simp [hj]

theorem putByte_bit (k : Bits) (b : BitVec 8) (sh : Nat) (v : BitVec 8) (j : Nat) (hj : j < 8) :
    (putByte k b sh v).getLsbD j =
      if sh ≤ j ∧ j < sh + k.num then v.getLsbD (j - sh) else b.getLsbD j := by
  have hm := mask_bit k (j - sh)
  simp only [putByte, toByte, toInt, BitVec.getLsbD_setWidth, BitVec.getLsbD_or, BitVec.getLsbD_and,
    BitVec.getLsbD_not, BitVec.getLsbD_shiftLeft, hm]
  have h1 : j < 32 := by omega
  have h2 : j - sh < 32 := by omega
  by_cases hs : sh ≤ j
  · by_cases ht : j < sh + k.num
    · have h3 : j - sh < k.num := by omega
      have h4 : ¬ j < sh := by omega
      simp [*]
    · have h3 : ¬ j - sh < k.num := by omega
      simp [*]
  · have h4 : j < sh := by omega
    simp [*]

/-- The element read from a byte. -/
theorem getByte_value (k : Bits) (b : BitVec 8) (sh : Nat) (v : BitVec 8) (h : sh + k.num ≤ 8) :
    toByte ((toInt (putByte k b sh v) >>> sh) &&& toInt (mask k)) = BitVec.ofNat 8 (v.toNat % 2 ^ k.num) := by
  apply BitVec.eq_of_getLsbD_eq
  intro j hj
  rw [getByte_bit k _ sh j h, BitVec.getLsbD_ofNat, Nat.testBit_mod_two_pow]
  by_cases hk : j < k.num
  · rw [putByte_bit k b sh v (sh + j) (by omega), if_pos ⟨by omega, by omega⟩]
    simp [hk, hj, BitVec.getLsbD]
  · simp [hk]

theorem getByte_other (k : Bits) (b : BitVec 8) (sh sh' : Nat) (v : BitVec 8) (h' : sh' + k.num ≤ 8)
    (hd : sh + k.num ≤ sh' ∨ sh' + k.num ≤ sh) :
    toByte ((toInt (putByte k b sh v) >>> sh') &&& toInt (mask k)) =
      toByte ((toInt b >>> sh') &&& toInt (mask k)) := by
  apply BitVec.eq_of_getLsbD_eq
  intro j hj
  rw [getByte_bit k _ sh' j h', getByte_bit k _ sh' j h']
  by_cases hk : j < k.num
  · rw [putByte_bit k b sh v (sh' + j) (by omega), if_neg (by omega)]
  · simp [hk]

/-- The storage of a packed vector holds exactly `8 * bytes / Bits` elements. -/
def Packed.capacity (k : Bits) (s : Bytes) : Nat := 8 / k.num * s.length

theorem byteIndex_lt (k : Bits) (s : Bytes) (i : Nat) : byteIndex k i < s.length ↔ i < capacity k s := by
  cases k <;> simp [byteIndex, capacity, Bits.num] <;> omega

theorem unsafeGet_some (k : Bits) (s : Bytes) (i : Nat) :
    (unsafeGet k s i).isSome ↔ i < capacity k s := by
  rw [← byteIndex_lt]
  unfold unsafeGet
  by_cases h : byteIndex k i < s.length
  · simp [h]
  · simp [h]

theorem unsafeSet_some (k : Bits) (s : Bytes) (i : Nat) (v : BitVec 8) :
    (unsafeSet k s i v).isSome ↔ i < capacity k s := by
  rw [← byteIndex_lt]
  unfold unsafeSet
  by_cases h : byteIndex k i < s.length
  · simp [h]
  · simp [h]

/-- **C13**: after writing `v` at an addressable index, reading that index yields `v` modulo `2^Bits`. -/
theorem packed_get_set (k : Bits) (s : Bytes) (i : Nat) (v : BitVec 8) (hi : i < capacity k s) :
    ∃ t, unsafeSet k s i v = some t ∧ unsafeGet k t i = some (BitVec.ofNat 8 (v.toNat % 2 ^ k.num)) := by
  rw [← byteIndex_lt] at hi
  refine ⟨s.set (byteIndex k i) (putByte k s[byteIndex k i] (shift k i) v), by simp [unsafeSet, hi], ?_⟩
  simp only [unsafeGet, List.getElem?_set, if_true, List.length_set, hi]
  rw [getByte_value k _ _ v (shift_eq k i).2]

/-- **C14** (one write): writing index `i` changes neither the size nor the value read at any other
index (including whether it is addressable). -/
theorem packed_set_other (k : Bits) (s t : Bytes) (i j : Nat) (v : BitVec 8)
    (h : unsafeSet k s i v = some t) (hij : i ≠ j) :
    t.length = s.length ∧ unsafeGet k t j = unsafeGet k s j := by
  have hi : byteIndex k i < s.length := by
    rw [byteIndex_lt, ← unsafeSet_some k s i v, h]; rfl
  have ht : t = s.set (byteIndex k i) (putByte k s[byteIndex k i] (shift k i) v) := by
    have : unsafeSet k s i v = some (s.set (byteIndex k i) (putByte k s[byteIndex k i] (shift k i) v)) := by
      simp [unsafeSet, hi]
    rw [this] at h; exact (Option.some.inj h).symm
  subst ht
  refine ⟨by simp, ?_⟩
  unfold unsafeGet
  by_cases hb : byteIndex k j = byteIndex k i
  · rw [hb]
    simp only [List.getElem?_set, if_true, hi, List.getElem?_eq_getElem]
    congr 1
    apply getByte_other k _ _ _ v (shift_eq k j).2
    cases k <;> simp [shift, byteIndex, Bits.num] at hb ⊢ <;> omega
  · rw [List.getElem?_set_ne (Ne.symm hb)]

/-- What a user sees: the list of all elements. -/
def Packed.contents (k : Bits) (s : Bytes) : List (Option (BitVec 8)) :=
  (List.range (capacity k s)).map (unsafeGet k s)

/-- Run a sequence of writes; out-of-range writes are undefined (`none`). -/
def Packed.runWrites (k : Bits) : Bytes → List (Nat × BitVec 8) → Option Bytes
  | s, [] => some s
  | s, (i, v) :: ws => match unsafeSet k s i v with
    | some t => runWrites k t ws
    | none => none

/-- Specification: the value an independent array of small integers holds at `j` after the writes. -/
def Spec.lastWrite (k : Nat) (init : BitVec 8) (j : Nat) : List (Nat × BitVec 8) → BitVec 8
  | [] => init
  | (i, v) :: ws => lastWrite k (if i = j then BitVec.ofNat 8 (v.toNat % 2 ^ k) else init) j ws

/-- **C14** (histories): under any sequence of in-range writes, of any length, a packed vector behaves as an
array of independent `Bits`-bit integers: the sequence is defined, the size is unchanged, and reading any
index gives the value of the last write to that index, or the initial value. -/
theorem packed_history (k : Bits) (s : Bytes) (ws : List (Nat × BitVec 8))
    (hw : ∀ p ∈ ws, p.1 < capacity k s) :
    ∃ t, runWrites k s ws = some t ∧ t.length = s.length ∧
      ∀ j x, unsafeGet k s j = some x → unsafeGet k t j = some (Spec.lastWrite k.num x j ws) := by
  induction ws generalizing s with
  | nil => exact ⟨s, rfl, rfl, fun j x h => h⟩
  | cons p ws ih =>
    obtain ⟨i, v⟩ := p
    have hi : i < capacity k s := hw (i, v) (by simp)
    obtain ⟨t, ht, hg⟩ := packed_get_set k s i v hi
    have hlen : t.length = s.length := (packed_set_other k s t i (i + 1) v ht (by omega)).1
    obtain ⟨u, hu, hul, hr⟩ := ih t (by
      intro p hp
      have := hw p (by simp [hp])
      unfold capacity at *; rw [hlen]; exact this)
    refine ⟨u, by simp [runWrites, ht, hu], by omega, ?_⟩
    intro j x hx
    unfold Spec.lastWrite
    apply hr
    by_cases hij : i = j
    · subst hij
      have : i < capacity k s := (unsafeGet_some k s i).1 (by rw [hx]; rfl)
      rw [if_pos rfl, hg]
    · rw [if_neg hij, (packed_set_other k s t i j v ht hij).2, hx]

example : runWrites .two [0, 0] [(1, 3), (5, 6), (1, 1)] = some [0x04, 0x08] ∧
    unsafeGet .two [0x04, 0x08] 5 = some 2 := by decide

/-! ### C15: resize -/

/-- **C15, partial**: after `resize(n)` every index below `n` is addressable, fewer than 8 bits are spare,
every element below both capacities keeps its value, and every element beyond the old storage reads 0.
Missing: elements above the previous element count but inside the last old byte need not read 0, see
`packed_resize_counterexample`. -/
theorem packed_resize_partial (k : Bits) (s : Bytes) (n : Nat) :
    n ≤ capacity k (resize k s n) ∧ 8 * (resize k s n).length < n * k.num + 8 ∧
    (∀ i, i < capacity k s → i < capacity k (resize k s n) →
      unsafeGet k (resize k s n) i = unsafeGet k s i) ∧
    (∀ i, capacity k s ≤ i → i < capacity k (resize k s n) → unsafeGet k (resize k s n) i = some 0) := by
  have hlen : (resize k s n).length = byteCount k n := by
    simp [resize, resizeBytes]; omega
  have hc : capacity k (resize k s n) = 8 / k.num * byteCount k n := by rw [capacity, hlen]
  refine ⟨?_, ?_, ?_, ?_⟩
  · rw [hc]
    cases k <;> simp only [Bits.num, byteCount] <;> split <;> omega
  · rw [hlen]
    cases k <;> simp only [Bits.num, byteCount] <;> split <;> omega
  · intro i h1 h2
    rw [← byteIndex_lt] at h1 h2
    rw [hlen] at h2
    unfold unsafeGet
    have : (resize k s n)[byteIndex k i]? = s[byteIndex k i]? := by
      simp only [resize, resizeBytes]
      rw [List.getElem?_append_left (by simp; omega), List.getElem?_take_of_lt h2]
    rw [this]
  · intro i h1 h2
    have h1' : ¬ byteIndex k i < s.length := by rw [byteIndex_lt]; omega
    rw [← byteIndex_lt, hlen] at h2
    unfold unsafeGet
    have : (resize k s n)[byteIndex k i]? = some 0 := by
      simp only [resize, resizeBytes]
      rw [List.getElem?_append_right (by simp; omega), List.getElem?_replicate]
      simp; omega
    rw [this]
    simp [toByte, toInt]

/-- **C15** (constructor): a vector made with `n` elements reads 0 at every index below `n`. -/
theorem packed_new_zero (k : Bits) (n i : Nat) (hi : i < n) : unsafeGet k (new k n) i = some 0 := by
  have h := packed_resize_partial k [] n
  exact h.2.2.2 i (by simp [capacity]) (by have := h.1; omega)

/-- **C15 fails**: after shrinking and growing again, a new element need not read 0: the element count is
not stored and spare bits are not cleared. Here 8 one-bit elements are made, index 5 is set, the vector is
resized to 3 and back to 8 elements; index 5 reads 1. -/
theorem packed_resize_counterexample :
    ¬ (∀ (k : Bits) (s : Bytes) (n m i : Nat), n ≤ i → i < m → m ≤ capacity k s →
      unsafeGet k (resize k (resize k s n) m) i = some 0) := by
  intro h
  have := h .one [0x20] 3 8 5 (by decide) (by decide) (by decide)
  revert this; decide

/-! ### C16: checked access -/

/-- **C16, partial** (`Bits` 1 and 2): the assertion of `get`/`set` fails exactly when the access would
leave the storage, so a checked access is never undefined. Missing: `Bits = 4`, where the assertion is too
weak, see `packed_checked_counterexample`. -/
theorem packed_checked_partial (k : Bits) (hk : k ≠ .four) (s : Bytes) (i : Nat) (v : BitVec 8) :
    (Packed.get k s i = .assertFailed ↔ unsafeGet k s i = none) ∧ Packed.get k s i ≠ .undefined ∧
    (Packed.set k s i v = .assertFailed ↔ unsafeSet k s i v = none) ∧ Packed.set k s i v ≠ .undefined := by
  have ha : assertion k s i = decide (byteIndex k i < s.length) := by
    cases k
    · rfl
    · rfl
    · exact absurd rfl hk
  have hg := unsafeGet_some k s i
  have hs := unsafeSet_some k s i v
  rw [← byteIndex_lt] at hg hs
  unfold Packed.get Packed.set
  rw [ha]
  by_cases h : byteIndex k i < s.length
  · have hg' := hg.2 h; have hs' := hs.2 h
    cases h1 : unsafeGet k s i <;> cases h2 : unsafeSet k s i v <;> simp_all
  · have hg' : unsafeGet k s i = none := by
      cases h1 : unsafeGet k s i <;> simp_all
    have hs' : unsafeSet k s i v = none := by
      cases h1 : unsafeSet k s i v <;> simp_all
    simp [h, hg', hs']

/-- **C16** (`Bits` 4, sound half): the assertion never rejects a valid access. -/
theorem packed_checked_no_false_alarm (k : Bits) (s : Bytes) (i : Nat) (x : BitVec 8)
    (h : unsafeGet k s i = some x) : Packed.get k s i = .ok x := by
  have hi := (unsafeGet_some k s i).1 (by rw [h]; rfl)
  have ha : assertion k s i = true := by
    cases k <;> simp [assertion, capacity, Bits.num] at hi ⊢ <;> omega
  simp [Packed.get, ha, h]

/-- **C16 fails for 4-bit elements**: for every non-empty vector there are indices which pass the assertion
of `get` and read outside the storage (all of `2 * bytes, ..., 8 * bytes - 1`). -/
theorem packed_checked_counterexample (s : Bytes) (i : Nat) (h1 : 2 * s.length ≤ i) (h2 : i < 8 * s.length)
    (v : BitVec 8) : Packed.get .four s i = .undefined ∧ Packed.set .four s i v = .undefined := by
  have ha : assertion .four s i = true := by simp [assertion]; omega
  have hg : unsafeGet .four s i = none := by
    have := unsafeGet_some .four s i
    cases h : unsafeGet .four s i
    · rfl
    · rw [h] at this; simp [capacity, Bits.num] at this; omega
  have hs : unsafeSet .four s i v = none := by
    have := unsafeSet_some .four s i v
    cases h : unsafeSet .four s i v
    · rfl
    · rw [h] at this; simp [capacity, Bits.num] at this; omega
  simp [Packed.get, Packed.set, ha, hg, hs]

example : Packed.get .four [0x21] 1 = .ok 2 ∧ Packed.get .four [0x21] 7 = .undefined ∧
    Packed.get .one [0x21] 8 = .assertFailed := by decide

/-! ### C17: copies -/

/-- **C17 fails** (aliasing): make a vector, copy it, write through the copy: the original changes. -/
theorem packed_copy_counterexample :
    ¬ (∀ (k : Bits) (h h' : Heap) (o c : Obj) (h'' : Heap) (i : Nat) (v : BitVec 8),
      Obj.copy h o = (h', c) → Obj.set k h' c i v = some h'' →
      Obj.get k h'' o i = Obj.get k h' o i) := by
  intro hall
  let p := Obj.new .one ⟨[]⟩ 8
  let q := Obj.copy p.1 p.2
  have := hall .one p.1 q.1 p.2 q.2 ⟨[some [1], some [0]]⟩ 0 1 rfl (by decide)
  revert this; decide

/-- **C17 fails** (dangling pointer): make a vector with 8 elements, copy it, destroy the original: every
access to the copy is then undefined. -/
theorem packed_copy_dangles (k : Bits) (n i : Nat) :
    let p := Obj.new k ⟨[]⟩ n
    let q := Obj.copy p.1 p.2
    Obj.get k (Obj.destroy q.1 p.2) q.2 i = none := by
  simp [Obj.new, Obj.resize, Obj.copy, Obj.destroy, Heap.alloc, Heap.free, Heap.read, Obj.get]

/-- A well-formed object: its pointer refers to its own allocated block. -/
def Packed.Fresh (h : Heap) (o : Obj) : Prop :=
  ∃ b s, o.block = some b ∧ o.ptr = some b ∧ h.read (some b) = some s

theorem read_lt {h : Heap} {b : Nat} {s : Bytes} (hr : h.read (some b) = some s) : b < h.blocks.length := by
  by_contra hb
  have : h.blocks[b]? = none := List.getElem?_eq_none (by omega)
  simp [Heap.read, this] at hr

/-- **C17, partial** (after `resize`): resizing a copy re-establishes its own pointer, and from then on
writes through either object do not change what is read through the other, and destroying either leaves the
other readable. Missing: a copy used without a `resize`, see the counterexamples. -/
theorem packed_copy_partial (k : Bits) (h : Heap) (o : Obj) (n : Nat) (ho : Fresh h o) :
    let q := Obj.copy h o
    let r := Obj.resize k q.1 q.2 n
    Fresh r.1 r.2 ∧ Fresh r.1 o ∧
    (∀ i v h', Obj.set k r.1 r.2 i v = some h' → ∀ j, Obj.get k h' o j = Obj.get k r.1 o j) ∧
    (∀ i v h', Obj.set k r.1 o i v = some h' → ∀ j, Obj.get k h' r.2 j = Obj.get k r.1 r.2 j) ∧
    (∀ j, Obj.get k (Obj.destroy r.1 o) r.2 j = Obj.get k r.1 r.2 j) ∧
    (∀ j, Obj.get k (Obj.destroy r.1 r.2) o j = Obj.get k r.1 o j) ∧
    (∀ j, Obj.get k r.1 o j = Obj.get k h o j) := by
  obtain ⟨b, s, hb, hp, hr⟩ := ho
  have hlt := read_lt hr
  have hget : h.blocks[b]? = some (some s) := by
    simp only [Heap.read] at hr
    split at hr
    · next s' he => rw [he]; simp_all
    · cases hr
  have hsome : h.blocks[b] = some s := by
    rw [List.getElem?_eq_getElem hlt] at hget; exact Option.some.inj hget
  intro q r
  have hread : h.read o.block = some s := by rw [hb]; exact hr
  have hq : q = (⟨h.blocks ++ [some s]⟩, ⟨some h.blocks.length, some b⟩) := by
    simp [q, Obj.copy, Heap.alloc, hread, hp]
  have hqr : q.1.read q.2.block = some s := by
    rw [hq]; simp [Heap.read]
  have hr' : r = (⟨h.blocks ++ [none] ++ [some (Packed.resize k s n)]⟩,
      ⟨some (h.blocks.length + 1), some (h.blocks.length + 1)⟩) := by
    have hqr' := hqr
    rw [hq] at hqr'
    simp only [r, Obj.resize, Heap.alloc, hq, Heap.free, hqr']
    simp
  have hne : b ≠ h.blocks.length + 1 := by omega
  have hne2 : b ≠ h.blocks.length := by omega
  rw [hr']
  have e1 : (h.blocks ++ [none] ++ [some (Packed.resize k s n)])[b]? = some (some s) := by
    rw [List.append_assoc, List.getElem?_append_left hlt, hget]
  have e2 : (h.blocks ++ [none] ++ [some (Packed.resize k s n)])[h.blocks.length + 1]? =
      some (some (Packed.resize k s n)) := by simp
  generalize (h.blocks ++ [none] ++ [some (Packed.resize k s n)]) = B at e1 e2
  generalize h.blocks.length + 1 = c at *
  refine ⟨⟨c, Packed.resize k s n, rfl, rfl, by simp only [Heap.read, e2]⟩, ⟨b, s, hb, hp, by simp only [Heap.read, e1]⟩,
    ?_, ?_, ?_, ?_, ?_⟩
  · intro i v h' hs j
    simp only [Obj.set, Heap.read, e2] at hs
    cases hu : unsafeSet k (Packed.resize k s n) i v with
    | none => simp [hu] at hs
    | some t =>
      simp only [hu, Option.some.injEq] at hs
      subst hs
      simp [Obj.get, hp, Heap.read, Heap.write, Ne.symm hne]
  · intro i v h' hs j
    simp only [Obj.set, hp, Heap.read, e1] at hs
    cases hu : unsafeSet k s i v with
    | none => simp [hu] at hs
    | some t =>
      simp only [hu, Option.some.injEq] at hs
      subst hs
      simp [Obj.get, Heap.read, Heap.write, hne]
  · intro j
    simp [Obj.get, Obj.destroy, hb, Heap.free, Heap.read, hne]
  · intro j
    simp [Obj.get, Obj.destroy, hp, Heap.free, Heap.read, Ne.symm hne]
  · intro j
    simp only [Obj.get, hp, Heap.read, e1, hget]

example : Fresh (Obj.new .one ⟨[]⟩ 8).1 (Obj.new .one ⟨[]⟩ 8).2 := ⟨0, [0], by decide, by decide, by decide⟩

end Verif
