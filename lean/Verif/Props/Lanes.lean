import Verif.Model.Lanes
import Verif.Spec.Accuracy
import Verif.Proofs.F32Real

/-!
# C99: SIMD vectors carry four values unchanged; C100: the named constants
-/

namespace Verif
open F32 Spec

namespace Lanes
variable {α : Type}

/-- **C99** (constructors): the given values are in the lanes in order, the last one repeated. -/
theorem simd_make (k : Backend) (x y z w : α) (v4 : V4 α) (v3 : V3 α) (v2 : V2 α) :
    (make4 k x y z w).toList = [x, y, z, w] ∧ (make3 k x y z).toList = [x, y, z, z] ∧ (of4 k v4).toList = v4.toList ∧
    (of3 k v3).toList = v3.toList ++ [v3.z] ∧ (of2 k v2).toList = v2.toList ++ [v2.y, v2.y] ∧
    (withLast k v4 w).toList = v4.toList.set 3 w := by
  cases k <;> exact ⟨rfl, rfl, rfl, rfl, rfl, rfl⟩

/-- **C99** (lanes): getters read, setters change one lane and no other. -/
theorem simd_get_set (v : V4 α) (n : α) :
    v.toList = [getX v, getY v, getZ v, getW v] ∧ (setX v n).toList = v.toList.set 0 n ∧ (setY v n).toList = v.toList.set 1 n ∧
    (setZ v n).toList = v.toList.set 2 n ∧ (setW v n).toList = v.toList.set 3 n ∧ (fixW v).toList = v.toList.take 3 ++ [v.z] ∧
    (∀ i : Fin 4, v.toList[i.val]? = some (v.get i)) ∧
    (to3 v).toList = v.toList.take 3 ∧ (to2 v).toList = v.toList.take 2 ∧ v.toList.head? = some (to1 v) := by
  refine ⟨rfl, rfl, rfl, rfl, rfl, rfl, ?_, rfl, rfl, rfl⟩
  intro i
  fin_cases i <;> rfl

/-- The shuffle immediate selects the lanes it was made from. -/
theorem shuffle_imm (v : V4 α) (x y z w : Fin 4) : shufflePs v (mmShuffle w z y x) = ⟨v.get x, v.get y, v.get z, v.get w⟩ := by
  have h : ∀ x y z w : Fin 4, (mmShuffle w z y x).toNat % 4 = x ∧ ((mmShuffle w z y x).toNat >>> 2) % 4 = y ∧
      ((mmShuffle w z y x).toNat >>> 4) % 4 = z ∧ ((mmShuffle w z y x).toNat >>> 6) % 4 = w := by decide +kernel
  obtain ⟨h1, h2, h3, h4⟩ := h x y z w
  unfold shufflePs
  rw [V4.mk.injEq]
  exact ⟨congrArg v.get (Fin.ext h1), congrArg v.get (Fin.ext h2), congrArg v.get (Fin.ext h3), congrArg v.get (Fin.ext h4)⟩

/-- **C99** (swizzle): lane `i` of the result is the lane of the source named by template argument `i`, on every backend. -/
theorem simd_swizzle (k : Backend) (v : V4 α) (x y z w : Fin 4) :
    (swizzle k v x y z w).toList = [x, y, z, w].map v.get ∧
    (splatX k v).toList = List.replicate 4 v.x ∧ (splatY k v).toList = List.replicate 4 v.y ∧
    (splatZ k v).toList = List.replicate 4 v.z ∧ (splatW k v).toList = List.replicate 4 v.w := by
  have h (x y z w : Fin 4) : swizzle k v x y z w = ⟨v.get x, v.get y, v.get z, v.get w⟩ := by
    cases k
    · exact shuffle_imm v x y z w
    · exact shuffle_imm v x y z w
    · rfl
    · rfl
  unfold splatX splatY splatZ splatW
  simp only [h]
  exact ⟨rfl, rfl, rfl, rfl, rfl⟩

/-- **C99** (memory): a store puts the four lanes at the pointer, changes nothing else and is read back by both loads. An access to
fewer than four values leaves the memory of the caller. Missing: the load from a plain pointer without SIMD, see
`simd_load_counterexample`. -/
theorem simd_memory_partial (k : Backend) (v : V4 α) (m : List α) :
    (4 ≤ m.length → ∃ m', store k v m = some m' ∧ m' = v.toList ++ m.drop 4 ∧ loadAligned k m' = some v ∧
      (k ≠ .scalar → load k m' = some v)) ∧
    (m.length < 4 → store k v m = none ∧ loadAligned k m = none ∧ (k ≠ .scalar → load k m = none)) := by
  match m with
  | [] => exact ⟨fun h => absurd h (by simp), fun _ => ⟨rfl, rfl, fun hk => by cases k <;> first | rfl | exact absurd rfl hk⟩⟩
  | [a] => exact ⟨fun h => absurd h (by simp), fun _ => ⟨rfl, rfl, fun hk => by cases k <;> first | rfl | exact absurd rfl hk⟩⟩
  | [a, b] => exact ⟨fun h => absurd h (by simp), fun _ => ⟨rfl, rfl, fun hk => by cases k <;> first | rfl | exact absurd rfl hk⟩⟩
  | [a, b, c] => exact ⟨fun h => absurd h (by simp), fun _ => ⟨rfl, rfl, fun hk => by cases k <;> first | rfl | exact absurd rfl hk⟩⟩
  | a :: b :: c :: d :: rest =>
    refine ⟨fun _ => ⟨_, rfl, rfl, rfl, fun hk => by cases k <;> first | rfl | exact absurd rfl hk⟩, fun h => ?_⟩
    simp only [List.length_cons] at h
    omega

/-- **C99** (negation): without SIMD the constructor from a pointer repeats the first value. -/
theorem simd_load_counterexample : load .scalar [1, 2, 3, 4] = some (V4.splat 1) ∧ load .sse2 [1, 2, 3, 4] = some (⟨1, 2, 3, 4⟩ : V4 ℕ) :=
  ⟨rfl, rfl⟩

/-- **C99** (bit casts): they are inverse to each other and keep every bit, also of NaN; the signed and unsigned vectors have the same
words, which differ by a multiple of `2^32` as numbers. -/
theorem simd_bit_casts (u : V4 W) (f : V4 F32) : floatAsBits (bitsAsFloat u) = u ∧ bitsAsFloat (floatAsBits f) = f ∧
    (floatAsBits f).toList = f.toList.map F32.bits ∧
    List.Forall₂ (fun a b : W => (a.toNat : ℤ) = b.toInt % 2 ^ 32) u.toList (asInt u).toList := by
  refine ⟨rfl, rfl, rfl, ?_⟩
  have h (a : W) : (a.toNat : ℤ) = a.toInt % 2 ^ 32 := by
    rw [BitVec.toInt_eq_toNat_cond]
    have := a.isLt
    split <;> omega
  simp [asInt, V4.toList, h]

theorem spread_top (c t f : W) : (c.sshiftRight 31 &&& t) ||| (~~~(c.sshiftRight 31) &&& f) = if c.msb then t else f := by
  ext i hi
  simp only [BitVec.getElem_or, BitVec.getElem_and, BitVec.getElem_not, BitVec.getElem_sshiftRight]
  have e : (if h : 31 + i < 32 then c[31 + i] else c.msb) = c.msb := by
    split
    · rename_i h
      have : i = 0 := by omega
      subst this
      rw [BitVec.msb_eq_getLsbD_last]; simp
    · rfl
  rw [e]
  cases c.msb <;> simp

/-- **C99** (select): on every backend, lane `i` is taken from `t` when the top bit of control lane `i` is set and from `f` otherwise. -/
theorem simd_select_int (k : Backend) (c t f : V4 W) (i : Fin 4) :
    (selectW k c t f).get i = if 2 ^ 31 ≤ (c.get i).toNat then t.get i else f.get i := by
  have top_iff (c : W) : top c = c.msb := by
    unfold top; rfl
  have hm (c : W) (a b : W) : (if c.msb then a else b) = if 2 ^ 31 ≤ c.toNat then a else b := by
    rw [BitVec.msb_eq_decide]; simp
  have h : selectW k c t f = ⟨if c.x.msb then t.x else f.x, if c.y.msb then t.y else f.y, if c.z.msb then t.z else f.z,
      if c.w.msb then t.w else f.w⟩ := by
    cases k
    · unfold selectW; simp only [spread_top]
    · rfl
    · unfold selectW; simp only [spread_top]
    · unfold selectW V4.select; simp only [top_iff]
  rw [h]
  simp only [hm]
  fin_cases i <;> rfl

end Lanes

namespace Consts

/-- **C100**: the named float constants. `max` is the largest finite float and `min` is `2^-126`; `1 + epsilon` is the float after one;
`inf` is above and `minusInf` below every finite float; nothing compares with `nan`. -/
theorem float_constants :
    (fltMax.isFinite = true ∧ ∀ y : F32, y.isFinite = true → rv y ≤ rv fltMax ∧ rv minusMax ≤ rv y) ∧
    rv fltMin = 1 / 2 ^ 126 ∧ rv minusMin = -(1 / 2 ^ 126) ∧ rv epsilon = 1 / 2 ^ 23 ∧
    (∃ y : F32, y.isFinite = true ∧ rv y = 1 + rv epsilon) ∧ (∀ y : F32, 1 < rv y → 1 + rv epsilon ≤ rv y) ∧
    (∀ y : F32, y.isFinite = true → ltb y inf = true ∧ ltb minusInf y = true) ∧
    (∀ y : F32, ltb y nan = false ∧ ltb nan y = false ∧ leb y nan = false ∧ leb nan y = false ∧ eqb y nan = false) ∧
    rv zero = 0 ∧ rv one = 1 ∧ rv minusOne = -1 := by
  have lit (q : Rat) (x : F32) (h : x.toRat = q) : rv x = (q : ℝ) := by unfold rv; rw [h]
  have e1 : rv epsilon = 1 / 2 ^ 23 := by rw [lit (1 / 2 ^ 23) _ (by decide +kernel)]; push_cast; rfl
  have hone : rv one = 1 := by rw [lit 1 _ (by decide +kernel)]; simp
  let nxt : F32 := ⟨0x3F800001⟩
  have e2 : rv nxt = 1 + rv epsilon := by
    rw [e1, lit (1 + 1 / 2 ^ 23) _ (by decide +kernel)]; push_cast; rfl
  refine ⟨⟨by decide, fun y hy => ?_⟩, ?_, ?_, e1, ⟨nxt, by decide, e2⟩, fun y hy => ?_, fun y hy => ?_, fun y => ?_, ?_, hone, ?_⟩
  · have hk := finite_iff_key.1 hy
    unfold infMag at hk
    have a : fltMax.key = 255 * 2 ^ 23 - 1 := by decide
    have b : minusMax.key = -(255 * 2 ^ 23 - 1) := by decide
    constructor
    · unfold rv; exact_mod_cast (toRat_le_iff _ _).2 (by rw [a]; omega)
    · unfold rv; exact_mod_cast (toRat_le_iff _ _).2 (by rw [b]; omega)
  · rw [lit (1 / 2 ^ 126) _ (by decide +kernel)]; push_cast; rfl
  · rw [lit (-(1 / 2 ^ 126)) _ (by decide +kernel)]; push_cast; rfl
  · rw [← e2]
    rw [← hone] at hy
    have h1 : one.toRat < y.toRat := by unfold rv at hy; exact_mod_cast hy
    have h2 := (toRat_lt_iff _ _).1 h1
    have a : one.key = 0x3F800000 := by decide +kernel
    have b : nxt.key = 0x3F800001 := by decide
    unfold rv; exact_mod_cast (toRat_le_iff _ _).2 (by rw [b]; omega)
  · have hk := finite_iff_key.1 hy
    unfold infMag at hk
    have hn : y.isNaN = false := by
      unfold isFinite at hy; unfold isNaN; simp only [decide_eq_true_eq] at hy; exact decide_eq_false (by omega)
    have a : inf.key = 255 * 2 ^ 23 := by decide
    have b : minusInf.key = -(255 * 2 ^ 23) := by decide
    exact ⟨ltb_iff.2 ⟨hn, by decide, by rw [a]; omega⟩, ltb_iff.2 ⟨by decide, hn, by rw [b]; omega⟩⟩
  · have hn : nan.isNaN = true := by decide
    refine ⟨?_, ?_, ?_, ?_, ?_⟩ <;> simp [ltb, leb, eqb, hn]
  · rw [lit 0 _ (by decide +kernel)]; simp
  · rw [lit (-1) _ (by decide +kernel)]; simp

/-- **C100**: the named integer constants are the bounds of their types. -/
theorem int_constants (n : W) : intMin.toInt ≤ n.toInt ∧ n.toInt ≤ intMax.toInt ∧ n.toNat ≤ uintMax.toNat := by
  have h1 : intMin.toInt = -2 ^ 31 := by decide
  have h2 : intMax.toInt = 2 ^ 31 - 1 := by decide
  have h3 : uintMax.toNat = 2 ^ 32 - 1 := by decide
  have := n.toInt_lt
  have := n.le_toInt
  have := n.isLt
  omega

end Consts
end Verif
