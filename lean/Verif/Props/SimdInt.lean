import Verif.Model.SimdInt
import Verif.Props.IntOps
import Verif.Props.Mask

/-!
# C78: the SIMD integer operators give the same results as the scalar vectors, on every instruction set

Stated directly against the number-level specification of `Spec/IntOps.lean`.
-/

namespace Verif

theorem S32.ofInt?_eq {z : Int} {w r : W} (h : S32.ofInt? z = some r) (e : w = BitVec.ofInt 32 z) : w = r := by
  unfold S32.ofInt? at h; split at h
  · rw [Option.some.injEq] at h; rw [e, h]
  · cases h

theorem S32.add_wrap {a b r : W} (h : S32.bin .add a b = some r) : a + b = r :=
  S32.ofInt?_eq h (by rw [BitVec.ofInt_add, BitVec.ofInt_toInt, BitVec.ofInt_toInt])
theorem S32.sub_wrap {a b r : W} (h : S32.bin .sub a b = some r) : a - b = r :=
  S32.ofInt?_eq h (by rw [BitVec.sub_eq_add_neg, Int.sub_eq_add_neg, BitVec.ofInt_add, BitVec.ofInt_neg, BitVec.ofInt_toInt, BitVec.ofInt_toInt])
theorem S32.mul_wrap {a b r : W} (h : S32.bin .mul a b = some r) : a * b = r :=
  S32.ofInt?_eq h (by rw [BitVec.ofInt_mul, BitVec.ofInt_toInt, BitVec.ofInt_toInt])
theorem S32.neg_wrap {a r : W} (h : S32.un .neg a = some r) : -a = r :=
  S32.ofInt?_eq h (by rw [BitVec.ofInt_neg, BitVec.ofInt_toInt])

/-- A count in 0..31 survives the truncation to a signed byte. -/
theorem Intrin.count_pos {c : W} (h : c.toNat < 32) : (c.setWidth 8).toInt = c.toNat := by
  rw [BitVec.toInt_eq_toNat_cond, BitVec.toNat_setWidth]
  have : c.toNat % 2 ^ 8 = c.toNat := Nat.mod_eq_of_lt (by omega)
  rw [this, if_pos (by omega)]
theorem Intrin.count_neg {c : W} (h : c.toNat < 32) : ((-c).setWidth 8).toInt = -(c.toNat : Int) := by
  rw [BitVec.toInt_eq_toNat_cond, BitVec.toNat_setWidth, BitVec.toNat_neg]
  by_cases h0 : c.toNat = 0
  · rw [h0]; decide
  · have : (2 ^ 32 - c.toNat) % 2 ^ 32 % 2 ^ 8 = 256 - c.toNat := by omega
    rw [this, if_neg (by omega)]; omega

theorem S32.shr_count {a b r : W} (h : S32.bin .shr a b = some r) : b.toNat < 32 ∧ a.sshiftRight b.toNat = r := by
  simp only [S32.bin] at h; split at h
  · rename_i hh; have := W.toNat_of_toInt_nonneg hh.1
    exact ⟨by omega, by simpa using h⟩
  · cases h
theorem S32.shl_count {a b r : W} (h : S32.bin .shl a b = some r) : b.toNat < 32 ∧ a <<< b.toNat = r := by
  simp only [S32.bin] at h; split at h
  · rename_i hh; have := W.toNat_of_toInt_nonneg hh.1
    exact ⟨by omega, by simpa using h⟩
  · cases h
theorem U32.shr_count {a b r : W} (h : U32.bin .shr a b = some r) : b.toNat < 32 ∧ a >>> b.toNat = r := by
  simp only [U32.bin] at h; split at h
  · rename_i hh; exact ⟨hh, by simpa using h⟩
  · cases h
theorem U32.shl_count {a b r : W} (h : U32.bin .shl a b = some r) : b.toNat < 32 ∧ a <<< b.toNat = r := by
  simp only [U32.bin] at h; split at h
  · rename_i hh; exact ⟨hh, by simpa using h⟩
  · cases h

theorem Intrin.vshlS_right {a b : W} (h : b.toNat < 32) : Intrin.vshlS a (-b) = a.sshiftRight b.toNat := by
  simp only [Intrin.vshlS, Intrin.count_neg h]
  split
  · have : b.toNat = 0 := by omega
    simp [this]
  · congr 1; omega
theorem Intrin.vshlU_right {a b : W} (h : b.toNat < 32) : Intrin.vshlU a (-b) = a >>> b.toNat := by
  simp only [Intrin.vshlU, Intrin.count_neg h]
  split
  · have : b.toNat = 0 := by omega
    simp [this]
  · congr 1; omega
theorem Intrin.vshlS_left {a b : W} (h : b.toNat < 32) : Intrin.vshlS a b = a <<< b.toNat := by
  simp only [Intrin.vshlS, Intrin.count_pos h]; rw [if_pos (by omega)]; congr 1
theorem Intrin.vshlU_left {a b : W} (h : b.toNat < 32) : Intrin.vshlU a b = a <<< b.toNat := by
  simp only [Intrin.vshlU, Intrin.count_pos h]; rw [if_pos (by omega)]; congr 1

theorem simd_lanes {f : W → W → W} {g : W → W → Option W} (hfg : ∀ x y r, g x y = some r → f x y = r)
    {a v r : V4 W} (h : ∀ i : Fin 4, g (a.get i) (v.get i) = some (r.get i)) : V4.map2 f a v = r := by
  obtain ⟨rx, ry, rz, rw⟩ := r
  have h0 := hfg _ _ _ (h 0); have h1 := hfg _ _ _ (h 1); have h2 := hfg _ _ _ (h 2); have h3 := hfg _ _ _ (h 3)
  simp only [V4.get] at h0 h1 h2 h3
  simp only [V4.map2, h0, h1, h2, h3]

theorem i32x4_bin_of_scalar (k : Isa) (op : BinOp) (a v r : V4 W) (h : Int4.bin op a v = some r) :
    I32x4.bin k op a v = some r := by
  have hl := h
  rw [int4_bin] at hl
  simp only [← S32.bin_iff] at hl
  cases op <;> simp only [I32x4.bin]
  · split
    · rw [simd_lanes (f := (· + ·)) (g := S32.bin .add) (fun _ _ _ h => S32.add_wrap h) hl]
    · exact h
  · split
    · rw [simd_lanes (f := (· - ·)) (g := S32.bin .sub) (fun _ _ _ h => S32.sub_wrap h) hl]
    · exact h
  · split
    · rw [simd_lanes (f := (· * ·)) (g := S32.bin .mul) (fun _ _ _ h => S32.mul_wrap h) hl]
    · exact h
  · exact h
  · exact h
  · split
    · rw [simd_lanes (g := S32.bin .and) (fun _ _ _ h => by simpa [S32.bin] using h) hl]
    · exact h
  · split
    · rw [simd_lanes (g := S32.bin .or) (fun _ _ _ h => by simpa [S32.bin] using h) hl]
    · exact h
  · split
    · rw [simd_lanes (g := S32.bin .xor) (fun _ _ _ h => by simpa [S32.bin] using h) hl]
    · exact h
  · split
    · rw [simd_lanes (f := Intrin.srav) (fun _ _ _ h => (S32.shr_count h).2) hl]
    · split
      · have : V4.map2 Intrin.vshlS a (v.map (- ·)) = V4.map2 (fun x y => Intrin.vshlS x (-y)) a v := rfl
        rw [this, simd_lanes (f := fun x y => Intrin.vshlS x (-y)) (fun _ _ _ h => by
          rw [Intrin.vshlS_right (S32.shr_count h).1, (S32.shr_count h).2]) hl]
      · exact h
  · split
    · rw [simd_lanes (f := Intrin.sllv) (fun _ _ _ h => (S32.shl_count h).2) hl]
    · split
      · rw [simd_lanes (f := Intrin.vshlS) (fun _ _ _ h => by
          rw [Intrin.vshlS_left (S32.shl_count h).1, (S32.shl_count h).2]) hl]
      · exact h

theorem u32x4_bin_of_scalar (k : Isa) (op : BinOp) (a v r : V4 W) (h : Uint4.bin op a v = some r) :
    U32x4.bin k op a v = some r := by
  have hl := h
  rw [uint4_bin] at hl
  simp only [← U32.bin_iff] at hl
  cases op <;> simp only [U32x4.bin]
  · split
    · rw [simd_lanes (g := U32.bin .add) (fun _ _ _ h => by simpa [U32.bin] using h) hl]
    · exact h
  · split
    · rw [simd_lanes (g := U32.bin .sub) (fun _ _ _ h => by simpa [U32.bin] using h) hl]
    · exact h
  · split
    · rw [simd_lanes (g := U32.bin .mul) (fun _ _ _ h => by simpa [U32.bin] using h) hl]
    · exact h
  · exact h
  · exact h
  · split
    · rw [simd_lanes (g := U32.bin .and) (fun _ _ _ h => by simpa [U32.bin] using h) hl]
    · exact h
  · split
    · rw [simd_lanes (g := U32.bin .or) (fun _ _ _ h => by simpa [U32.bin] using h) hl]
    · exact h
  · split
    · rw [simd_lanes (g := U32.bin .xor) (fun _ _ _ h => by simpa [U32.bin] using h) hl]
    · exact h
  · split
    · rw [simd_lanes (f := Intrin.srlv) (fun _ _ _ h => (U32.shr_count h).2) hl]
    · split
      · have : V4.map2 Intrin.vshlU a (v.map (- ·)) = V4.map2 (fun x y => Intrin.vshlU x (-y)) a v := rfl
        rw [this, simd_lanes (f := fun x y => Intrin.vshlU x (-y)) (fun _ _ _ h => by
          rw [Intrin.vshlU_right (U32.shr_count h).1, (U32.shr_count h).2]) hl]
      · exact h
  · split
    · rw [simd_lanes (f := Intrin.sllv) (fun _ _ _ h => (U32.shl_count h).2) hl]
    · split
      · rw [simd_lanes (f := Intrin.vshlU) (fun _ _ _ h => by
          rw [Intrin.vshlU_left (U32.shl_count h).1, (U32.shl_count h).2]) hl]
      · exact h

theorem V4.get_splat {α : Type} (n : α) (i : Fin 4) : (V4.splat n).get i = n := by fin_cases i <;> rfl

/-- `a op v` on `i32x4`: whenever every lane of `r` is the C++ result of that lane, every instruction set returns `r`. -/
theorem i32x4_bin (k : Isa) (op : BinOp) (a v r : V4 W) (h : ∀ i, Spec.sBin op (a.get i) (v.get i) (r.get i)) :
    I32x4.bin k op a v = some r ∧ I32x4.asg k op a v = some r := by
  have := i32x4_bin_of_scalar k op a v r ((int4_bin ..).2 h)
  exact ⟨this, by cases op <;> exact this⟩

/-- `a op v` on `u32x4`. -/
theorem u32x4_bin (k : Isa) (op : BinOp) (a v r : V4 W) (h : ∀ i, Spec.uBin op (a.get i) (v.get i) (r.get i)) :
    U32x4.bin k op a v = some r ∧ U32x4.asg k op a v = some r := by
  have := u32x4_bin_of_scalar k op a v r ((uint4_bin ..).2 h)
  exact ⟨this, by cases op <;> exact this⟩

/-- `n op v` on `i32x4`. -/
theorem i32x4_binL (k : Isa) (op : BinOp) (n : W) (v r : V4 W) (h : ∀ i, Spec.sBin op n (v.get i) (r.get i)) :
    I32x4.binL k op n v = some r := by
  have := (i32x4_bin k op (V4.splat n) v r (fun i => by rw [V4.get_splat]; exact h i)).1
  cases op <;> exact this

/-- `n op v` on `u32x4`. -/
theorem u32x4_binL (k : Isa) (op : BinOp) (n : W) (v r : V4 W) (h : ∀ i, Spec.uBin op n (v.get i) (r.get i)) :
    U32x4.binL k op n v = some r := by
  have := (u32x4_bin k op (V4.splat n) v r (fun i => by rw [V4.get_splat]; exact h i)).1
  cases op <;> exact this

theorem map_lanes {f : W → W → W} {g : W → W → Option W} (hfg : ∀ x y r, g x y = some r → f x y = r) {n : W}
    {a r : V4 W} (h : ∀ i : Fin 4, g (a.get i) n = some (r.get i)) : (a.map (f · n)) = r := by
  obtain ⟨rx, ry, rz, rw⟩ := r
  have h0 := hfg _ _ _ (h 0); have h1 := hfg _ _ _ (h 1); have h2 := hfg _ _ _ (h 2); have h3 := hfg _ _ _ (h 3)
  simp only [V4.get] at h0 h1 h2 h3
  simp only [V4.map, h0, h1, h2, h3]

theorem map2_splat (f : W → W → W) (a : V4 W) (n : W) : V4.map2 f a (V4.splat n) = a.map (f · n) := rfl

theorem S32.neg_small {n : W} (h : n.toNat < 32) : S32.un .neg n = some (-n) := by
  rw [S32.un_iff, Spec.sUn]
  have e : n.toInt = n.toNat := by rw [BitVec.toInt_eq_toNat_cond, if_pos (by omega)]
  rw [e, BitVec.toInt_eq_toNat_cond, BitVec.toNat_neg]
  by_cases h0 : n.toNat = 0
  · rw [h0]; decide
  · rw [Nat.mod_eq_of_lt (by omega), if_neg (by omega)]; omega

/-- `a op n` and `a op= n` on `i32x4`. -/
theorem i32x4_binS (k : Isa) (op : BinOp) (a : V4 W) (n : W) (r : V4 W) (h : ∀ i, Spec.sBin op (a.get i) n (r.get i)) :
    I32x4.binS k op a n = some r ∧ I32x4.asgS k op a n = some r := by
  have hs := (int4_binS op a n r).2 h
  have hb := (i32x4_bin k op a (V4.splat n) r (fun i => by rw [V4.get_splat]; exact h i)).1
  simp only [← S32.bin_iff] at h
  have key : I32x4.binS k op a n = some r := by
    cases op <;> first | exact hb | skip
    · simp only [I32x4.binS]
      have hn := (S32.shr_count (h 0)).1
      split
      · rw [map_lanes (f := Intrin.srai) (fun _ _ _ h => (S32.shr_count h).2) h]
      · split
        · rw [S32.neg_small hn]
          simp only [Option.pure_def, Option.bind_eq_bind, Option.bind_some, map2_splat]
          rw [map_lanes (f := fun x y => Intrin.vshlS x (-y)) (fun _ _ _ h => by
            rw [Intrin.vshlS_right (S32.shr_count h).1, (S32.shr_count h).2]) h]
        · exact hs
    · simp only [I32x4.binS]
      split
      · rw [map_lanes (f := Intrin.slli) (fun _ _ _ h => (S32.shl_count h).2) h]
      · split
        · rw [map2_splat, map_lanes (f := Intrin.vshlS) (fun _ _ _ h => by
            rw [Intrin.vshlS_left (S32.shl_count h).1, (S32.shl_count h).2]) h]
        · exact hs
  exact ⟨key, by cases op <;> first | exact hb | exact key⟩

/-- `a op n` and `a op= n` on `u32x4`. -/
theorem u32x4_binS (k : Isa) (op : BinOp) (a : V4 W) (n : W) (r : V4 W) (h : ∀ i, Spec.uBin op (a.get i) n (r.get i)) :
    U32x4.binS k op a n = some r ∧ U32x4.asgS k op a n = some r := by
  have hs := (uint4_binS op a n r).2 h
  have hb := (u32x4_bin k op a (V4.splat n) r (fun i => by rw [V4.get_splat]; exact h i)).1
  simp only [← U32.bin_iff] at h
  have key : U32x4.binS k op a n = some r := by
    cases op <;> first | exact hb | skip
    · simp only [U32x4.binS]
      have hn := (U32.shr_count (h 0)).1
      split
      · rw [map_lanes (f := Intrin.srli) (fun _ _ _ h => (U32.shr_count h).2) h]
      · split
        · rw [S32.neg_small hn]
          simp only [Option.pure_def, Option.bind_eq_bind, Option.bind_some, map2_splat]
          rw [map_lanes (f := fun x y => Intrin.vshlU x (-y)) (fun _ _ _ h => by
            rw [Intrin.vshlU_right (U32.shr_count h).1, (U32.shr_count h).2]) h]
        · exact hs
    · simp only [U32x4.binS]
      split
      · rw [map_lanes (f := Intrin.slli) (fun _ _ _ h => (U32.shl_count h).2) h]
      · split
        · rw [map2_splat, map_lanes (f := Intrin.vshlU) (fun _ _ _ h => by
            rw [Intrin.vshlU_left (U32.shl_count h).1, (U32.shl_count h).2]) h]
        · exact hs
  exact ⟨key, by cases op <;> first | exact hb | exact key⟩

theorem map1_lanes {f : W → W} {g : W → Option W} (hfg : ∀ x r, g x = some r → f x = r)
    {a r : V4 W} (h : ∀ i : Fin 4, g (a.get i) = some (r.get i)) : a.map f = r := by
  obtain ⟨rx, ry, rz, rw⟩ := r
  have h0 := hfg _ _ (h 0); have h1 := hfg _ _ (h 1); have h2 := hfg _ _ (h 2); have h3 := hfg _ _ (h 3)
  simp only [V4.get] at h0 h1 h2 h3
  simp only [V4.map, h0, h1, h2, h3]

theorem xor_ones (x : W) : ~~~x = x ^^^ 0xFFFFFFFF#32 := (BitVec.xor_allOnes (x := x)).symm

theorem lnot_lane (x : W) : mask (x == 0#32) &&& 1#32 = if x = 0#32 then 1#32 else 0#32 := by
  by_cases h : x = 0#32 <;> simp [h, mask]

/-- `-a`, `!a`, `~a` on `i32x4`. -/
theorem i32x4_un (k : Isa) (op : UnOp) (a r : V4 W) (h : ∀ i, Spec.sUn op (a.get i) (r.get i)) :
    I32x4.un k op a = some r := by
  have hs := (int4_un op a r).2 h
  simp only [← S32.un_iff] at h
  cases op <;> simp only [I32x4.un]
  · split
    · have : V4.map2 (· - ·) (V4.splat 0#32) a = a.map (- ·) := by simp [V4.map2, V4.splat, V4.map]
      rw [this, map1_lanes (f := (- ·)) (g := S32.un .neg) (fun _ _ h => S32.neg_wrap h) h]
    · split
      · rw [map1_lanes (f := (- ·)) (g := S32.un .neg) (fun _ _ h => S32.neg_wrap h) h]
      · exact hs
  · split
    · rw [map1_lanes (g := S32.un .lnot) (fun x r h => by rw [lnot_lane]; simpa [S32.un] using h) h]
    · exact hs
  · split
    · rw [map2_splat, map1_lanes (f := (· ^^^ 0xFFFFFFFF#32)) (g := S32.un .bnot) (fun x r h => by
        rw [← xor_ones x]; simpa [S32.un] using h) h]
    · split
      · rw [map1_lanes (g := S32.un .bnot) (fun x r h => by simpa [S32.un] using h) h]
      · exact hs

/-- `!a`, `~a` on `u32x4` (it has no unary minus). -/
theorem u32x4_un (k : Isa) (op : UnOp) (hop : op ≠ .neg) (a r : V4 W) (h : ∀ i, Spec.uUn op (a.get i) (r.get i)) :
    U32x4.un k op a = some r := by
  have hs := (uint4_un op a r).2 h
  simp only [← U32.un_iff] at h
  cases op <;> simp only [U32x4.un]
  · exact absurd rfl hop
  · split
    · rw [map1_lanes (g := U32.un .lnot) (fun x r h => by rw [lnot_lane]; simpa [U32.un] using h) h]
    · exact hs
  · split
    · rw [map2_splat, map1_lanes (f := (· ^^^ 0xFFFFFFFF#32)) (g := U32.un .bnot) (fun x r h => by
        rw [← xor_ones x]; simpa [U32.un] using h) h]
    · split
      · rw [map1_lanes (g := U32.un .bnot) (fun x r h => by simpa [U32.un] using h) h]
      · exact hs

theorem laneBytes_mask (b : Bool) : Sse.laneBytes (mask b) = if b then 15 else 0 := by cases b <;> rfl

theorem movemask_all (a b c d : Bool) :
    Sse.movemask8 ⟨mask a, mask b, mask c, mask d⟩ = 0xFFFF ↔ (a && b && c && d) = true := by
  revert a b c d; decide

theorem vminv_all (a b c d : Bool) :
    Intrin.vminv ⟨mask a, mask b, mask c, mask d⟩ = 0xFFFFFFFF#32 ↔ (a && b && c && d) = true := by
  revert a b c d; decide

theorem vminv_none (a b c d : Bool) :
    Intrin.vminv ⟨mask a, mask b, mask c, mask d⟩ = 0#32 ↔ ¬(a && b && c && d) = true := by
  revert a b c d; decide

/-- `==` and `!=` on `i32x4`, with a vector or a scalar on either side, on every instruction set. -/
theorem i32x4_eq (k : Isa) (a v : V4 W) (n : W) :
    (I32x4.eq k a v = true ↔ ∀ i : Fin 4, a.get i = v.get i) ∧ (I32x4.ne k a v = true ↔ ¬∀ i : Fin 4, a.get i = v.get i) ∧
    (I32x4.eqS k a n = true ↔ ∀ i : Fin 4, a.get i = n) ∧ (I32x4.neS k a n = true ↔ ¬∀ i : Fin 4, a.get i = n) ∧
    (I32x4.eqL k n v = true ↔ ∀ i : Fin 4, n = v.get i) ∧ (I32x4.neL k n v = true ↔ ¬∀ i : Fin 4, n = v.get i) := by
  have key : ∀ a v : V4 W, (I32x4.eq k a v = true ↔ ∀ i : Fin 4, a.get i = v.get i) ∧
      (I32x4.ne k a v = true ↔ ¬∀ i : Fin 4, a.get i = v.get i) := by
    intro a v
    have hl : (a.x == v.x && a.y == v.y && a.z == v.z && a.w == v.w) = true ↔ ∀ i : Fin 4, a.get i = v.get i := by
      rw [lanes4]; simp [V4.get, and_assoc]
    have hs := int4_eq a v 0
    simp only [I32x4.eq, I32x4.ne, V4.map2]
    constructor
    · split
      · rw [beq_iff_eq, movemask_all, hl]
      · split
        · rw [beq_iff_eq, vminv_all, hl]
        · exact hs.1
    · split
      · rw [bne_iff_ne, ne_eq, movemask_all, hl]
      · split
        · rw [beq_iff_eq, vminv_none, hl]
        · exact hs.2.1
  refine ⟨(key a v).1, (key a v).2, ?_, ?_, ?_, ?_⟩
  · have := (key a (V4.splat n)).1; simp only [V4.get_splat] at this; exact this
  · have := (key a (V4.splat n)).2; simp only [V4.get_splat] at this; exact this
  · have := (key (V4.splat n) v).1; simp only [V4.get_splat] at this; exact this
  · have := (key (V4.splat n) v).2; simp only [V4.get_splat] at this; exact this

/-- `==` and `!=` on `u32x4`, with a vector or a scalar on either side, on every instruction set. -/
theorem u32x4_eq (k : Isa) (a v : V4 W) (n : W) :
    (U32x4.eq k a v = true ↔ ∀ i : Fin 4, a.get i = v.get i) ∧ (U32x4.ne k a v = true ↔ ¬∀ i : Fin 4, a.get i = v.get i) ∧
    (U32x4.eqS k a n = true ↔ ∀ i : Fin 4, a.get i = n) ∧ (U32x4.neS k a n = true ↔ ¬∀ i : Fin 4, a.get i = n) ∧
    (U32x4.eqL k n v = true ↔ ∀ i : Fin 4, n = v.get i) ∧ (U32x4.neL k n v = true ↔ ¬∀ i : Fin 4, n = v.get i) := by
  have key : ∀ a v : V4 W, (U32x4.eq k a v = true ↔ ∀ i : Fin 4, a.get i = v.get i) ∧
      (U32x4.ne k a v = true ↔ ¬∀ i : Fin 4, a.get i = v.get i) := by
    intro a v
    have hl : (a.x == v.x && a.y == v.y && a.z == v.z && a.w == v.w) = true ↔ ∀ i : Fin 4, a.get i = v.get i := by
      rw [lanes4]; simp [V4.get, and_assoc]
    have hs := uint4_eq a v 0
    simp only [U32x4.eq, U32x4.ne, V4.map2]
    constructor
    · split
      · rw [beq_iff_eq, movemask_all, hl]
      · split
        · rw [beq_iff_eq, vminv_all, hl]
        · exact hs.1
    · split
      · rw [bne_iff_ne, ne_eq, movemask_all, hl]
      · split
        · rw [beq_iff_eq, vminv_none, hl]
        · exact hs.2.1
  refine ⟨(key a v).1, (key a v).2, ?_, ?_, ?_, ?_⟩
  · have := (key a (V4.splat n)).1; simp only [V4.get_splat] at this; exact this
  · have := (key a (V4.splat n)).2; simp only [V4.get_splat] at this; exact this
  · have := (key (V4.splat n) v).1; simp only [V4.get_splat] at this; exact this
  · have := (key (V4.splat n) v).2; simp only [V4.get_splat] at this; exact this

theorem sseLane_onI (c : Cmp) (a b : W) : Backend.sseLane c a b = mask (Cmp.onI c a b) := by
  have mor : ∀ p q : Bool, mask p ||| mask q = mask (p || q) := by decide
  have mnot : ∀ p : Bool, mask p ^^^ 0xFFFFFFFF#32 = mask (!p) := by decide
  have hle : a.sle b = (a.slt b || a == b) := by
    rw [Bool.eq_iff_iff]; simp [BitVec.sle, BitVec.slt, ← BitVec.toInt_inj]; omega
  have hge : b.sle a = (b.slt a || a == b) := by
    rw [Bool.eq_iff_iff]; simp [BitVec.sle, BitVec.slt, ← BitVec.toInt_inj]; omega
  cases c <;> simp [Backend.sseLane, Cmp.onI, mor, mnot, hle, hge, bne]

/-- Comparisons of `i32x4` with a scalar on either side, on every instruction set. -/
theorem i32x4_cmpS (k : Isa) (c : Cmp) (a : V4 W) (n : W) (i : Fin 4) :
    Spec.isMask ((I32x4.cmpS k c a n).get i) (Spec.cmpInt c (a.get i).toInt n.toInt) ∧
    Spec.isMask ((I32x4.cmpL k c n a).get i) (Spec.cmpInt c n.toInt (a.get i).toInt) := by
  have e : ∀ a b : V4 W, Backend.cmpI k.toBackend c a b = V4.map2 (fun x y => mask (c.onI x y)) a b := by
    intro a b
    cases k <;> simp only [Isa.toBackend, Backend.cmpI, V4.cmp, V4.map2, sseLane_onI]
  simp only [I32x4.cmpS, I32x4.cmpL, e]
  fin_cases i <;> exact ⟨cmpI_isMask .., cmpI_isMask ..⟩

/-- `bic(a, b)` clears in `a` the bits set in `b`, on every instruction set. -/
theorem bic_bits (k : Isa) (a b : V4 W) : ∃ r, I32x4.bic k a b = some r ∧ U32x4.bic k a b = some r ∧
    ∀ i : Fin 4, ∀ j < 32, (r.get i).getLsbD j = ((a.get i).getLsbD j && !(b.get i).getLsbD j) := by
  refine ⟨V4.map2 (fun x y => x &&& ~~~y) a b, ?_, ?_, ?_⟩
  · simp only [I32x4.bic]
    split
    · simp [V4.map2, Intrin.andnot, BitVec.and_comm]
    · split <;> rfl
  · simp only [U32x4.bic]
    split
    · simp [V4.map2, Intrin.andnot, BitVec.and_comm]
    · split <;> rfl
  · intro i j hj; fin_cases i <;> simp [V4.map2, V4.get, hj]

/-- Where the scalar vectors overflow, the vector instructions wrap: with SSE or NEON `+` and `-` on `i32x4` never fail. -/
theorem i32x4_wrap (k : Isa) (hk : k ≠ .scalar) (a v : V4 W) :
    ∃ s d, I32x4.bin k .add a v = some s ∧ I32x4.bin k .sub a v = some d ∧
      ∀ i : Fin 4, (s.get i).toInt = ((a.get i).toInt + (v.get i).toInt).bmod (2 ^ 32) ∧
        (d.get i).toInt = ((a.get i).toInt - (v.get i).toInt).bmod (2 ^ 32) := by
  refine ⟨V4.map2 (· + ·) a v, V4.map2 (· - ·) a v, ?_, ?_, ?_⟩
  · cases k <;> first | rfl | exact absurd rfl hk
  · cases k <;> first | rfl | exact absurd rfl hk
  · intro i; fin_cases i <;> simp [V4.map2, V4.get, BitVec.toInt_add, BitVec.toInt_sub]

/-- The scalar vector is undefined there: the instruction sets and the fallback differ in what they promise. -/
theorem i32x4_overflow_differs : I32x4.bin .scalar .add (V4.splat 0x7FFFFFFF#32) (V4.splat 1#32) = none ∧
    I32x4.bin .sse2 .add (V4.splat 0x7FFFFFFF#32) (V4.splat 1#32) = some (V4.splat 0x80000000#32) := by decide

/-- Shifting by 32: undefined with SSE2, -1 or 0 with AVX2 and NEON. -/
theorem i32x4_shift32_differs : I32x4.bin .sse2 .shr (V4.splat (-1#32)) (V4.splat 32#32) = none ∧
    I32x4.bin .avx2 .shr (V4.splat (-1#32)) (V4.splat 32#32) = some (V4.splat (-1#32)) ∧
    I32x4.bin .neon .shl (V4.splat 1#32) (V4.splat 32#32) = some (V4.splat 0#32) := by decide

example : I32x4.bin .neon .shr ⟨-5#32, 5#32, 64#32, 7#32⟩ ⟨1#32, 1#32, 5#32, 0#32⟩ = some ⟨-3#32, 2#32, 2#32, 7#32⟩ := by
  decide
example : U32x4.binS .avx2only .mul ⟨65536#32, 2#32, 3#32, 4#32⟩ 65536#32 =
    some ⟨0#32, 131072#32, 196608#32, 262144#32⟩ := by decide

end Verif
