import Verif.Model.FloatElem
import Verif.Spec.FloatElem
import Verif.Props.Rounding
import Verif.Props.FloatOps
import Verif.Proofs.F32Sum
import Verif.Props.SimdSinCos
import Mathlib.Algebra.Order.Floor.Ring

/-!
# C92-C95: element-wise functions of floating-point vectors
-/

namespace Verif
open F32 Spec

namespace Elem

/-! ## The exact remainder -/

theorem rem_mag {x y : F32} (hx : x.isFinite = true) (hy : y.isFinite = true) (h0 : y.mag ≠ 0) :
    ∃ m, m < infMag ∧ magUnits m = magUnits x.mag % magUnits y.mag := by
  obtain ⟨s, k, hm, hk, hs⟩ := mag_decomp x.mag
  obtain ⟨s', k', hm', hk', hs'⟩ := mag_decomp y.mag
  have hxm : x.mag < infMag := of_decide_eq_true hx
  have hym : y.mag < infMag := of_decide_eq_true hy
  have e : magUnits x.mag = k * 2 ^ s := by rw [hm]; exact magUnits_eq s k hk.le hs
  have e' : magUnits y.mag = k' * 2 ^ s' := by rw [hm']; exact magUnits_eq s' k' hk'.le hs'
  rw [e, e']
  rcases le_or_gt s s' with h | h
  · obtain ⟨d, rfl⟩ := Nat.exists_eq_add_of_le h
    rw [show k' * 2 ^ (s + d) = (k' * 2 ^ d) * 2 ^ s by rw [pow_add]; ring, Nat.mul_mod_mul_right]
    have hle : k % (k' * 2 ^ d) ≤ k := Nat.mod_le _ _
    obtain ⟨m, hm1, hm2⟩ := exists_mag s (k % (k' * 2 ^ d)) (by omega)
    exact ⟨m, by omega, hm1⟩
  · obtain ⟨d, rfl⟩ := Nat.exists_eq_add_of_lt h
    rw [show k * 2 ^ (s' + d + 1) = (k * 2 ^ (d + 1)) * 2 ^ s' by rw [show s' + d + 1 = s' + (d + 1) by ring, pow_add]; ring,
      Nat.mul_mod_mul_right]
    have hle : (k * 2 ^ (d + 1)) % k' ≤ k' := by
      refine (Nat.mod_lt _ ?_).le
      rcases Nat.eq_zero_or_pos k' with h0 | h0
      · exfalso; rcases hs' with h1 | h1 <;> subst h0 <;> omega
      · exact h0
    obtain ⟨m, hm1, hm2⟩ := exists_mag s' ((k * 2 ^ (d + 1)) % k') (by omega)
    exact ⟨m, by omega, hm1⟩

/-- The magnitude of a value is its distance from zero. -/
theorem abs_val (x : F32) : |x.val| = (magUnits x.mag : ℝ) / 2 ^ 149 := by
  rw [val_units, abs_div, abs_of_pos (by positivity : (0 : ℝ) < 2 ^ 149)]
  congr 1
  unfold units
  split <;> simp

theorem val_sign (x : F32) : x.val = (if x.signBit then -1 else 1) * ((magUnits x.mag : ℝ) / 2 ^ 149) := by
  rw [val_units]
  unfold units
  split <;> push_cast <;> ring

theorem rv_val (x : F32) : rv x = x.val := rfl

theorem rv_zero_iff (x : F32) : rv x = 0 ↔ x.mag = 0 := by
  rw [← toRat_zero_iff]; unfold rv; exact_mod_cast Iff.rfl

/-- What the remainder is, for finite arguments. -/
theorem fmod_parts {x y : F32} (hx : x.isFinite = true) (hy : y.isFinite = true) (h0 : y.mag ≠ 0) :
    (ffmod x y).isFinite = true ∧ (ffmod x y).signBit = x.signBit ∧
      magUnits (ffmod x y).mag = magUnits x.mag % magUnits y.mag := by
  obtain ⟨m, hm, he⟩ := rem_mag hx hy h0
  have hm31 : m < 2 ^ 31 := by unfold infMag at hm; omega
  have e : ffmod x y = ofParts x.signBit m := by
    unfold ffmod
    rw [finite_not_nan hx, finite_not_nan hy, finite_not_inf hx, finite_not_inf hy, ← he]
    have h1 := roundMag_exact m 1 one_pos hm
    rw [mul_one] at h1
    simp [h0, h1]
  rw [e, ofParts_mag _ _ hm31, ofParts_signBit _ _ hm31]
  exact ⟨by unfold isFinite; rw [ofParts_mag _ _ hm31]; exact decide_eq_true hm, rfl, he⟩

end Elem

/-- **C93**: the remainder of `std::fmod`, which the `mod` of `float2`, `float3`, `float4` applies to every component, is exact. -/
theorem fmod_ok (x y : F32) : RemOk x y (ffmod x y) := by
  refine ⟨fun hx hy h0 => ?_, fun hx hy => ?_, fun h => ?_⟩
  · have hm : y.mag ≠ 0 := fun h => h0 ((Elem.rv_zero_iff y).2 h)
    obtain ⟨h1, h2, h3⟩ := Elem.fmod_parts hx hy hm
    refine ⟨h1, h2, ?_, ?_⟩
    · rw [Elem.rv_val, Elem.rv_val, Elem.abs_val, Elem.abs_val, h3]
      have hp : 0 < magUnits y.mag := by
        have := magUnits_strictMono (Nat.pos_of_ne_zero hm); rwa [magUnits_zero] at this
      have := Nat.mod_lt (magUnits x.mag) hp
      gcongr
    · have hd := Nat.div_add_mod (magUnits x.mag) (magUnits y.mag)
      have hd' : (magUnits x.mag : ℝ) = magUnits y.mag * ((magUnits x.mag / magUnits y.mag : ℕ) : ℝ) +
          ((magUnits x.mag % magUnits y.mag : ℕ) : ℝ) := by
        conv_lhs => rw [← hd]
        push_cast; ring
      refine ⟨(if x.signBit then -1 else 1) * (if y.signBit then -1 else 1) * ((magUnits x.mag / magUnits y.mag : ℕ) : ℤ), ?_⟩
      rw [Elem.rv_val, Elem.rv_val, Elem.rv_val, Elem.val_sign x, Elem.val_sign y, Elem.val_sign (ffmod x y), h2, h3, hd']
      generalize ((magUnits x.mag / magUnits y.mag : ℕ)) = q
      generalize ((magUnits x.mag % magUnits y.mag : ℕ)) = r
      cases x.signBit <;> cases y.signBit <;> push_cast <;> simp <;> ring
  · have h1 : y.isNaN = false := by
      unfold isNaN; unfold isInf at hy; have := of_decide_eq_true hy; exact decide_eq_false (by omega)
    have h2 : y.mag ≠ 0 := by unfold isInf infMag at hy; have := of_decide_eq_true hy; omega
    unfold ffmod
    rw [finite_not_nan hx, h1, finite_not_inf hx, hy]; simp [h2]
  · have e : ffmod x y = nan := by
      unfold ffmod
      rw [if_pos]
      rcases h with h | h | h | h
      · simp [h]
      · simp [h]
      · simp [h]
      · simp [(Elem.rv_zero_iff y).1 h]
    rw [e]; decide

example : RemOk ⟨0xC0F00000⟩ ⟨0x40400000⟩ ⟨0xBFC00000⟩ := fmod_ok ⟨0xC0F00000⟩ ⟨0x40400000⟩  -- -7.5 mod 3 = -1.5

namespace Elem

/-! ## Lanes of the SIMD functions -/

theorem sra31 (c : W) : c.sshiftRight 31 = if c.msb then BitVec.allOnes 32 else 0#32 := by
  apply BitVec.eq_of_getLsbD_eq
  intro i hi
  rw [BitVec.getLsbD_sshiftRight]
  have hm : c.msb = c.getLsbD 31 := BitVec.msb_eq_getLsbD_last c
  have h1 : (BitVec.allOnes 32).getLsbD i = true := by rw [BitVec.getLsbD_allOnes]; exact decide_eq_true hi
  by_cases h : i = 0
  · subst h; rw [hm]; cases hc : c.getLsbD 31 <;> simp [hc]
  · have : ¬ (31 + i < 32) := by omega
    cases hc : c.msb
    · simp [this]
    · rw [if_pos rfl, h1]; simp [this, hi]

theorem bits_select (c : W) (t f : F32) :
    (⟨(c.sshiftRight 31 &&& t.bits) ||| (~~~(c.sshiftRight 31) &&& f.bits)⟩ : F32) = if c.msb then t else f := by
  rw [sra31]
  cases c.msb
  · rw [if_neg (by simp), if_neg (by simp), BitVec.zero_and, BitVec.not_zero, BitVec.allOnes_and, BitVec.zero_or]
  · rw [if_pos rfl, if_pos rfl, BitVec.allOnes_and, BitVec.not_allOnes, BitVec.zero_and, BitVec.or_zero]

theorem select_eq (k : Isa) (c : V4 W) (t f : V4 F32) : F32x4.select k c t f = V4.select c t f := by
  unfold F32x4.select V4.select top
  simp only [bits_select, BitVec.msb_eq_getLsbD_last]
  split
  · rfl
  split
  · rfl
  split <;> rfl

theorem top_mask (b : Bool) : top (mask b) = b := by cases b <;> decide

theorem floor_eq (k : Isa) (v : V4 F32) : F32x4.rnd k .floor v = v.map ffloor := by cases k <;> rfl

/-- One lane of the SIMD `mod`. -/
def mod1 (n d : F32) : F32 := fsub n (fmul (ffloor (fdiv n d)) d)
/-- One lane of the SIMD `repeat`. -/
def srep1 (v : F32) : F32 :=
  if ltb v c1 then (if ltb v c0 then fsub c1 (mod1 (fneg v) c1) else v) else mod1 v c1
/-- One component of the vector `lerp`. -/
def vlerp1 (a b t : F32) : F32 := fadd (fmul a (fsub c1 t)) (fmul b t)

theorem mod_lanes (k : Isa) (n d : V4 F32) : F32x4.mod k n d = V4.map2 mod1 n d := by
  unfold F32x4.mod
  rw [floor_eq, (f32x4_eq_float4 k .sub .lt n _ c0).1, (f32x4_eq_float4 k .mul .lt _ d c0).1, (f32x4_eq_float4 k .div .lt n d c0).1]
  rfl

theorem repeat_lanes (k : Isa) (v : V4 F32) : F32x4.repeat' k v = v.map srep1 := by
  have e (c : Cmp) (n : F32) : F32x4.cmpS k c v n = Float4.cmpS c v n := (f32x4_eq_float4 k .sub c v v n).2.2.2.2.2.2.2.2.1
  unfold F32x4.repeat'
  simp only [select_eq, mod_lanes, e]
  rw [(f32x4_eq_float4 k .sub .lt v v c0).2.2.2.2.2.1, (f32x4_eq_float4 k .sub .lt v _ c1).2.2.2.2.1]
  unfold V4.select Float4.cmpS Float4.binL V4.map
  simp only [Float4.cmp, V4.splat, top_mask]
  rfl

theorem lerp_lanes (k : Isa) (a b : V4 F32) (t : F32) :
    F32x4.lerp k a b t = V4.map2 (vlerp1 · · t) a b ∧ Float4.lerp a b t = V4.map2 (vlerp1 · · t) a b := by
  unfold F32x4.lerp
  rw [(f32x4_eq_float4 k .add .lt _ _ t).1, (f32x4_eq_float4 k .mul .lt a a _).2.2.1, (f32x4_eq_float4 k .mul .lt b b _).2.2.1]
  exact ⟨rfl, rfl⟩

/-! ## Values -/

theorem c1_fin : c1.isFinite = true := by decide
theorem c0_fin : c0.isFinite = true := by decide
theorem c0_val : c0.val = 0 := (rv_zero_iff F32.c0).2 (by decide)
theorem c1_val : c1.val = 1 := by
  have : c1.units = 2 ^ 149 := by decide +kernel
  rw [val_units, this]; norm_num

theorem val_nonneg {x : F32} (h : x.signBit = false) : 0 ≤ x.val := by
  rw [val_sign, h]; simp only [Bool.false_eq_true, if_false, one_mul]; positivity
theorem val_nonpos {x : F32} (h : x.signBit = true) : x.val ≤ 0 := by
  rw [val_sign, h]; simp only [if_true, neg_mul, one_mul, Left.neg_nonpos_iff]; positivity

/-- The exact remainder by one is the fractional part. -/
theorem fmod_one {v : F32} (hv : v.isFinite = true) (h0 : 0 ≤ v.val) :
    (ffmod v c1).isFinite = true ∧ (ffmod v c1).val = Int.fract v.val := by
  obtain ⟨h1, h2, h3, n, h4⟩ := (fmod_ok v c1).1 hv c1_fin (by rw [rv_val, c1_val]; norm_num)
  refine ⟨h1, ?_⟩
  simp only [rv_val] at *
  rw [c1_val] at *
  rw [abs_one, abs_lt] at h3
  rw [mul_one] at h4
  refine (Int.fract_eq_iff.2 ⟨?_, h3.2, n, by linarith⟩).symm
  cases hs : v.signBit
  · exact val_nonneg (h2.trans hs)
  · have hz : v.val = 0 := le_antisymm (val_nonpos hs) h0
    rw [hz] at h4
    have hn : n = 0 := by
      have a1 : (n : ℝ) < 1 := by linarith
      have a2 : (-1 : ℝ) < n := by linarith
      have b1 : n < 1 := by exact_mod_cast a1
      have b2 : -1 < n := by exact_mod_cast a2
      omega
    rw [hn] at h4; push_cast at h4; linarith

theorem floor_val {x : F32} (hx : x.isFinite = true) : (ffloor x).isFinite = true ∧ (ffloor x).val = ⌊x.val⌋ := by
  obtain ⟨h1, n, h2, ⟨h3, h4⟩, _⟩ := (rnd_std .floor x).2 hx
  refine ⟨h1, ?_⟩
  have e : (ffloor x).val = n := by
    have : (ffloor x).toRat = n := h2
    unfold val; rw [this]; push_cast; rfl
  rw [e]
  congr 1
  symm
  rw [Int.floor_eq_iff]
  unfold val
  exact ⟨by exact_mod_cast h3, by exact_mod_cast h4⟩

theorem fdiv_exact {a b y : F32} (ha : a.isFinite = true) (hb : b.isFinite = true) (h0 : b.val ≠ 0) (hy : y.isFinite = true)
    (h : y.val = a.val / b.val) : Approx (fdiv a b) (a.val / b.val) 0 := by
  have hq : y.toRat = a.toRat / b.toRat := by unfold val at h; exact_mod_cast h
  have hn := fdiv_nearest ha hb (by unfold val at h0; exact_mod_cast h0) (by rw [← hq]; exact val_le_max hy)
  have e : ((a.toRat / b.toRat : Rat) : ℝ) = a.val / b.val := by unfold val; push_cast; rfl
  rw [e] at hn
  exact ⟨hn.1, by rw [nearest_exact hn hy h, sub_self, abs_zero]⟩

/-- The SIMD remainder by one is the fractional part. -/
theorem mod1_one {v : F32} (hv : v.isFinite = true) (h0 : 0 ≤ v.val) :
    (mod1 v c1).isFinite = true ∧ (mod1 v c1).val = Int.fract v.val := by
  obtain ⟨r1, r2⟩ := fmod_one hv h0
  have d := fdiv_exact hv c1_fin (by rw [c1_val]; norm_num) hv (by rw [c1_val, div_one])
  have hd : (fdiv v c1).val = v.val := by rw [d.eq, c1_val, div_one]
  obtain ⟨f1, f2⟩ := floor_val d.1
  rw [hd] at f2
  have m := fmul_exact f1 c1_fin f1 (by rw [c1_val, mul_one])
  have hm : (fmul (ffloor (fdiv v c1)) c1).val = ⌊v.val⌋ := by rw [m.eq, c1_val, mul_one, f2]
  have s := fsub_exact hv m.1 r1 (by rw [hm, r2]; rfl)
  exact ⟨s.1, by unfold mod1; rw [s.eq, hm]; rfl⟩

theorem nearest_le {r y : F32} {ρ : ℝ} (h : r.IsNearest ρ) (hy : y.isFinite = true) (hρ : ρ ≤ y.val) : r.val ≤ y.val := by
  by_contra hc
  rw [not_le] at hc
  have := h.2 y hy
  change |r.val - ρ| ≤ |y.val - ρ| at this
  rw [abs_of_nonneg (by linarith), abs_of_nonneg (by linarith)] at this
  linarith
theorem le_nearest {r y : F32} {ρ : ℝ} (h : r.IsNearest ρ) (hy : y.isFinite = true) (hρ : y.val ≤ ρ) : y.val ≤ r.val := by
  by_contra hc
  rw [not_le] at hc
  have := h.2 y hy
  change |r.val - ρ| ≤ |y.val - ρ| at this
  rw [abs_of_nonpos (by linarith), abs_of_nonpos (by linarith)] at this
  linarith

/-- The branch for negative arguments. -/
theorem repeat_neg {x : F32} {q : ℝ} (hx : x.isFinite = true) (h : x.val = Int.fract q) :
    (fsub c1 x).IsNearest (1 - Int.fract q) ∧ 0 ≤ (fsub c1 x).val ∧ (fsub c1 x).val ≤ 1 := by
  have hf0 := Int.fract_nonneg q
  have hf1 := Int.fract_lt_one q
  have e : ((c1.toRat - x.toRat : Rat) : ℝ) = 1 - Int.fract q := by
    rw [← c1_val, ← h]; unfold val; push_cast; rfl
  have hb : |c1.toRat - x.toRat| ≤ maxRat := by
    refine rat_le_max (M := 1) ?_ (by norm_num)
    rw [e, abs_le]; constructor <;> linarith
  have hn := fsub_nearest c1_fin hx hb
  rw [e] at hn
  refine ⟨hn, ?_, ?_⟩
  · rw [← c0_val]; exact le_nearest hn c0_fin (by rw [c0_val]; linarith)
  · rw [← c1_val]; exact nearest_le hn c1_fin (by rw [c1_val]; linarith)

open F32x4 in
theorem repeat_finite {v : F32} (hv : v.isFinite = true) {m : F32 → F32}
    (hm : ∀ x : F32, x.isFinite = true → 0 ≤ x.val → (m x).isFinite = true ∧ (m x).val = Int.fract x.val) {r : F32}
    (hr : r = if v.val < 0 then fsub c1 (m (fneg v)) else if 1 ≤ v.val then m v else v) :
    r.isFinite ∧ 0 ≤ rv r ∧ rv r ≤ 1 ∧ (0 ≤ rv v → rv r = Int.fract (rv v)) ∧
    (rv v < 0 → r.IsNearest (1 - Int.fract (-rv v))) := by
  simp only [rv_val]
  by_cases h : v.val < 0
  · rw [if_pos h] at hr
    have hn := hm (fneg v) (by rw [fneg_finite]; exact hv) (by rw [fneg_val]; linarith)
    rw [fneg_val] at hn
    obtain ⟨a, b, c⟩ := repeat_neg hn.1 hn.2
    rw [hr]
    exact ⟨a.1, b, c, fun h' => absurd h (not_lt.2 h'), fun _ => a⟩
  · rw [if_neg h] at hr
    rw [not_lt] at h
    suffices hs : r.isFinite = true ∧ r.val = Int.fract v.val from
      ⟨hs.1, by rw [hs.2]; exact Int.fract_nonneg _, by rw [hs.2]; exact (Int.fract_lt_one _).le, fun _ => hs.2,
        fun h' => absurd h (not_le.2 h')⟩
    by_cases h1 : 1 ≤ v.val
    · rw [if_pos h1] at hr; rw [hr]; exact hm v hv h
    · rw [if_neg h1] at hr; rw [hr]; exact ⟨hv, (Int.fract_eq_self.2 ⟨h, not_le.1 h1⟩).symm⟩

open F32x4 in
theorem repeat1_eq {v : F32} (hv : v.isFinite = true) :
    repeat1 v = if v.val < 0 then fsub c1 (ffmod (fneg v) c1) else if 1 ≤ v.val then ffmod v c1 else v := by
  unfold repeat1
  rw [ltb_val hv c0_fin, leb_val c1_fin hv, c0_val, c1_val]
  simp only [decide_eq_true_eq]

open F32x4 in
theorem srep1_eq {v : F32} (hv : v.isFinite = true) :
    srep1 v = if v.val < 0 then fsub c1 (mod1 (fneg v) c1) else if 1 ≤ v.val then mod1 v c1 else v := by
  unfold srep1
  rw [ltb_val hv c0_fin, ltb_val hv c1_fin, c0_val, c1_val]
  simp only [decide_eq_true_eq]
  by_cases h : v.val < 0
  · rw [if_pos h, if_pos h, if_pos (by linarith)]
  · rw [if_neg h, if_neg h]
    by_cases h1 : 1 ≤ v.val
    · rw [if_pos h1, if_neg (not_lt.2 h1)]
    · rw [if_neg h1, if_pos (not_le.1 h1)]

theorem inf_cases {v : F32} (h : v.isFinite = false) : v.isNaN = true ∨ v = inf true ∨ v = inf false := by
  have h1 : infMag ≤ v.mag := by
    have := of_decide_eq_false h; omega
  rcases Nat.lt_or_ge infMag v.mag with h2 | h2
  · exact Or.inl (decide_eq_true h2)
  · right
    have hm : v.mag = infMag := le_antisymm h2 h1
    have : v = inf v.signBit := by
      apply ext_parts
      · unfold inf; rw [ofParts_signBit _ _ (by decide)]
      · unfold inf; rw [ofParts_mag _ _ (by decide), hm]
    cases hs : v.signBit
    · exact Or.inr (by rw [hs] at this; exact this)
    · exact Or.inl (by rw [hs] at this; exact this)

theorem ltb_nan {a b : F32} (h : a.isNaN = true) : ltb a b = false := by unfold ltb; rw [h]; rfl
theorem leb_nan {a b : F32} (h : b.isNaN = true) : leb a b = false := by unfold leb; rw [h]; simp

theorem repeat1_special {v : F32} (h : v.isFinite = false) : (repeat1 v).isNaN = true := by
  rcases inf_cases h with h | h | h
  · unfold repeat1; rw [ltb_nan h, leb_nan h]; exact h
  · subst h
    have e : ltb (inf true) c0 = true := by decide
    unfold repeat1; rw [if_pos e]
    exact fsub_nan (Or.inr ((fmod_ok (fneg (inf true)) c1).2.2 (Or.inr (Or.inr (Or.inl (by decide))))))
  · subst h
    have e : ltb (inf false) c0 = false := by decide
    have e1 : leb c1 (inf false) = true := by decide
    unfold repeat1; rw [if_neg (by rw [e]; simp), if_pos e1]
    exact (fmod_ok (inf false) c1).2.2 (Or.inr (Or.inr (Or.inl (by decide))))

theorem mod1_inf : (mod1 (inf false) c1).isNaN = true := by
  have h1 : fdiv (inf false) c1 = inf false := by decide
  have h2 : ffloor (inf false) = inf false := by unfold ffloor toIntegral; rw [if_neg (by decide), if_pos (by decide)]
  have h3 : fmul (inf false) c1 = inf false := by decide
  unfold mod1; rw [h1, h2, h3]; decide

theorem srep1_special {v : F32} (h : v.isFinite = false) : (srep1 v).isNaN = true := by
  rcases inf_cases h with h | h | h
  · unfold srep1; rw [if_neg (by rw [ltb_nan h]; simp)]; unfold mod1; exact fsub_nan (Or.inl h)
  · subst h
    have e : ltb (inf true) c1 = true := by decide
    have e1 : ltb (inf true) c0 = true := by decide
    have e2 : fneg (inf true) = inf false := by decide
    unfold srep1; rw [if_pos e, if_pos e1, e2]
    exact fsub_nan (Or.inr mod1_inf)
  · subst h
    have e : ltb (inf false) c1 = false := by decide
    unfold srep1; rw [if_neg (by rw [e]; simp)]; exact mod1_inf

theorem repeat1_ok (v : F32) : RepeatOk v (repeat1 v) :=
  ⟨fun hv => repeat_finite hv (fun _ h1 h2 => fmod_one h1 h2) (repeat1_eq hv), repeat1_special⟩
theorem srep1_ok (v : F32) : RepeatOk v (srep1 v) :=
  ⟨fun hv => repeat_finite hv (fun _ h1 h2 => mod1_one h1 h2) (srep1_eq hv), srep1_special⟩

theorem key_of_val {a b : F32} (h : a.val = b.val) : a.key = b.key := by
  rw [← units_eq_iff]
  have h1 := units_val a
  rw [h, ← units_val b] at h1
  exact_mod_cast h1

theorem repeat_same (v : F32) : SameFloat (srep1 v) (repeat1 v) := by
  cases hv : v.isFinite
  · exact Or.inl ⟨srep1_special hv, repeat1_special hv⟩
  · right
    have hs := (srep1_ok v).1 hv
    have hr := (repeat1_ok v).1 hv
    refine ⟨finite_not_nan hs.1, finite_not_nan hr.1, ?_⟩
    rcases lt_or_ge (rv v) 0 with h | h
    · rw [rv_val] at h
      rw [srep1_eq hv, repeat1_eq hv, if_pos h, if_pos h]
      have hf : (fneg v).isFinite = true := by rw [fneg_finite]; exact hv
      have h0 : 0 ≤ (fneg v).val := by rw [F32x4.fneg_val]; linarith
      obtain ⟨a1, a2⟩ := mod1_one hf h0
      obtain ⟨b1, b2⟩ := fmod_one hf h0
      rw [(fsub_finite c1_fin a1).2, (fsub_finite c1_fin b1).2, (units_eq_iff _ _).2 (key_of_val (a2.trans b2.symm))]
    · exact key_of_val ((hs.2.2.2.1 h).trans (hr.2.2.2.1 h).symm)

end Elem

/-- **C92**: `repeat` on `float`, `float2`, `float3`, `float4` and, on every instruction set, `f32x4`: every component is moved into
the unit interval. -/
theorem repeat_ok (k : Isa) (s : F32) (a : V2 F32) (b : V3 F32) (v : V4 F32) :
    RepeatOk s (repeat1 s) ∧ (∀ i, RepeatOk (a.get i) ((Float2.repeat' a).get i)) ∧
    (∀ i, RepeatOk (b.get i) ((Float3.repeat' b).get i)) ∧ (∀ i, RepeatOk (v.get i) ((Float4.repeat' v).get i)) ∧
    ∀ i, RepeatOk (v.get i) ((F32x4.repeat' k v).get i) := by
  refine ⟨Elem.repeat1_ok s, fun i => ?_, fun i => ?_, fun i => ?_, fun i => ?_⟩
  · fin_cases i <;> exact Elem.repeat1_ok _
  · fin_cases i <;> exact Elem.repeat1_ok _
  · fin_cases i <;> exact Elem.repeat1_ok _
  · rw [Elem.repeat_lanes]; fin_cases i <;> exact Elem.srep1_ok _

/-- **C92**: the SIMD and the scalar `repeat` return the same numbers. -/
theorem repeat_agree (k : Isa) (v : V4 F32) (i : Fin 4) : SameFloat ((F32x4.repeat' k v).get i) ((Float4.repeat' v).get i) := by
  rw [Elem.repeat_lanes]; fin_cases i <;> exact Elem.repeat_same _

namespace Elem

theorem mod_bound {N D n kd p r K : ℝ} (hn : |n| = N) (hK : |kd| = K) (hD : 0 ≤ D)
    (h1 : K ≤ N + N / 2 ^ 24 + D + D / 2 ^ 150) (h2 : |p - kd| ≤ K / 2 ^ 24 + 1 / 2 ^ 150)
    (h3 : |r - (n - p)| ≤ 1 / 2 ^ 24 * |n - p|) : |r - (n - kd)| ≤ (N + D) / 2 ^ 22 + 1 / 2 ^ 149 := by
  have hN : 0 ≤ N := hn ▸ abs_nonneg n
  have hp : |p| ≤ K + (K / 2 ^ 24 + 1 / 2 ^ 150) := by
    have := abs_add_le (p - kd) kd
    rw [sub_add_cancel] at this; linarith
  have hnp : |n - p| ≤ N + (K + (K / 2 ^ 24 + 1 / 2 ^ 150)) := by
    have := abs_sub n p
    linarith
  have h4 : |r - (n - kd)| ≤ |r - (n - p)| + |p - kd| := by
    rw [show r - (n - kd) = (r - (n - p)) - (p - kd) by ring]; exact abs_sub _ _
  have h5 : 1 / 2 ^ 24 * |n - p| ≤ 1 / 2 ^ 24 * (N + (K + (K / 2 ^ 24 + 1 / 2 ^ 150))) := by gcongr
  have h6 : D / 2 ^ 150 ≤ D / 2 ^ 24 := by gcongr <;> norm_num
  have h7 : (1 : ℝ) / 2 ^ 150 / 2 ^ 24 ≤ 1 / 2 ^ 149 - 1 / 2 ^ 150 := by norm_num
  generalize D / 2 ^ 150 = D' at *
  norm_num at *
  linarith

/-- The SIMD remainder up to rounding. -/
theorem mod1_near {n d : F32} (hn : n.isFinite = true) (hd : d.isFinite = true) (h0 : d.val ≠ 0)
    (hn' : |n.val| ≤ 2 ^ 125) (hd' : |d.val| ≤ 2 ^ 125) (hq : |n.val| ≤ 2 ^ 126 * |d.val|) : FloorRemNear n d (mod1 n d) := by
  have dp : 0 < |d.val| := abs_pos.2 h0
  have hQ : |n.val / d.val| ≤ 2 ^ 126 := by rw [abs_div, div_le_iff₀ dp]; exact hq
  have q := fdiv_approx hn hd h0 le_rfl (hQ.trans_lt (by norm_num))
  obtain ⟨f1, f2⟩ := floor_val q.1
  have q2 := abs_le.1 q.2
  have hfl := Int.floor_le (fdiv n d).val
  have hlt := Int.lt_floor_add_one (fdiv n d).val
  generalize ⌊(fdiv n d).val⌋ = k at *
  have hQd : |n.val / d.val| * |d.val| = |n.val| := by rw [← abs_mul, div_mul_cancel₀ _ h0]
  have hk : |(k : ℝ)| ≤ |n.val / d.val| + ulp |n.val / d.val| + 1 := by
    have h1 := abs_le.1 (le_refl |n.val / d.val|)
    rw [abs_le]; constructor <;> linarith
  have hK : |(ffloor (fdiv n d)).val * d.val| ≤ |n.val| + |n.val| / 2 ^ 24 + |d.val| + |d.val| / 2 ^ 150 := by
    rw [f2, abs_mul]
    calc |(k : ℝ)| * |d.val| ≤ (|n.val / d.val| + ulp |n.val / d.val| + 1) * |d.val| := by gcongr
      _ = |n.val / d.val| * |d.val| + |n.val / d.val| * |d.val| / 2 ^ 24 + |d.val| + |d.val| / 2 ^ 150 := by unfold ulp; ring
      _ = _ := by rw [hQd]
  have hKb : |(ffloor (fdiv n d)).val * d.val| ≤ 2 ^ 125 * 2.1 := by
    have h6 : |d.val| / 2 ^ 150 ≤ |d.val| / 2 ^ 24 := by gcongr <;> norm_num
    generalize |d.val| / 2 ^ 150 = D' at *
    norm_num at *
    linarith
  have p := fmul_approx f1 hd le_rfl (hKb.trans_lt (by norm_num))
  have hp : |(fmul (ffloor (fdiv n d)) d).val| ≤ 2 ^ 125 * 2.2 := by
    have := p.abs_le
    unfold ulp at this
    norm_num at *
    linarith
  have s := fsub_err' hn p.1 (by have := abs_sub n.val (fmul (ffloor (fdiv n d)) d).val; norm_num at *; linarith)
  refine ⟨k, ?_, ?_, s.1, ?_⟩
  · simp only [rv_val]; unfold ulp at q2; linarith
  · simp only [rv_val]; unfold ulp at q2; linarith
  · simp only [rv_val]
    rw [← f2]
    refine mod_bound (p := (fmul (ffloor (fdiv n d)) d).val) rfl rfl dp.le hK ?_ ?_
    · exact p.2
    · exact s.2

/-- The SIMD remainder of whole numbers is exact. -/
theorem mod1_int {n d : F32} (hn : n.isFinite = true) (hd : d.isFinite = true) {N D : ℤ} (en : n.val = N) (ed : d.val = D)
    (hD : D ≠ 0) (h : |N| + |D| ≤ 2 ^ 24) : (mod1 n d).isFinite = true ∧ (mod1 n d).val = N - D * ⌊(N : ℝ) / D⌋ := by
  have hDr : (D : ℝ) ≠ 0 := by exact_mod_cast hD
  have hD1 : 1 ≤ |D| := Int.one_le_abs hD
  have hDp : (0 : ℝ) < |(D : ℝ)| := abs_pos.2 hDr
  have hD1r : (1 : ℝ) ≤ |(D : ℝ)| := by exact_mod_cast hD1
  have hr : |(N : ℝ)| + |(D : ℝ)| ≤ 2 ^ 24 := by exact_mod_cast h
  have hN : |(N : ℝ)| ≤ 2 ^ 24 - 1 := by linarith
  have hQ : |(N : ℝ) / D| ≤ 2 ^ 24 := by
    rw [abs_div, div_le_iff₀ hDp]; nlinarith [abs_nonneg (N : ℝ)]
  -- the quotient
  have e : ((n.toRat / d.toRat : Rat) : ℝ) = (N : ℝ) / D := by rw [← en, ← ed]; unfold val; push_cast; rfl
  have d0 : d.toRat ≠ 0 := by intro hc; apply hDr; rw [← ed]; unfold val; rw [hc]; simp
  have q := fdiv_nearest hn hd d0 (rat_le_max (M := 2 ^ 24) (by rw [e]; exact hQ) (by norm_num))
  rw [e] at q
  have qe := q.err (hQ.trans_lt ((by norm_num : (2 : ℝ) ^ 24 < 2 ^ 127).trans_le maxRat_big))
  -- the exact floor
  set Q := (N : ℝ) / D with hQdef
  have hF1 := Int.floor_le Q
  have hF2 := Int.lt_floor_add_one Q
  set F := ⌊Q⌋ with hF
  have hQD : Q * D = N := by rw [hQdef]; exact div_mul_cancel₀ _ hDr
  have hQabs : |Q| * |(D : ℝ)| = |(N : ℝ)| := by rw [← abs_mul, hQD]
  have hFD : |(F : ℝ) * D| ≤ 2 ^ 24 := by
    have h1 : |(F : ℝ) * D - N| ≤ |(D : ℝ)| := by
      rw [← hQD, ← sub_mul, abs_mul]
      have : |(F : ℝ) - Q| ≤ 1 := by rw [abs_le]; constructor <;> linarith
      nlinarith
    have h2 := abs_add_le ((F : ℝ) * D - N) N
    rw [sub_add_cancel] at h2
    linarith
  have hFD' : (F * D).natAbs ≤ 2 ^ 24 := by
    have : |F * D| ≤ 2 ^ 24 := by exact_mod_cast hFD
    rw [Int.abs_eq_natAbs] at this; exact_mod_cast this
  have hFa : F.natAbs ≤ 2 ^ 24 := by
    rw [Int.natAbs_mul] at hFD'
    have : 1 ≤ D.natAbs := by rw [Int.abs_eq_natAbs] at hD1; exact_mod_cast hD1
    nlinarith
  -- the computed floor
  have hq1 : (F : ℝ) ≤ (fdiv n d).val := by
    obtain ⟨y1, y2⟩ := ofInt_exact F hFa
    rw [← y2]; exact le_nearest q y1 (by rw [y2]; exact hF1)
  have hgap : Q ≤ F + 1 - 1 / |(D : ℝ)| := by
    have hlt : 0 < ((F : ℝ) + 1 - Q) * |(D : ℝ)| := by apply mul_pos _ hDp; linarith
    have hint : ∃ z : ℤ, ((F : ℝ) + 1 - Q) * |(D : ℝ)| = z := by
      rcases abs_cases (D : ℝ) with ⟨e1, _⟩ | ⟨e1, _⟩
      · exact ⟨(F + 1) * D - N, by rw [e1, sub_mul, hQD]; push_cast; ring⟩
      · exact ⟨-((F + 1) * D - N), by rw [e1]; push_cast; linarith [hQD]⟩
    obtain ⟨z, hz⟩ := hint
    rw [hz] at hlt
    have hz1 : 1 ≤ z := by have : (0 : ℤ) < z := by exact_mod_cast hlt
                           omega
    have hz1r : (1 : ℝ) ≤ z := by exact_mod_cast hz1
    rw [← hz] at hz1r
    have : 1 / |(D : ℝ)| ≤ (F : ℝ) + 1 - Q := by rw [div_le_iff₀ hDp]; exact hz1r
    linarith
  have hq2 : (fdiv n d).val < F + 1 := by
    have h1 : max (|Q| / 2 ^ 24) (1 / 2 ^ 150) < 1 / |(D : ℝ)| := by
      rw [lt_div_iff₀ hDp, max_mul_of_nonneg _ _ hDp.le, max_lt_iff]
      constructor
      · rw [div_mul_eq_mul_div, hQabs, div_lt_one (by positivity)]; linarith
      · have : |(D : ℝ)| ≤ 2 ^ 24 := by linarith [abs_nonneg (N : ℝ)]
        rw [div_mul_eq_mul_div, one_mul, div_lt_one (by positivity)]
        exact this.trans_lt (by norm_num)
    have h2 := (abs_le.1 qe).2
    change (fdiv n d).val - Q ≤ _ at h2
    linarith
  obtain ⟨f1, f2⟩ := floor_val q.1
  have hfl : ⌊(fdiv n d).val⌋ = F := Int.floor_eq_iff.2 ⟨hq1, hq2⟩
  rw [hfl] at f2
  -- the product and the difference
  obtain ⟨y1, y2⟩ := ofInt_exact (F * D) hFD'
  have p := fmul_exact f1 hd y1 (by rw [y2, f2, ed]; push_cast; ring)
  have pe : (fmul (ffloor (fdiv n d)) d).val = F * D := by rw [p.eq, f2, ed]
  have hsub : (N - F * D).natAbs ≤ 2 ^ 24 := by
    have h1 : |(F : ℝ) * D - N| ≤ |(D : ℝ)| := by
      rw [← hQD, ← sub_mul, abs_mul]
      have : |(F : ℝ) - Q| ≤ 1 := by rw [abs_le]; constructor <;> linarith
      nlinarith
    have h2 : |F * D - N| ≤ |D| := by exact_mod_cast h1
    rw [abs_sub_comm, Int.abs_eq_natAbs] at h2
    have := abs_nonneg N
    omega
  obtain ⟨z1, z2⟩ := ofInt_exact (N - F * D) hsub
  have s := fsub_exact hn p.1 z1 (by rw [z2, pe, en]; push_cast; ring)
  exact ⟨s.1, by unfold mod1; rw [s.eq, pe, en]; ring⟩

end Elem

/-- **C93** (`float2`, `float3`, `float4`): `mod` is the exact C remainder of every component. -/
theorem mod_ok (a a' : V2 F32) (b b' : V3 F32) (c c' : V4 F32) :
    (∀ i, RemOk (a.get i) (a'.get i) ((Float2.mod a a').get i)) ∧ (∀ i, RemOk (b.get i) (b'.get i) ((Float3.mod b b').get i)) ∧
    ∀ i, RemOk (c.get i) (c'.get i) ((Float4.mod c c').get i) := by
  refine ⟨fun i => ?_, fun i => ?_, fun i => ?_⟩ <;> fin_cases i <;> exact fmod_ok _ _

/-- **C93** (`f32x4`), partial: `mod` is the floored remainder only up to the rounding of the quotient and of the product. Missing:
the range of the result, which the next theorems show to fail. -/
theorem simd_mod_partial (k : Isa) (n d : V4 F32) (i : Fin 4) (hn : (n.get i).isFinite) (hd : (d.get i).isFinite)
    (h0 : rv (d.get i) ≠ 0) (hn' : |rv (n.get i)| ≤ 2 ^ 125) (hd' : |rv (d.get i)| ≤ 2 ^ 125)
    (hq : |rv (n.get i)| ≤ 2 ^ 126 * |rv (d.get i)|) :
    FloorRemNear (n.get i) (d.get i) ((F32x4.mod k n d).get i) := by
  have e : (F32x4.mod k n d).get i = Elem.mod1 (n.get i) (d.get i) := by rw [Elem.mod_lanes]; fin_cases i <;> rfl
  rw [e]; exact Elem.mod1_near hn hd h0 hn' hd' hq

/-- **C93** (`f32x4`): on whole numbers whose magnitudes add up to at most `2^24` the floored remainder is exact. -/
theorem simd_mod_whole (k : Isa) (n d : V4 F32) (i : Fin 4) (hn : (n.get i).isFinite) (hd : (d.get i).isFinite) (N D : ℤ)
    (en : rv (n.get i) = N) (ed : rv (d.get i) = D) (hD : D ≠ 0) (h : |N| + |D| ≤ 2 ^ 24) :
    ((F32x4.mod k n d).get i).isFinite ∧ rv ((F32x4.mod k n d).get i) = N - D * ⌊(N : ℝ) / D⌋ := by
  have e : (F32x4.mod k n d).get i = Elem.mod1 (n.get i) (d.get i) := by rw [Elem.mod_lanes]; fin_cases i <;> rfl
  rw [e]; exact Elem.mod1_int hn hd en ed hD h

/-- The remainder of `0.9f` by `0.1f` comes out negative on every instruction set, although both are positive. -/
theorem simd_mod_negative_counterexample (k : Isa) :
    ((F32x4.mod k (V4.splat ⟨0x3F666666⟩) (V4.splat ⟨0x3DCCCCCD⟩)).x).toRat < 0 := by
  rw [Elem.mod_lanes]
  show (Elem.mod1 ⟨0x3F666666⟩ ⟨0x3DCCCCCD⟩).toRat < 0
  have e : Elem.mod1 ⟨0x3F666666⟩ ⟨0x3DCCCCCD⟩ = ⟨0xB3800000⟩ := by decide +kernel
  rw [e, show (0 : Rat) = (zero false).toRat from ((toRat_zero_iff _).2 (by decide)).symm, toRat_lt_iff]
  decide

/-- `mod` means different things on `float4` and on `f32x4`: `-1` by `3` is `-1` on the first and `2` on the second. -/
theorem mod_disagree_counterexample (k : Isa) :
    (Float4.mod (V4.splat ⟨0xBF800000⟩) (V4.splat ⟨0x40400000⟩)).x = ⟨0xBF800000⟩ ∧
    (F32x4.mod k (V4.splat ⟨0xBF800000⟩) (V4.splat ⟨0x40400000⟩)).x = ⟨0x40000000⟩ := by
  rw [Elem.mod_lanes]
  constructor
  · show ffmod ⟨0xBF800000⟩ ⟨0x40400000⟩ = _
    decide +kernel
  · show Elem.mod1 ⟨0xBF800000⟩ ⟨0x40400000⟩ = _
    decide +kernel

end Verif
