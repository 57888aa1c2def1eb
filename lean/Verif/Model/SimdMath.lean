import Verif.Model.Rounding

/-!
# Transcendental functions of `f32x4`

`log`, `exp`, `fastPow` and `sinCos` of /repo/include/math/simd/vector/float.hpp, and the gamma correction built on them.
Every operation used acts lane by lane (C78, C79), so each function is modelled on one lane.

The plain fallback is not modelled: `select` (/repo/include/math/simd/vector/float.hpp:738) passes a `float4` where `uint4`
is required, so these functions do not compile there. The branch `std::numeric_limits<float>::is_iec559` is taken.
-/

namespace Verif

/-- Where the code runs: SSE or NEON, and whether `MATH_SIMD_FMA` is a fused operation. It is on AVX2 and is not on plain
SSE (/repo/include/math/simd/vector/float.hpp:24-30); `vmlaq_f32` may or may not be fused by the compiler. -/
inductive FTarget | sse (fused : Bool) | neon (fused : Bool)
deriving DecidableEq

namespace F32

/-- Conversion of a signed integer to `float`. -/
def ofInt (z : Int) : F32 := if z = 0 then zero false else roundUnits (z * 2 ^ 149) 1

/-- `_mm_cvttps_epi32`: truncation; NaN and out-of-range values give `0x80000000`. -/
def cvtt (x : F32) : W :=
  if x.isFinite && decide (-2 ^ 31 ≤ x.truncInt) && decide (x.truncInt < 2 ^ 31) then BitVec.ofInt 32 x.truncInt
  else 0x80000000#32

/-- `vcvtq_s32_f32`: truncation, saturating; NaN gives 0. -/
def vcvtS (x : F32) : W :=
  if x.isNaN then 0#32
  else if x.isInf then (if x.signBit then 0x80000000#32 else 0x7FFFFFFF#32)
  else BitVec.ofInt 32 (max (-2 ^ 31) (min x.truncInt (2 ^ 31 - 1)))

/-- `vcvtq_u32_f32`: truncation, saturating; NaN gives 0. -/
def vcvtU (x : F32) : W :=
  if x.isNaN then 0#32
  else if x.isInf then (if x.signBit then 0#32 else 0xFFFFFFFF#32)
  else BitVec.ofInt 32 (max 0 (min x.truncInt (2 ^ 32 - 1)))

end F32

open F32

namespace F32x4

/-- `MATH_SIMD_FMA`, /repo/include/math/simd/vector/float.hpp:24-30 and `fma`, 836-843. -/
def fma1 (t : FTarget) (a b c : F32) : F32 :=
  match t with
  | .sse true | .neon true => ffma a b c
  | .sse false | .neon false => fadd c (fmul a b)

/-- `explicit f32x4(u32x4)`, /repo/include/math/simd/vector/float.hpp:147-156. SSE converts the lane as a signed integer. -/
def ofU (t : FTarget) (w : W) : F32 := match t with | .sse _ => ofInt w.toInt | .neon _ => ofInt w.toNat
/-- `explicit f32x4(i32x4)`, /repo/include/math/simd/vector/float.hpp:161-170. -/
def ofI (w : W) : F32 := ofInt w.toInt
/-- `explicit operator u32x4`, /repo/include/math/simd/vector/float.hpp:393-402. -/
def toU (t : FTarget) (x : F32) : W := match t with | .sse _ => cvtt x | .neon _ => vcvtU x
/-- `explicit operator i32x4`, /repo/include/math/simd/vector/float.hpp:406-415. -/
def toI (t : FTarget) (x : F32) : W := match t with | .sse _ => cvtt x | .neon _ => vcvtS x
/-- `select`, /repo/include/math/simd/vector/float.hpp:728-740: the sign bit of the control word chooses. -/
def sel {α : Type} (c : W) (t f : α) : α := if c.msb then t else f

/-- A literal. -/
local notation "lit(" q ")" => F32.ofRat q

/-- `log`, /repo/include/math/simd/vector/float.hpp:1189-1222. -/
def log1 (t : FTarget) (v0 : F32) : F32 :=
  let o := mask (ltb v0 ⟨0x00800000⟩)
  let v := sel o (fmul v0 (fmul (ofNat (2 ^ 32)) (ofNat (2 ^ 32)))) v0
  let e : W := (((fmul v (fdiv (lit(1)) (lit(3 / 4)))).bits >>> 23) &&& 0xFF#32) - 0x7F#32
  let m : F32 := ⟨v.bits + ((-e) <<< 23)⟩
  let e := sel o (e - 64#32) e
  let x := fdiv (fsub m (lit(1))) (fadd m (lit(1)))
  let x2 := fmul x x
  let p := lit(0.2392828464508056640625)
  let p := fma1 t p x2 (lit(0.28518211841583251953125))
  let p := fma1 t p x2 (lit(0.400005877017974853515625))
  let p := fma1 t p x2 (lit(0.28518211841583251953125))
  let p := fma1 t p x2 (lit(0.666666686534881591796875))
  let p := fma1 t p x2 (lit(2))
  let x := fma1 t x p (fmul (lit(0.693147180559945286226764)) (ofU t e))
  let x := sel (mask (eqb v (inf false)) ||| mask (eqb v (inf true))) (inf true) x
  let x := sel (mask (ltb v (zero false)) ||| mask (eqb v nan)) nan x
  sel (mask (eqb v (zero false))) (inf true) x

/-- `exp`, /repo/include/math/simd/vector/float.hpp:1227-1258. `M_LOG2E` is converted to `float`. -/
def exp1 (t : FTarget) (v : F32) : F32 :=
  let s := fmul v (lit(1.44269504088896340736))
  let q : W := toI t (sel (mask (ltb s (zero false))) (fsub s (lit(1 / 2))) (fadd s (lit(1 / 2))))
  let qf := ofI q
  let s := fma1 t qf (lit(-0.693145751953125)) v
  let s := fma1 t qf (lit(-1.428606765330187045e-06)) s
  let u := lit(0.000198527617612853646278381)
  let u := fma1 t u s (lit(0.00139304355252534151077271))
  let u := fma1 t u s (lit(0.00833336077630519866943359))
  let u := fma1 t u s (lit(0.0416664853692054748535156))
  let u := fma1 t u s (lit(0.166666671633720397949219))
  let u := fma1 t u s (lit(1 / 2))
  let u := fadd (fma1 t (fmul s s) u s) (lit(1))
  let u := fmul (fmul u ⟨(q.sshiftRight 1 + 0x7F#32) <<< 23⟩) ⟨((q - q.sshiftRight 1) + 0x7F#32) <<< 23⟩
  let u : F32 := ⟨u.bits &&& mask (leb (lit(-104)) v)⟩
  sel (mask (ltb (lit(104)) v)) (inf false) u

/-- `fastPow`, /repo/include/math/simd/vector/float.hpp:1279-1297. -/
def fastPow1 (t : FTarget) (b e : F32) : F32 :=
  let r := exp1 t (fmul (log1 t (fabs b)) e)
  let eInt := toI t e
  let eAbs := fabs e
  let eIsInt := mask (eqb e (ofI eInt)) ||| mask (leb (ofNat (2 ^ 24)) eAbs)
  let eIsOdd := mask (decide (eInt &&& 1#32 ≠ 0#32)) &&& eIsInt &&& mask (ltb eAbs (ofNat (2 ^ 24)))
  let r := fmul r (sel (mask (ltb b (zero false)) &&& eIsOdd) (lit(-1)) (lit(1)))
  let r : F32 := ⟨r.bits &&& ~~~(mask (eqb b (zero false)))⟩
  sel (mask (eqb e (zero false))) (lit(1)) r

/-- The argument reduction of `sinCos`: sign bit, quadrant and reduced argument,
/repo/include/math/simd/vector/float.hpp:1311-1316. `M_2_PI` is converted to `float`. -/
def sinCosReduce (t : FTarget) (v : F32) : W × W × F32 :=
  let sinSign := v.bits &&& 0x80000000#32
  let x : F32 := ⟨v.bits ^^^ sinSign⟩
  let quadrant := toU t (fma1 t (lit(0.63661977236758134308)) x (lit(1 / 2)))
  let fq := ofU t quadrant
  (sinSign, quadrant,
    fsub (fsub (fsub x (fmul fq (lit(1.5703125)))) (fmul fq (lit(0.0004837512969970703125)))) (fmul fq (lit(7.549789948768648e-8))))

/-- The cosine polynomial, /repo/include/math/simd/vector/float.hpp:1318-1320. -/
def taylorCos (t : FTarget) (x : F32) : F32 :=
  let x2 := fmul x x
  fadd (fsub (fmul (fmul (fma1 t (fsub (fmul (lit(2.443315711809948e-5)) x2) (lit(1.388731625493765e-3))) x2
    (lit(4.166664568298827e-2))) x2) x2) (fmul (lit(1 / 2)) x2)) (lit(1))

/-- The sine polynomial, /repo/include/math/simd/vector/float.hpp:1318, 1321-1322. -/
def taylorSin (t : FTarget) (x : F32) : F32 :=
  let x2 := fmul x x
  fadd (fmul (fmul (fsub (fmul (fma1 t (lit(-1.9515295891e-4)) x2 (lit(8.3321608736e-3))) x2) (lit(1.6666654611e-1))) x2) x) x

/-- `sinCos`, /repo/include/math/simd/vector/float.hpp:1306-1340: the pair (sine, cosine). -/
def sinCos1 (t : FTarget) (v : F32) : F32 × F32 :=
  let (sinSign, quadrant, x) := sinCosReduce t v
  let c := taylorCos t x
  let s := taylorSin t x
  let bit1 := quadrant <<< 31
  let bit2 := (quadrant <<< 30) &&& 0x80000000#32
  let s' := sel bit1 c s
  let c' := sel bit1 s c
  (⟨s'.bits ^^^ (sinSign ^^^ bit2)⟩, ⟨c'.bits ^^^ (bit1 ^^^ bit2)⟩)

/-- The vector functions: the lane functions on every lane, /repo/include/math/simd/vector/float.hpp:1189-1222, 1227-1258,
1279-1297, 1306-1340. -/
def log (t : FTarget) (v : V4 F32) : V4 F32 := v.map (log1 t)
/-- `exp`, /repo/include/math/simd/vector/float.hpp:1227-1258. -/
def exp (t : FTarget) (v : V4 F32) : V4 F32 := v.map (exp1 t)
/-- `fastPow`, /repo/include/math/simd/vector/float.hpp:1279-1297. -/
def fastPow (t : FTarget) (b e : V4 F32) : V4 F32 := V4.map2 (fastPow1 t) b e
/-- `sinCos`, /repo/include/math/simd/vector/float.hpp:1306-1340. -/
def sinCos (t : FTarget) (v : V4 F32) : V4 F32 × V4 F32 := (v.map fun x => (sinCos1 t x).1, v.map fun x => (sinCos1 t x).2)

/-- `fastGammaCorrection(color, invGamma)`, /repo/include/math/tone-mapping.hpp:47-50. -/
def fastGamma (t : FTarget) (c : V4 F32) (invGamma : F32) : V4 F32 :=
  { V4.map (fun b => fastPow1 t b invGamma) c with w := c.w }
/-- `fastGammaCorrection(color)`, /repo/include/math/tone-mapping.hpp:34, 56-59. -/
def fastGammaDefault (t : FTarget) (c : V4 F32) : V4 F32 :=
  { V4.map (fun b => fastPow1 t b (fdiv (lit(1)) (lit(2.2)))) c with w := c.w }

end F32x4
end Verif
