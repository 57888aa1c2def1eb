import Verif.Model.Ibl
import Verif.Model.Mat

/-!
# Spherical harmonics

Models /repo/include/math/sh.hpp. Arrays of coefficients are lists; a read or write outside the array is `none`.
-/

namespace Verif.Sh
open Flt Ibl

/-- `shIndex`, /repo/include/math/sh.hpp:63-66. Simplification: unbounded integers for `int32`. -/
def shIndex (m l : Int) : Int := l * (l + 1) + m

/-- `sphereQuadrantArea`, /repo/include/math/sh.hpp:67-70. -/
def sphereQuadrantArea {F : Type} [Flt F] [FltT F] (x y : F) : F :=
  FltT.atan2 (x *. y) (V3.length ⟨x, y, lit 1⟩)

/-- `calcSolidAngle`, /repo/include/math/sh.hpp:71-77. -/
def calcSolidAngle {F : Type} [Flt F] [FltT F] (st : V2 F) (invDim : F) : F :=
  let v0 := V2.sub st (V2.splat invDim)
  let v1 := V2.add st (V2.splat invDim)
  sphereQuadrantArea v0.x v0.y -. sphereQuadrantArea v0.x v1.y -. sphereQuadrantArea v1.x v0.y +.
    sphereQuadrantArea v1.x v1.y

/-- `a[i] = v`; `none` when `i` is outside the array. Models the stores in /repo/include/math/sh.hpp:80-121. -/
def store {F : Type} (a : List F) (i : Int) (v : F) : Option (List F) :=
  if 0 ≤ i ∧ i < (a.length : Int) then some (a.set i.toNat v) else none
/-- `a[i]`; `none` when `i` is outside the array. Models the loads in /repo/include/math/sh.hpp:80-121. -/
def load {F : Type} (a : List F) (i : Int) : Option F := if 0 ≤ i then a[i.toNat]? else none
/-- `a[i] *= v`. Models /repo/include/math/sh.hpp:112-113, 206-212. -/
def scale {F : Type} [Flt F] (a : List F) (i : Int) (v : F) : Option (List F) :=
  (load a i).bind fun x => store a i (x *. v)

section basis
variable {F : Type} [Flt F] [FltB F]

/-- First loop of `computeShBasis`: the entries with `m = 0`, /repo/include/math/sh.hpp:85-90. The state is
the array, `pml2` and `pml1`. -/
def basisLoop0 (z : F) (st : List F × F × F) (l : Nat) : Option (List F × F × F) :=
  let pml := (FltB.ofInt (2 * l - 1) *. st.2.2 *. z -. FltB.ofInt (l - 1) *. st.2.1) /. FltB.ofInt l
  (store st.1 (shIndex 0 l) pml).map fun a => (a, st.2.2, pml)
/-- Second loop of `computeShBasis`, /repo/include/math/sh.hpp:93-106. The state is the array and `pmm`. -/
def basisLoop1 (z : F) (st : List F × F) (m : Nat) : Option (List F × F) :=
  let pmm := FltB.ofInt (1 - 2 * m) *. st.2
  let pml2 := pmm
  let pml1 := FltB.ofInt (2 * m + 1) *. pmm *. z
  (store st.1 (shIndex (-m) m) pml2).bind fun a =>
  (store a (shIndex m m) pml2).bind fun a =>
  if m + 1 < shBandCount then
    (store a (shIndex (-m) (m + 1)) pml1).bind fun a =>
    (store a (shIndex m (m + 1)) pml1).map fun a => (a, pmm)
  else some (a, pmm)
/-- Inner loop of the third loop, /repo/include/math/sh.hpp:111-115. -/
def basisScale (m : Nat) (sm cm : F) (a : List F) (l : Nat) : Option (List F) :=
  (scale a (shIndex (-m) l) sm).bind fun a => scale a (shIndex m l) cm
/-- Third loop of `computeShBasis`, /repo/include/math/sh.hpp:108-120. The state is the array, `cm`, `sm`. -/
def basisLoop2 (s : V3 F) (st : List F × F × F) (m : Nat) : Option (List F × F × F) :=
  ((List.range' m (shBandCount - m)).foldlM (basisScale m st.2.2 st.2.1) st.1).map fun a =>
    (a, st.2.1 *. s.x -. st.2.2 *. s.y, st.2.2 *. s.x +. st.2.1 *. s.y)
/-- `computeShBasis`, /repo/include/math/sh.hpp:80-121; `a0` is the (uninitialised) output array. -/
def computeShBasis (s : V3 F) (a0 : List F) : Option (List F) :=
  (store a0 0 (lit 1)).bind fun a =>
  ((List.range' 1 (shBandCount - 1)).foldlM (basisLoop0 s.z) (a, lit 0, lit 1)).bind fun st =>
  ((List.range' 1 (shBandCount - 1)).foldlM (basisLoop1 s.z) (st.1, lit 1)).bind fun st =>
  ((List.range' 1 shBandCount).foldlM (basisLoop2 s) (st.1, s.x, s.y)).map fun st => st.1
end basis

/-- `ki`, /repo/include/math/sh.hpp:50-61. -/
def ki : List Rat :=
  [0.886226925452757940959713778283912688, 1.02332670794648827872208585176849738,
   1.02332670794648827872208585176849738, 1.02332670794648827872208585176849738,
   0.143014255134963907956091588857816532, 0.286028510269927815912183177715633065,
   0.495415912200751318295033343019895256, 0.286028510269927815912183177715633065,
   0.143014255134963907956091588857816532]

/-- `float[5]`, used in /repo/include/math/sh.hpp:123-189. -/
@[ext] structure V5 (F : Type) where
  a0 : F
  a1 : F
  a2 : F
  a3 : F
  a4 : F
deriving DecidableEq

section rotation
variable {F : Type} [Flt F] [FltC F]

/-- `projectVecToSH2K`, /repo/include/math/sh.hpp:123-130. -/
@[vec] def projectVecToSH2K (s : V3 F) : V5 F :=
  ⟨s.y *. s.x, -. (s.y *. s.z),
   lit 1 /. (lit 2 *. FltC.sqrt3) *. (lit 3 *. s.z *. s.z -. lit 1),
   -. (s.z *. s.x), lit 0.5 *. (s.x *. s.x -. s.y *. s.y)⟩
/-- One element of `multiply`, /repo/include/math/sh.hpp:133-137. -/
@[vec] def mulRow {F : Type} [Flt F] (m0 m1 m2 m3 m4 : F) (v : V5 F) : F :=
  m0 *. v.a0 +. m1 *. v.a1 +. m2 *. v.a2 +. m3 *. v.a3 +. m4 *. v.a4
/-- `multiply`: the 25 elements are five consecutive groups of five, /repo/include/math/sh.hpp:131-138. -/
@[vec] def multiply {F : Type} [Flt F] (g0 g1 g2 g3 g4 v : V5 F) : V5 F :=
  ⟨mulRow g0.a0 g1.a0 g2.a0 g3.a0 g4.a0 v, mulRow g0.a1 g1.a1 g2.a1 g3.a1 g4.a1 v,
   mulRow g0.a2 g1.a2 g2.a2 g3.a2 g4.a2 v, mulRow g0.a3 g1.a3 g2.a3 g3.a3 g4.a3 v,
   mulRow g0.a4 g1.a4 g2.a4 g3.a4 g4.a4 v⟩
/-- `rotateSphericalHarmonicBand1`, /repo/include/math/sh.hpp:141-147. -/
@[vec] def rotateBand1 {F : Type} [Flt F] (band1 : V3 F) (m : M3 F) : V3 F :=
  let invA1TimesK : M3 F :=
    M3.ofRows (lit 0) (lit (-1)) (lit 0) (lit 0) (lit 0) (lit 1) (lit (-1)) (lit 0) (lit 0)
  let r1OverK := M3.ofRows (-. m.c0.y) m.c0.z (-. m.c0.x) (-. m.c1.y) m.c1.z (-. m.c1.x)
    (-. m.c2.y) m.c2.z (-. m.c2.x)
  M3.mulV r1OverK (M3.mulV invA1TimesK band1)
/-- `rotateSphericalHarmonicBand2`, /repo/include/math/sh.hpp:148-179. -/
@[vec] def rotateBand2 (band2 : V5 F) (m : M3 F) : V5 F :=
  let v := multiply ⟨lit 0, lit 1, lit 2, lit 0, lit 0⟩ ⟨lit (-1), lit 0, lit 0, lit 0, lit (-2)⟩
    ⟨lit 0, FltC.sqrt3, lit 0, lit 0, lit 0⟩ ⟨lit 1, lit 1, lit 0, lit (-2), lit 0⟩
    ⟨lit 2, lit 1, lit 0, lit 0, lit 0⟩ band2
  multiply (projectVecToSH2K m.c0) (projectVecToSH2K m.c2)
    (projectVecToSH2K (V3.smul (V3.add m.c0 m.c1) FltC.sqrtHalf))
    (projectVecToSH2K (V3.smul (V3.add m.c0 m.c2) FltC.sqrtHalf))
    (projectVecToSH2K (V3.smul (V3.add m.c1 m.c2) FltC.sqrtHalf)) v
/-- `rotateSh3Bands`, /repo/include/math/sh.hpp:180-189. All reads precede the writes, so the result does not
depend on whether input and output are the same array. `none`: the array is shorter than nine. -/
def rotateSh3Bands (shw : List F) (m : M3 F) : Option (List F) :=
  match shw with
  | s0 :: s1 :: s2 :: s3 :: s4 :: s5 :: s6 :: s7 :: s8 :: rest =>
    let b1 := rotateBand1 ⟨s1, s2, s3⟩ m
    let b2 := rotateBand2 ⟨s4, s5, s6, s7, s8⟩ m
    some (s0 :: b1.x :: b1.y :: b1.z :: b2.a0 :: b2.a1 :: b2.a2 :: b2.a3 :: b2.a4 :: rest)
  | _ => none
end rotation

section window
variable {F : Type} [Flt F] [FltT F] [FltB F] [FltC F]

/-- `sincWindow`, /repo/include/math/sh.hpp:192-201. -/
def sincWindow (l : Int) (w : F) : F :=
  if l = 0 then lit 1
  else if w <=. FltB.ofInt l then lit 0
  else
    let x := (FltC.pi *. FltB.ofInt l) /. w
    let x := FltT.sin x /. x
    x *. x *. x *. x

/-- The loop nest shared by `windowing` (/repo/include/math/sh.hpp:204-214) and the end of `deringingSH`
(295-306): every coefficient of band `l` is scaled by `sincWindow(l, cutoff)`; `mulAt` is `a[i] *= w`. -/
def windowLoop {A : Type} (mulAt : List A → Int → F → Option (List A)) (cutoff : F) (a : List A) (l : Nat) :
    Option (List A) :=
  let w := sincWindow (l : Int) cutoff
  (mulAt a (shIndex 0 l) w).bind fun a =>
  (List.range' 1 l).foldlM (fun (a : List A) (m : Nat) =>
    (mulAt a (shIndex (-m) l) w).bind fun a => mulAt a (shIndex m l) w) a
/-- `windowing`, /repo/include/math/sh.hpp:202-215. -/
def windowing (shw : List F) (cutoff : F) : Option (List F) :=
  (List.range shBandCount).foldlM (windowLoop scale cutoff) shw

/-- `sh[i] *= w` for an array of SIMD vectors, /repo/include/math/sh.hpp:298-304. -/
def scale4 (a : List (V4 F)) (i : Int) (w : F) : Option (List (V4 F)) :=
  (load a i).bind fun x => store a i (V4.smul x w)

/-- The body of the search loop of `deringingSH` for one channel, /repo/include/math/sh.hpp:284-292.
The state is the coefficient array, `l`, `r` and `cutoff`. `shmin` is a parameter: a function that returns the
modified array and the minimum, or fails; nothing is assumed about it. -/
def deringStep (shmin : List F → Option (List F × F)) (st : List F × F × F × F) :
    Option (List F × F × F × F) :=
  let m := lit 0.5 *. (st.2.1 +. st.2.2.1)
  (windowing st.1 m).bind fun shw =>
  (shmin shw).map fun p =>
    let l := if p.2 <. lit 0 then st.2.1 else m
    let r := if p.2 <. lit 0 then m else st.2.2.1
    (p.1, l, r, Flt.stdMin st.2.2.2 l)
/-- The search loop: at most `n` steps while `l + 0.1 < r`, /repo/include/math/sh.hpp:284. -/
def deringSearch (shmin : List F → Option (List F × F)) : Nat → List F × F × F × F → Option (List F × F × F × F)
  | 0, st => some st
  | n + 1, st =>
    if st.2.1 +. lit 0.1 <. st.2.2.1 then (deringStep shmin st).bind (deringSearch shmin n) else some st
/-- One iteration of the channel loop of `deringingSH`, /repo/include/math/sh.hpp:276-293: returns the new
`cutoff`. -/
def deringChannel (shmin : List F → Option (List F × F)) (sh : List (V4 F)) (cutoff : F) (channel : Fin 4) :
    Option F :=
  let shw := sh.map (fun v => v.get channel)
  (deringSearch shmin 16 (shw, FltB.ofInt shBandCount, cutoff, cutoff)).map fun st => st.2.2.2
/-- `deringingSH`, /repo/include/math/sh.hpp:271-307, with `shmin` as a parameter. -/
def deringingSH (shmin : List F → Option (List F × F)) (sh : List (V4 F)) : Option (List (V4 F)) :=
  ([0, 1, 2].foldlM (deringChannel shmin sh) (FltB.ofInt ((shBandCount : Int) * 4 + 1))).bind fun cutoff =>
  (List.range shBandCount).foldlM (windowLoop scale4 cutoff) sh
end window

/-- The table `ca` of `shaderPreprocessSH`, /repo/include/math/sh.hpp:311-322, from the constants it is written with:
`M_SQRT3`, `M_SQRT5`, `M_SQRT15`, `M_SQRT_PI` and `M_1_PI`. Simplification: the table is computed in `F`, not in
`double` followed by one rounding; `shaderCa32` of Model/ShTables.lean is the table as the code computes it. -/
def shaderCa {F : Type} [Flt F] (sqrt3 sqrt5 sqrt15 sqrtPi invPi : F) : List F :=
  [lit 1 /. (lit 2 *. sqrtPi) *. invPi, -. sqrt3 /. (lit 2 *. sqrtPi) *. invPi,
   sqrt3 /. (lit 2 *. sqrtPi) *. invPi, -. sqrt3 /. (lit 2 *. sqrtPi) *. invPi,
   sqrt15 /. (lit 2 *. sqrtPi) *. invPi, -. sqrt15 /. (lit 2 *. sqrtPi) *. invPi,
   sqrt5 /. (lit 4 *. sqrtPi) *. invPi, -. sqrt15 /. (lit 2 *. sqrtPi) *. invPi,
   sqrt15 /. (lit 4 *. sqrtPi) *. invPi]
/-- `shaderPreprocessSH`, /repo/include/math/sh.hpp:309-326, with its table as a parameter. -/
def shaderPreprocessSH {F : Type} [Flt F] (ca : List F) (sh : List (V4 F)) : Option (List (V4 F)) :=
  (List.range shCoeffCount).foldlM (fun (a : List (V4 F)) (i : Nat) =>
    (load ca i).bind fun c => scale4 a i c) sh

end Verif.Sh
