import Verif.Model.Sh

/-!
# The minimum of a spherical harmonics function

Models `shmin` of /repo/include/math/sh.hpp:216-268, the function `deringingSH` calls to decide whether a windowed
channel still goes negative.
-/

namespace Verif.Sh
open Flt

/-- The table `ca` of `shmin`, /repo/include/math/sh.hpp:218-229, from the constants it is written with. Simplification:
the table is computed in `F`, not in `double` followed by one rounding; `minCa32` of Model/ShTables.lean is the table as the
code computes it. -/
def minCa {F : Type} [Flt F] (sqrt3 sqrt5 sqrt15 sqrtPi : F) : List F :=
  [lit 1 /. (lit 2 *. sqrtPi), -. sqrt3 /. (lit 2 *. sqrtPi), sqrt3 /. (lit 2 *. sqrtPi),
   -. sqrt3 /. (lit 2 *. sqrtPi), sqrt15 /. (lit 2 *. sqrtPi), -. sqrt15 /. (lit 2 *. sqrtPi),
   sqrt5 /. (lit 4 *. sqrtPi), -. sqrt15 /. (lit 2 *. sqrtPi), sqrt15 /. (lit 4 *. sqrtPi)]

/-- The matrix `m`: the rotation that is meant to bring the main direction of band 1 to the z axis,
/repo/include/math/sh.hpp:231-235. -/
def minAxes {F : Type} [Flt F] (s1 s2 s3 : F) : M3 F :=
  let dir := V3.normalize ⟨-. s3, -. s1, s2⟩
  let zAxis := V3.map Flt.neg dir
  let xAxis := V3.normalize (V3.cross zAxis ⟨lit 0, lit 1, lit 0⟩)
  let yAxis := V3.cross xAxis zAxis
  M3.transpose ⟨xAxis, yAxis, V3.map Flt.neg zAxis⟩

/-- The local variables `a`, `b`, `c`, `d` of `shmin`: the meridian function is
`a z^2 + b z + c + d z sqrt(1 - z^2)`. Models /repo/include/math/sh.hpp:239-241, 247. -/
structure Meridian (F : Type) where
  a : F
  b : F
  c : F
  d : F

section
variable {F : Type} [Flt F] [FltC F]

/-- `shmin` after the rotation, up to the first value of `minimum`, /repo/include/math/sh.hpp:238-249. `none`: an
array is shorter than nine. -/
def minBound (ca shw : List F) : Option (Meridian F × F) :=
  match ca, shw with
  | c0 :: _ :: c2 :: _ :: c4 :: _ :: c6 :: _ :: c8 :: _, s0 :: _ :: s2 :: _ :: s4 :: s5 :: s6 :: s7 :: s8 :: _ =>
    let m2max := c8 *. Flt.sqrt (s8 *. s8 +. s4 *. s4)
    let a := lit 3 *. c6 *. s6 +. m2max
    let b := c2 *. s2
    let c := c0 *. s0 -. c6 *. s6 -. m2max
    let zmin := -. b /. (lit 2 *. a)
    let m0minZ := a *. zmin *. zmin +. b *. zmin +. c
    let m0minB := stdMin (a +. b +. c) (a -. b +. c)
    let m0min := if (lit 0 <. a) && (lit (-1) <=. zmin) && (zmin <=. lit 1) then m0minZ else m0minB
    let d := c4 *. Flt.sqrt (s5 *. s5 +. s7 *. s7)
    some (⟨a, b, c, d⟩, m0min -. lit 0.5 *. d)
  | _, _ => none

variable [FltT F]

/-- The `do ... while` loop, /repo/include/math/sh.hpp:255-261: the last `minimum` and the last `z`. The code has no
bound on the number of iterations; `none`: the loop has not ended after `n` iterations. -/
def minNewton (q : Meridian F) : Nat → F → Option (F × F)
  | 0, _ => none
  | n + 1, z =>
    let minimum := (q.a *. z *. z +. q.b *. z +. q.c) +. (q.d *. z *. Flt.sqrt (lit 1 -. z *. z))
    let dz := (z *. z -. lit 1) *. (q.d -. lit 2 *. q.d *. z *. z +. (q.b +. lit 2 *. q.a *. z) *.
        Flt.sqrt (lit 1 -. z *. z)) /.
      (lit 3 *. q.d *. z -. lit 2 *. q.d *. z *. z *. z -. lit 2 *. q.a *. FltT.pow (lit 1 -. z *. z) (lit 1.5))
    let z' := z -. dz
    if (Flt.abs z' <=. lit 1) && (lit 0.00001 <. Flt.abs dz) then minNewton q n z' else some (minimum, z')

/-- `shmin`, /repo/include/math/sh.hpp:216-268: the array after the call (it is rotated in place) and the returned
minimum; the table is a parameter. `none`: an array is shorter than nine, or the loop has not ended after `n`
iterations. -/
def shmin (n : Nat) (ca shw : List F) : Option (List F × F) :=
  match shw with
  | _ :: s1 :: s2 :: s3 :: _ =>
    (rotateSh3Bands shw (minAxes s1 s2 s3)).bind fun out =>
    (minBound ca out).bind fun p =>
    if p.2 <. lit 0 then
      (minNewton p.1 n (-. FltC.sqrtHalf)).map fun r =>
        (out, if lit 1 <. Flt.abs r.2 then stdMin (p.1.a +. p.1.b +. p.1.c) (p.1.a -. p.1.b +. p.1.c) else r.1)
    else some (out, p.2)
  | _ => none
end

end Verif.Sh
