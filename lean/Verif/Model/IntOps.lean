import Verif.Model.CInt

/-!
# Operators of the signed integer vectors

Models every operator of /repo/include/math/vector/int.hpp, one line of the source per line of the definitions.
`none` is undefined behaviour in some lane.
-/

namespace Verif

namespace Int2
/-- `a op v`, the ten binary operators with a vector. Models /repo/include/math/vector/int.hpp:87-96. -/
def bin : BinOp → V2 W → V2 W → Option (V2 W)
  | .add, a, v => do return ⟨← S32.bin .add a.x v.x, ← S32.bin .add a.y v.y⟩
  | .sub, a, v => do return ⟨← S32.bin .sub a.x v.x, ← S32.bin .sub a.y v.y⟩
  | .mul, a, v => do return ⟨← S32.bin .mul a.x v.x, ← S32.bin .mul a.y v.y⟩
  | .div, a, v => do return ⟨← S32.bin .div a.x v.x, ← S32.bin .div a.y v.y⟩
  | .rem, a, v => do return ⟨← S32.bin .rem a.x v.x, ← S32.bin .rem a.y v.y⟩
  | .and, a, v => do return ⟨← S32.bin .and a.x v.x, ← S32.bin .and a.y v.y⟩
  | .or, a, v => do return ⟨← S32.bin .or a.x v.x, ← S32.bin .or a.y v.y⟩
  | .xor, a, v => do return ⟨← S32.bin .xor a.x v.x, ← S32.bin .xor a.y v.y⟩
  | .shr, a, v => do return ⟨← S32.bin .shr a.x v.x, ← S32.bin .shr a.y v.y⟩
  | .shl, a, v => do return ⟨← S32.bin .shl a.x v.x, ← S32.bin .shl a.y v.y⟩
/-- `a op n`, the ten binary operators with a scalar on the right. Models /repo/include/math/vector/int.hpp:97-106. -/
def binS : BinOp → V2 W → W → Option (V2 W)
  | .add, a, n => do return ⟨← S32.bin .add a.x n, ← S32.bin .add a.y n⟩
  | .sub, a, n => do return ⟨← S32.bin .sub a.x n, ← S32.bin .sub a.y n⟩
  | .mul, a, n => do return ⟨← S32.bin .mul a.x n, ← S32.bin .mul a.y n⟩
  | .div, a, n => do return ⟨← S32.bin .div a.x n, ← S32.bin .div a.y n⟩
  | .rem, a, n => do return ⟨← S32.bin .rem a.x n, ← S32.bin .rem a.y n⟩
  | .and, a, n => do return ⟨← S32.bin .and a.x n, ← S32.bin .and a.y n⟩
  | .or, a, n => do return ⟨← S32.bin .or a.x n, ← S32.bin .or a.y n⟩
  | .xor, a, n => do return ⟨← S32.bin .xor a.x n, ← S32.bin .xor a.y n⟩
  | .shr, a, n => do return ⟨← S32.bin .shr a.x n, ← S32.bin .shr a.y n⟩
  | .shl, a, n => do return ⟨← S32.bin .shl a.x n, ← S32.bin .shl a.y n⟩
/-- `a op= v`: the new value of `a`, the ten compound assignments with a vector. Models /repo/include/math/vector/int.hpp:110-119. -/
def asg : BinOp → V2 W → V2 W → Option (V2 W)
  | .add, a, v => do
    let x ← S32.bin .add a.x v.x; let y ← S32.bin .add a.y v.y; return ⟨x, y⟩
  | .sub, a, v => do
    let x ← S32.bin .sub a.x v.x; let y ← S32.bin .sub a.y v.y; return ⟨x, y⟩
  | .mul, a, v => do
    let x ← S32.bin .mul a.x v.x; let y ← S32.bin .mul a.y v.y; return ⟨x, y⟩
  | .div, a, v => do
    let x ← S32.bin .div a.x v.x; let y ← S32.bin .div a.y v.y; return ⟨x, y⟩
  | .rem, a, v => do
    let x ← S32.bin .rem a.x v.x; let y ← S32.bin .rem a.y v.y; return ⟨x, y⟩
  | .and, a, v => do
    let x ← S32.bin .and a.x v.x; let y ← S32.bin .and a.y v.y; return ⟨x, y⟩
  | .or, a, v => do
    let x ← S32.bin .or a.x v.x; let y ← S32.bin .or a.y v.y; return ⟨x, y⟩
  | .xor, a, v => do
    let x ← S32.bin .xor a.x v.x; let y ← S32.bin .xor a.y v.y; return ⟨x, y⟩
  | .shr, a, v => do
    let x ← S32.bin .shr a.x v.x; let y ← S32.bin .shr a.y v.y; return ⟨x, y⟩
  | .shl, a, v => do
    let x ← S32.bin .shl a.x v.x; let y ← S32.bin .shl a.y v.y; return ⟨x, y⟩
/-- `a op= n`: the new value of `a`, the ten compound assignments with a scalar. Models /repo/include/math/vector/int.hpp:120-129. -/
def asgS : BinOp → V2 W → W → Option (V2 W)
  | .add, a, n => do
    let x ← S32.bin .add a.x n; let y ← S32.bin .add a.y n; return ⟨x, y⟩
  | .sub, a, n => do
    let x ← S32.bin .sub a.x n; let y ← S32.bin .sub a.y n; return ⟨x, y⟩
  | .mul, a, n => do
    let x ← S32.bin .mul a.x n; let y ← S32.bin .mul a.y n; return ⟨x, y⟩
  | .div, a, n => do
    let x ← S32.bin .div a.x n; let y ← S32.bin .div a.y n; return ⟨x, y⟩
  | .rem, a, n => do
    let x ← S32.bin .rem a.x n; let y ← S32.bin .rem a.y n; return ⟨x, y⟩
  | .and, a, n => do
    let x ← S32.bin .and a.x n; let y ← S32.bin .and a.y n; return ⟨x, y⟩
  | .or, a, n => do
    let x ← S32.bin .or a.x n; let y ← S32.bin .or a.y n; return ⟨x, y⟩
  | .xor, a, n => do
    let x ← S32.bin .xor a.x n; let y ← S32.bin .xor a.y n; return ⟨x, y⟩
  | .shr, a, n => do
    let x ← S32.bin .shr a.x n; let y ← S32.bin .shr a.y n; return ⟨x, y⟩
  | .shl, a, n => do
    let x ← S32.bin .shl a.x n; let y ← S32.bin .shl a.y n; return ⟨x, y⟩
/-- `n op v`, the ten binary operators with a scalar on the left. Models /repo/include/math/vector/int.hpp:540-549. -/
def binL : BinOp → W → V2 W → Option (V2 W)
  | .add, n, v => bin .add (V2.splat n) v
  | .sub, n, v => bin .sub (V2.splat n) v
  | .mul, n, v => bin .mul (V2.splat n) v
  | .div, n, v => bin .div (V2.splat n) v
  | .rem, n, v => bin .rem (V2.splat n) v
  | .and, n, v => bin .and (V2.splat n) v
  | .or, n, v => bin .or (V2.splat n) v
  | .xor, n, v => bin .xor (V2.splat n) v
  | .shr, n, v => bin .shr (V2.splat n) v
  | .shl, n, v => bin .shl (V2.splat n) v
/-- The three unary operators. Models /repo/include/math/vector/int.hpp:107-109. -/
def un : UnOp → V2 W → Option (V2 W)
  | .neg, a => do return ⟨← S32.un .neg a.x, ← S32.un .neg a.y⟩
  | .lnot, a => do return ⟨← S32.un .lnot a.x, ← S32.un .lnot a.y⟩
  | .bnot, a => do return ⟨← S32.un .bnot a.x, ← S32.un .bnot a.y⟩
/-- `a = n`. Models /repo/include/math/vector/int.hpp:130. -/
def set (_a : V2 W) (n : W) : V2 W := ⟨n, n⟩
/-- `a == v`. Models /repo/include/math/vector/int.hpp:131. -/
def eq (a v : V2 W) : Bool := a.x == v.x && a.y == v.y
/-- `a != v`. Models /repo/include/math/vector/int.hpp:132. -/
def ne (a v : V2 W) : Bool := a.x != v.x || a.y != v.y
/-- The four comparison operators and `equal`, `notEqual`; a lane is `c ? UINT32_MAX : 0`.
Models /repo/include/math/vector/int.hpp:133-148 and int.hpp:569-582. -/
def cmp : Cmp → V2 W → V2 W → V2 W
  | .lt, a, v => ⟨mask (Cmp.onI .lt a.x v.x), mask (Cmp.onI .lt a.y v.y)⟩
  | .gt, a, v => ⟨mask (Cmp.onI .gt a.x v.x), mask (Cmp.onI .gt a.y v.y)⟩
  | .le, a, v => ⟨mask (Cmp.onI .le a.x v.x), mask (Cmp.onI .le a.y v.y)⟩
  | .ge, a, v => ⟨mask (Cmp.onI .ge a.x v.x), mask (Cmp.onI .ge a.y v.y)⟩
  | .eq, a, v => ⟨mask (Cmp.onI .eq a.x v.x), mask (Cmp.onI .eq a.y v.y)⟩
  | .ne, a, v => ⟨mask (Cmp.onI .ne a.x v.x), mask (Cmp.onI .ne a.y v.y)⟩
/-- `a == n`. Models /repo/include/math/vector/int.hpp:149. -/
def eqS (a : V2 W) (n : W) : Bool := eq a (V2.splat n)
/-- `a != n`. Models /repo/include/math/vector/int.hpp:150. -/
def neS (a : V2 W) (n : W) : Bool := ne a (V2.splat n)
/-- Comparison with a scalar on the right. Models /repo/include/math/vector/int.hpp:151-154. (`equal` and `notEqual` have no such overload; those two
lines only make the function total.) -/
def cmpS (c : Cmp) (a : V2 W) (n : W) : V2 W :=
  match c with
  | .lt => cmp .lt a (V2.splat n)
  | .gt => cmp .gt a (V2.splat n)
  | .le => cmp .le a (V2.splat n)
  | .ge => cmp .ge a (V2.splat n)
  | .eq => cmp .eq a (V2.splat n)
  | .ne => cmp .ne a (V2.splat n)
/-- `n == v`. Models /repo/include/math/vector/int.hpp:550. -/
def eqL (n : W) (v : V2 W) : Bool := eq (V2.splat n) v
/-- `n != v`. Models /repo/include/math/vector/int.hpp:551. -/
def neL (n : W) (v : V2 W) : Bool := ne (V2.splat n) v
/-- Comparison with a scalar on the left. Models /repo/include/math/vector/int.hpp:552-555. (`equal` and `notEqual` have no such overload; those two
lines only make the function total.) -/
def cmpL (c : Cmp) (n : W) (v : V2 W) : V2 W :=
  match c with
  | .lt => cmp .lt (V2.splat n) v
  | .gt => cmp .gt (V2.splat n) v
  | .le => cmp .le (V2.splat n) v
  | .ge => cmp .ge (V2.splat n) v
  | .eq => cmp .eq (V2.splat n) v
  | .ne => cmp .ne (V2.splat n) v
end Int2

namespace Int3
/-- `a op v`, the ten binary operators with a vector. Models /repo/include/math/vector/int.hpp:251-260. -/
def bin : BinOp → V3 W → V3 W → Option (V3 W)
  | .add, a, v => do return ⟨← S32.bin .add a.x v.x, ← S32.bin .add a.y v.y, ← S32.bin .add a.z v.z⟩
  | .sub, a, v => do return ⟨← S32.bin .sub a.x v.x, ← S32.bin .sub a.y v.y, ← S32.bin .sub a.z v.z⟩
  | .mul, a, v => do return ⟨← S32.bin .mul a.x v.x, ← S32.bin .mul a.y v.y, ← S32.bin .mul a.z v.z⟩
  | .div, a, v => do return ⟨← S32.bin .div a.x v.x, ← S32.bin .div a.y v.y, ← S32.bin .div a.z v.z⟩
  | .rem, a, v => do return ⟨← S32.bin .rem a.x v.x, ← S32.bin .rem a.y v.y, ← S32.bin .rem a.z v.z⟩
  | .and, a, v => do return ⟨← S32.bin .and a.x v.x, ← S32.bin .and a.y v.y, ← S32.bin .and a.z v.z⟩
  | .or, a, v => do return ⟨← S32.bin .or a.x v.x, ← S32.bin .or a.y v.y, ← S32.bin .or a.z v.z⟩
  | .xor, a, v => do return ⟨← S32.bin .xor a.x v.x, ← S32.bin .xor a.y v.y, ← S32.bin .xor a.z v.z⟩
  | .shr, a, v => do return ⟨← S32.bin .shr a.x v.x, ← S32.bin .shr a.y v.y, ← S32.bin .shr a.z v.z⟩
  | .shl, a, v => do return ⟨← S32.bin .shl a.x v.x, ← S32.bin .shl a.y v.y, ← S32.bin .shl a.z v.z⟩
/-- `a op n`, the ten binary operators with a scalar on the right. Models /repo/include/math/vector/int.hpp:261-270. -/
def binS : BinOp → V3 W → W → Option (V3 W)
  | .add, a, n => do return ⟨← S32.bin .add a.x n, ← S32.bin .add a.y n, ← S32.bin .add a.z n⟩
  | .sub, a, n => do return ⟨← S32.bin .sub a.x n, ← S32.bin .sub a.y n, ← S32.bin .sub a.z n⟩
  | .mul, a, n => do return ⟨← S32.bin .mul a.x n, ← S32.bin .mul a.y n, ← S32.bin .mul a.z n⟩
  | .div, a, n => do return ⟨← S32.bin .div a.x n, ← S32.bin .div a.y n, ← S32.bin .div a.z n⟩
  | .rem, a, n => do return ⟨← S32.bin .rem a.x n, ← S32.bin .rem a.y n, ← S32.bin .rem a.z n⟩
  | .and, a, n => do return ⟨← S32.bin .and a.x n, ← S32.bin .and a.y n, ← S32.bin .and a.z n⟩
  | .or, a, n => do return ⟨← S32.bin .or a.x n, ← S32.bin .or a.y n, ← S32.bin .or a.z n⟩
  | .xor, a, n => do return ⟨← S32.bin .xor a.x n, ← S32.bin .xor a.y n, ← S32.bin .xor a.z n⟩
  | .shr, a, n => do return ⟨← S32.bin .shr a.x n, ← S32.bin .shr a.y n, ← S32.bin .shr a.z n⟩
  | .shl, a, n => do return ⟨← S32.bin .shl a.x n, ← S32.bin .shl a.y n, ← S32.bin .shl a.z n⟩
/-- `a op= v`: the new value of `a`, the ten compound assignments with a vector. Models /repo/include/math/vector/int.hpp:274-283. -/
def asg : BinOp → V3 W → V3 W → Option (V3 W)
  | .add, a, v => do
    let x ← S32.bin .add a.x v.x; let y ← S32.bin .add a.y v.y; let z ← S32.bin .add a.z v.z; return ⟨x, y, z⟩
  | .sub, a, v => do
    let x ← S32.bin .sub a.x v.x; let y ← S32.bin .sub a.y v.y; let z ← S32.bin .sub a.z v.z; return ⟨x, y, z⟩
  | .mul, a, v => do
    let x ← S32.bin .mul a.x v.x; let y ← S32.bin .mul a.y v.y; let z ← S32.bin .mul a.z v.z; return ⟨x, y, z⟩
  | .div, a, v => do
    let x ← S32.bin .div a.x v.x; let y ← S32.bin .div a.y v.y; let z ← S32.bin .div a.z v.z; return ⟨x, y, z⟩
  | .rem, a, v => do
    let x ← S32.bin .rem a.x v.x; let y ← S32.bin .rem a.y v.y; let z ← S32.bin .rem a.z v.z; return ⟨x, y, z⟩
  | .and, a, v => do
    let x ← S32.bin .and a.x v.x; let y ← S32.bin .and a.y v.y; let z ← S32.bin .and a.z v.z; return ⟨x, y, z⟩
  | .or, a, v => do
    let x ← S32.bin .or a.x v.x; let y ← S32.bin .or a.y v.y; let z ← S32.bin .or a.z v.z; return ⟨x, y, z⟩
  | .xor, a, v => do
    let x ← S32.bin .xor a.x v.x; let y ← S32.bin .xor a.y v.y; let z ← S32.bin .xor a.z v.z; return ⟨x, y, z⟩
  | .shr, a, v => do
    let x ← S32.bin .shr a.x v.x; let y ← S32.bin .shr a.y v.y; let z ← S32.bin .shr a.z v.z; return ⟨x, y, z⟩
  | .shl, a, v => do
    let x ← S32.bin .shl a.x v.x; let y ← S32.bin .shl a.y v.y; let z ← S32.bin .shl a.z v.z; return ⟨x, y, z⟩
/-- `a op= n`: the new value of `a`, the ten compound assignments with a scalar. Models /repo/include/math/vector/int.hpp:284-293. -/
def asgS : BinOp → V3 W → W → Option (V3 W)
  | .add, a, n => do
    let x ← S32.bin .add a.x n; let y ← S32.bin .add a.y n; let z ← S32.bin .add a.z n; return ⟨x, y, z⟩
  | .sub, a, n => do
    let x ← S32.bin .sub a.x n; let y ← S32.bin .sub a.y n; let z ← S32.bin .sub a.z n; return ⟨x, y, z⟩
  | .mul, a, n => do
    let x ← S32.bin .mul a.x n; let y ← S32.bin .mul a.y n; let z ← S32.bin .mul a.z n; return ⟨x, y, z⟩
  | .div, a, n => do
    let x ← S32.bin .div a.x n; let y ← S32.bin .div a.y n; let z ← S32.bin .div a.z n; return ⟨x, y, z⟩
  | .rem, a, n => do
    let x ← S32.bin .rem a.x n; let y ← S32.bin .rem a.y n; let z ← S32.bin .rem a.z n; return ⟨x, y, z⟩
  | .and, a, n => do
    let x ← S32.bin .and a.x n; let y ← S32.bin .and a.y n; let z ← S32.bin .and a.z n; return ⟨x, y, z⟩
  | .or, a, n => do
    let x ← S32.bin .or a.x n; let y ← S32.bin .or a.y n; let z ← S32.bin .or a.z n; return ⟨x, y, z⟩
  | .xor, a, n => do
    let x ← S32.bin .xor a.x n; let y ← S32.bin .xor a.y n; let z ← S32.bin .xor a.z n; return ⟨x, y, z⟩
  | .shr, a, n => do
    let x ← S32.bin .shr a.x n; let y ← S32.bin .shr a.y n; let z ← S32.bin .shr a.z n; return ⟨x, y, z⟩
  | .shl, a, n => do
    let x ← S32.bin .shl a.x n; let y ← S32.bin .shl a.y n; let z ← S32.bin .shl a.z n; return ⟨x, y, z⟩
/-- `n op v`, the ten binary operators with a scalar on the left. Models /repo/include/math/vector/int.hpp:648-657. -/
def binL : BinOp → W → V3 W → Option (V3 W)
  | .add, n, v => bin .add (V3.splat n) v
  | .sub, n, v => bin .sub (V3.splat n) v
  | .mul, n, v => bin .mul (V3.splat n) v
  | .div, n, v => bin .div (V3.splat n) v
  | .rem, n, v => bin .rem (V3.splat n) v
  | .and, n, v => bin .and (V3.splat n) v
  | .or, n, v => bin .or (V3.splat n) v
  | .xor, n, v => bin .xor (V3.splat n) v
  | .shr, n, v => bin .shr (V3.splat n) v
  | .shl, n, v => bin .shl (V3.splat n) v
/-- The three unary operators. Models /repo/include/math/vector/int.hpp:271-273. -/
def un : UnOp → V3 W → Option (V3 W)
  | .neg, a => do return ⟨← S32.un .neg a.x, ← S32.un .neg a.y, ← S32.un .neg a.z⟩
  | .lnot, a => do return ⟨← S32.un .lnot a.x, ← S32.un .lnot a.y, ← S32.un .lnot a.z⟩
  | .bnot, a => do return ⟨← S32.un .bnot a.x, ← S32.un .bnot a.y, ← S32.un .bnot a.z⟩
/-- `a = n`. Models /repo/include/math/vector/int.hpp:294. -/
def set (_a : V3 W) (n : W) : V3 W := ⟨n, n, n⟩
/-- `a == v`. Models /repo/include/math/vector/int.hpp:295. -/
def eq (a v : V3 W) : Bool := a.x == v.x && a.y == v.y && a.z == v.z
/-- `a != v`. Models /repo/include/math/vector/int.hpp:296. -/
def ne (a v : V3 W) : Bool := a.x != v.x || a.y != v.y || a.z != v.z
/-- The four comparison operators and `equal`, `notEqual`; a lane is `c ? UINT32_MAX : 0`.
Models /repo/include/math/vector/int.hpp:297-312 and int.hpp:677-690. -/
def cmp : Cmp → V3 W → V3 W → V3 W
  | .lt, a, v => ⟨mask (Cmp.onI .lt a.x v.x), mask (Cmp.onI .lt a.y v.y), mask (Cmp.onI .lt a.z v.z)⟩
  | .gt, a, v => ⟨mask (Cmp.onI .gt a.x v.x), mask (Cmp.onI .gt a.y v.y), mask (Cmp.onI .gt a.z v.z)⟩
  | .le, a, v => ⟨mask (Cmp.onI .le a.x v.x), mask (Cmp.onI .le a.y v.y), mask (Cmp.onI .le a.z v.z)⟩
  | .ge, a, v => ⟨mask (Cmp.onI .ge a.x v.x), mask (Cmp.onI .ge a.y v.y), mask (Cmp.onI .ge a.z v.z)⟩
  | .eq, a, v => ⟨mask (Cmp.onI .eq a.x v.x), mask (Cmp.onI .eq a.y v.y), mask (Cmp.onI .eq a.z v.z)⟩
  | .ne, a, v => ⟨mask (Cmp.onI .ne a.x v.x), mask (Cmp.onI .ne a.y v.y), mask (Cmp.onI .ne a.z v.z)⟩
/-- `a == n`. Models /repo/include/math/vector/int.hpp:313. -/
def eqS (a : V3 W) (n : W) : Bool := eq a (V3.splat n)
/-- `a != n`. Models /repo/include/math/vector/int.hpp:314. -/
def neS (a : V3 W) (n : W) : Bool := ne a (V3.splat n)
/-- Comparison with a scalar on the right. Models /repo/include/math/vector/int.hpp:315-318. (`equal` and `notEqual` have no such overload; those two
lines only make the function total.) -/
def cmpS (c : Cmp) (a : V3 W) (n : W) : V3 W :=
  match c with
  | .lt => cmp .lt a (V3.splat n)
  | .gt => cmp .gt a (V3.splat n)
  | .le => cmp .le a (V3.splat n)
  | .ge => cmp .ge a (V3.splat n)
  | .eq => cmp .eq a (V3.splat n)
  | .ne => cmp .ne a (V3.splat n)
/-- `n == v`. Models /repo/include/math/vector/int.hpp:658. -/
def eqL (n : W) (v : V3 W) : Bool := eq (V3.splat n) v
/-- `n != v`. Models /repo/include/math/vector/int.hpp:659. -/
def neL (n : W) (v : V3 W) : Bool := ne (V3.splat n) v
/-- Comparison with a scalar on the left. Models /repo/include/math/vector/int.hpp:660-663. (`equal` and `notEqual` have no such overload; those two
lines only make the function total.) -/
def cmpL (c : Cmp) (n : W) (v : V3 W) : V3 W :=
  match c with
  | .lt => cmp .lt (V3.splat n) v
  | .gt => cmp .gt (V3.splat n) v
  | .le => cmp .le (V3.splat n) v
  | .ge => cmp .ge (V3.splat n) v
  | .eq => cmp .eq (V3.splat n) v
  | .ne => cmp .ne (V3.splat n) v
end Int3

namespace Int4
/-- `a op v`, the ten binary operators with a vector. Models /repo/include/math/vector/int.hpp:459-468. -/
def bin : BinOp → V4 W → V4 W → Option (V4 W)
  | .add, a, v => do return ⟨← S32.bin .add a.x v.x, ← S32.bin .add a.y v.y, ← S32.bin .add a.z v.z, ← S32.bin .add a.w v.w⟩
  | .sub, a, v => do return ⟨← S32.bin .sub a.x v.x, ← S32.bin .sub a.y v.y, ← S32.bin .sub a.z v.z, ← S32.bin .sub a.w v.w⟩
  | .mul, a, v => do return ⟨← S32.bin .mul a.x v.x, ← S32.bin .mul a.y v.y, ← S32.bin .mul a.z v.z, ← S32.bin .mul a.w v.w⟩
  | .div, a, v => do return ⟨← S32.bin .div a.x v.x, ← S32.bin .div a.y v.y, ← S32.bin .div a.z v.z, ← S32.bin .div a.w v.w⟩
  | .rem, a, v => do return ⟨← S32.bin .rem a.x v.x, ← S32.bin .rem a.y v.y, ← S32.bin .rem a.z v.z, ← S32.bin .rem a.w v.w⟩
  | .and, a, v => do return ⟨← S32.bin .and a.x v.x, ← S32.bin .and a.y v.y, ← S32.bin .and a.z v.z, ← S32.bin .and a.w v.w⟩
  | .or, a, v => do return ⟨← S32.bin .or a.x v.x, ← S32.bin .or a.y v.y, ← S32.bin .or a.z v.z, ← S32.bin .or a.w v.w⟩
  | .xor, a, v => do return ⟨← S32.bin .xor a.x v.x, ← S32.bin .xor a.y v.y, ← S32.bin .xor a.z v.z, ← S32.bin .xor a.w v.w⟩
  | .shr, a, v => do return ⟨← S32.bin .shr a.x v.x, ← S32.bin .shr a.y v.y, ← S32.bin .shr a.z v.z, ← S32.bin .shr a.w v.w⟩
  | .shl, a, v => do return ⟨← S32.bin .shl a.x v.x, ← S32.bin .shl a.y v.y, ← S32.bin .shl a.z v.z, ← S32.bin .shl a.w v.w⟩
/-- `a op n`, the ten binary operators with a scalar on the right. Models /repo/include/math/vector/int.hpp:469-478. -/
def binS : BinOp → V4 W → W → Option (V4 W)
  | .add, a, n => do return ⟨← S32.bin .add a.x n, ← S32.bin .add a.y n, ← S32.bin .add a.z n, ← S32.bin .add a.w n⟩
  | .sub, a, n => do return ⟨← S32.bin .sub a.x n, ← S32.bin .sub a.y n, ← S32.bin .sub a.z n, ← S32.bin .sub a.w n⟩
  | .mul, a, n => do return ⟨← S32.bin .mul a.x n, ← S32.bin .mul a.y n, ← S32.bin .mul a.z n, ← S32.bin .mul a.w n⟩
  | .div, a, n => do return ⟨← S32.bin .div a.x n, ← S32.bin .div a.y n, ← S32.bin .div a.z n, ← S32.bin .div a.w n⟩
  | .rem, a, n => do return ⟨← S32.bin .rem a.x n, ← S32.bin .rem a.y n, ← S32.bin .rem a.z n, ← S32.bin .rem a.w n⟩
  | .and, a, n => do return ⟨← S32.bin .and a.x n, ← S32.bin .and a.y n, ← S32.bin .and a.z n, ← S32.bin .and a.w n⟩
  | .or, a, n => do return ⟨← S32.bin .or a.x n, ← S32.bin .or a.y n, ← S32.bin .or a.z n, ← S32.bin .or a.w n⟩
  | .xor, a, n => do return ⟨← S32.bin .xor a.x n, ← S32.bin .xor a.y n, ← S32.bin .xor a.z n, ← S32.bin .xor a.w n⟩
  | .shr, a, n => do return ⟨← S32.bin .shr a.x n, ← S32.bin .shr a.y n, ← S32.bin .shr a.z n, ← S32.bin .shr a.w n⟩
  | .shl, a, n => do return ⟨← S32.bin .shl a.x n, ← S32.bin .shl a.y n, ← S32.bin .shl a.z n, ← S32.bin .shl a.w n⟩
/-- `a op= v`: the new value of `a`, the ten compound assignments with a vector. Models /repo/include/math/vector/int.hpp:482-491. -/
def asg : BinOp → V4 W → V4 W → Option (V4 W)
  | .add, a, v => do
    let x ← S32.bin .add a.x v.x; let y ← S32.bin .add a.y v.y; let z ← S32.bin .add a.z v.z; let w ← S32.bin .add a.w v.w; return ⟨x, y, z, w⟩
  | .sub, a, v => do
    let x ← S32.bin .sub a.x v.x; let y ← S32.bin .sub a.y v.y; let z ← S32.bin .sub a.z v.z; let w ← S32.bin .sub a.w v.w; return ⟨x, y, z, w⟩
  | .mul, a, v => do
    let x ← S32.bin .mul a.x v.x; let y ← S32.bin .mul a.y v.y; let z ← S32.bin .mul a.z v.z; let w ← S32.bin .mul a.w v.w; return ⟨x, y, z, w⟩
  | .div, a, v => do
    let x ← S32.bin .div a.x v.x; let y ← S32.bin .div a.y v.y; let z ← S32.bin .div a.z v.z; let w ← S32.bin .div a.w v.w; return ⟨x, y, z, w⟩
  | .rem, a, v => do
    let x ← S32.bin .rem a.x v.x; let y ← S32.bin .rem a.y v.y; let z ← S32.bin .rem a.z v.z; let w ← S32.bin .rem a.w v.w; return ⟨x, y, z, w⟩
  | .and, a, v => do
    let x ← S32.bin .and a.x v.x; let y ← S32.bin .and a.y v.y; let z ← S32.bin .and a.z v.z; let w ← S32.bin .and a.w v.w; return ⟨x, y, z, w⟩
  | .or, a, v => do
    let x ← S32.bin .or a.x v.x; let y ← S32.bin .or a.y v.y; let z ← S32.bin .or a.z v.z; let w ← S32.bin .or a.w v.w; return ⟨x, y, z, w⟩
  | .xor, a, v => do
    let x ← S32.bin .xor a.x v.x; let y ← S32.bin .xor a.y v.y; let z ← S32.bin .xor a.z v.z; let w ← S32.bin .xor a.w v.w; return ⟨x, y, z, w⟩
  | .shr, a, v => do
    let x ← S32.bin .shr a.x v.x; let y ← S32.bin .shr a.y v.y; let z ← S32.bin .shr a.z v.z; let w ← S32.bin .shr a.w v.w; return ⟨x, y, z, w⟩
  | .shl, a, v => do
    let x ← S32.bin .shl a.x v.x; let y ← S32.bin .shl a.y v.y; let z ← S32.bin .shl a.z v.z; let w ← S32.bin .shl a.w v.w; return ⟨x, y, z, w⟩
/-- `a op= n`: the new value of `a`, the ten compound assignments with a scalar. Models /repo/include/math/vector/int.hpp:492-501. -/
def asgS : BinOp → V4 W → W → Option (V4 W)
  | .add, a, n => do
    let x ← S32.bin .add a.x n; let y ← S32.bin .add a.y n; let z ← S32.bin .add a.z n; let w ← S32.bin .add a.w n; return ⟨x, y, z, w⟩
  | .sub, a, n => do
    let x ← S32.bin .sub a.x n; let y ← S32.bin .sub a.y n; let z ← S32.bin .sub a.z n; let w ← S32.bin .sub a.w n; return ⟨x, y, z, w⟩
  | .mul, a, n => do
    let x ← S32.bin .mul a.x n; let y ← S32.bin .mul a.y n; let z ← S32.bin .mul a.z n; let w ← S32.bin .mul a.w n; return ⟨x, y, z, w⟩
  | .div, a, n => do
    let x ← S32.bin .div a.x n; let y ← S32.bin .div a.y n; let z ← S32.bin .div a.z n; let w ← S32.bin .div a.w n; return ⟨x, y, z, w⟩
  | .rem, a, n => do
    let x ← S32.bin .rem a.x n; let y ← S32.bin .rem a.y n; let z ← S32.bin .rem a.z n; let w ← S32.bin .rem a.w n; return ⟨x, y, z, w⟩
  | .and, a, n => do
    let x ← S32.bin .and a.x n; let y ← S32.bin .and a.y n; let z ← S32.bin .and a.z n; let w ← S32.bin .and a.w n; return ⟨x, y, z, w⟩
  | .or, a, n => do
    let x ← S32.bin .or a.x n; let y ← S32.bin .or a.y n; let z ← S32.bin .or a.z n; let w ← S32.bin .or a.w n; return ⟨x, y, z, w⟩
  | .xor, a, n => do
    let x ← S32.bin .xor a.x n; let y ← S32.bin .xor a.y n; let z ← S32.bin .xor a.z n; let w ← S32.bin .xor a.w n; return ⟨x, y, z, w⟩
  | .shr, a, n => do
    let x ← S32.bin .shr a.x n; let y ← S32.bin .shr a.y n; let z ← S32.bin .shr a.z n; let w ← S32.bin .shr a.w n; return ⟨x, y, z, w⟩
  | .shl, a, n => do
    let x ← S32.bin .shl a.x n; let y ← S32.bin .shl a.y n; let z ← S32.bin .shl a.z n; let w ← S32.bin .shl a.w n; return ⟨x, y, z, w⟩
/-- `n op v`, the ten binary operators with a scalar on the left. Models /repo/include/math/vector/int.hpp:762-771. -/
def binL : BinOp → W → V4 W → Option (V4 W)
  | .add, n, v => bin .add (V4.splat n) v
  | .sub, n, v => bin .sub (V4.splat n) v
  | .mul, n, v => bin .mul (V4.splat n) v
  | .div, n, v => bin .div (V4.splat n) v
  | .rem, n, v => bin .rem (V4.splat n) v
  | .and, n, v => bin .and (V4.splat n) v
  | .or, n, v => bin .or (V4.splat n) v
  | .xor, n, v => bin .xor (V4.splat n) v
  | .shr, n, v => bin .shr (V4.splat n) v
  | .shl, n, v => bin .shl (V4.splat n) v
/-- The three unary operators. Models /repo/include/math/vector/int.hpp:479-481. -/
def un : UnOp → V4 W → Option (V4 W)
  | .neg, a => do return ⟨← S32.un .neg a.x, ← S32.un .neg a.y, ← S32.un .neg a.z, ← S32.un .neg a.w⟩
  | .lnot, a => do return ⟨← S32.un .lnot a.x, ← S32.un .lnot a.y, ← S32.un .lnot a.z, ← S32.un .lnot a.w⟩
  | .bnot, a => do return ⟨← S32.un .bnot a.x, ← S32.un .bnot a.y, ← S32.un .bnot a.z, ← S32.un .bnot a.w⟩
/-- `a = n`. Models /repo/include/math/vector/int.hpp:502. -/
def set (_a : V4 W) (n : W) : V4 W := ⟨n, n, n, n⟩
/-- `a == v`. Models /repo/include/math/vector/int.hpp:503. -/
def eq (a v : V4 W) : Bool := a.x == v.x && a.y == v.y && a.z == v.z && a.w == v.w
/-- `a != v`. Models /repo/include/math/vector/int.hpp:504. -/
def ne (a v : V4 W) : Bool := a.x != v.x || a.y != v.y || a.z != v.z || a.w != v.w
/-- The four comparison operators and `equal`, `notEqual`; a lane is `c ? UINT32_MAX : 0`.
Models /repo/include/math/vector/int.hpp:505-524 and int.hpp:794-809. -/
def cmp : Cmp → V4 W → V4 W → V4 W
  | .lt, a, v => ⟨mask (Cmp.onI .lt a.x v.x), mask (Cmp.onI .lt a.y v.y), mask (Cmp.onI .lt a.z v.z), mask (Cmp.onI .lt a.w v.w)⟩
  | .gt, a, v => ⟨mask (Cmp.onI .gt a.x v.x), mask (Cmp.onI .gt a.y v.y), mask (Cmp.onI .gt a.z v.z), mask (Cmp.onI .gt a.w v.w)⟩
  | .le, a, v => ⟨mask (Cmp.onI .le a.x v.x), mask (Cmp.onI .le a.y v.y), mask (Cmp.onI .le a.z v.z), mask (Cmp.onI .le a.w v.w)⟩
  | .ge, a, v => ⟨mask (Cmp.onI .ge a.x v.x), mask (Cmp.onI .ge a.y v.y), mask (Cmp.onI .ge a.z v.z), mask (Cmp.onI .ge a.w v.w)⟩
  | .eq, a, v => ⟨mask (Cmp.onI .eq a.x v.x), mask (Cmp.onI .eq a.y v.y), mask (Cmp.onI .eq a.z v.z), mask (Cmp.onI .eq a.w v.w)⟩
  | .ne, a, v => ⟨mask (Cmp.onI .ne a.x v.x), mask (Cmp.onI .ne a.y v.y), mask (Cmp.onI .ne a.z v.z), mask (Cmp.onI .ne a.w v.w)⟩
/-- `a == n`. Models /repo/include/math/vector/int.hpp:525. -/
def eqS (a : V4 W) (n : W) : Bool := eq a (V4.splat n)
/-- `a != n`. Models /repo/include/math/vector/int.hpp:526. -/
def neS (a : V4 W) (n : W) : Bool := ne a (V4.splat n)
/-- Comparison with a scalar on the right. Models /repo/include/math/vector/int.hpp:527-530. (`equal` and `notEqual` have no such overload; those two
lines only make the function total.) -/
def cmpS (c : Cmp) (a : V4 W) (n : W) : V4 W :=
  match c with
  | .lt => cmp .lt a (V4.splat n)
  | .gt => cmp .gt a (V4.splat n)
  | .le => cmp .le a (V4.splat n)
  | .ge => cmp .ge a (V4.splat n)
  | .eq => cmp .eq a (V4.splat n)
  | .ne => cmp .ne a (V4.splat n)
/-- `n == v`. Models /repo/include/math/vector/int.hpp:772. -/
def eqL (n : W) (v : V4 W) : Bool := eq (V4.splat n) v
/-- `n != v`. Models /repo/include/math/vector/int.hpp:773. -/
def neL (n : W) (v : V4 W) : Bool := ne (V4.splat n) v
/-- Comparison with a scalar on the left. Models /repo/include/math/vector/int.hpp:774-777. (`equal` and `notEqual` have no such overload; those two
lines only make the function total.) -/
def cmpL (c : Cmp) (n : W) (v : V4 W) : V4 W :=
  match c with
  | .lt => cmp .lt (V4.splat n) v
  | .gt => cmp .gt (V4.splat n) v
  | .le => cmp .le (V4.splat n) v
  | .ge => cmp .ge (V4.splat n) v
  | .eq => cmp .eq (V4.splat n) v
  | .ne => cmp .ne (V4.splat n) v
end Int4

end Verif
