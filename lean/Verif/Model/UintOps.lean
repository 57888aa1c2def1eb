import Verif.Model.CInt

/-!
# Operators of the unsigned integer vectors

Models every operator of /repo/include/math/vector/uint.hpp, one line of the source per line of the definitions.
`none` is undefined behaviour in some lane.
-/

namespace Verif

namespace Uint2
/-- `a op v`, the ten binary operators with a vector. Models /repo/include/math/vector/uint.hpp:82-91. -/
def bin : BinOp → V2 W → V2 W → Option (V2 W)
  | .add, a, v => do return ⟨← U32.bin .add a.x v.x, ← U32.bin .add a.y v.y⟩
  | .sub, a, v => do return ⟨← U32.bin .sub a.x v.x, ← U32.bin .sub a.y v.y⟩
  | .mul, a, v => do return ⟨← U32.bin .mul a.x v.x, ← U32.bin .mul a.y v.y⟩
  | .div, a, v => do return ⟨← U32.bin .div a.x v.x, ← U32.bin .div a.y v.y⟩
  | .rem, a, v => do return ⟨← U32.bin .rem a.x v.x, ← U32.bin .rem a.y v.y⟩
  | .and, a, v => do return ⟨← U32.bin .and a.x v.x, ← U32.bin .and a.y v.y⟩
  | .or, a, v => do return ⟨← U32.bin .or a.x v.x, ← U32.bin .or a.y v.y⟩
  | .xor, a, v => do return ⟨← U32.bin .xor a.x v.x, ← U32.bin .xor a.y v.y⟩
  | .shr, a, v => do return ⟨← U32.bin .shr a.x v.x, ← U32.bin .shr a.y v.y⟩
  | .shl, a, v => do return ⟨← U32.bin .shl a.x v.x, ← U32.bin .shl a.y v.y⟩
/-- `a op n`, the ten binary operators with a scalar on the right. Models /repo/include/math/vector/uint.hpp:92-101. -/
def binS : BinOp → V2 W → W → Option (V2 W)
  | .add, a, n => do return ⟨← U32.bin .add a.x n, ← U32.bin .add a.y n⟩
  | .sub, a, n => do return ⟨← U32.bin .sub a.x n, ← U32.bin .sub a.y n⟩
  | .mul, a, n => do return ⟨← U32.bin .mul a.x n, ← U32.bin .mul a.y n⟩
  | .div, a, n => do return ⟨← U32.bin .div a.x n, ← U32.bin .div a.y n⟩
  | .rem, a, n => do return ⟨← U32.bin .rem a.x n, ← U32.bin .rem a.y n⟩
  | .and, a, n => do return ⟨← U32.bin .and a.x n, ← U32.bin .and a.y n⟩
  | .or, a, n => do return ⟨← U32.bin .or a.x n, ← U32.bin .or a.y n⟩
  | .xor, a, n => do return ⟨← U32.bin .xor a.x n, ← U32.bin .xor a.y n⟩
  | .shr, a, n => do return ⟨← U32.bin .shr a.x n, ← U32.bin .shr a.y n⟩
  | .shl, a, n => do return ⟨← U32.bin .shl a.x n, ← U32.bin .shl a.y n⟩
/-- `a op= v`: the new value of `a`, the ten compound assignments with a vector. Models /repo/include/math/vector/uint.hpp:105-114. -/
def asg : BinOp → V2 W → V2 W → Option (V2 W)
  | .add, a, v => do
    let x ← U32.bin .add a.x v.x; let y ← U32.bin .add a.y v.y; return ⟨x, y⟩
  | .sub, a, v => do
    let x ← U32.bin .sub a.x v.x; let y ← U32.bin .sub a.y v.y; return ⟨x, y⟩
  | .mul, a, v => do
    let x ← U32.bin .mul a.x v.x; let y ← U32.bin .mul a.y v.y; return ⟨x, y⟩
  | .div, a, v => do
    let x ← U32.bin .div a.x v.x; let y ← U32.bin .div a.y v.y; return ⟨x, y⟩
  | .rem, a, v => do
    let x ← U32.bin .rem a.x v.x; let y ← U32.bin .rem a.y v.y; return ⟨x, y⟩
  | .and, a, v => do
    let x ← U32.bin .and a.x v.x; let y ← U32.bin .and a.y v.y; return ⟨x, y⟩
  | .or, a, v => do
    let x ← U32.bin .or a.x v.x; let y ← U32.bin .or a.y v.y; return ⟨x, y⟩
  | .xor, a, v => do
    let x ← U32.bin .xor a.x v.x; let y ← U32.bin .xor a.y v.y; return ⟨x, y⟩
  | .shr, a, v => do
    let x ← U32.bin .shr a.x v.x; let y ← U32.bin .shr a.y v.y; return ⟨x, y⟩
  | .shl, a, v => do
    let x ← U32.bin .shl a.x v.x; let y ← U32.bin .shl a.y v.y; return ⟨x, y⟩
/-- `a op= n`: the new value of `a`, the ten compound assignments with a scalar. Models /repo/include/math/vector/uint.hpp:115-124. -/
def asgS : BinOp → V2 W → W → Option (V2 W)
  | .add, a, n => do
    let x ← U32.bin .add a.x n; let y ← U32.bin .add a.y n; return ⟨x, y⟩
  | .sub, a, n => do
    let x ← U32.bin .sub a.x n; let y ← U32.bin .sub a.y n; return ⟨x, y⟩
  | .mul, a, n => do
    let x ← U32.bin .mul a.x n; let y ← U32.bin .mul a.y n; return ⟨x, y⟩
  | .div, a, n => do
    let x ← U32.bin .div a.x n; let y ← U32.bin .div a.y n; return ⟨x, y⟩
  | .rem, a, n => do
    let x ← U32.bin .rem a.x n; let y ← U32.bin .rem a.y n; return ⟨x, y⟩
  | .and, a, n => do
    let x ← U32.bin .and a.x n; let y ← U32.bin .and a.y n; return ⟨x, y⟩
  | .or, a, n => do
    let x ← U32.bin .or a.x n; let y ← U32.bin .or a.y n; return ⟨x, y⟩
  | .xor, a, n => do
    let x ← U32.bin .xor a.x n; let y ← U32.bin .xor a.y n; return ⟨x, y⟩
  | .shr, a, n => do
    let x ← U32.bin .shr a.x n; let y ← U32.bin .shr a.y n; return ⟨x, y⟩
  | .shl, a, n => do
    let x ← U32.bin .shl a.x n; let y ← U32.bin .shl a.y n; return ⟨x, y⟩
/-- `n op v`, the ten binary operators with a scalar on the left. Models /repo/include/math/vector/uint.hpp:483-492. -/
def binL : BinOp → W → V2 W → Option (V2 W)
  | .add, n, v => bin .add (V2.splat n) v
  | .sub, n, v => bin .sub (V2.splat n) v
  | .mul, n, v => bin .mul (V2.splat n) v
  | .div, n, v => bin .div (V2.splat n) v
  | .rem, n, v => bin .rem (V2.splat n) v
  | .and, n, v => bin .and (V2.splat n) v
  | .or, n, v => bin .or (V2.splat n) v
  | .xor, n, v => bin .xor (V2.splat n) v
  | .shr, n, v => bin .shr (V2.splat n) v
  | .shl, n, v => bin .shl (V2.splat n) v
/-- The three unary operators. Models /repo/include/math/vector/uint.hpp:102-104. -/
def un : UnOp → V2 W → Option (V2 W)
  | .neg, a => do return ⟨← U32.un .neg a.x, ← U32.un .neg a.y⟩
  | .lnot, a => do return ⟨← U32.un .lnot a.x, ← U32.un .lnot a.y⟩
  | .bnot, a => do return ⟨← U32.un .bnot a.x, ← U32.un .bnot a.y⟩
/-- `a = n`. Models /repo/include/math/vector/uint.hpp:125. -/
def set (_a : V2 W) (n : W) : V2 W := ⟨n, n⟩
/-- `a == v`. Models /repo/include/math/vector/uint.hpp:126. -/
def eq (a v : V2 W) : Bool := a.x == v.x && a.y == v.y
/-- `a != v`. Models /repo/include/math/vector/uint.hpp:127. -/
def ne (a v : V2 W) : Bool := a.x != v.x || a.y != v.y
/-- The four comparison operators and `equal`, `notEqual`; a lane is `c ? UINT32_MAX : 0`.
Models /repo/include/math/vector/uint.hpp:128-143 and uint.hpp:536-549. -/
def cmp : Cmp → V2 W → V2 W → V2 W
  | .lt, a, v => ⟨mask (Cmp.onU .lt a.x v.x), mask (Cmp.onU .lt a.y v.y)⟩
  | .gt, a, v => ⟨mask (Cmp.onU .gt a.x v.x), mask (Cmp.onU .gt a.y v.y)⟩
  | .le, a, v => ⟨mask (Cmp.onU .le a.x v.x), mask (Cmp.onU .le a.y v.y)⟩
  | .ge, a, v => ⟨mask (Cmp.onU .ge a.x v.x), mask (Cmp.onU .ge a.y v.y)⟩
  | .eq, a, v => ⟨mask (Cmp.onU .eq a.x v.x), mask (Cmp.onU .eq a.y v.y)⟩
  | .ne, a, v => ⟨mask (Cmp.onU .ne a.x v.x), mask (Cmp.onU .ne a.y v.y)⟩
/-- `a == n`. Models /repo/include/math/vector/uint.hpp:144. -/
def eqS (a : V2 W) (n : W) : Bool := eq a (V2.splat n)
/-- `a != n`. Models /repo/include/math/vector/uint.hpp:145. -/
def neS (a : V2 W) (n : W) : Bool := ne a (V2.splat n)
/-- Comparison with a scalar on the right. Models /repo/include/math/vector/uint.hpp:146-149. (`equal` and `notEqual` have no such overload; those two
lines only make the function total.) -/
def cmpS (c : Cmp) (a : V2 W) (n : W) : V2 W :=
  match c with
  | .lt => cmp .lt a (V2.splat n)
  | .gt => cmp .gt a (V2.splat n)
  | .le => cmp .le a (V2.splat n)
  | .ge => cmp .ge a (V2.splat n)
  | .eq => cmp .eq a (V2.splat n)
  | .ne => cmp .ne a (V2.splat n)
/-- `n == v`. Models /repo/include/math/vector/uint.hpp:493. -/
def eqL (n : W) (v : V2 W) : Bool := eq (V2.splat n) v
/-- `n != v`. Models /repo/include/math/vector/uint.hpp:494. -/
def neL (n : W) (v : V2 W) : Bool := ne (V2.splat n) v
/-- Comparison with a scalar on the left. Models /repo/include/math/vector/uint.hpp:495-498. (`equal` and `notEqual` have no such overload; those two
lines only make the function total.) -/
def cmpL (c : Cmp) (n : W) (v : V2 W) : V2 W :=
  match c with
  | .lt => cmp .lt (V2.splat n) v
  | .gt => cmp .gt (V2.splat n) v
  | .le => cmp .le (V2.splat n) v
  | .ge => cmp .ge (V2.splat n) v
  | .eq => cmp .eq (V2.splat n) v
  | .ne => cmp .ne (V2.splat n) v
end Uint2

namespace Uint3
/-- `a op v`, the ten binary operators with a vector. Models /repo/include/math/vector/uint.hpp:224-233. -/
def bin : BinOp → V3 W → V3 W → Option (V3 W)
  | .add, a, v => do return ⟨← U32.bin .add a.x v.x, ← U32.bin .add a.y v.y, ← U32.bin .add a.z v.z⟩
  | .sub, a, v => do return ⟨← U32.bin .sub a.x v.x, ← U32.bin .sub a.y v.y, ← U32.bin .sub a.z v.z⟩
  | .mul, a, v => do return ⟨← U32.bin .mul a.x v.x, ← U32.bin .mul a.y v.y, ← U32.bin .mul a.z v.z⟩
  | .div, a, v => do return ⟨← U32.bin .div a.x v.x, ← U32.bin .div a.y v.y, ← U32.bin .div a.z v.z⟩
  | .rem, a, v => do return ⟨← U32.bin .rem a.x v.x, ← U32.bin .rem a.y v.y, ← U32.bin .rem a.z v.z⟩
  | .and, a, v => do return ⟨← U32.bin .and a.x v.x, ← U32.bin .and a.y v.y, ← U32.bin .and a.z v.z⟩
  | .or, a, v => do return ⟨← U32.bin .or a.x v.x, ← U32.bin .or a.y v.y, ← U32.bin .or a.z v.z⟩
  | .xor, a, v => do return ⟨← U32.bin .xor a.x v.x, ← U32.bin .xor a.y v.y, ← U32.bin .xor a.z v.z⟩
  | .shr, a, v => do return ⟨← U32.bin .shr a.x v.x, ← U32.bin .shr a.y v.y, ← U32.bin .shr a.z v.z⟩
  | .shl, a, v => do return ⟨← U32.bin .shl a.x v.x, ← U32.bin .shl a.y v.y, ← U32.bin .shl a.z v.z⟩
/-- `a op n`, the ten binary operators with a scalar on the right. Models /repo/include/math/vector/uint.hpp:234-243. -/
def binS : BinOp → V3 W → W → Option (V3 W)
  | .add, a, n => do return ⟨← U32.bin .add a.x n, ← U32.bin .add a.y n, ← U32.bin .add a.z n⟩
  | .sub, a, n => do return ⟨← U32.bin .sub a.x n, ← U32.bin .sub a.y n, ← U32.bin .sub a.z n⟩
  | .mul, a, n => do return ⟨← U32.bin .mul a.x n, ← U32.bin .mul a.y n, ← U32.bin .mul a.z n⟩
  | .div, a, n => do return ⟨← U32.bin .div a.x n, ← U32.bin .div a.y n, ← U32.bin .div a.z n⟩
  | .rem, a, n => do return ⟨← U32.bin .rem a.x n, ← U32.bin .rem a.y n, ← U32.bin .rem a.z n⟩
  | .and, a, n => do return ⟨← U32.bin .and a.x n, ← U32.bin .and a.y n, ← U32.bin .and a.z n⟩
  | .or, a, n => do return ⟨← U32.bin .or a.x n, ← U32.bin .or a.y n, ← U32.bin .or a.z n⟩
  | .xor, a, n => do return ⟨← U32.bin .xor a.x n, ← U32.bin .xor a.y n, ← U32.bin .xor a.z n⟩
  | .shr, a, n => do return ⟨← U32.bin .shr a.x n, ← U32.bin .shr a.y n, ← U32.bin .shr a.z n⟩
  | .shl, a, n => do return ⟨← U32.bin .shl a.x n, ← U32.bin .shl a.y n, ← U32.bin .shl a.z n⟩
/-- `a op= v`: the new value of `a`, the ten compound assignments with a vector. Models /repo/include/math/vector/uint.hpp:247-256. -/
def asg : BinOp → V3 W → V3 W → Option (V3 W)
  | .add, a, v => do
    let x ← U32.bin .add a.x v.x; let y ← U32.bin .add a.y v.y; let z ← U32.bin .add a.z v.z; return ⟨x, y, z⟩
  | .sub, a, v => do
    let x ← U32.bin .sub a.x v.x; let y ← U32.bin .sub a.y v.y; let z ← U32.bin .sub a.z v.z; return ⟨x, y, z⟩
  | .mul, a, v => do
    let x ← U32.bin .mul a.x v.x; let y ← U32.bin .mul a.y v.y; let z ← U32.bin .mul a.z v.z; return ⟨x, y, z⟩
  | .div, a, v => do
    let x ← U32.bin .div a.x v.x; let y ← U32.bin .div a.y v.y; let z ← U32.bin .div a.z v.z; return ⟨x, y, z⟩
  | .rem, a, v => do
    let x ← U32.bin .rem a.x v.x; let y ← U32.bin .rem a.y v.y; let z ← U32.bin .rem a.z v.z; return ⟨x, y, z⟩
  | .and, a, v => do
    let x ← U32.bin .and a.x v.x; let y ← U32.bin .and a.y v.y; let z ← U32.bin .and a.z v.z; return ⟨x, y, z⟩
  | .or, a, v => do
    let x ← U32.bin .or a.x v.x; let y ← U32.bin .or a.y v.y; let z ← U32.bin .or a.z v.z; return ⟨x, y, z⟩
  | .xor, a, v => do
    let x ← U32.bin .xor a.x v.x; let y ← U32.bin .xor a.y v.y; let z ← U32.bin .xor a.z v.z; return ⟨x, y, z⟩
  | .shr, a, v => do
    let x ← U32.bin .shr a.x v.x; let y ← U32.bin .shr a.y v.y; let z ← U32.bin .shr a.z v.z; return ⟨x, y, z⟩
  | .shl, a, v => do
    let x ← U32.bin .shl a.x v.x; let y ← U32.bin .shl a.y v.y; let z ← U32.bin .shl a.z v.z; return ⟨x, y, z⟩
/-- `a op= n`: the new value of `a`, the ten compound assignments with a scalar. Models /repo/include/math/vector/uint.hpp:257-266. -/
def asgS : BinOp → V3 W → W → Option (V3 W)
  | .add, a, n => do
    let x ← U32.bin .add a.x n; let y ← U32.bin .add a.y n; let z ← U32.bin .add a.z n; return ⟨x, y, z⟩
  | .sub, a, n => do
    let x ← U32.bin .sub a.x n; let y ← U32.bin .sub a.y n; let z ← U32.bin .sub a.z n; return ⟨x, y, z⟩
  | .mul, a, n => do
    let x ← U32.bin .mul a.x n; let y ← U32.bin .mul a.y n; let z ← U32.bin .mul a.z n; return ⟨x, y, z⟩
  | .div, a, n => do
    let x ← U32.bin .div a.x n; let y ← U32.bin .div a.y n; let z ← U32.bin .div a.z n; return ⟨x, y, z⟩
  | .rem, a, n => do
    let x ← U32.bin .rem a.x n; let y ← U32.bin .rem a.y n; let z ← U32.bin .rem a.z n; return ⟨x, y, z⟩
  | .and, a, n => do
    let x ← U32.bin .and a.x n; let y ← U32.bin .and a.y n; let z ← U32.bin .and a.z n; return ⟨x, y, z⟩
  | .or, a, n => do
    let x ← U32.bin .or a.x n; let y ← U32.bin .or a.y n; let z ← U32.bin .or a.z n; return ⟨x, y, z⟩
  | .xor, a, n => do
    let x ← U32.bin .xor a.x n; let y ← U32.bin .xor a.y n; let z ← U32.bin .xor a.z n; return ⟨x, y, z⟩
  | .shr, a, n => do
    let x ← U32.bin .shr a.x n; let y ← U32.bin .shr a.y n; let z ← U32.bin .shr a.z n; return ⟨x, y, z⟩
  | .shl, a, n => do
    let x ← U32.bin .shl a.x n; let y ← U32.bin .shl a.y n; let z ← U32.bin .shl a.z n; return ⟨x, y, z⟩
/-- `n op v`, the ten binary operators with a scalar on the left. Models /repo/include/math/vector/uint.hpp:621-630. -/
def binL : BinOp → W → V3 W → Option (V3 W)
  | .add, n, v => bin .add (V3.splat n) v
  | .sub, n, v => bin .sub (V3.splat n) v
  | .mul, n, v => bin .mul (V3.splat n) v
  | .div, n, v => bin .div (V3.splat n) v
  | .rem, n, v => bin .rem (V3.splat n) v
  | .and, n, v => bin .and (V3.splat n) v
  | .or, n, v => bin .or (V3.splat n) v
  | .xor, n, v => bin .xor (V3.splat n) v
  | .shr, n, v => bin .shr (V3.splat n) v
  | .shl, n, v => bin .shl (V3.splat n) v
/-- The three unary operators. Models /repo/include/math/vector/uint.hpp:244-246. -/
def un : UnOp → V3 W → Option (V3 W)
  | .neg, a => do return ⟨← U32.un .neg a.x, ← U32.un .neg a.y, ← U32.un .neg a.z⟩
  | .lnot, a => do return ⟨← U32.un .lnot a.x, ← U32.un .lnot a.y, ← U32.un .lnot a.z⟩
  | .bnot, a => do return ⟨← U32.un .bnot a.x, ← U32.un .bnot a.y, ← U32.un .bnot a.z⟩
/-- `a = n`. Models /repo/include/math/vector/uint.hpp:267. -/
def set (_a : V3 W) (n : W) : V3 W := ⟨n, n, n⟩
/-- `a == v`. Models /repo/include/math/vector/uint.hpp:268. -/
def eq (a v : V3 W) : Bool := a.x == v.x && a.y == v.y && a.z == v.z
/-- `a != v`. Models /repo/include/math/vector/uint.hpp:269. -/
def ne (a v : V3 W) : Bool := a.x != v.x || a.y != v.y || a.z != v.z
/-- The four comparison operators and `equal`, `notEqual`; a lane is `c ? UINT32_MAX : 0`.
Models /repo/include/math/vector/uint.hpp:270-285 and uint.hpp:674-687. -/
def cmp : Cmp → V3 W → V3 W → V3 W
  | .lt, a, v => ⟨mask (Cmp.onU .lt a.x v.x), mask (Cmp.onU .lt a.y v.y), mask (Cmp.onU .lt a.z v.z)⟩
  | .gt, a, v => ⟨mask (Cmp.onU .gt a.x v.x), mask (Cmp.onU .gt a.y v.y), mask (Cmp.onU .gt a.z v.z)⟩
  | .le, a, v => ⟨mask (Cmp.onU .le a.x v.x), mask (Cmp.onU .le a.y v.y), mask (Cmp.onU .le a.z v.z)⟩
  | .ge, a, v => ⟨mask (Cmp.onU .ge a.x v.x), mask (Cmp.onU .ge a.y v.y), mask (Cmp.onU .ge a.z v.z)⟩
  | .eq, a, v => ⟨mask (Cmp.onU .eq a.x v.x), mask (Cmp.onU .eq a.y v.y), mask (Cmp.onU .eq a.z v.z)⟩
  | .ne, a, v => ⟨mask (Cmp.onU .ne a.x v.x), mask (Cmp.onU .ne a.y v.y), mask (Cmp.onU .ne a.z v.z)⟩
/-- `a == n`. Models /repo/include/math/vector/uint.hpp:286. -/
def eqS (a : V3 W) (n : W) : Bool := eq a (V3.splat n)
/-- `a != n`. Models /repo/include/math/vector/uint.hpp:287. -/
def neS (a : V3 W) (n : W) : Bool := ne a (V3.splat n)
/-- Comparison with a scalar on the right. Models /repo/include/math/vector/uint.hpp:288-291. (`equal` and `notEqual` have no such overload; those two
lines only make the function total.) -/
def cmpS (c : Cmp) (a : V3 W) (n : W) : V3 W :=
  match c with
  | .lt => cmp .lt a (V3.splat n)
  | .gt => cmp .gt a (V3.splat n)
  | .le => cmp .le a (V3.splat n)
  | .ge => cmp .ge a (V3.splat n)
  | .eq => cmp .eq a (V3.splat n)
  | .ne => cmp .ne a (V3.splat n)
/-- `n == v`. Models /repo/include/math/vector/uint.hpp:631. -/
def eqL (n : W) (v : V3 W) : Bool := eq (V3.splat n) v
/-- `n != v`. Models /repo/include/math/vector/uint.hpp:632. -/
def neL (n : W) (v : V3 W) : Bool := ne (V3.splat n) v
/-- Comparison with a scalar on the left. Models /repo/include/math/vector/uint.hpp:633-636. (`equal` and `notEqual` have no such overload; those two
lines only make the function total.) -/
def cmpL (c : Cmp) (n : W) (v : V3 W) : V3 W :=
  match c with
  | .lt => cmp .lt (V3.splat n) v
  | .gt => cmp .gt (V3.splat n) v
  | .le => cmp .le (V3.splat n) v
  | .ge => cmp .ge (V3.splat n) v
  | .eq => cmp .eq (V3.splat n) v
  | .ne => cmp .ne (V3.splat n) v
end Uint3

namespace Uint4
/-- `a op v`, the ten binary operators with a vector. Models /repo/include/math/vector/uint.hpp:403-412. -/
def bin : BinOp → V4 W → V4 W → Option (V4 W)
  | .add, a, v => do return ⟨← U32.bin .add a.x v.x, ← U32.bin .add a.y v.y, ← U32.bin .add a.z v.z, ← U32.bin .add a.w v.w⟩
  | .sub, a, v => do return ⟨← U32.bin .sub a.x v.x, ← U32.bin .sub a.y v.y, ← U32.bin .sub a.z v.z, ← U32.bin .sub a.w v.w⟩
  | .mul, a, v => do return ⟨← U32.bin .mul a.x v.x, ← U32.bin .mul a.y v.y, ← U32.bin .mul a.z v.z, ← U32.bin .mul a.w v.w⟩
  | .div, a, v => do return ⟨← U32.bin .div a.x v.x, ← U32.bin .div a.y v.y, ← U32.bin .div a.z v.z, ← U32.bin .div a.w v.w⟩
  | .rem, a, v => do return ⟨← U32.bin .rem a.x v.x, ← U32.bin .rem a.y v.y, ← U32.bin .rem a.z v.z, ← U32.bin .rem a.w v.w⟩
  | .and, a, v => do return ⟨← U32.bin .and a.x v.x, ← U32.bin .and a.y v.y, ← U32.bin .and a.z v.z, ← U32.bin .and a.w v.w⟩
  | .or, a, v => do return ⟨← U32.bin .or a.x v.x, ← U32.bin .or a.y v.y, ← U32.bin .or a.z v.z, ← U32.bin .or a.w v.w⟩
  | .xor, a, v => do return ⟨← U32.bin .xor a.x v.x, ← U32.bin .xor a.y v.y, ← U32.bin .xor a.z v.z, ← U32.bin .xor a.w v.w⟩
  | .shr, a, v => do return ⟨← U32.bin .shr a.x v.x, ← U32.bin .shr a.y v.y, ← U32.bin .shr a.z v.z, ← U32.bin .shr a.w v.w⟩
  | .shl, a, v => do return ⟨← U32.bin .shl a.x v.x, ← U32.bin .shl a.y v.y, ← U32.bin .shl a.z v.z, ← U32.bin .shl a.w v.w⟩
/-- `a op n`, the ten binary operators with a scalar on the right. Models /repo/include/math/vector/uint.hpp:413-422. -/
def binS : BinOp → V4 W → W → Option (V4 W)
  | .add, a, n => do return ⟨← U32.bin .add a.x n, ← U32.bin .add a.y n, ← U32.bin .add a.z n, ← U32.bin .add a.w n⟩
  | .sub, a, n => do return ⟨← U32.bin .sub a.x n, ← U32.bin .sub a.y n, ← U32.bin .sub a.z n, ← U32.bin .sub a.w n⟩
  | .mul, a, n => do return ⟨← U32.bin .mul a.x n, ← U32.bin .mul a.y n, ← U32.bin .mul a.z n, ← U32.bin .mul a.w n⟩
  | .div, a, n => do return ⟨← U32.bin .div a.x n, ← U32.bin .div a.y n, ← U32.bin .div a.z n, ← U32.bin .div a.w n⟩
  | .rem, a, n => do return ⟨← U32.bin .rem a.x n, ← U32.bin .rem a.y n, ← U32.bin .rem a.z n, ← U32.bin .rem a.w n⟩
  | .and, a, n => do return ⟨← U32.bin .and a.x n, ← U32.bin .and a.y n, ← U32.bin .and a.z n, ← U32.bin .and a.w n⟩
  | .or, a, n => do return ⟨← U32.bin .or a.x n, ← U32.bin .or a.y n, ← U32.bin .or a.z n, ← U32.bin .or a.w n⟩
  | .xor, a, n => do return ⟨← U32.bin .xor a.x n, ← U32.bin .xor a.y n, ← U32.bin .xor a.z n, ← U32.bin .xor a.w n⟩
  | .shr, a, n => do return ⟨← U32.bin .shr a.x n, ← U32.bin .shr a.y n, ← U32.bin .shr a.z n, ← U32.bin .shr a.w n⟩
  | .shl, a, n => do return ⟨← U32.bin .shl a.x n, ← U32.bin .shl a.y n, ← U32.bin .shl a.z n, ← U32.bin .shl a.w n⟩
/-- `a op= v`: the new value of `a`, the ten compound assignments with a vector. Models /repo/include/math/vector/uint.hpp:426-435. -/
def asg : BinOp → V4 W → V4 W → Option (V4 W)
  | .add, a, v => do
    let x ← U32.bin .add a.x v.x; let y ← U32.bin .add a.y v.y; let z ← U32.bin .add a.z v.z; let w ← U32.bin .add a.w v.w; return ⟨x, y, z, w⟩
  | .sub, a, v => do
    let x ← U32.bin .sub a.x v.x; let y ← U32.bin .sub a.y v.y; let z ← U32.bin .sub a.z v.z; let w ← U32.bin .sub a.w v.w; return ⟨x, y, z, w⟩
  | .mul, a, v => do
    let x ← U32.bin .mul a.x v.x; let y ← U32.bin .mul a.y v.y; let z ← U32.bin .mul a.z v.z; let w ← U32.bin .mul a.w v.w; return ⟨x, y, z, w⟩
  | .div, a, v => do
    let x ← U32.bin .div a.x v.x; let y ← U32.bin .div a.y v.y; let z ← U32.bin .div a.z v.z; let w ← U32.bin .div a.w v.w; return ⟨x, y, z, w⟩
  | .rem, a, v => do
    let x ← U32.bin .rem a.x v.x; let y ← U32.bin .rem a.y v.y; let z ← U32.bin .rem a.z v.z; let w ← U32.bin .rem a.w v.w; return ⟨x, y, z, w⟩
  | .and, a, v => do
    let x ← U32.bin .and a.x v.x; let y ← U32.bin .and a.y v.y; let z ← U32.bin .and a.z v.z; let w ← U32.bin .and a.w v.w; return ⟨x, y, z, w⟩
  | .or, a, v => do
    let x ← U32.bin .or a.x v.x; let y ← U32.bin .or a.y v.y; let z ← U32.bin .or a.z v.z; let w ← U32.bin .or a.w v.w; return ⟨x, y, z, w⟩
  | .xor, a, v => do
    let x ← U32.bin .xor a.x v.x; let y ← U32.bin .xor a.y v.y; let z ← U32.bin .xor a.z v.z; let w ← U32.bin .xor a.w v.w; return ⟨x, y, z, w⟩
  | .shr, a, v => do
    let x ← U32.bin .shr a.x v.x; let y ← U32.bin .shr a.y v.y; let z ← U32.bin .shr a.z v.z; let w ← U32.bin .shr a.w v.w; return ⟨x, y, z, w⟩
  | .shl, a, v => do
    let x ← U32.bin .shl a.x v.x; let y ← U32.bin .shl a.y v.y; let z ← U32.bin .shl a.z v.z; let w ← U32.bin .shl a.w v.w; return ⟨x, y, z, w⟩
/-- `a op= n`: the new value of `a`, the ten compound assignments with a scalar. Models /repo/include/math/vector/uint.hpp:436-445. -/
def asgS : BinOp → V4 W → W → Option (V4 W)
  | .add, a, n => do
    let x ← U32.bin .add a.x n; let y ← U32.bin .add a.y n; let z ← U32.bin .add a.z n; let w ← U32.bin .add a.w n; return ⟨x, y, z, w⟩
  | .sub, a, n => do
    let x ← U32.bin .sub a.x n; let y ← U32.bin .sub a.y n; let z ← U32.bin .sub a.z n; let w ← U32.bin .sub a.w n; return ⟨x, y, z, w⟩
  | .mul, a, n => do
    let x ← U32.bin .mul a.x n; let y ← U32.bin .mul a.y n; let z ← U32.bin .mul a.z n; let w ← U32.bin .mul a.w n; return ⟨x, y, z, w⟩
  | .div, a, n => do
    let x ← U32.bin .div a.x n; let y ← U32.bin .div a.y n; let z ← U32.bin .div a.z n; let w ← U32.bin .div a.w n; return ⟨x, y, z, w⟩
  | .rem, a, n => do
    let x ← U32.bin .rem a.x n; let y ← U32.bin .rem a.y n; let z ← U32.bin .rem a.z n; let w ← U32.bin .rem a.w n; return ⟨x, y, z, w⟩
  | .and, a, n => do
    let x ← U32.bin .and a.x n; let y ← U32.bin .and a.y n; let z ← U32.bin .and a.z n; let w ← U32.bin .and a.w n; return ⟨x, y, z, w⟩
  | .or, a, n => do
    let x ← U32.bin .or a.x n; let y ← U32.bin .or a.y n; let z ← U32.bin .or a.z n; let w ← U32.bin .or a.w n; return ⟨x, y, z, w⟩
  | .xor, a, n => do
    let x ← U32.bin .xor a.x n; let y ← U32.bin .xor a.y n; let z ← U32.bin .xor a.z n; let w ← U32.bin .xor a.w n; return ⟨x, y, z, w⟩
  | .shr, a, n => do
    let x ← U32.bin .shr a.x n; let y ← U32.bin .shr a.y n; let z ← U32.bin .shr a.z n; let w ← U32.bin .shr a.w n; return ⟨x, y, z, w⟩
  | .shl, a, n => do
    let x ← U32.bin .shl a.x n; let y ← U32.bin .shl a.y n; let z ← U32.bin .shl a.z n; let w ← U32.bin .shl a.w n; return ⟨x, y, z, w⟩
/-- `n op v`, the ten binary operators with a scalar on the left. Models /repo/include/math/vector/uint.hpp:759-768. -/
def binL : BinOp → W → V4 W → Option (V4 W)
  | .add, n, v => bin .add (V4.splat n) v
  | .sub, n, v => bin .sub (V4.splat n) v
  | .mul, n, v => bin .mul (V4.splat n) v
  | .div, n, v => bin .div (V4.splat n) v
  | .rem, n, v => bin .rem (V4.splat n) v
  | .and, n, v => bin .and (V4.splat n) v
  | .or, n, v => bin .or (V4.splat n) v
  | .xor, n, v => bin .xor (V4.splat n) v
  | .shr, n, v => bin .shr (V4.splat n) v
  | .shl, n, v => bin .shl (V4.splat n) v
/-- The three unary operators. Models /repo/include/math/vector/uint.hpp:423-425. -/
def un : UnOp → V4 W → Option (V4 W)
  | .neg, a => do return ⟨← U32.un .neg a.x, ← U32.un .neg a.y, ← U32.un .neg a.z, ← U32.un .neg a.w⟩
  | .lnot, a => do return ⟨← U32.un .lnot a.x, ← U32.un .lnot a.y, ← U32.un .lnot a.z, ← U32.un .lnot a.w⟩
  | .bnot, a => do return ⟨← U32.un .bnot a.x, ← U32.un .bnot a.y, ← U32.un .bnot a.z, ← U32.un .bnot a.w⟩
/-- `a = n`. Models /repo/include/math/vector/uint.hpp:446. -/
def set (_a : V4 W) (n : W) : V4 W := ⟨n, n, n, n⟩
/-- `a == v`. Models /repo/include/math/vector/uint.hpp:447. -/
def eq (a v : V4 W) : Bool := a.x == v.x && a.y == v.y && a.z == v.z && a.w == v.w
/-- `a != v`. Models /repo/include/math/vector/uint.hpp:448. -/
def ne (a v : V4 W) : Bool := a.x != v.x || a.y != v.y || a.z != v.z || a.w != v.w
/-- The four comparison operators and `equal`, `notEqual`; a lane is `c ? UINT32_MAX : 0`.
Models /repo/include/math/vector/uint.hpp:449-468 and uint.hpp:815-830. -/
def cmp : Cmp → V4 W → V4 W → V4 W
  | .lt, a, v => ⟨mask (Cmp.onU .lt a.x v.x), mask (Cmp.onU .lt a.y v.y), mask (Cmp.onU .lt a.z v.z), mask (Cmp.onU .lt a.w v.w)⟩
  | .gt, a, v => ⟨mask (Cmp.onU .gt a.x v.x), mask (Cmp.onU .gt a.y v.y), mask (Cmp.onU .gt a.z v.z), mask (Cmp.onU .gt a.w v.w)⟩
  | .le, a, v => ⟨mask (Cmp.onU .le a.x v.x), mask (Cmp.onU .le a.y v.y), mask (Cmp.onU .le a.z v.z), mask (Cmp.onU .le a.w v.w)⟩
  | .ge, a, v => ⟨mask (Cmp.onU .ge a.x v.x), mask (Cmp.onU .ge a.y v.y), mask (Cmp.onU .ge a.z v.z), mask (Cmp.onU .ge a.w v.w)⟩
  | .eq, a, v => ⟨mask (Cmp.onU .eq a.x v.x), mask (Cmp.onU .eq a.y v.y), mask (Cmp.onU .eq a.z v.z), mask (Cmp.onU .eq a.w v.w)⟩
  | .ne, a, v => ⟨mask (Cmp.onU .ne a.x v.x), mask (Cmp.onU .ne a.y v.y), mask (Cmp.onU .ne a.z v.z), mask (Cmp.onU .ne a.w v.w)⟩
/-- `a == n`. Models /repo/include/math/vector/uint.hpp:469. -/
def eqS (a : V4 W) (n : W) : Bool := eq a (V4.splat n)
/-- `a != n`. Models /repo/include/math/vector/uint.hpp:470. -/
def neS (a : V4 W) (n : W) : Bool := ne a (V4.splat n)
/-- Comparison with a scalar on the right. Models /repo/include/math/vector/uint.hpp:471-474. (`equal` and `notEqual` have no such overload; those two
lines only make the function total.) -/
def cmpS (c : Cmp) (a : V4 W) (n : W) : V4 W :=
  match c with
  | .lt => cmp .lt a (V4.splat n)
  | .gt => cmp .gt a (V4.splat n)
  | .le => cmp .le a (V4.splat n)
  | .ge => cmp .ge a (V4.splat n)
  | .eq => cmp .eq a (V4.splat n)
  | .ne => cmp .ne a (V4.splat n)
/-- `n == v`. Models /repo/include/math/vector/uint.hpp:769. -/
def eqL (n : W) (v : V4 W) : Bool := eq (V4.splat n) v
/-- `n != v`. Models /repo/include/math/vector/uint.hpp:770. -/
def neL (n : W) (v : V4 W) : Bool := ne (V4.splat n) v
/-- Comparison with a scalar on the left. Models /repo/include/math/vector/uint.hpp:771-774. (`equal` and `notEqual` have no such overload; those two
lines only make the function total.) -/
def cmpL (c : Cmp) (n : W) (v : V4 W) : V4 W :=
  match c with
  | .lt => cmp .lt (V4.splat n) v
  | .gt => cmp .gt (V4.splat n) v
  | .le => cmp .le (V4.splat n) v
  | .ge => cmp .ge (V4.splat n) v
  | .eq => cmp .eq (V4.splat n) v
  | .ne => cmp .ne (V4.splat n) v
end Uint4

end Verif
