import Verif.Model.IntVec
import Verif.Model.SimdInt

/-!
# Operators of the floating-point vectors

Models every operator of /repo/include/math/vector/float.hpp for an arbitrary scalar `F`, one line of the source per line
of the definitions, and the operators of /repo/include/math/simd/vector/float.hpp on binary32 for each instruction set.
-/

namespace Verif

/-- The four binary operators. -/
inductive FOp
  | add | sub | mul | div
deriving DecidableEq, Repr

section
variable {F : Type} [Flt F]

namespace Float2
/-- `a op v`, the four operators with a vector. Models /repo/include/math/vector/float.hpp:102-105. -/
def bin : FOp → V2 F → V2 F → V2 F
  | .add, a, v => ⟨a.x +. v.x, a.y +. v.y⟩
  | .sub, a, v => ⟨a.x -. v.x, a.y -. v.y⟩
  | .mul, a, v => ⟨a.x *. v.x, a.y *. v.y⟩
  | .div, a, v => ⟨a.x /. v.x, a.y /. v.y⟩
/-- `a op n`, the four operators with a scalar on the right. Models /repo/include/math/vector/float.hpp:106-109. -/
def binS : FOp → V2 F → F → V2 F
  | .add, a, n => ⟨a.x +. n, a.y +. n⟩
  | .sub, a, n => ⟨a.x -. n, a.y -. n⟩
  | .mul, a, n => ⟨a.x *. n, a.y *. n⟩
  | .div, a, n => ⟨a.x /. n, a.y /. n⟩
/-- `a op= v`: the new value of `a`, with a vector. Models /repo/include/math/vector/float.hpp:111-114. -/
def asg : FOp → V2 F → V2 F → V2 F
  | .add, a, v => ⟨a.x +. v.x, a.y +. v.y⟩
  | .sub, a, v => ⟨a.x -. v.x, a.y -. v.y⟩
  | .mul, a, v => ⟨a.x *. v.x, a.y *. v.y⟩
  | .div, a, v => ⟨a.x /. v.x, a.y /. v.y⟩
/-- `a op= n`: the new value of `a`, with a scalar. Models /repo/include/math/vector/float.hpp:115-118. -/
def asgS : FOp → V2 F → F → V2 F
  | .add, a, n => ⟨a.x +. n, a.y +. n⟩
  | .sub, a, n => ⟨a.x -. n, a.y -. n⟩
  | .mul, a, n => ⟨a.x *. n, a.y *. n⟩
  | .div, a, n => ⟨a.x /. n, a.y /. n⟩
/-- `n op v`. Models /repo/include/math/vector/float.hpp:542-545. -/
def binL : FOp → F → V2 F → V2 F
  | .add, n, v => bin .add (V2.splat n) v
  | .sub, n, v => bin .sub (V2.splat n) v
  | .mul, n, v => bin .mul (V2.splat n) v
  | .div, n, v => bin .div (V2.splat n) v
/-- `-a`. Models /repo/include/math/vector/float.hpp:110. -/
def neg (a : V2 F) : V2 F := ⟨-. a.x, -. a.y⟩
/-- `a = n`. Models /repo/include/math/vector/float.hpp:119. -/
def set (_a : V2 F) (n : F) : V2 F := ⟨n, n⟩
/-- `a == v`. Models /repo/include/math/vector/float.hpp:120. -/
def eq (a v : V2 F) : Bool := (a.x ==. v.x) && (a.y ==. v.y)
/-- `a != v`. Models /repo/include/math/vector/float.hpp:121. -/
def ne (a v : V2 F) : Bool := !(a.x ==. v.x) || !(a.y ==. v.y)
/-- The comparison operators and `equal`, `notEqual`. Models /repo/include/math/vector/float.hpp:122-137 and float.hpp:565-578. In the source the second parameter of the
two `equal` functions is a `float4` of which only `x` and `y` are read; here it is the vector of these two. -/
def cmp : Cmp → V2 F → V2 F → V2 W
  | .lt, a, v => ⟨mask (Cmp.onF .lt a.x v.x), mask (Cmp.onF .lt a.y v.y)⟩
  | .gt, a, v => ⟨mask (Cmp.onF .gt a.x v.x), mask (Cmp.onF .gt a.y v.y)⟩
  | .le, a, v => ⟨mask (Cmp.onF .le a.x v.x), mask (Cmp.onF .le a.y v.y)⟩
  | .ge, a, v => ⟨mask (Cmp.onF .ge a.x v.x), mask (Cmp.onF .ge a.y v.y)⟩
  | .eq, a, v => ⟨mask (Cmp.onF .eq a.x v.x), mask (Cmp.onF .eq a.y v.y)⟩
  | .ne, a, v => ⟨mask (Cmp.onF .ne a.x v.x), mask (Cmp.onF .ne a.y v.y)⟩
/-- `a == n`. Models /repo/include/math/vector/float.hpp:138. -/
def eqS (a : V2 F) (n : F) : Bool := eq a (V2.splat n)
/-- `a != n`. Models /repo/include/math/vector/float.hpp:139. -/
def neS (a : V2 F) (n : F) : Bool := ne a (V2.splat n)
/-- Comparison with a scalar on the right. Models /repo/include/math/vector/float.hpp:140-143. -/
def cmpS (c : Cmp) (a : V2 F) (n : F) : V2 W :=
  match c with
  | .lt => cmp .lt a (V2.splat n)
  | .gt => cmp .gt a (V2.splat n)
  | .le => cmp .le a (V2.splat n)
  | .ge => cmp .ge a (V2.splat n)
  | .eq => cmp .eq a (V2.splat n)
  | .ne => cmp .ne a (V2.splat n)
/-- `n == v`. Models /repo/include/math/vector/float.hpp:546. -/
def eqL (n : F) (v : V2 F) : Bool := eq (V2.splat n) v
/-- `n != v`. Models /repo/include/math/vector/float.hpp:547. -/
def neL (n : F) (v : V2 F) : Bool := ne (V2.splat n) v
/-- Comparison with a scalar on the left. Models /repo/include/math/vector/float.hpp:548-551. -/
def cmpL (c : Cmp) (n : F) (v : V2 F) : V2 W :=
  match c with
  | .lt => cmp .lt (V2.splat n) v
  | .gt => cmp .gt (V2.splat n) v
  | .le => cmp .le (V2.splat n) v
  | .ge => cmp .ge (V2.splat n) v
  | .eq => cmp .eq (V2.splat n) v
  | .ne => cmp .ne (V2.splat n) v
end Float2

namespace Float3
/-- `a op v`, the four operators with a vector. Models /repo/include/math/vector/float.hpp:266-269. -/
def bin : FOp → V3 F → V3 F → V3 F
  | .add, a, v => ⟨a.x +. v.x, a.y +. v.y, a.z +. v.z⟩
  | .sub, a, v => ⟨a.x -. v.x, a.y -. v.y, a.z -. v.z⟩
  | .mul, a, v => ⟨a.x *. v.x, a.y *. v.y, a.z *. v.z⟩
  | .div, a, v => ⟨a.x /. v.x, a.y /. v.y, a.z /. v.z⟩
/-- `a op n`, the four operators with a scalar on the right. Models /repo/include/math/vector/float.hpp:270-273. -/
def binS : FOp → V3 F → F → V3 F
  | .add, a, n => ⟨a.x +. n, a.y +. n, a.z +. n⟩
  | .sub, a, n => ⟨a.x -. n, a.y -. n, a.z -. n⟩
  | .mul, a, n => ⟨a.x *. n, a.y *. n, a.z *. n⟩
  | .div, a, n => ⟨a.x /. n, a.y /. n, a.z /. n⟩
/-- `a op= v`: the new value of `a`, with a vector. Models /repo/include/math/vector/float.hpp:275-278. -/
def asg : FOp → V3 F → V3 F → V3 F
  | .add, a, v => ⟨a.x +. v.x, a.y +. v.y, a.z +. v.z⟩
  | .sub, a, v => ⟨a.x -. v.x, a.y -. v.y, a.z -. v.z⟩
  | .mul, a, v => ⟨a.x *. v.x, a.y *. v.y, a.z *. v.z⟩
  | .div, a, v => ⟨a.x /. v.x, a.y /. v.y, a.z /. v.z⟩
/-- `a op= n`: the new value of `a`, with a scalar. Models /repo/include/math/vector/float.hpp:279-282. -/
def asgS : FOp → V3 F → F → V3 F
  | .add, a, n => ⟨a.x +. n, a.y +. n, a.z +. n⟩
  | .sub, a, n => ⟨a.x -. n, a.y -. n, a.z -. n⟩
  | .mul, a, n => ⟨a.x *. n, a.y *. n, a.z *. n⟩
  | .div, a, n => ⟨a.x /. n, a.y /. n, a.z /. n⟩
/-- `n op v`. Models /repo/include/math/vector/float.hpp:807-810. -/
def binL : FOp → F → V3 F → V3 F
  | .add, n, v => bin .add (V3.splat n) v
  | .sub, n, v => bin .sub (V3.splat n) v
  | .mul, n, v => bin .mul (V3.splat n) v
  | .div, n, v => bin .div (V3.splat n) v
/-- `-a`. Models /repo/include/math/vector/float.hpp:274. -/
def neg (a : V3 F) : V3 F := ⟨-. a.x, -. a.y, -. a.z⟩
/-- `a = n`. Models /repo/include/math/vector/float.hpp:283. -/
def set (_a : V3 F) (n : F) : V3 F := ⟨n, n, n⟩
/-- `a == v`. Models /repo/include/math/vector/float.hpp:284. -/
def eq (a v : V3 F) : Bool := (a.x ==. v.x) && (a.y ==. v.y) && (a.z ==. v.z)
/-- `a != v`. Models /repo/include/math/vector/float.hpp:285. -/
def ne (a v : V3 F) : Bool := !(a.x ==. v.x) || !(a.y ==. v.y) || !(a.z ==. v.z)
/-- The comparison operators and `equal`, `notEqual`. Models /repo/include/math/vector/float.hpp:286-301 and float.hpp:830-843. -/
def cmp : Cmp → V3 F → V3 F → V3 W
  | .lt, a, v => ⟨mask (Cmp.onF .lt a.x v.x), mask (Cmp.onF .lt a.y v.y), mask (Cmp.onF .lt a.z v.z)⟩
  | .gt, a, v => ⟨mask (Cmp.onF .gt a.x v.x), mask (Cmp.onF .gt a.y v.y), mask (Cmp.onF .gt a.z v.z)⟩
  | .le, a, v => ⟨mask (Cmp.onF .le a.x v.x), mask (Cmp.onF .le a.y v.y), mask (Cmp.onF .le a.z v.z)⟩
  | .ge, a, v => ⟨mask (Cmp.onF .ge a.x v.x), mask (Cmp.onF .ge a.y v.y), mask (Cmp.onF .ge a.z v.z)⟩
  | .eq, a, v => ⟨mask (Cmp.onF .eq a.x v.x), mask (Cmp.onF .eq a.y v.y), mask (Cmp.onF .eq a.z v.z)⟩
  | .ne, a, v => ⟨mask (Cmp.onF .ne a.x v.x), mask (Cmp.onF .ne a.y v.y), mask (Cmp.onF .ne a.z v.z)⟩
/-- `a == n`. Models /repo/include/math/vector/float.hpp:302. -/
def eqS (a : V3 F) (n : F) : Bool := eq a (V3.splat n)
/-- `a != n`. Models /repo/include/math/vector/float.hpp:303. -/
def neS (a : V3 F) (n : F) : Bool := ne a (V3.splat n)
/-- Comparison with a scalar on the right. Models /repo/include/math/vector/float.hpp:304-307. -/
def cmpS (c : Cmp) (a : V3 F) (n : F) : V3 W :=
  match c with
  | .lt => cmp .lt a (V3.splat n)
  | .gt => cmp .gt a (V3.splat n)
  | .le => cmp .le a (V3.splat n)
  | .ge => cmp .ge a (V3.splat n)
  | .eq => cmp .eq a (V3.splat n)
  | .ne => cmp .ne a (V3.splat n)
/-- `n == v`. Models /repo/include/math/vector/float.hpp:811. -/
def eqL (n : F) (v : V3 F) : Bool := eq (V3.splat n) v
/-- `n != v`. Models /repo/include/math/vector/float.hpp:812. -/
def neL (n : F) (v : V3 F) : Bool := ne (V3.splat n) v
/-- Comparison with a scalar on the left. Models /repo/include/math/vector/float.hpp:813-816. -/
def cmpL (c : Cmp) (n : F) (v : V3 F) : V3 W :=
  match c with
  | .lt => cmp .lt (V3.splat n) v
  | .gt => cmp .gt (V3.splat n) v
  | .le => cmp .le (V3.splat n) v
  | .ge => cmp .ge (V3.splat n) v
  | .eq => cmp .eq (V3.splat n) v
  | .ne => cmp .ne (V3.splat n) v
end Float3

namespace Float4
/-- `a op v`, the four operators with a vector. Models /repo/include/math/vector/float.hpp:479-482. -/
def bin : FOp → V4 F → V4 F → V4 F
  | .add, a, v => ⟨a.x +. v.x, a.y +. v.y, a.z +. v.z, a.w +. v.w⟩
  | .sub, a, v => ⟨a.x -. v.x, a.y -. v.y, a.z -. v.z, a.w -. v.w⟩
  | .mul, a, v => ⟨a.x *. v.x, a.y *. v.y, a.z *. v.z, a.w *. v.w⟩
  | .div, a, v => ⟨a.x /. v.x, a.y /. v.y, a.z /. v.z, a.w /. v.w⟩
/-- `a op n`, the four operators with a scalar on the right. Models /repo/include/math/vector/float.hpp:483-486. -/
def binS : FOp → V4 F → F → V4 F
  | .add, a, n => ⟨a.x +. n, a.y +. n, a.z +. n, a.w +. n⟩
  | .sub, a, n => ⟨a.x -. n, a.y -. n, a.z -. n, a.w -. n⟩
  | .mul, a, n => ⟨a.x *. n, a.y *. n, a.z *. n, a.w *. n⟩
  | .div, a, n => ⟨a.x /. n, a.y /. n, a.z /. n, a.w /. n⟩
/-- `a op= v`: the new value of `a`, with a vector. Models /repo/include/math/vector/float.hpp:488-491. -/
def asg : FOp → V4 F → V4 F → V4 F
  | .add, a, v => ⟨a.x +. v.x, a.y +. v.y, a.z +. v.z, a.w +. v.w⟩
  | .sub, a, v => ⟨a.x -. v.x, a.y -. v.y, a.z -. v.z, a.w -. v.w⟩
  | .mul, a, v => ⟨a.x *. v.x, a.y *. v.y, a.z *. v.z, a.w *. v.w⟩
  | .div, a, v => ⟨a.x /. v.x, a.y /. v.y, a.z /. v.z, a.w /. v.w⟩
/-- `a op= n`: the new value of `a`, with a scalar. Models /repo/include/math/vector/float.hpp:492-495. -/
def asgS : FOp → V4 F → F → V4 F
  | .add, a, n => ⟨a.x +. n, a.y +. n, a.z +. n, a.w +. n⟩
  | .sub, a, n => ⟨a.x -. n, a.y -. n, a.z -. n, a.w -. n⟩
  | .mul, a, n => ⟨a.x *. n, a.y *. n, a.z *. n, a.w *. n⟩
  | .div, a, n => ⟨a.x /. n, a.y /. n, a.z /. n, a.w /. n⟩
/-- `n op v`. Models /repo/include/math/vector/float.hpp:1094-1097. -/
def binL : FOp → F → V4 F → V4 F
  | .add, n, v => bin .add (V4.splat n) v
  | .sub, n, v => bin .sub (V4.splat n) v
  | .mul, n, v => bin .mul (V4.splat n) v
  | .div, n, v => bin .div (V4.splat n) v
/-- `-a`. Models /repo/include/math/vector/float.hpp:487. -/
def neg (a : V4 F) : V4 F := ⟨-. a.x, -. a.y, -. a.z, -. a.w⟩
/-- `a = n`. Models /repo/include/math/vector/float.hpp:496. -/
def set (_a : V4 F) (n : F) : V4 F := ⟨n, n, n, n⟩
/-- `a == v`. Models /repo/include/math/vector/float.hpp:497. -/
def eq (a v : V4 F) : Bool := (a.x ==. v.x) && (a.y ==. v.y) && (a.z ==. v.z) && (a.w ==. v.w)
/-- `a != v`. Models /repo/include/math/vector/float.hpp:498. -/
def ne (a v : V4 F) : Bool := !(a.x ==. v.x) || !(a.y ==. v.y) || !(a.z ==. v.z) || !(a.w ==. v.w)
/-- The comparison operators and `equal`, `notEqual`. Models /repo/include/math/vector/float.hpp:499-518 and float.hpp:1120-1135. -/
def cmp : Cmp → V4 F → V4 F → V4 W
  | .lt, a, v => ⟨mask (Cmp.onF .lt a.x v.x), mask (Cmp.onF .lt a.y v.y), mask (Cmp.onF .lt a.z v.z), mask (Cmp.onF .lt a.w v.w)⟩
  | .gt, a, v => ⟨mask (Cmp.onF .gt a.x v.x), mask (Cmp.onF .gt a.y v.y), mask (Cmp.onF .gt a.z v.z), mask (Cmp.onF .gt a.w v.w)⟩
  | .le, a, v => ⟨mask (Cmp.onF .le a.x v.x), mask (Cmp.onF .le a.y v.y), mask (Cmp.onF .le a.z v.z), mask (Cmp.onF .le a.w v.w)⟩
  | .ge, a, v => ⟨mask (Cmp.onF .ge a.x v.x), mask (Cmp.onF .ge a.y v.y), mask (Cmp.onF .ge a.z v.z), mask (Cmp.onF .ge a.w v.w)⟩
  | .eq, a, v => ⟨mask (Cmp.onF .eq a.x v.x), mask (Cmp.onF .eq a.y v.y), mask (Cmp.onF .eq a.z v.z), mask (Cmp.onF .eq a.w v.w)⟩
  | .ne, a, v => ⟨mask (Cmp.onF .ne a.x v.x), mask (Cmp.onF .ne a.y v.y), mask (Cmp.onF .ne a.z v.z), mask (Cmp.onF .ne a.w v.w)⟩
/-- `a == n`. Models /repo/include/math/vector/float.hpp:519. -/
def eqS (a : V4 F) (n : F) : Bool := eq a (V4.splat n)
/-- `a != n`. Models /repo/include/math/vector/float.hpp:520. -/
def neS (a : V4 F) (n : F) : Bool := ne a (V4.splat n)
/-- Comparison with a scalar on the right. Models /repo/include/math/vector/float.hpp:521-524. -/
def cmpS (c : Cmp) (a : V4 F) (n : F) : V4 W :=
  match c with
  | .lt => cmp .lt a (V4.splat n)
  | .gt => cmp .gt a (V4.splat n)
  | .le => cmp .le a (V4.splat n)
  | .ge => cmp .ge a (V4.splat n)
  | .eq => cmp .eq a (V4.splat n)
  | .ne => cmp .ne a (V4.splat n)
/-- `n == v`. Models /repo/include/math/vector/float.hpp:1098. -/
def eqL (n : F) (v : V4 F) : Bool := eq (V4.splat n) v
/-- `n != v`. Models /repo/include/math/vector/float.hpp:1099. -/
def neL (n : F) (v : V4 F) : Bool := ne (V4.splat n) v
/-- Comparison with a scalar on the left. Models /repo/include/math/vector/float.hpp:1100-1103. -/
def cmpL (c : Cmp) (n : F) (v : V4 F) : V4 W :=
  match c with
  | .lt => cmp .lt (V4.splat n) v
  | .gt => cmp .gt (V4.splat n) v
  | .le => cmp .le (V4.splat n) v
  | .ge => cmp .ge (V4.splat n) v
  | .eq => cmp .eq (V4.splat n) v
  | .ne => cmp .ne (V4.splat n) v
end Float4

end

namespace F32x4
/-- `a op v` on `f32x4`: one instruction, or the scalar vector. Models /repo/include/math/simd/vector/float.hpp:435-474. -/
def bin (k : Isa) : FOp → V4 F32 → V4 F32 → V4 F32
  | .add, a, v => if k.hasSse || k.hasNeon then V4.map2 F32.fadd a v else Float4.bin .add a v
  | .sub, a, v => if k.hasSse || k.hasNeon then V4.map2 F32.fsub a v else Float4.bin .sub a v
  | .mul, a, v => if k.hasSse || k.hasNeon then V4.map2 F32.fmul a v else Float4.bin .mul a v
  | .div, a, v => if k.hasSse || k.hasNeon then V4.map2 F32.fdiv a v else Float4.bin .div a v
/-- `a op n`. Models /repo/include/math/simd/vector/float.hpp:485-495. -/
def binS (k : Isa) : FOp → V4 F32 → F32 → V4 F32
  | .add, a, n => bin k .add a (V4.splat n)
  | .sub, a, n => bin k .sub a (V4.splat n)
  | .mul, a, n => if k.hasNeon then a.map (F32.fmul · n) else bin k .mul a (V4.splat n)
  | .div, a, n => bin k .div a (V4.splat n)
/-- `n op v`; NEON multiplies `v` by `n`. Models /repo/include/math/simd/vector/float.hpp:601-611. -/
def binL (k : Isa) : FOp → F32 → V4 F32 → V4 F32
  | .add, n, v => bin k .add (V4.splat n) v
  | .sub, n, v => bin k .sub (V4.splat n) v
  | .mul, n, v => if k.hasNeon then v.map (F32.fmul · n) else bin k .mul (V4.splat n) v
  | .div, n, v => bin k .div (V4.splat n) v
/-- `a op= v`. Models /repo/include/math/simd/vector/float.hpp:497-500. -/
def asg (k : Isa) : FOp → V4 F32 → V4 F32 → V4 F32
  | .add, a, v => bin k .add a v
  | .sub, a, v => bin k .sub a v
  | .mul, a, v => bin k .mul a v
  | .div, a, v => bin k .div a v
/-- `a op= n`. Models /repo/include/math/simd/vector/float.hpp:501-504. -/
def asgS (k : Isa) : FOp → V4 F32 → F32 → V4 F32
  | .add, a, n => binS k .add a n
  | .sub, a, n => binS k .sub a n
  | .mul, a, n => binS k .mul a n
  | .div, a, n => binS k .div a n
/-- `a = n`. Models /repo/include/math/simd/vector/float.hpp:505. -/
def set (_a : V4 F32) (n : F32) : V4 F32 := V4.splat n
/-- `-a`: `xor` with the bits of `-0.0f`, or `vnegq_f32`. Models /repo/include/math/simd/vector/float.hpp:475-484. -/
def neg (k : Isa) (a : V4 F32) : V4 F32 :=
  if k.hasSse then a.map fun x => ⟨x.bits ^^^ (0x80000000 : BitVec 32)⟩
  else if k.hasNeon then a.map F32.fneg
  else Float4.neg a
/-- `a == v`. Models /repo/include/math/simd/vector/float.hpp:508-517. -/
def eq (k : Isa) (a v : V4 F32) : Bool :=
  let m := V4.map2 (fun x y => mask (F32.eqb x y)) a v
  if k.hasSse then Sse.getTrues m == 0b1111
  else if k.hasNeon then Intrin.vminv m == 0xFFFFFFFF#32
  else Float4.eq a v
/-- `a != v`. Models /repo/include/math/simd/vector/float.hpp:518-527. -/
def ne (k : Isa) (a v : V4 F32) : Bool :=
  let m := V4.map2 (fun x y => mask (F32.eqb x y)) a v
  if k.hasSse then Sse.getTrues m != 0b1111
  else if k.hasNeon then Intrin.vminv m == 0#32
  else Float4.ne a v
/-- Comparison operators and `equal`, `notEqual`: `_mm_cmplt_ps`, `_mm_cmpgt_ps`, `_mm_cmple_ps`, `_mm_cmpge_ps`,
`_mm_cmpeq_ps`, `_mm_cmpneq_ps` (true on NaN), and on NEON `vceqq_f32` inverted for `notEqual`.
Models /repo/include/math/simd/vector/float.hpp:528-567, 686-711. -/
def cmp (k : Isa) (c : Cmp) (a v : V4 F32) : V4 W :=
  if k.hasSse then V4.map2 (fun x y => mask (Cmp.onF c x y)) a v
  else if k.hasNeon then
    match c with
    | .ne => (V4.map2 (fun x y => mask (F32.eqb x y)) a v).map (~~~ ·)
    | c => V4.map2 (fun x y => mask (Cmp.onF c x y)) a v
  else Float4.cmp c a v
/-- Comparisons with a scalar on the right, and with a scalar on the left.
Models /repo/include/math/simd/vector/float.hpp:569-574, 612-617. -/
def eqS (k : Isa) (a : V4 F32) (n : F32) : Bool := eq k a (V4.splat n)
@[inherit_doc eqS] def neS (k : Isa) (a : V4 F32) (n : F32) : Bool := ne k a (V4.splat n)
@[inherit_doc eqS] def cmpS (k : Isa) (c : Cmp) (a : V4 F32) (n : F32) : V4 W := cmp k c a (V4.splat n)
@[inherit_doc eqS] def eqL (k : Isa) (n : F32) (v : V4 F32) : Bool := eq k (V4.splat n) v
@[inherit_doc eqS] def neL (k : Isa) (n : F32) (v : V4 F32) : Bool := ne k (V4.splat n) v
@[inherit_doc eqS] def cmpL (k : Isa) (c : Cmp) (n : F32) (v : V4 F32) : V4 W := cmp k c (V4.splat n) v
end F32x4

end Verif
