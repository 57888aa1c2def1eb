import Mathlib.Init

/-!
# Model of `include/math/packed-vector.hpp`

`PackedVector<Bits>` derives from `std::vector<uint8>` and caches a pointer to the vector's data. The first
part models the element accesses on the bytes the pointer refers to; the second part models objects, the
cached pointer and the heap. Indices (`psize`) are natural numbers: the code only divides them.
-/

namespace Verif.Packed

/-- The supported template arguments, /repo/include/math/packed-vector.hpp:35-36. -/
inductive Bits where
  | one
  | two
  | four
deriving DecidableEq, Repr

/-- The number of bits per element. -/
def Bits.num : Bits → Nat
  | .one => 1
  | .two => 2
  | .four => 4

/-- The bytes of the storage. -/
abbrev Bytes := List (BitVec 8)

/-- Integer promotion of a byte to `int`. -/
def toInt (b : BitVec 8) : BitVec 32 := b.setWidth 32
/-- Conversion of an `int` to `uint8`. -/
def toByte (b : BitVec 32) : BitVec 8 := b.setWidth 8

/-- /repo/include/math/packed-vector.hpp:47,51,55: which byte `ptr[...]` holds element `i`. -/
def byteIndex : Bits → Nat → Nat
  | .one, i => i / 8
  | .two, i => i / 4
  | .four, i => i / 2

/-- /repo/include/math/packed-vector.hpp:47,51,55: the shift count of element `i` (converted to `uint8`). -/
def shift : Bits → Nat → Nat
  | .one, i => (i % 8) % 256
  | .two, i => ((i % 4) * 2) % 256
  | .four, i => ((i % 2) * 4) % 256

/-- /repo/include/math/packed-vector.hpp:47,51,55: the element mask. -/
def mask : Bits → BitVec 8
  | .one => 0x01
  | .two => 0x03
  | .four => 0x0F

/-- /repo/include/math/packed-vector.hpp:43-58: `unsafeGet`. `none`: the access is outside the storage. -/
def unsafeGet (k : Bits) (s : Bytes) (i : Nat) : Option (BitVec 8) :=
  match s[byteIndex k i]? with
  | none => none
  | some byte => some (toByte ((toInt byte >>> shift k i) &&& toInt (mask k)))

/-- /repo/include/math/packed-vector.hpp:75,80,85: the new byte. -/
def putByte (k : Bits) (byte : BitVec 8) (sh : Nat) (value : BitVec 8) : BitVec 8 :=
  toByte ((toInt byte &&& ~~~(toInt (mask k) <<< sh)) ||| ((toInt value &&& toInt (mask k)) <<< sh))

/-- /repo/include/math/packed-vector.hpp:70-87: `unsafeSet`. `none`: the access is outside the storage. -/
def unsafeSet (k : Bits) (s : Bytes) (i : Nat) (value : BitVec 8) : Option Bytes :=
  match s[byteIndex k i]? with
  | none => none
  | some byte => some (s.set (byteIndex k i) (putByte k byte (shift k i) value))

/-- Result of a checked access in a build with assertions enabled. -/
inductive Checked (α : Type) where
  | ok (a : α)
  | assertFailed
  | undefined
deriving DecidableEq, Repr

/-- /repo/include/math/packed-vector.hpp:61-66,90-95: the asserted condition. -/
def assertion (k : Bits) (s : Bytes) (i : Nat) : Bool :=
  match k with
  | .one => i / 8 < s.length
  | .two => i / 4 < s.length
  | .four => i / 8 < s.length

/-- /repo/include/math/packed-vector.hpp:59-68: `get`. -/
def get (k : Bits) (s : Bytes) (i : Nat) : Checked (BitVec 8) :=
  if assertion k s i then
    match unsafeGet k s i with
    | some v => .ok v
    | none => .undefined
  else .assertFailed

/-- /repo/include/math/packed-vector.hpp:88-97: `set`. The function is declared to return `uint8` and
returns the result of a `void` function, so instantiating it does not compile; the model is the effect of
its body. -/
def set (k : Bits) (s : Bytes) (i : Nat) (value : BitVec 8) : Checked Bytes :=
  if assertion k s i then
    match unsafeSet k s i value with
    | some t => .ok t
    | none => .undefined
  else .assertFailed

/-- /repo/include/math/packed-vector.hpp:102,104,106: the number of bytes for `elementCount` elements. -/
def byteCount : Bits → Nat → Nat
  | .one, n => n / 8 + (if n % 8 ≠ 0 then 1 else 0)
  | .two, n => n / 4 + (if n % 4 ≠ 0 then 1 else 0)
  | .four, n => n / 2 + (if n % 2 ≠ 0 then 1 else 0)

/-- `std::vector<uint8>::resize(n)`: truncate, or append zero bytes. -/
def resizeBytes (s : Bytes) (n : Nat) : Bytes := s.take n ++ List.replicate (n - s.length) 0

/-- /repo/include/math/packed-vector.hpp:99-108: `resize`, on the bytes. -/
def resize (k : Bits) (s : Bytes) (elementCount : Nat) : Bytes := resizeBytes s (byteCount k elementCount)

/-- /repo/include/math/packed-vector.hpp:38-41: `PackedVector(elementCount)`, on the bytes. -/
def new (k : Bits) (elementCount : Nat) : Bytes := resize k [] elementCount

/-! ### Objects and the cached pointer -/

/-- Heap: each allocated block holds bytes; a freed or never allocated block is `none`. -/
structure Heap where
  blocks : List (Option Bytes)
deriving DecidableEq

/-- A `PackedVector` object: the block owned by the `std::vector` base and the cached `ptr`
(/repo/include/math/packed-vector.hpp:28-31). `none` is the null pointer of an empty vector. -/
structure Obj where
  block : Option Nat
  ptr : Option Nat
deriving DecidableEq

/-- The bytes of a block. -/
def Heap.read (h : Heap) : Option Nat → Option Bytes
  | none => none
  | some b => match h.blocks[b]? with
    | some (some s) => some s
    | _ => none

/-- Allocate a block. -/
def Heap.alloc (h : Heap) (s : Bytes) : Heap × Nat := (⟨h.blocks ++ [some s]⟩, h.blocks.length)
/-- Overwrite a block. -/
def Heap.write (h : Heap) (b : Nat) (s : Bytes) : Heap := ⟨h.blocks.set b (some s)⟩
/-- Free a block. -/
def Heap.free (h : Heap) : Option Nat → Heap
  | none => h
  | some b => ⟨h.blocks.set b none⟩

/-- /repo/include/math/packed-vector.hpp:99-108: `resize`. The vector may allocate a new block, in which
case the old one is freed; the model always does (the other case is reusing the block). `ptr = data()`. -/
def Obj.resize (k : Bits) (h : Heap) (o : Obj) (n : Nat) : Heap × Obj :=
  let old := (h.read o.block).getD []
  let (h', b) := h.alloc (Packed.resize k old n)
  (h'.free o.block, ⟨some b, some b⟩)

/-- /repo/include/math/packed-vector.hpp:38-41: construct with `n` elements. -/
def Obj.new (k : Bits) (h : Heap) (n : Nat) : Heap × Obj := Obj.resize k h ⟨none, none⟩ n

/-- The implicitly declared copy constructor (no user-declared one in
/repo/include/math/packed-vector.hpp:27-109): the vector base is copied into a new block, the member `ptr` is
copied as is. -/
def Obj.copy (h : Heap) (o : Obj) : Heap × Obj :=
  let (h', b) := h.alloc ((h.read o.block).getD [])
  (h', ⟨some b, o.ptr⟩)

/-- Destructor: the vector frees its block. -/
def Obj.destroy (h : Heap) (o : Obj) : Heap := h.free o.block

/-- `unsafeGet` through the cached pointer; `none`: null, dangling or out-of-range access. -/
def Obj.get (k : Bits) (h : Heap) (o : Obj) (i : Nat) : Option (BitVec 8) :=
  match h.read o.ptr with
  | some s => unsafeGet k s i
  | none => none

/-- `unsafeSet` through the cached pointer. -/
def Obj.set (k : Bits) (h : Heap) (o : Obj) (i : Nat) (v : BitVec 8) : Option Heap :=
  match o.ptr, h.read o.ptr with
  | some b, some s => match unsafeSet k s i v with
    | some t => some (h.write b t)
    | none => none
  | _, _ => none

end Verif.Packed
