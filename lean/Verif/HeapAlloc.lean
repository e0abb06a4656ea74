import Verif.Zone
/-!
# Model of the aligned and the bounds checking allocator (`Allocator.c` 121-229)

Both put a header in front of the memory they hand out, inside a block of `malloc`.  They touch no other block than that, so
the model has one block: its address and its bytes.  `malloc` and `realloc` are the C library's: the environment chooses
the address, the new bytes and whether they fail; `realloc` keeps the common prefix.

The outer `none` is undefined behaviour (an access outside the block, `realloc` or `free` of anything but its address) or
a failed assertion.  `size_t` sums wrap modulo 2^64.  The pointers handed out here are those of
`CCMemoryAllocate` before it adds its own 16 byte header (`CCAllocatorHeader`, `Allocator.h` 84-93), and sizes include that header.
-/
namespace Verif.HeapAlloc

open Verif.Zone (alignUp)

/-- A block of `malloc`. -/
structure Blk where
  addr : Nat
  bytes : List UInt8
  deriving DecidableEq, Repr

/-- The bytes from address `a` on. -/
def Blk.read (B : Blk) (a n : Nat) : Option (List UInt8) :=
  if B.addr ≤ a ∧ a + n ≤ B.addr + B.bytes.length then some ((B.bytes.drop (a - B.addr)).take n) else none

/-- Storing bytes at address `a`. -/
def Blk.write (B : Blk) (a : Nat) (l : List UInt8) : Option Blk :=
  if B.addr ≤ a ∧ a + l.length ≤ B.addr + B.bytes.length then
    some { B with bytes := B.bytes.take (a - B.addr) ++ l ++ B.bytes.drop (a - B.addr + l.length) }
  else none

/-- What the environment decides about an allocation: an address and whatever bytes are there. -/
abbrev Env := Option (Nat × List UInt8)

/-- The bytes a new block of size `n` starts with. -/
def fit (n : Nat) (fill : List UInt8) : List UInt8 := (fill ++ List.replicate n 0).take n

/-- `malloc`. -/
def malloc (n : Nat) : Env → Option Blk
  | none => none
  | some (a, fill) => some ⟨a, fit n fill⟩

/-- `realloc`: the outer `none` when the pointer is not the address of the block. -/
def realloc (B : Blk) (p n : Nat) (env : Env) : Option (Option Blk) :=
  if p = B.addr then
    match env with
    | none => some none
    | some (a, fill) => some (some ⟨a, B.bytes.take n ++ fit (n - B.bytes.length) fill⟩)
  else none

/-- A `size_t` or a pointer in memory, least significant byte first. -/
def le8 (n : Nat) : List UInt8 := (List.range 8).map fun i => UInt8.ofNat (n / 256 ^ i % 256)

/-- Reading it back. -/
def ofLe8 : List UInt8 → Nat
  | [] => 0
  | b :: bs => b.toNat + 256 * ofLe8 bs

/-! ## The aligned allocator -/

/-- `CC_ALIGN(Head + sizeof(CCAlignedMemoryHeader) + sizeof(CCAllocatorHeader), Alignment) - sizeof(CCAllocatorHeader)`
(`Allocator.c` 132, 149). -/
def alignedPtr (head alignment : Nat) : Nat := alignUp (head + 16 + 16) alignment - 16

/-- The size `Size + Alignment + sizeof(CCAlignedMemoryHeader)` of the block (`Allocator.c` 129, 145). -/
def alignedTotal (size alignment : Nat) : Nat := (size + alignment + 16) % 2 ^ 64

/-- `AlignedAllocator` (`Allocator.c` 127-139). -/
def alignedAlloc (alignment size : Nat) (env : Env) : Option (Option (Blk × Nat)) :=
  match malloc (alignedTotal size alignment) env with
  | none => some none
  | some B =>
    let ptr := alignedPtr B.addr alignment
    (B.write (ptr - 16) (le8 B.addr ++ le8 alignment)).map fun B => some (B, ptr)

/-- `AlignedReallocator` (`Allocator.c` 141-162). -/
def alignedRealloc (B : Blk) (ptr size : Nat) (env : Env) : Option (Option (Blk × Nat)) := do
  let header ← B.read (ptr - 16) 16
  let head := ofLe8 (header.take 8)
  let alignment := ofLe8 (header.drop 8)
  let r ← realloc B head (alignedTotal size alignment) env
  match r with
  | none => some none
  | some B =>
    if B.addr ≠ head then do
      let ptr := alignedPtr B.addr alignment
      let src := alignedPtr head alignment - head + B.addr
      let data ← B.read src size
      let B ← B.write ptr data
      let B ← B.write (ptr - 16) (le8 B.addr ++ le8 alignment)
      some (some (B, ptr))
    else some (some (B, ptr))

/-- `AlignedDeallocator` (`Allocator.c` 164-167): the pointer given to `free`. -/
def alignedFree (B : Blk) (ptr : Nat) : Option Nat := do
  let header ← B.read (ptr - 16) 16
  some (ofLe8 (header.take 8))

/-! ## The bounds checking allocator -/

/-- The eight guard bytes. -/
def guard8 : List UInt8 := [0, 1, 2, 3, 4, 5, 6, 7]

/-- The size `Size + 16 + sizeof(size_t)` of the block (`Allocator.c` 173, 200). -/
def boundsTotal (size : Nat) : Nat := (size + 16 + 8) % 2 ^ 64

/-- The loop that writes the guards, and the size (`Allocator.c` 176-184, 203-211). -/
def boundsMark (B : Blk) (size : Nat) : Option (Blk × Nat) := do
  let B ← B.write (B.addr + 8) guard8
  let B ← B.write (B.addr + 8 + 8 + size) guard8
  let B ← B.write B.addr (le8 size)
  some (B, B.addr + 8 + 8)

/-- `BoundsCheckAllocator` (`Allocator.c` 171-188). -/
def boundsAlloc (size : Nat) (env : Env) : Option (Option (Blk × Nat)) :=
  match malloc (boundsTotal size) env with
  | none => some none
  | some B => (boundsMark B size).map some

/-- The loop that compares the guards (`Allocator.c` 194-198, 221-225): `none` when an assertion fails. -/
def boundsCheck (B : Blk) (ptr : Nat) : Option Unit := do
  let p := ptr - (8 + 8)
  let size := ofLe8 (← B.read p 8)
  let g ← B.read (p + 8) 8
  let g' ← B.read (p + 8 + 8 + size) 8
  if g = guard8 ∧ g' = guard8 then some () else none

/-- `BoundsCheckReallocator` (`Allocator.c` 190-215). -/
def boundsRealloc (B : Blk) (ptr size : Nat) (env : Env) : Option (Option (Blk × Nat)) := do
  let _ ← boundsCheck B ptr
  let r ← realloc B (ptr - (8 + 8)) (boundsTotal size) env
  match r with
  | none => some none
  | some B => (boundsMark B size).map some

/-- `BoundsCheckDeallocator` (`Allocator.c` 217-229): the pointer given to `free`. -/
def boundsFree (B : Blk) (ptr : Nat) : Option Nat := do
  let _ ← boundsCheck B ptr
  some (ptr - (8 + 8))

/-! ## Histories -/

/-- A client of an allocator: it writes to its memory and reallocates it. -/
inductive Op where
  | write (offset : Nat) (bytes : List UInt8)
  | realloc (size : Nat) (env : Env)
  deriving Repr

/-- One call, on a block, the pointer into it and the size the client asked for. -/
def step (re : Blk → Nat → Nat → Env → Option (Option (Blk × Nat))) (s : Blk × Nat × Nat) : Op → Option (Blk × Nat × Nat)
  | .write o l => (s.1.write (s.2.1 + o) l).map fun B => (B, s.2)
  | .realloc n env =>
    match re s.1 s.2.1 n env with
    | none => none
    | some none => some s
    | some (some (B, p)) => some (B, p, n)

/-- A history. -/
def run (re : Blk → Nat → Nat → Env → Option (Option (Blk × Nat))) (s : Blk × Nat × Nat) : List Op → Option (Blk × Nat × Nat)
  | [] => some s
  | op :: ops => (step re s op).bind fun s => run re s ops

end Verif.HeapAlloc
