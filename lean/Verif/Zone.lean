import Verif.Align
/-!
# Model of the memory zone (`MemoryZone.c`, `MemoryZone.h`)

A zone is a chain of blocks of one size.  The model keeps the chain from the current block back to the first
one, which is the direction of the `prev` pointers.  The addresses of new blocks come from the
environment; a failed allocation is `none`.

Sizes are natural numbers: the block size is assumed to be below 2^63 (offsets are `ptrdiff_t`), so that none of the
sums of an offset and a size that is at most the block size wraps.  Addresses are aligned with the
64-bit `CC_ALIGN`.

The records of saved states are stored inside the zone itself; the model keeps their contents in a list
of its own and treats their memory as an ordinary allocation of 16 bytes.  Not modelled: threads, the destruction of
the zone.
-/
namespace Verif.Zone

open Verif.Align

/-- `CCMemoryZoneBlock` (`MemoryZone.h` 40-48).  `base` is the address of `data`.  Not part of the program: `id`, which
names the block. -/
structure Block where
  id : Nat
  base : Nat
  offset : Nat
deriving DecidableEq, Repr

/-- `CCMemoryZoneHeader` (`MemoryZone.h` 50-55): the current block and the ones before it, and the sizes recorded in
the saved states, the innermost one first.  Not part of the program: `next`, the name of the next new block. -/
structure Zone where
  blockSize : Nat
  blocks : List Block
  states : List Nat
  next : Nat
deriving DecidableEq, Repr

/-- `sizeof(CCMemoryZoneState)`. -/
def stateSize : Nat := 16

/-- `CCMemoryZoneCreate` (`MemoryZone.c` 79-102), when the allocation succeeds; `base` is the address of the
data of the first block. -/
def create (blockSize base : Nat) : Zone :=
  { blockSize := if blockSize < stateSize then stateSize else blockSize,
    blocks := [⟨0, base, 0⟩], states := [], next := 1 }

/-- Line 161: the innermost saved state counts the allocation. -/
def grow (size : Nat) : List Nat → List Nat
  | [] => []
  | s :: ss => (s + size) :: ss

/-- `CCMemoryZoneAllocate` (`MemoryZone.c` 129-164).  `env` is the address of the data of a new block should
one be needed, `none` if that allocation fails.  The outer `none` is a failed assertion; the result is the
block and the offset in it, or `none` for NULL. -/
def alloc (Z : Zone) (size : Nat) (env : Option Nat) : Option (Zone × Option (Nat × Nat)) :=
  if size = 0 ∨ Z.blockSize < size then none
  else match Z.blocks with
    | [] => none
    | b :: bs =>
      if Z.blockSize < b.offset + size then
        match env with
        | none => some (Z, none)
        | some base =>
          some ({ Z with blocks := ⟨Z.next, base, size⟩ :: b :: bs, states := grow size Z.states, next := Z.next + 1 }, some (Z.next, 0))
      else some ({ Z with blocks := { b with offset := b.offset + size } :: bs, states := grow size Z.states }, some (b.id, b.offset))

/-- `CC_ALIGN` of an address. -/
def alignUp (x a : Nat) : Nat := (align (BitVec.ofNat 64 x) (BitVec.ofNat 64 a)).toNat

/-- The padding `CCMemoryZoneAlignedAllocate` adds to the size (`MemoryZone.c` 117-122). -/
def padding (Z : Zone) (size alignment : Nat) : Nat :=
  match Z.blocks with
  | [] => 0
  | b :: _ =>
    let pad := alignUp (b.base + b.offset) alignment - (b.base + b.offset)
    if Z.blockSize - b.offset < size + pad then alignment else pad

/-- The address of a cell. -/
def addr (Z : Zone) (c : Nat × Nat) : Option Nat :=
  (Z.blocks.find? fun b => b.id == c.1).map fun b => b.base + c.2

/-- `CCMemoryZoneAlignedAllocate` (`MemoryZone.c` 111-127): the result is the cell the allocation starts at and the
returned address. -/
def allocAligned (Z : Zone) (size alignment : Nat) (env : Option Nat) : Option (Zone × Option ((Nat × Nat) × Nat)) :=
  if size = 0 ∨ ¬ size + alignment < 2 ^ 64 then none
  else match alloc Z (size + padding Z size alignment) env with
    | none => none
    | some (Z', none) => some (Z', none)
    | some (Z', some c) => (addr Z' c).map fun p => (Z', some (c, alignUp p alignment))

/-- The first loop of `CCMemoryZoneDeallocate` (`MemoryZone.c` 170-186), over the saved states. -/
def deallocStates : Nat → List Nat → List Nat
  | _, [] => []
  | n, s :: ss => if s < n then deallocStates (n - s) ss else (s - n) :: ss

/-- The second loop of `CCMemoryZoneDeallocate` (`MemoryZone.c` 192-218), over the blocks.  The first block of the
zone is its own predecessor (line 190) and is never freed. -/
def deallocBlocks : Nat → List Block → List Block
  | _, [] => []
  | n, [b] => if b.offset < n then [{ b with offset := 0 }] else [{ b with offset := b.offset - n }]
  | n, b :: c :: bs =>
    if b.offset < n then deallocBlocks (n - b.offset) (c :: bs) else { b with offset := b.offset - n } :: c :: bs

/-- `CCMemoryZoneDeallocate` (`MemoryZone.c` 166-221). -/
def dealloc (Z : Zone) (n : Nat) : Zone :=
  { Z with states := deallocStates n Z.states, blocks := deallocBlocks n Z.blocks }

/-- `CCMemoryZoneSave` (`MemoryZone.c` 223-235).  A failed allocation is written to: undefined. -/
def save (Z : Zone) (env : Option Nat) : Option (Zone × (Nat × Nat)) :=
  match alloc Z stateSize env with
  | some (Z', some c) => some ({ Z' with states := 0 :: Z'.states }, c)
  | _ => none

/-- `CCMemoryZoneRestore` (`MemoryZone.c` 237-243). -/
def restore (Z : Zone) : Zone :=
  match Z.states with
  | [] => Z
  | s :: _ => dealloc Z (s + stateSize)

/-- `CCMemoryZoneBlockGetPointer` (`MemoryZone.h` 236-267) on the chain from a block on: the block and the
offset in it, and the number of bytes readable there. -/
def getPointer : List Block → Nat → Option ((Nat × Nat) × Nat)
  | [], _ => none
  | b :: bs, k => if k < b.offset then some ((b.id, k), b.offset - k) else getPointer bs (k - b.offset)

/-- `CCMemoryZoneGetPointer` (`MemoryZone.h` 229-234): starts from the first block. -/
def zoneGetPointer (Z : Zone) (k : Nat) : Option ((Nat × Nat) × Nat) := getPointer Z.blocks.reverse k

/-- `CCMemoryZoneGetBlockForPointer` (`MemoryZone.h` 269-284): the block and the offset in it. -/
def blockForPointer : List Block → Nat → Option (Nat × Nat)
  | [], _ => none
  | b :: bs, p => if b.base ≤ p ∧ p < b.base + b.offset then some (b.id, p - b.base) else blockForPointer bs p

/-- The calls of a client. -/
inductive Op where
  | alloc (size : Nat) (env : Option Nat)
  | allocAligned (size alignment : Nat) (env : Option Nat)
  | dealloc (size : Nat)
  | save (env : Option Nat)
  | restore
deriving DecidableEq, Repr

/-- The results: where the memory starts, its length and the returned address. -/
inductive Res where
  | region (start : Nat × Nat) (len : Nat)
  | null
  | unit
deriving DecidableEq, Repr

/-- One call.  For an aligned allocation the region includes the padding (see `allocAligned` for the returned
address). -/
def step (Z : Zone) : Op → Option (Zone × Res)
  | .alloc n env => (alloc Z n env).map fun (Z', r) => (Z', match r with | some c => .region c n | none => .null)
  | .allocAligned n a env =>
    (allocAligned Z n a env).map fun (Z', r) => (Z', match r with | some (c, _) => .region c (n + padding Z n a) | none => .null)
  | .dealloc n => some (dealloc Z n, .unit)
  | .save env => (save Z env).map fun (Z', c) => (Z', .region c stateSize)
  | .restore => some (restore Z, .unit)

end Verif.Zone
