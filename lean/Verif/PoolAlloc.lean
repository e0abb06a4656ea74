import Verif.Align
/-!
# Model of the pool allocator: `PoolAllocator.c`, `PoolAllocator.h` and `Allocator.c` 414-462

The pool is one allocation holding a `CCPoolAllocatorInfo`, an array of `max` indexes and `max`
blocks.  Every block starts with a `CCPoolAllocatorHeader`: the reference back to the pool, the index
of the block, and the ordinary allocation header.

Sizes on the modelled (64-bit) target: `size_t` 8, `CCAllocatorHeader` 16, `CCPoolAllocatorRef` 16,
`CCPoolAllocatorHeader` 32, `CCPoolAllocatorInfo` 48.

Not modelled: threads (the code takes no lock), the contents of the blocks, and the reference count of
a block itself (that is `Verif.RefCount`): `free` is the last release of a block.
-/
namespace Verif.PoolAlloc

open Verif.Align

/-- Size of `CCPoolAllocatorInfo` (`PoolAllocator.h` 34-42). -/
def infoSize : BitVec 64 := 48

/-- Size of `CCPoolAllocatorHeader` (`PoolAllocator.h` 55-58). -/
def headerSize : BitVec 64 := 32

/-- `BlockSize` in `CCPoolAllocatorCreate` (`PoolAllocator.c` 31). -/
def blockSize (size alignment : BitVec 64) : BitVec 64 := align (size + headerSize) alignment

/-- The number of bytes `CCPoolAllocatorCreate` asks for (`PoolAllocator.c` 33). -/
def request (size alignment max : BitVec 64) : BitVec 64 :=
  infoSize + 8 * max + blockSize size alignment * max

/-- The address of the first block, for a pool allocated at `base` (`PoolAllocator.c` 40). -/
def firstBlock (base alignment max : BitVec 64) : BitVec 64 :=
  align (base + infoSize + 8 * max + headerSize) alignment - headerSize

/-- The address of the header of block `i` (`Allocator.c` 424, 435; `PoolAllocator.h` 141). -/
def blockAddr (base size alignment max i : BitVec 64) : BitVec 64 :=
  firstBlock base alignment max + blockSize size alignment * i

/-- The address a client gets for block `i`: `&Header->header` is returned to `CCMemoryAllocate`,
which steps over the allocation header (`Allocator.c` 428, 440, 538; `PoolAllocator.h` 145). -/
def dataAddr (base size alignment max i : BitVec 64) : BitVec 64 :=
  blockAddr base size alignment max i + headerSize

/-- The reference part of a block header (`PoolAllocator.h` 50-53).  `pool` says whether the pointer
to the pool is non-null. -/
structure Header where
  pool : Bool
  index : Nat
deriving DecidableEq, Repr

/-- A pool (`PoolAllocator.h` 34-42), its memory and its reference count (the `CCAllocatorHeader` of the
pool).  `none` in `indexes` or `headers` is memory that was never written. -/
structure Pool where
  blockSize : Nat
  count : Nat
  max : Nat
  availCount : Nat
  indexes : List (Option Nat)
  headers : List (Option Header)
  refs : Nat
deriving DecidableEq, Repr

/-- `CCPoolAllocatorCreate` (`PoolAllocator.c` 29-49), when the allocation succeeds. -/
def create (blockSize max : Nat) : Pool :=
  { blockSize, count := 0, max, availCount := 0, indexes := List.replicate max none,
    headers := List.replicate max none, refs := 1 }

/-- A pool that was given back to its own allocator.  Touching it is undefined. -/
def dead (P : Pool) : Bool := P.refs == 0

/-- `CCRetain(Pool)` (`Allocator.c` 594-612): the count is an `int32_t`; counting past its largest
value is a fault here (it wraps, and the next release asserts). -/
def retain (P : Pool) : Option Pool :=
  if dead P then none else if P.refs + 1 < 2 ^ 31 then some { P with refs := P.refs + 1 } else none

/-- `CCFree(Pool)` (`Allocator.c` 632-666): the count drops by one, and at zero the memory is gone. -/
def release (P : Pool) : Option Pool :=
  if dead P then none else some { P with refs := P.refs - 1 }

/-- Result of the calls that return a block. -/
inductive Res where
  | block (b : Nat)
  | null
  | unit
deriving DecidableEq, Repr

/-- `PoolAllocator` (`Allocator.c` 416-441) called from `CCMemoryAllocate` (509-552): `size` is the
size the client asked for, to which the allocation header is added first.  `none` is undefined
behaviour. -/
def alloc (P : Pool) (size : BitVec 64) : Option (Pool × Res) :=
  if dead P then none
  else if ¬ (size < size + 16) then some (P, .null)
  else if P.blockSize < (size + 16 + 16).toNat then some (P, .null)
  else if P.availCount ≠ 0 then
    match P.indexes[P.availCount - 1]? with
    | some (some i) =>
      match P.headers[i]? with
      | some (some h) => do
        let Q ← retain { P with availCount := P.availCount - 1 }
        some ({ Q with headers := Q.headers.set i (some { h with pool := true }) }, .block i)
      | _ => none
    | _ => none
  else if P.count = P.max then some (P, .null)
  else if P.count < P.headers.length then do
    let Q ← retain { P with count := P.count + 1 }
    some ({ Q with headers := Q.headers.set P.count (some { pool := true, index := P.count }) }, .block P.count)
  else none

/-- `PoolReallocator` (`Allocator.c` 443-450) called from `CCMemoryReallocate` (554-592). -/
def realloc (P : Pool) (b : Nat) (size : BitVec 64) : Option (Pool × Res) :=
  if dead P then none
  else if ¬ (size < size + 16) then some (P, .null)
  else match P.headers[b]? with
    | some (some h) =>
      if h.pool then (if P.blockSize < (size + 16 + 16).toNat then some (P, .null) else some (P, .block b))
      else none
    | _ => none

/-- `PoolDeallocator` (`Allocator.c` 452-462), the last release of block `b`. -/
def free (P : Pool) (b : Nat) : Option (Pool × Res) :=
  if dead P then none
  else match P.headers[b]? with
    | some (some h) =>
      if h.pool then
        if P.availCount < P.indexes.length then do
          let Q ← release { P with indexes := P.indexes.set P.availCount (some h.index),
                                   availCount := P.availCount + 1,
                                   headers := P.headers.set b (some { h with pool := false }) }
          some (Q, .unit)
        else none
      else none
    | _ => none

/-- `CCPoolAllocatorGetIndex` (`PoolAllocator.h` 124-131): the index stored in the header of block `b`;
the assertion makes a free block a fault. -/
def getIndex (P : Pool) (b : Nat) : Option Nat :=
  if dead P then none
  else match P.headers[b]? with
    | some (some h) => if h.pool then some h.index else none
    | _ => none

/-- `CCPoolAllocatorGetMemory` (`PoolAllocator.h` 133-146): the block at an index, with its
assertions. -/
def getMemory (P : Pool) (i : Nat) : Option Nat :=
  if dead P then none
  else if i < P.max then
    match P.headers[i]? with
    | some (some h) => if h.pool then some i else none
    | _ => none
  else none

/-- The calls a client makes. -/
inductive Op where
  | alloc (size : BitVec 64)
  | realloc (b : Nat) (size : BitVec 64)
  | free (b : Nat)
  | retain
  | destroy
deriving DecidableEq, Repr

/-- One call.  `destroy` is `CCPoolAllocatorDestroy` (`PoolAllocator.c` 51-56). -/
def step (P : Pool) : Op → Option (Pool × Res)
  | .alloc s => alloc P s
  | .realloc b s => realloc P b s
  | .free b => free P b
  | .retain => (retain P).map fun Q => (Q, .unit)
  | .destroy => (release P).map fun Q => (Q, .unit)

end Verif.PoolAlloc
