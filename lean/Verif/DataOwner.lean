/-!
Who owns the memory of a data buffer: `CCDataBufferCreate`, its constructor, `CCDataSetSize` and `CCDataDestroy` (DataBuffer.c 74-118, 139-150, Data.c 35-81, 102-107), and `CCRandomGetState` and `CCRandomSetState` (Random.h 312-338) that use them.

Memory is a set of blocks.  Any allocation may fail: the outcomes are given.  A reallocation always moves the block; what is new in it is zero (in the program it is not set).  Using a block that is not there, or freeing one that did not come from the heap, is undefined; a failing assertion ends the program.  Offsets and sizes do not wrap.
The destructor and the hash function of the user are not called here.
-/

namespace Verif.DataOwner

/-- A block of memory: its bytes, and whether it came from the heap (`CCMalloc`, MemoryAllocation.c 33-50). -/
structure Block where
  bytes : List UInt8
  heap : Bool
deriving DecidableEq

/-- The memory, and the next block the heap gives out (MemoryAllocation.c 33-75). -/
structure Mem where
  block : Nat → Option Block
  next : Nat

/-- What ends a run: something undefined, or an assertion (Assertion.h). -/
inductive Stop where
  | undefined
  | asserted
deriving DecidableEq

/-- A function with one value replaced. -/
def upd {α : Type} (f : Nat → α) (i : Nat) (a : α) : Nat → α := fun j => if j = i then a else f j

/-- `CCMalloc` (MemoryAllocation.c 33-50) that succeeds, and what is then written to the block. -/
def alloc (m : Mem) (bytes : List UInt8) : Mem := ⟨upd m.block m.next (some ⟨bytes, true⟩), m.next + 1⟩

/-- `CCFree` (MemoryAllocation.c 72-75) of a block. -/
def free (m : Mem) (i : Nat) : Except Stop Mem :=
  match m.block i with
  | some ⟨_, true⟩ => .ok ⟨upd m.block i none, m.next⟩
  | _ => .error .undefined

/-- `CCRealloc` (MemoryAllocation.c 52-70) that succeeds: the new block is `m.next`. -/
def realloc (m : Mem) (i size : Nat) : Except Stop Mem :=
  match m.block i with
  | some ⟨bytes, true⟩ => .ok ⟨upd (upd m.block i none) m.next (some ⟨bytes.take size ++ List.replicate (size - bytes.length) 0, true⟩), m.next + 1⟩
  | _ => .error .undefined

/-- The two bits of `CCDataBufferHint` (DataBuffer.h 36-41): `CCDataBufferHintFree` is the first, `CCDataBufferHintCopy` both. -/
structure Hint where
  freeBit : Bool
  copyBit : Bool

/-- `CCDataInfo` and `CCDataBufferInternal` (DataBuffer.c 32-36): their blocks, the block of the buffer, its size and the hint. -/
structure Data where
  info : Nat
  internal : Nat
  buffer : Nat
  size : Nat
  hint : Hint

/-- `CCDataCreate` with `CCDataBufferConstructor` (Data.c 41-74, DataBuffer.c 74-108) for the block `input`; `ok1`, `ok2` and `ok3` say whether the allocations of the data (Data.c 45), the internal (DataBuffer.c 84) and the copy (90) succeed. -/
def create (m : Mem) (hint : Hint) (size input : Nat) (ok1 ok2 ok3 : Bool) : Except Stop (Mem × Option Data) :=
  if ok1 then
    let info := m.next
    let m := alloc m []
    if ok2 then
      let internal := m.next
      let m := alloc m []
      if hint.freeBit && hint.copyBit then
        if ok3 then
          match m.block input with
          | some b => if b.bytes.length < size then .error .undefined else .ok (alloc m (b.bytes.take size), some ⟨info, internal, m.next, size, hint⟩)
          | none => .error .undefined
        else do
          let m ← free m internal
          let m ← free m info
          .ok (m, none)
      else .ok (m, some ⟨info, internal, input, size, hint⟩)
    else do
      let m ← free m info
      .ok (m, none)
  else .ok (m, none)

/-- What is done with the data between: writing to it, and setting its size with the outcome of the reallocation. -/
inductive Op where
  | write (offset : Nat) (bytes : List UInt8)
  | resize (size : Nat) (ok : Bool)

/-- `CCDataWriteBuffer` (Data.c 214-221, DataBuffer.c 168-173) and `CCDataSetSize` (Data.c 102-107, DataBuffer.c 139-150).  A failed reallocation leaves the block as it is. -/
def step (m : Mem) (d : Data) : Op → Except Stop (Mem × Data)
  | .write offset bytes =>
    if offset + bytes.length ≤ d.size then
      match m.block d.buffer with
      | some b => if b.bytes.length < offset + bytes.length then .error .undefined
                  else .ok (⟨upd m.block d.buffer (some ⟨b.bytes.take offset ++ bytes ++ b.bytes.drop (offset + bytes.length), b.heap⟩), m.next⟩, d)
      | none => .error .undefined
    else .error .asserted
  | .resize size ok =>
    if ok then do
      let m' ← realloc m d.buffer size
      .ok (m', { d with buffer := m.next, size := size })
    else .ok (m, d)

/-- A run of them (Data.c 102-107, 214-221). -/
def run (m : Mem) (d : Data) : List Op → Except Stop (Mem × Data)
  | [] => .ok (m, d)
  | o :: os => do
    let (m, d) ← step m d o
    run m d os

/-- `CCDataDestroy` with `CCDataDestructor` and `CCDataBufferDestroy` (Data.c 35-39, 76-81, DataBuffer.c 110-118). -/
def destroy (m : Mem) (d : Data) : Except Stop Mem := do
  let m ← if d.hint.freeBit then free m d.buffer else .ok m
  let m ← free m d.internal
  free m d.info

/-- `CCRandomGetState` (Random.h 312-331) for the state with the bytes `state`; `ok` is the outcome of the allocation of the buffer (321-324), the others those of `create`. -/
def getState (m : Mem) (state : List UInt8) (ok ok1 ok2 : Bool) : Except Stop (Mem × Option Data) :=
  if ok then create (alloc m state) ⟨true, false⟩ state.length m.next ok1 ok2 false else .ok (m, none)

/-- `CCRandomSetState` (Random.h 333-338) with `CCDataReadBuffer` (Data.c 183-190, DataBuffer.c 161-166): the bytes of the state, of which there are `size`. -/
def setState (m : Mem) (d : Data) (size : Nat) : Except Stop (List UInt8) :=
  if size ≤ d.size then
    match m.block d.buffer with
    | some b => if b.bytes.length < size then .error .undefined else .ok (b.bytes.take size)
    | none => .error .undefined
  else .error .asserted

end Verif.DataOwner
