import Verif.Data
/-!
# Model of the memory access templates (`MemoryTemplate.h`, `DataMemoryTemplate.h`)

Memory is a list of cells as in `Verif.Data`; `none` of a result is a division by zero, a failed assertion, or an access outside of a block.
`size_t` arithmetic is modulo `2^64`. `vs` is `sizeof(*Buffer)`, which is positive for every type.
-/
namespace Verif.MemTemplate
open Verif.Data

/-- Number of values of `size_t`. -/
def word : Nat := 2 ^ 64

/-- Index into the buffer of `CCMemoryRead` and `CCMemoryWrite` (`MemoryTemplate.h` 54, 120). -/
def plainIx (vs loop : Nat) : Nat := loop % vs + loop / vs * vs

/-- Index into the buffer of `CCMemoryReadSwap` and `CCMemoryWriteSwap` (`MemoryTemplate.h` 69, 135). -/
def swapIx (vs loop : Nat) : Nat := vs - 1 - loop % vs + loop / vs * vs

/-- The loop of `CCMemoryRead` and `CCMemoryReadSwap` (`MemoryTemplate.h` 52-55, 67-70), `left` rounds to go. -/
def readLoop (ix : Nat → Nat) (mem : List Cell) (size off : Nat) : (left loop : Nat) → (buf : List Cell) → Option (List Cell)
  | 0, _, buf => some buf
  | left + 1, loop, buf =>
    if size = 0 then none
    else do
      let v ← mem[(off + loop) % word % size]?
      if ix loop < buf.length then readLoop ix mem size off left (loop + 1) (buf.set (ix loop) v) else none

/-- The loop of `CCMemoryWrite` and `CCMemoryWriteSwap` (`MemoryTemplate.h` 118-121, 133-136), `left` rounds to go. -/
def writeLoop (ix : Nat → Nat) (size off : Nat) (buf : List Cell) : (left loop : Nat) → (mem : List Cell) → Option (List Cell)
  | 0, _, mem => some mem
  | left + 1, loop, mem =>
    if size = 0 then none
    else do
      let v ← buf[ix loop]?
      if (off + loop) % word % size < mem.length then
        writeLoop ix size off buf left (loop + 1) (mem.set ((off + loop) % word % size) v)
      else none

/-- `CCMemoryRead` (`MemoryTemplate.h` 48-61): the buffer afterwards. -/
def read (vs : Nat) (mem : List Cell) (size off count : Nat) (buf : List Cell) : Option (List Cell) :=
  readLoop (plainIx vs) mem size off count 0 buf

/-- `CCMemoryReadSwap` (`MemoryTemplate.h` 63-76). -/
def readSwap (vs : Nat) (mem : List Cell) (size off count : Nat) (buf : List Cell) : Option (List Cell) :=
  readLoop (swapIx vs) mem size off count 0 buf

/-- `CCMemoryReadBig` (`MemoryTemplate.h` 78-94) on a machine that is big endian or not. -/
def readBig (big : Bool) (vs : Nat) (mem : List Cell) (size off count : Nat) (buf : List Cell) : Option (List Cell) :=
  if big then read vs mem size off count buf else readSwap vs mem size off count buf

/-- `CCMemoryReadLittle` (`MemoryTemplate.h` 96-112). -/
def readLittle (big : Bool) (vs : Nat) (mem : List Cell) (size off count : Nat) (buf : List Cell) : Option (List Cell) :=
  if !big then read vs mem size off count buf else readSwap vs mem size off count buf

/-- `CCMemoryWrite` (`MemoryTemplate.h` 114-127): the memory afterwards. -/
def write (vs : Nat) (mem : List Cell) (size off count : Nat) (buf : List Cell) : Option (List Cell) :=
  writeLoop (plainIx vs) size off buf count 0 mem

/-- `CCMemoryWriteSwap` (`MemoryTemplate.h` 129-142). -/
def writeSwap (vs : Nat) (mem : List Cell) (size off count : Nat) (buf : List Cell) : Option (List Cell) :=
  writeLoop (swapIx vs) size off buf count 0 mem

/-- `CCMemoryWriteBig` (`MemoryTemplate.h` 144-160). -/
def writeBig (big : Bool) (vs : Nat) (mem : List Cell) (size off count : Nat) (buf : List Cell) : Option (List Cell) :=
  if big then write vs mem size off count buf else writeSwap vs mem size off count buf

/-- `CCMemoryWriteLittle` (`MemoryTemplate.h` 162-178). -/
def writeLittle (big : Bool) (vs : Nat) (mem : List Cell) (size off count : Nat) (buf : List Cell) : Option (List Cell) :=
  if !big then write vs mem size off count buf else writeSwap vs mem size off count buf

/-! ## Data objects -/

variable {σ : Type}

/-- The map made by all the accesses to a data object (`DataMemoryTemplate.h` 97-98, 107-108, 117-118, 127-128 and 157-158, 167-168, 177-178,
187-188). -/
def dataMap (I : Interface σ) (d : Data σ) (size off count : Nat) (a : Access) : Option BufMap :=
  if size = 0 then none
  else if (off % size + count) % word ≥ size then mapBuffer I d 0 size a
  else mapBuffer I d (off % size) (size - off % size) a

/-- `CCMemoryRead`, `ReadSwap`, `ReadBig`, `ReadLittle` of a data object (`DataMemoryTemplate.h` 95-133): `rd` is the access of the same name
to the mapped memory. -/
def dataRead (rd : List Cell → (size off count : Nat) → List Cell → Option (List Cell)) (I : Interface σ) (d : Data σ) (size off count : Nat)
    (buf : List Cell) : Option (Data σ × List Cell) := do
  let m ← dataMap I d size off count .r
  let buf ← rd m.mem size ((off + (word - m.offset)) % word) count buf
  let d ← unmapBuffer I d m
  some (d, buf)

/-- `CCMemoryWrite`, `WriteSwap`, `WriteBig`, `WriteLittle` of a data object (`DataMemoryTemplate.h` 155-193). -/
def dataWrite (wr : List Cell → (size off count : Nat) → List Cell → Option (List Cell)) (I : Interface σ) (d : Data σ) (size off count : Nat)
    (buf : List Cell) : Option (Data σ) := do
  let m ← dataMap I d size off count .w
  let mem ← wr m.mem size ((off + (word - m.offset)) % word) count buf
  unmapBuffer I d { m with mem := mem }

end Verif.MemTemplate
