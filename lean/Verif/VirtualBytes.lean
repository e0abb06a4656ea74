import Verif.VirtualFile
/-!
# Model of the direct accesses to a virtual file

`FSVirtualFileRead`, `FSVirtualFileWrite`, `FSVirtualFileRemove` and `FSVirtualFileGetSize` (`CommonC/FileSystem_Private.h` 204-247), on the array model of C01-C03.  They are the accesses the private
header offers beside the handles of C64; they take no offset from a handle.

Simplifications: those of `Verif.VirtualFile`; the lock is left to the caller, as in the code.  `ok` is the allocator's answer to the requests of a call.
-/
namespace Verif.VirtualBytes
open Verif.Array (Arr Cell Fault Src)
open Verif.FileHandle (W)

/-- `FSVirtualFileRead` (FileSystem_Private.h 204-215): the bytes copied to `Data`; their number is `*Count` after the call. -/
def readBytes (a : Arr UInt8) (o n : Nat) : Except Fault (List (Cell UInt8)) :=
  if o < a.count then VirtualFile.fetch a o (min (a.count - o) n) else .ok []

/-- `FSVirtualFileWrite` (FileSystem_Private.h 217-235). -/
def writeBytes (a : Arr UInt8) (o : Nat) (d : List UInt8) (insert ok : Bool) : Except Fault (Arr UInt8) := do
  let (a, d) ← if o < a.count then do
      let chunk := min (a.count - o) d.length
      let (b, _) ← if insert then Array.insertN a o (.buf (d.take chunk)) ok else Array.replaceN a o (.buf (d.take chunk))
      pure (b, d.drop chunk)
    else pure (a, d)
  if d.length ≠ 0 then VirtualFile.append a (.buf d) ok else pure a

/-- `CCArrayRemoveElementsAtIndex` (Array.c 205-212), with the sums and differences taken modulo `2^64` (the model of C01 takes them for sums that do not wrap).  A `memmove` of nothing does nothing, wherever to. -/
def removeElements (a : Arr UInt8) (i n : Nat) : Except Fault (Arr UInt8) :=
  if (i + n + W - 1) % W < a.count then do
    let cells ← Array.deref a
    let m := (a.count + W - (i + n) % W) % W
    let cells ← if m = 0 then pure cells else Array.memmove cells i ((i + n) % W) m
    return { a with data := some cells, count := (a.count + W - n) % W }
  else .error .assertion

/-- `FSVirtualFileRemove` (FileSystem_Private.h 237-242): `Size - Offset` is taken modulo `2^64`. -/
def removeBytes (a : Arr UInt8) (o n : Nat) : Except Fault (Arr UInt8) := removeElements a o (min ((a.count + W - o) % W) n)

/-- `FSVirtualFileGetSize` (FileSystem_Private.h 244-247). -/
def size (a : Arr UInt8) : Nat := a.count

/-- A call, with the allocations it makes granted. -/
inductive Op where
  | read (o n : Nat)
  | write (o : Nat) (d : List UInt8) (insert : Bool)
  | remove (o n : Nat)

/-- One call; second component: the bytes it returns. -/
def step (a : Arr UInt8) : Op → Except Fault (Arr UInt8 × List (Cell UInt8))
  | .read o n => do let d ← readBytes a o n; return (a, d)
  | .write o d i => do let a ← writeBytes a o d i true; return (a, [])
  | .remove o n => do let a ← removeBytes a o n; return (a, [])

/-- A history of calls. -/
def run (a : Arr UInt8) : List Op → Except Fault (Arr UInt8 × List (List (Cell UInt8)))
  | [] => .ok (a, [])
  | op :: ops => do
    let (a, d) ← step a op
    let (a, ds) ← run a ops
    return (a, d :: ds)

end Verif.VirtualBytes
