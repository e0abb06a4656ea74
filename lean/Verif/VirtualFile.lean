import Verif.Array
import Verif.FileHandle
import Verif.FileHandleSpec
/-!
# Model of virtual file handles (`FileHandle.c` 362-581, reached through `SystemPath.m` 568-816)

A virtual file is a `CCArray` of bytes (the model of C01-C03), shared by its handles; the lock is the subject of C65 and left out here.  A failing assertion and an access outside the memory of the array are the
faults of the array model.  `size_t` arithmetic wraps at 2^64.  `ok` is the allocator's answer to the (at most three) requests of a call.
-/
namespace Verif.VirtualFile
open Verif.Array (Arr Cell Fault Src)
open Verif.FileHandle (Mode Result W)

/-- `FSVirtualFile` (FileSystem_Private.h 47-50) and the handles open on it: `FSHandleInfo.type` and `FSVirtualFileHandle.offset` (FileSystem_Private.h 68-71). -/
structure Sys where
  file : Arr UInt8
  mode : Nat → Mode
  off : Nat → Nat

/-- `FSVirtualFileCreate` (FileSystem_Private.h 157-177), with the handles opened on it (FileHandle.c 367-417). -/
def create (ok : Bool) (mode : Nat → Mode) : Except Fault Sys := do
  let a ← Array.create UInt8 128 ok
  return ⟨a, mode, fun _ => 0⟩

/-- `FSHandleVirtualSetOffset` (FileHandle.c 574-581). -/
def setOffset (y : Sys) (h o : Nat) : Sys := { y with off := fun k => if k = h then o else y.off k }

/-- The end of the calls (471-474, 532-535, 558-561). -/
def finish (y : Sys) (h o n : Nat) (upd : Bool) : Sys := setOffset y h (if upd then (o + n) % W else o)

/-- `memset(CCArrayGetData(Contents) + i, 0, n)` (496, 522). -/
def memset (a : Arr UInt8) (i n : Nat) : Except Fault (Arr UInt8) :=
  if n = 0 then .ok a
  else do
    let cells ← Array.deref a
    let cells ← Array.write cells i (List.replicate n (some 0))
    return { a with data := some cells }

/-- `memcpy(Data, CCArrayGetData(Contents) + i, n)` (462). -/
def fetch (a : Arr UInt8) (i n : Nat) : Except Fault (List (Cell UInt8)) := do
  let cells ← Array.deref a
  if i + n ≤ cells.length then return (cells.drop i).take n else .error .outOfBounds

/-- What is there of `n` bytes at `o` (FileHandle.c 455-467). -/
def look (a : Arr UInt8) (o n : Nat) : Except Fault (List (Cell UInt8)) := if o < a.count then fetch a o (min (a.count - o) n) else .ok []

/-- `FSHandleVirtualRead` (FileHandle.c 441-475). -/
def read (y : Sys) (h n : Nat) (upd : Bool) : Except Fault (Result × List (Cell UInt8) × Sys) :=
  if y.mode h = .write then .ok (.failure, [], y)
  else if n = 0 then .ok (.success, [], y)
  else do
    let d ← look y.file (y.off h) n
    return (.success, d, finish y h (y.off h) d.length upd)

/-- `CCArrayAppendElements(a, src)`, the result of which the calls ignore. -/
def append (a : Arr UInt8) (src : Src UInt8) (ok : Bool) : Except Fault (Arr UInt8) := do
  let (a, _) ← Array.appendN a src ok
  return a

/-- Room for `n` bytes at `o`, the space behind the file zeroed (FileHandle.c 494-496 and 520-522). -/
def extend (a : Arr UInt8) (o n : Nat) (ok : Bool) : Except Fault (Arr UInt8) := do
  let b ← append a (.null ((o - a.count + n) % W)) ok
  memset b a.count (o - a.count)

/-- `FSHandleVirtualWrite`, overwriting: room for the data (FileHandle.c 489-502). -/
def room (a : Arr UInt8) (o n : Nat) (ok : Bool) : Except Fault (Arr UInt8) :=
  if o ≥ a.count then extend a o n ok
  else if (o + n) % W ≥ a.count then append a (.null ((o + n) % W - a.count)) ok
  else .ok a

/-- `FSHandleVirtualWrite`, overwriting (FileHandle.c 477-507, 532-535). -/
def overwrite (y : Sys) (h : Nat) (d : List UInt8) (ok : Bool) (upd : Bool) : Except Fault (Result × Sys) :=
  if y.mode h = .read then .ok (.failure, y)
  else if d.length = 0 then .ok (.success, y)
  else do
    let a ← room y.file (y.off h) d.length ok
    let (a, _) ← Array.replaceN a (y.off h) (.buf d)
    return (.success, finish { y with file := a } h (y.off h) d.length upd)

/-- `FSHandleVirtualWrite`, inserting: what happens past the end (FileHandle.c 518-525). -/
def insertRoom (a : Arr UInt8) (o : Nat) (d : List UInt8) (ok1 ok2 : Bool) : Except Fault (Arr UInt8) :=
  if o ≥ a.count then do
    let a ← extend a o d.length ok1
    append a (.buf d) ok2
  else .ok a

/-- `FSHandleVirtualWrite`, inserting (FileHandle.c 477-481, 509-535). -/
def insert (y : Sys) (h : Nat) (d : List UInt8) (ok1 ok2 ok3 : Bool) (upd : Bool) : Except Fault (Result × Sys) :=
  if y.mode h = .read then .ok (.failure, y)
  else if d.length = 0 then .ok (.success, y)
  else if y.mode h ≠ .update then .ok (.failure, y)
  else do
    let a ← insertRoom y.file (y.off h) d ok1 ok2
    let (a, _) ← Array.insertN a (y.off h) (.buf d) ok3
    return (.success, finish { y with file := a } h (y.off h) d.length upd)

/-- `FSHandleVirtualRemove`: removal of what is there of `n` bytes at `o` (FileHandle.c 546-554). -/
def cut (a : Arr UInt8) (o n : Nat) : Except Fault (Arr UInt8) :=
  if o < a.count then do
    let (a, _) ← Array.removeN a o (min (a.count - o) n)
    return a
  else .ok a

/-- `FSHandleVirtualRemove` (FileHandle.c 538-562). -/
def remove (y : Sys) (h n : Nat) (upd : Bool) : Except Fault (Result × Sys) :=
  if y.mode h ≠ .update then .ok (.failure, y)
  else do
    let a ← cut y.file (y.off h) n
    return (.success, finish { y with file := a } h (y.off h) n upd)

/-- The `FromOffset` calls (SystemPath.m 599-619, 688-703, 759-773): move the offset, call, and move it back if it succeeded and the offset is to be preserved. -/
def fromOffset (y : Sys) (h : Nat) (at' : Option Nat) (upd : Bool) (f : Sys → Except Fault (Result × List (Cell UInt8) × Sys)) : Except Fault (Result × List (Cell UInt8) × Sys) :=
  match at' with
  | none => f y
  | some o => do
    let old := y.off h
    let (r, d, y) ← f (setOffset y h o)
    return (r, d, if r = .success ∧ upd = false then setOffset y h old else y)

/-- A call on handle `h`; `ok` says for each of the requests for memory whether it is granted. -/
def step (y : Sys) (h : Nat) (ok : Nat → Bool) : FileHandle.Spec.Op → Except Fault (Result × List (Cell UInt8) × Sys)
  | .read at' n upd => fromOffset y h at' upd fun y => read y h n upd
  | .overwrite at' d upd => fromOffset y h at' upd fun y => do
    let (r, y) ← overwrite y h d (ok 0) upd
    return (r, [], y)
  | .insert at' d upd => fromOffset y h at' upd fun y => do
    let (r, y) ← insert y h d (ok 0) (ok 1) (ok 2) upd
    return (r, [], y)
  | .remove at' n upd => fromOffset y h at' upd fun y => do
    let (r, y) ← remove y h n upd
    return (r, [], y)
  | .seek o => .ok (.success, [], setOffset y h o)

/-- A history of calls on the handles, every request for memory granted. -/
def run (y : Sys) : List (Nat × FileHandle.Spec.Op) → Except Fault (List (Result × List (Cell UInt8)) × Sys)
  | [] => .ok ([], y)
  | (h, op) :: ops => do
    let (r, d, y) ← step y h (fun _ => true) op
    let (rs, y) ← run y ops
    return ((r, d) :: rs, y)

end Verif.VirtualFile
