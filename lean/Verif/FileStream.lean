import Verif.FileHandle
/-!
# Model of the file streams of the reflection

`CCReflectStreamFileRead` and `CCReflectStreamFileWrite` (`CommonC/ReflectStream.c` 32-50), on the file handles of `Verif.FileHandle`.

Simplifications:
* The message that is logged (38, 48) is not modelled.
* `failure.count` is a natural number, so it does not wrap.
* The simplifications of `Verif.FileHandle`, but `fwrite` may write less than it is asked to: the number of bytes it manages is given to the call.
-/
namespace Verif.FileStream

open Verif.FileHandle

/-- `CCReflectStreamFile` (ReflectStream.h:44-53): the handle, the result of the last call, and the failures counted. -/
structure FileStream where
  file : Handle
  result : Result
  failures : Nat
  deriving DecidableEq, Repr

/-- The branch on the result that both functions share (ReflectStream.c:34-36, 44-46). -/
def counted (s : FileStream) (r : Result) (h : Handle) : FileStream :=
  ⟨h, r, if r ≠ .success then s.failures + 1 else s.failures⟩

/-- `CCReflectStreamFileRead` (ReflectStream.c:32-40).  `old`: what the memory at `Data` holds before, `Size` bytes of it.  Second component: what it holds after. `FSHandleRead`
changes the variable `Size` to the number of bytes it has read, and nothing looks at it but the message. -/
def readStream (s : FileStream) (old : List Byte) : FileStream × List Byte :=
  let (r, d, h) := FileHandle.read s.file old.length true
  (counted s r h, d ++ old.drop d.length)

/-- `FSHandleWrite` overwriting (FileHandle.c:163-175, 226-229), with an `fwrite` that manages `k` of the bytes: what it returns is not looked at. -/
def writeSome (h : Handle) (d : List Byte) (k : Nat) : Result × Handle :=
  if h.mode = .read then (.failure, h)
  else
    let o := getOffset h
    finish { h with stream := fwrite h.stream (d.take k) } o d.length true

/-- `CCReflectStreamFileWrite` (ReflectStream.c:42-50), with an `fwrite` that manages `k` of the bytes.  `FSBehaviourUpdateOffset` alone means overwriting (FileHandle.h:55). -/
def writeStream (s : FileStream) (d : List Byte) (k : Nat) : FileStream :=
  let (r, h) := writeSome s.file d k
  counted s r h

/-- The writer of a sequence of blocks, all of them written in full. -/
def writeAll (s : FileStream) : List (List Byte) → FileStream
  | [] => s
  | d :: ds => writeAll (writeStream s d d.length) ds

/-- The reader of a sequence of blocks into the given pieces of memory. -/
def readAll (s : FileStream) : List (List Byte) → FileStream × List (List Byte)
  | [] => (s, [])
  | o :: os =>
    let (s, d) := readStream s o
    let (s, ds) := readAll s os
    (s, d :: ds)

end Verif.FileStream
