/-!
# Model of the file handles

The `CC_PLATFORM_UNIX` part of `CommonC/FileHandle.c` (47-358).

Simplifications:
* A `FILE*` is the bytes of the file and the position.  stdio buffers output, but every call below ends with an `fseek`, which writes the buffer out, so the buffer is
  empty whenever the file is looked at in another way (`stat`, `ftruncate`).  What stdio keeps of earlier input is not modelled.
* The path of the handle keeps naming the open file, and nobody else changes it; `fread`, `fwrite` and `ftruncate` do not fail.
* `Handle->handle` is not NULL (it is not after a successful `FSHandleOpen`).
* Sizes are natural numbers below `2^64`; sums and differences are taken modulo `2^64` where C does.
* Loops take a bound on the number of iterations; `none` means that the loop is still running then.
-/
namespace Verif.FileHandle

abbrev Byte := UInt8

/-- The number of values of a `size_t`. -/
abbrev W : Nat := 2 ^ 64

/-- A `FILE*`. -/
structure Stream where
  bytes : List Byte
  pos : Nat
  deriving DecidableEq, Repr

/-- `FSHandleType` (FileHandle.h:34-38). -/
inductive Mode where
  | read | write | update
  deriving DecidableEq, Repr

/-- `FSHandleInfo` (FileHandle.h:40-44). -/
structure Handle where
  mode : Mode
  stream : Stream
  deriving DecidableEq, Repr

/-- `FSOperation` (FileSystem.h:39-43). -/
inductive Result where
  | success | failure
  deriving DecidableEq, Repr

/-- The surroundings: `st_blksize` of the file, and whether the temporary buffers can be allocated. -/
structure Env where
  blk : Nat
  alloc : Bool

/-- The bytes of a file after writing `d` at `pos`: POSIX fills a gap with zeros; nothing happens if there is nothing to write. -/
def put (bytes : List Byte) (pos : Nat) (d : List Byte) : List Byte :=
  if d = [] then bytes else bytes.take pos ++ List.replicate (pos - bytes.length) 0 ++ d ++ bytes.drop (pos + d.length)

/-- `fread(Data, 1, n, s)`. -/
def fread (s : Stream) (n : Nat) : List Byte × Stream :=
  let d := (s.bytes.drop s.pos).take n
  (d, { s with pos := s.pos + d.length })

/-- `fwrite(Data, Count, 1, s)`. -/
def fwrite (s : Stream) (d : List Byte) : Stream := ⟨put s.bytes s.pos d, s.pos + d.length⟩

/-- `FSHandleSetOffset` (FileHandle.c:334-342): `fseek` takes a `long`, and rejects negative positions. -/
def setOffset (h : Handle) (o : Nat) : Result × Handle :=
  if o < 2 ^ 63 then (.success, { h with stream := { h.stream with pos := o } }) else (.failure, h)

/-- `FSHandleGetOffset` (FileHandle.c:322-332). -/
def getOffset (h : Handle) : Nat := h.stream.pos

/-- The end of the calls (135-136, 226-227, 300-301): `update` is `FSBehaviourUpdateOffset`, otherwise the offset is preserved. -/
def finish (h : Handle) (o n : Nat) (update : Bool) : Result × Handle :=
  if update then setOffset h ((o + n) % W) else setOffset h o

/-- `FSHandleRead` (FileHandle.c:119-139).  Second component: the bytes read. -/
def read (h : Handle) (n : Nat) (update : Bool) : Result × List Byte × Handle :=
  if h.mode = .write then (.failure, [], h)
  else
    let o := getOffset h
    let (d, s) := fread h.stream n
    let (r, h) := finish { h with stream := s } o d.length update
    (r, d, h)

/-- `FSHandleReadFromOffset` (FileHandle.c:141-161). -/
def readFrom (h : Handle) (o n : Nat) (update : Bool) : Result × List Byte × Handle :=
  let old := getOffset h
  let h := (setOffset h o).2
  let (r, d, h) := read h n update
  if r = .success ∧ update = false then
    let (r, h) := setOffset h old
    (r, d, h)
  else (r, d, h)

/-- The loop of `FSHandleWrite` that moves what follows the insertion (FileHandle.c:200-218). `o`: `Offset`; `n`: `Count`; `size`: `Size`; `ch`: `ChunkSize`. -/
def shift (o n size ch : Nat) : Nat → Nat → List Byte → Handle → Option Handle
  | 0, _, _, _ => none
  | fuel + 1, shifted, chunk, h =>
    if shifted < size then
      let h := (setOffset h ((o + shifted + n) % W)).2
      let (next, h) := if (shifted + chunk.length) % W < size then
          let (_, d, h) := read h ch false
          (d, h)
        else ([], h)
      let h := { h with stream := fwrite h.stream chunk }
      shift o n size ch fuel ((shifted + chunk.length) % W) next h
    else some h

/-- `FSHandleWrite` with `FSWritingBehaviourOverwrite` (FileHandle.c:163-175, 226-229). -/
def write (h : Handle) (d : List Byte) (update : Bool) : Result × Handle :=
  if h.mode = .read then (.failure, h)
  else
    let o := getOffset h
    finish { h with stream := fwrite h.stream d } o d.length update

/-- `FSHandleWrite` with `FSWritingBehaviourInsert` (FileHandle.c:163-170, 177-229). -/
def insert (env : Env) (fuel : Nat) (h : Handle) (d : List Byte) (update : Bool) : Option (Result × Handle) :=
  if h.mode = .read then some (.failure, h)
  else
    let o := getOffset h
    if h.mode ≠ .update then some (.failure, h)
    else
      let ch := if d.length > env.blk then d.length else env.blk
      let size := (h.stream.bytes.length + W - o) % W
      if env.alloc = false then some (.failure, h)
      else do
        let (_, chunk, h) := read h ch false
        let h := { h with stream := fwrite h.stream d }
        let h ← shift o d.length size ch fuel 0 chunk h
        return finish h o d.length update

/-- `FSHandleWriteFromOffset` (FileHandle.c:232-247), overwriting. -/
def writeFrom (h : Handle) (o : Nat) (d : List Byte) (update : Bool) : Result × Handle :=
  let old := getOffset h
  let h := (setOffset h o).2
  let (r, h) := write h d update
  if r = .success ∧ update = false then setOffset h old else (r, h)

/-- `FSHandleWriteFromOffset` (FileHandle.c:232-247), inserting. -/
def insertFrom (env : Env) (fuel : Nat) (h : Handle) (o : Nat) (d : List Byte) (update : Bool) : Option (Result × Handle) := do
  let old := getOffset h
  let h := (setOffset h o).2
  let (r, h) ← insert env fuel h d update
  return if r = .success ∧ update = false then setOffset h old else (r, h)

/-- The loop of `FSHandleRemove` (FileHandle.c:279-289). -/
def close (o n size ch : Nat) : Nat → Nat → Handle → Option Handle
  | 0, _, _ => none
  | fuel + 1, shifted, h =>
    if shifted < size - n then
      let h := (setOffset h ((o + shifted + n) % W)).2
      let (_, chunk, h) := read h ch false
      let h := (setOffset h ((o + shifted) % W)).2
      let h := (write h chunk false).2
      close o n size ch fuel ((shifted + chunk.length) % W) h
    else some h

/-- `FSHandleRemove` (FileHandle.c:249-304); `ftruncate` does not move the position. -/
def remove (env : Env) (fuel : Nat) (h : Handle) (n : Nat) (update : Bool) : Option (Result × Handle) :=
  if h.mode ≠ .update then some (.failure, h)
  else
    let o := getOffset h
    let size := h.stream.bytes.length
    if o > size then some (.success, h)
    else
      let size := size - o
      if n ≥ size then
        let h := { h with stream := { h.stream with bytes := h.stream.bytes.take o } }
        some (finish h o n update)
      else if env.alloc = false then some (.failure, h)
      else do
        let h ← close o n size env.blk fuel 0 h
        let h := { h with stream := { h.stream with bytes := h.stream.bytes.take (o + size - n) } }
        return finish h o n update

/-- `FSHandleRemoveFromOffset` (FileHandle.c:306-320). -/
def removeFrom (env : Env) (fuel : Nat) (h : Handle) (o n : Nat) (update : Bool) : Option (Result × Handle) := do
  let old := getOffset h
  let h := (setOffset h o).2
  let (r, h) ← remove env fuel h n update
  return if r = .success ∧ update = false then setOffset h old else (r, h)

end Verif.FileHandle
