import Verif.FileHandle
/-!
# Model of copying a file (`CommonC/FileSystem.c` 367-427, 455-471)

The copy of one file by `FSManagerCopyItem`, on top of the file handles of C63.  Simplified as there; opening the files
succeeds, and nobody else changes them.
-/
namespace Verif.FileCopy
open Verif.FileHandle

/-- The loop of `FSManagerCopyItem` (393-413) from its second condition on; source and destination are different files. -/
def copyLoop (blk : Nat) : Nat → Handle → Handle → Option (Result × Handle × Handle)
  | 0, _, _ => none
  | fuel + 1, r, w =>
    let (res, d, r) := read r blk true
    if res ≠ .success then some (.failure, r, w)
    else
      let (res, w) := write w d true
      if res ≠ .success then some (.failure, r, w)
      else if d.length = 0 then some (.success, r, w)
      else copyLoop blk fuel r w

/-- `FSManagerCopyItem` for a file (367-427): `src` the bytes of the source, `dst` those of the destination if it is there.
The result is the destination afterwards. -/
def copyFile (env : Env) (fuel : Nat) (src : List Byte) (dst : Option (List Byte)) : Option (Result × List Byte) :=
  let dst := dst.getD []                                   -- `FSManagerCreate` (370)
  if env.blk > 0 ∧ env.alloc = false then some (.failure, dst)
  else if env.blk = 0 then some (.success, dst)            -- the first condition of the loop (393)
  else match copyLoop env.blk fuel ⟨.read, src, 0⟩ ⟨.write, dst, 0⟩ with
    | none => none
    | some (res, _, w) => some (res, w.stream.bytes)

/-- The same loop when both handles are open on one file: what is written is seen by the reader. -/
def selfLoop (blk : Nat) : Nat → Handle → Handle → Option (Result × Handle × Handle)
  | 0, _, _ => none
  | fuel + 1, r, w =>
    let (res, d, r) := read r blk true
    if res ≠ .success then some (.failure, r, w)
    else
      let (res, w) := write w d true
      let r := { r with stream := { r.stream with bytes := w.stream.bytes } }
      if res ≠ .success then some (.failure, r, w)
      else if d.length = 0 then some (.success, r, w)
      else selfLoop blk fuel r w

end Verif.FileCopy
