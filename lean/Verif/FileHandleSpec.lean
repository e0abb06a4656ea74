/-!
# What a file is, independent of the file handle model

A file is a list of bytes; an open file has an offset.
-/
namespace Verif.FileHandle.Spec

/-- The calls.  `upd`: move the offset behind what was accessed; otherwise leave it.  `some o`: the call works at the offset `o` instead of the current one. -/
inductive Op where
  | read (at' : Option Nat) (n : Nat) (upd : Bool)
  | overwrite (at' : Option Nat) (d : List UInt8) (upd : Bool)
  | insert (at' : Option Nat) (d : List UInt8) (upd : Bool)
  | remove (at' : Option Nat) (n : Nat) (upd : Bool)
  | seek (o : Nat)

structure File where
  bytes : List UInt8
  off : Nat
  deriving DecidableEq, Repr

/-- The bytes with `d` in place of those at `o`; a gap is filled with zeros. -/
def overwrite (bytes : List UInt8) (o : Nat) (d : List UInt8) : List UInt8 :=
  if d = [] then bytes else bytes.take o ++ List.replicate (o - bytes.length) 0 ++ d ++ bytes.drop (o + d.length)

def insert (bytes : List UInt8) (o : Nat) (d : List UInt8) : List UInt8 := bytes.take o ++ d ++ bytes.drop o

def remove (bytes : List UInt8) (o n : Nat) : List UInt8 := bytes.take o ++ bytes.drop (o + n)

/-- The file after a call, and the bytes the call returns. -/
def step (f : File) : Op → File × List UInt8
  | .read at' n upd =>
    let o := at'.getD f.off
    let d := (f.bytes.drop o).take n
    (⟨f.bytes, if upd then o + d.length else f.off⟩, d)
  | .overwrite at' d upd =>
    let o := at'.getD f.off
    (⟨overwrite f.bytes o d, if upd then o + d.length else f.off⟩, [])
  | .insert at' d upd =>
    let o := at'.getD f.off
    (⟨insert f.bytes o d, if upd then o + d.length else f.off⟩, [])
  | .remove at' n upd =>
    let o := at'.getD f.off
    (⟨remove f.bytes o n, if upd then o + n else f.off⟩, [])
  | .seek o => (⟨f.bytes, o⟩, [])

/-- The file after a history of calls, and what the calls returned. -/
def run (f : File) : List Op → File × List (List UInt8)
  | [] => (f, [])
  | op :: ops =>
    let (f, d) := step f op
    let (f, ds) := run f ops
    (f, d :: ds)

end Verif.FileHandle.Spec
