import Verif.Zone
/-!
# What a client of a memory zone relies on (C37)

The zone is a stack of bytes cut into frames: one for every saved state and one at the bottom.
A byte is a block and an offset in it.
-/
namespace Verif.Zone

/-- The frames, the innermost one first, each with its most recent byte first. -/
abbrev Frames := List (List (Nat × Nat))

/-- The bytes of a region, the last one first. -/
def regionBytes (start : Nat × Nat) (len : Nat) : List (Nat × Nat) :=
  ((List.range len).map fun k => (start.1, start.2 + k)).reverse

/-- An allocation goes on top of the innermost frame. -/
def Frames.push (bytes : List (Nat × Nat)) : Frames → Frames
  | [] => [bytes]
  | f :: fs => (bytes ++ f) :: fs

/-- Deallocating `n` bytes takes away the most recent ones; frames that are used up are forgotten, except the bottom
one. -/
def Frames.pop : Nat → Frames → Frames
  | _, [] => []
  | n, [f] => [f.drop n]
  | n, f :: g :: fs => if n ≤ f.length then f.drop n :: g :: fs else Frames.pop (n - f.length) (g :: fs)

/-- Restoring takes away the innermost frame and the record of the saved state below it. -/
def Frames.restore : Frames → Frames
  | f :: g :: fs => g.drop 16 :: fs
  | fs => fs

/-- The frames after a call with its result. -/
def Frames.after (F : Frames) : Op → Res → Frames
  | .alloc _ _, .region c n => F.push (regionBytes c n)
  | .allocAligned _ _ _, .region c n => F.push (regionBytes c n)
  | .save _, .region c n => [] :: F.push (regionBytes c n)
  | .dealloc n, _ => F.pop n
  | .restore, _ => F.restore
  | _, _ => F

/-- All bytes in use. -/
def Frames.bytes (F : Frames) : List (Nat × Nat) := F.flatten

/-- Histories of a zone with the books a client can keep from the results. -/
inductive Reach (blockSize base : Nat) : Zone → Frames → Prop
  | create : Reach blockSize base (create blockSize base) [[]]
  | call {Z Z' : Zone} {F : Frames} {op : Op} {r : Res} :
      Reach blockSize base Z F → step Z op = some (Z', r) → Reach blockSize base Z' (F.after op r)

end Verif.Zone
