/-!
# Model of the run length encoded streams (`CommonC/ReflectStream.c` 53-192)

The stream below (`into`) is a list of bytes: a write appends, a read takes from the front, and a read of bytes that are not
there is `none`, as is everything undefined.  Simplified: a little endian machine; a stream below that does not fail.
-/
namespace Verif.Rle

/-- The configuration: `repeat.mask` and `repeat.size` (ReflectStream.h 86-90). -/
structure Config where
  mask : UInt8 → Bool
  size : Nat

/-- `repeat.value`, `repeat.count` and what has been written below. -/
structure Writer where
  value : UInt8
  count : Nat
  out : List UInt8
  deriving DecidableEq, Repr

/-- `repeat.value`, `repeat.count` and what is left to be read below. -/
structure Reader where
  value : UInt8
  count : Nat
  inp : List UInt8
  deriving DecidableEq, Repr

/-- The first `n` bytes of a number in memory. -/
def le : Nat → Nat → List UInt8
  | 0, _ => []
  | n + 1, x => UInt8.ofNat x :: le n (x / 256)

/-- The number that the bytes are when stored over a zero. -/
def ofLe : List UInt8 → Nat
  | [] => 0
  | b :: bs => b.toNat + 256 * ofLe bs

/-- `Max` (85, 114): `1ULL << (8 * size)`, undefined for shifts of 64 bits and more. -/
def maxCount (c : Config) : Option Nat := if 8 * c.size < 64 then some (2 ^ (8 * c.size)) else none

/-- `CCReflectStreamRLEWriteFlush` (55-69); more bytes than a `size_t` has are not there to be written. -/
def flush (c : Config) (w : Writer) : Option Writer :=
  if w.count = 0 then some w
  else if c.size ≤ 8 then some { w with count := 0, out := w.out ++ le c.size (w.count - 1) }
  else none

/-- `CCReflectStreamRLEWriteByte` (71-80). -/
def writeByte (c : Config) (w : Writer) (b : UInt8) : Writer :=
  if c.mask b then { value := b, count := w.count + 1, out := w.out ++ [b] } else { w with out := w.out ++ [b] }

/-- The loop of `CCReflectStreamRLEWrite` (86-104). -/
def writeLoop (c : Config) (max : Nat) : List UInt8 → Writer → Option Writer
  | [], w => some w
  | b :: bs, w =>
    if w.count ≠ 0 then
      if b ≠ w.value then (flush c w).bind fun w => writeLoop c max bs (writeByte c w b)
      else if w.count + 1 = max then (flush c { w with count := w.count + 1 }).bind (writeLoop c max bs)
      else writeLoop c max bs { w with count := w.count + 1 }
    else writeLoop c max bs (writeByte c w b)

/-- `CCReflectStreamRLEWrite` (82-105). -/
def write (c : Config) (data : List UInt8) (w : Writer) : Option Writer :=
  (maxCount c).bind fun max => writeLoop c max data w

/-- The loop of `CCReflectStreamRLEWriteContinue` (113-128). -/
def continueLoop (c : Config) (max : Nat) : List UInt8 → Writer → Option Writer
  | [], w => some w
  | b :: bs, w =>
    if b ≠ w.value then (flush c w).bind fun w => some { w with out := w.out ++ b :: bs }
    else if w.count + 1 = max then (flush c { w with count := w.count + 1 }).bind (continueLoop c max bs)
    else continueLoop c max bs { w with count := w.count + 1 }

/-- `CCReflectStreamRLEWriteContinue` (107-134). -/
def writeContinue (c : Config) (data : List UInt8) (w : Writer) : Option Writer :=
  if w.count ≠ 0 then (maxCount c).bind fun max => continueLoop c max data w
  else some { w with out := w.out ++ data }

/-- `into.read` of `n` bytes. -/
def take (n : Nat) (l : List UInt8) : Option (List UInt8 × List UInt8) :=
  if n ≤ l.length then some (l.take n, l.drop n) else none

/-- `CCReflectStreamRLERead` (136-165) of `n` bytes. -/
def read (c : Config) : Nat → Reader → Option (List UInt8 × Reader)
  | 0, r => some ([], r)
  | n + 1, r =>
    if r.count ≠ 0 then (read c n { r with count := r.count - 1 }).map fun (d, s) => (r.value :: d, s)
    else match r.inp with
      | [] => none
      | b :: inp =>
        if c.mask b then
          if c.size ≤ 8 then (take c.size inp).bind fun (k, inp) =>
            (read c n ⟨b, ofLe k, inp⟩).map fun (d, s) => (b :: d, s)
          else none
        else (read c n { r with inp }).map fun (d, s) => (b :: d, s)

/-- The loop of `CCReflectStreamRLEReadContinue` (171-186). -/
def readContinueLoop : Nat → Reader → Option (List UInt8 × Reader)
  | 0, r => some ([], r)
  | n + 1, r =>
    if r.count ≠ 0 then (readContinueLoop n { r with count := r.count - 1 }).map fun (d, s) => (r.value :: d, s)
    else (take (n + 1) r.inp).map fun (d, inp) => (d, { r with inp })

/-- `CCReflectStreamRLEReadContinue` (167-192). -/
def readContinue (n : Nat) (r : Reader) : Option (List UInt8 × Reader) :=
  if r.count ≠ 0 then readContinueLoop n r
  else (take n r.inp).map fun (d, inp) => (d, { r with inp })

/-- A call: is it the continuing one, and the data. -/
abbrev Call := Bool × List UInt8

/-- The writing calls, one after the other. -/
def writeAll (c : Config) : List Call → Writer → Option Writer
  | [], w => some w
  | (k, d) :: cs, w => (if k then writeContinue c d w else write c d w).bind (writeAll c cs)

/-- The reading calls for data of these sizes. -/
def readAll (c : Config) : List (Bool × Nat) → Reader → Option (List (List UInt8) × Reader)
  | [], r => some ([], r)
  | (k, n) :: cs, r => (if k then readContinue n r else read c n r).bind fun (d, r) =>
      (readAll c cs r).map fun (ds, r) => (d :: ds, r)

/-- A stream nothing was written to (`CC_REFLECT_STREAM_WRITE_RLE_*`). -/
def fresh : Writer := ⟨0, 0, []⟩

/-- A stream nothing was read from (`CC_REFLECT_STREAM_READ_RLE_*`). -/
def opened (inp : List UInt8) : Reader := ⟨0, 0, inp⟩

end Verif.Rle
