import Verif.BitTricks
/-!
# Model of the bit sets (`BitsTemplate.h`)

The storage of a bit set is modelled by its bytes (little-endian branch of the template, the one
used on x86 and ARM: `BitsTemplate.h` 33-58, 62-96).  An access outside the storage and every C
operation whose behaviour is undefined yield `none`.

Simplifications: the two operands of the binary operations are separate storage (the calls never
read a byte of `SetB` after having written the byte of `SetA` at the same position, so this only
matters for partially overlapping sets); unaligned 64 bit accesses through `(uint64_t*)` casts are
taken to be plain little-endian loads and stores; `size_t` is `Nat` (no index is near `2^64`).
-/
namespace Verif.Bits

open Verif.BitTricks (U64 countSet countLowestUnset)

abbrev U8 := BitVec 8

/-- The bytes of a bit set (`BitsTemplate.h` 28-58, `T` is an array of blocks). -/
abbrev Store := List U8

/-- The `int` expression `1 << n` (`BitsTemplate.h` 64-96): shifting `1` into or past the sign bit
of the 32 bit `int` is undefined. -/
def shl1 (n : Nat) : Option (BitVec 32) := if n < 31 then some (1#32 <<< n) else none

/-- `CCBitsGet` (`BitsTemplate.h` 62-69) for blocks of `w` bits: `Set[Index / w] & (1 << (Index % w))`. The `int`
operand is converted to the block type (sign extension for wider blocks; for narrower blocks the
block is promoted instead, which gives the same low bits). -/
def get (w : Nat) (s : List (BitVec w)) (i : Nat) : Option Bool := do
  let b ← s[i / w]?
  let m ← shl1 (i % w)
  some (b &&& m.signExtend w != 0#w)

/-- `CCBitsSet` (`BitsTemplate.h` 71-78): `Set[Index / w] |= 1 << (Index % w)`. -/
def set (w : Nat) (s : List (BitVec w)) (i : Nat) : Option (List (BitVec w)) := do
  let b ← s[i / w]?
  let m ← shl1 (i % w)
  some (s.set (i / w) (b ||| m.signExtend w))

/-- `CCBitsClear` (`BitsTemplate.h` 80-87): `Set[Index / w] &= ~(1 << (Index % w))`, the complement
being taken on `int`. -/
def clear (w : Nat) (s : List (BitVec w)) (i : Nat) : Option (List (BitVec w)) := do
  let b ← s[i / w]?
  let m ← shl1 (i % w)
  some (s.set (i / w) (b &&& (~~~ m).signExtend w))

/-- `Value << n` with `Value` a `_Bool` promoted to `int` (`BitsTemplate.h` 92). `0 << n` is only undefined when
`n` is not less than 32. -/
def shlBool (v : Bool) (n : Nat) : Option (BitVec 32) :=
  if v then shl1 n else if n < 32 then some 0#32 else none

/-- `CCBitsAssign` (`BitsTemplate.h` 89-96):
`Set[Index / w] = (Set[Index / w] & ~(1 << (Index % w))) | (Value << (Index % w))`. -/
def assign (w : Nat) (s : List (BitVec w)) (i : Nat) (v : Bool) : Option (List (BitVec w)) := do
  let b ← s[i / w]?
  let m ← shl1 (i % w)
  let n ← shlBool v (i % w)
  some (s.set (i / w) ((b &&& (~~~ m).signExtend w) ||| n.signExtend w))

/-! ## Memory accesses of the range operations -/

/-- Little-endian load of `Set64[Loop]` (`BitsTemplate.h` 107, 204) at byte offset `o`. -/
def load64 (s : Store) (o : Nat) : Option U64 := do
  let b0 ← s[o]?
  let b1 ← s[o + 1]?
  let b2 ← s[o + 2]?
  let b3 ← s[o + 3]?
  let b4 ← s[o + 4]?
  let b5 ← s[o + 5]?
  let b6 ← s[o + 6]?
  let b7 ← s[o + 7]?
  some (b7 ++ b6 ++ b5 ++ b4 ++ b3 ++ b2 ++ b1 ++ b0)

/-- Little-endian store to `Set64[Loop]` (`BitsTemplate.h` 107) at byte offset `o`. -/
def store64 (s : Store) (o : Nat) (x : U64) : Option Store :=
  if o + 8 ≤ s.length then
    some ((List.range 8).foldl (fun t k => t.set (o + k) (x.extractLsb' (8 * k) 8)) s)
  else none

/-- Store of one byte (`BitsTemplate.h` 119). -/
def store8 (s : Store) (o : Nat) (x : U8) : Option Store :=
  if o < s.length then some (s.set o x) else none

/-- A C loop `for (size_t Loop = 0; Loop < n; Loop++)` over a state (`BitsTemplate.h` 105-108). -/
def loopN {α : Type} (body : Nat → α → Option α) : Nat → α → Option α
  | 0, a => some a
  | n + 1, a => (loopN body n a).bind (body n)

/-- `Offset8` (`BitsTemplate.h` 100). -/
def offset8 (index : Nat) : Nat := (index + 7) / 8

/-- `IndexAdjustedCount` (`BitsTemplate.h` 101). -/
def adjusted (index count : Nat) : Nat :=
  if 8 - index % 8 ≤ count then index + count - offset8 index * 8 else 0

/-- The mask of a leading partial byte (`BitsTemplate.h` 113):
`(0xff << (Index % 8)) & (Count < 8 ? ((1 << ((Index % 8) + Count)) - 1) : 0xff)`. -/
def leadMask (index count : Nat) : U8 :=
  (255#8 <<< (index % 8)) &&& (if count < 8 then BitVec.ofNat 8 (2 ^ (index % 8 + count) - 1) else 255#8)

/-- The mask of a short range that starts on a byte boundary (`BitsTemplate.h` 124):
`(0xff << (Index % 8)) & ((1 << ((Index % 8) + Count)) - 1)`. -/
def shortMask (index count : Nat) : U8 :=
  (255#8 <<< (index % 8)) &&& BitVec.ofNat 8 (2 ^ (index % 8 + count) - 1)

/-- The right hand sides that distinguish the range operations: what is stored to a 64 bit word, to
a whole byte, to the leading partial byte and to the byte of a short aligned range, given the mask
and the bytes (words) of `SetA` and `SetB`. -/
structure Kernel where
  word : U64 → U64 → U64
  byte : U8 → U8 → U8
  lead : U8 → U8 → U8 → U8
  short : U8 → U8 → U8 → U8

/-- Update of one byte of `a` from the byte of `b` at the same offset (`BitsTemplate.h` 112-119). -/
def upd8 (b : Store) (f : U8 → U8 → U8) (o : Nat) (a : Store) : Option Store := do
  let x ← a[o]?
  let y ← b[o]?
  store8 a o (f x y)

/-- Update of one 64 bit word (`BitsTemplate.h` 107). -/
def upd64 (b : Store) (f : U64 → U64 → U64) (o : Nat) (a : Store) : Option Store := do
  let x ← load64 a o
  let y ← load64 b o
  store64 a o (f x y)

/-- The leading partial byte (`BitsTemplate.h` 110-130): the `if (Index % 8) … else if (Count < 8) …`
block shared by the range operations. -/
def leading (k : Kernel) (b : Store) (index count : Nat) (a : Store) : Option Store :=
  if index % 8 ≠ 0 then upd8 b (k.lead (leadMask index count)) (offset8 index - 1) a
  else if count < 8 then upd8 b (k.short (shortMask index count)) (offset8 index) a
  else some a

/-- The trailing partial byte (`BitsTemplate.h` 141-144): the whole byte is written, unmasked. -/
def trailing (k : Kernel) (b : Store) (o adj : Nat) (a : Store) : Option Store :=
  if adj % 8 ≠ 0 then upd8 b k.byte o a else some a

/-- The common shape of `CCBitsSetRange`, `CCBitsClearRange`, `CCBitsNot`, `CCBitsOr`, `CCBitsAnd`,
`CCBitsXor` and `CCBitsCopy` (`BitsTemplate.h` 98-145, 147-190, 419-646), which are copies of one
another up to the right hand sides collected in `Kernel`. -/
def rangeOp (k : Kernel) (a b : Store) (index count : Nat) : Option Store := do
  let off := offset8 index
  let adj := adjusted index count
  let n64 := adj / 64
  let a ← loopN (fun l => upd64 b k.word (off + l * 8)) n64 a
  let a ← leading k b index count a
  let n8 := adj / 8 - n64 * 8
  let a ← loopN (fun l => upd8 b k.byte (off + n64 * 8 + l)) n8 a
  trailing k b (off + n64 * 8 + n8) adj a

/-- Right hand sides of `CCBitsSetRange` (`BitsTemplate.h` 107, 112-118, 124-129, 137, 143). -/
def kSet : Kernel where
  word _ _ := -1
  byte _ _ := -1
  lead m a _ := (-1 &&& m) ||| (a &&& ~~~ m)
  short m a _ := (-1 &&& m) ||| (a &&& ~~~ m)

/-- Right hand sides of `CCBitsClearRange` (`BitsTemplate.h` 156, 161-165, 170-174, 182, 188). -/
def kClear : Kernel where
  word _ _ := 0
  byte _ _ := 0
  lead m a _ := a &&& ~~~ m
  short m a _ := a &&& ~~~ m

/-- Right hand sides of `CCBitsNot` (`BitsTemplate.h` 428, 433-440, 445-452, 460, 465). -/
def kNot : Kernel where
  word a _ := ~~~ a
  byte a _ := ~~~ a
  lead m a _ := (~~~ a &&& m) ||| (a &&& ~~~ m)
  short m a _ := (~~~ a &&& m) ||| (a &&& ~~~ m)

/-- Right hand sides of `CCBitsOr` (`BitsTemplate.h` 478, 483-485, 490-492, 501, 507). -/
def kOr : Kernel where
  word a b := a ||| b
  byte a b := a ||| b
  lead m a b := a ||| (b &&& m)
  short m a b := a ||| (b &&& m)

/-- Right hand sides of `CCBitsAnd` (`BitsTemplate.h` 521, 526-531, 536-541, 550, 556). The short
aligned case stores with `|=` (line 541). -/
def kAnd : Kernel where
  word a b := a &&& b
  byte a b := a &&& b
  lead m a b := a &&& ((b &&& m) ||| ~~~ m)
  short m a b := a ||| ((b &&& m) ||| ~~~ m)

/-- Right hand sides of `CCBitsXor` (`BitsTemplate.h` 570, 575-577, 582-584, 593, 599). -/
def kXor : Kernel where
  word a b := a ^^^ b
  byte a b := a ^^^ b
  lead m a b := a ^^^ (b &&& m)
  short m a b := a ^^^ (b &&& m)

/-- Right hand sides of `CCBitsCopy` (`BitsTemplate.h` 613, 618-621, 626-629, 638, 644). -/
def kCopy : Kernel where
  word _ b := b
  byte _ b := b
  lead m a b := (a &&& ~~~ m) ||| (b &&& m)
  short m a b := (a &&& ~~~ m) ||| (b &&& m)

/-- `CCBitsSetRange` (`BitsTemplate.h` 98-145); one operand, so the second one is the set itself. -/
def setRange (s : Store) (index count : Nat) : Option Store := rangeOp kSet s s index count
/-- `CCBitsClearRange` (`BitsTemplate.h` 147-190). -/
def clearRange (s : Store) (index count : Nat) : Option Store := rangeOp kClear s s index count
/-- `CCBitsNot` (`BitsTemplate.h` 419-466). -/
def notRange (s : Store) (index count : Nat) : Option Store := rangeOp kNot s s index count
/-- `CCBitsOr` (`BitsTemplate.h` 468-509). -/
def orRange (a b : Store) (index count : Nat) : Option Store := rangeOp kOr a b index count
/-- `CCBitsAnd` (`BitsTemplate.h` 511-558). -/
def andRange (a b : Store) (index count : Nat) : Option Store := rangeOp kAnd a b index count
/-- `CCBitsXor` (`BitsTemplate.h` 560-601). -/
def xorRange (a b : Store) (index count : Nat) : Option Store := rangeOp kXor a b index count
/-- `CCBitsCopy` (`BitsTemplate.h` 603-646). -/
def copyRange (a b : Store) (index count : Nat) : Option Store := rangeOp kCopy a b index count

/-! ## Queries -/

/-- The masked leading byte read by the queries (`BitsTemplate.h` 209-217, 265-273): `0` when there
is no leading partial byte. -/
def leadByte (s : Store) (index count : Nat) : Option U8 :=
  if index % 8 ≠ 0 then (s[offset8 index - 1]?).map (· &&& leadMask index count)
  else if count < 8 then (s[offset8 index]?).map (· &&& shortMask index count)
  else some 0#8

/-- `(1 << (IndexAdjustedCount % 8)) - 1` (`BitsTemplate.h` 233). -/
def tailMask (adj : Nat) : U8 := BitVec.ofNat 8 (2 ^ (adj % 8) - 1)

/-- The end of `CCBitsCount` (`BitsTemplate.h` 227-249): the trailing partial byte is folded into the
remainder, flushing it first when it is full. `o8` is the offset of `Set8`. -/
def countTail (s : Store) (index adj o8 n8 : Nat) (r : U64) (c : Nat) : Option Nat :=
  if adj % 8 ≠ 0 then do
    let b ← s[o8 + n8]?
    if index % 8 ≠ 0 then
      if n8 = 7 then
        some (c + (countSet r).toNat + (countSet ((b &&& tailMask adj).setWidth 64)).toNat)
      else
        some (c + (countSet (r ||| (b.setWidth 64 <<< (56 + (8 - adj % 8))))).toNat)
    else some (c + (countSet (r ||| (b &&& tailMask adj).setWidth 64)).toNat)
  else some (c + (countSet r).toNat)

/-- `Remainder |= (uint64_t)Set8[Loop] << n` (`BitsTemplate.h` 224). -/
def orByte (s : Store) (o n : Nat) (r : U64) : Option U64 := do
  let b ← s[o]?
  some (r ||| (b.setWidth 64) <<< n)

/-- `CCBitsCount` (`BitsTemplate.h` 192-250). -/
def count (s : Store) (index cnt : Nat) : Option Nat := do
  let off := offset8 index
  let adj := adjusted index cnt
  let n64 := adj / 64
  let c ← loopN (fun l c => (load64 s (off + l * 8)).map (fun x => c + (countSet x).toNat)) n64 0
  let lead ← leadByte s index cnt
  let n8 := adj / 8 - n64 * 8
  let o8 := off + n64 * 8
  let r ← loopN (fun l => orByte s (o8 + l) ((l + 1) * 8)) n8 (lead.setWidth 64)
  countTail s index adj o8 n8 r c

/-- `Set8[Count8] << n` on a byte promoted to `int` (`BitsTemplate.h` 294): undefined when the shift
is not less than the width of `int`. -/
def shlByte (b : U8) (n : Nat) : Option (BitVec 32) :=
  if n < 32 ∧ b.toNat * 2 ^ n < 2 ^ 31 then some (b.setWidth 32 <<< n) else none

/-- The end of `CCBitsAny` (`BitsTemplate.h` 283-303). -/
def anyTail (s : Store) (index adj o8 n8 : Nat) : Option Bool :=
  if adj % 8 ≠ 0 then do
    let b ← s[o8 + n8]?
    if index % 8 ≠ 0 then
      if n8 = 7 then some (b &&& tailMask adj != 0#8)
      else (shlByte b (56 + (8 - adj % 8))).map (· != 0#32)
    else some (b &&& tailMask adj != 0#8)
  else some false

/-- `for (…) { if (body) return TRUE; }` (`BitsTemplate.h` 259-262): `f l` is evaluated for
`l = i, i+1, …` until it is true. -/
def loopAny (f : Nat → Option Bool) : Nat → Nat → Option Bool
  | _, 0 => some false
  | i, n + 1 => (f i).bind (fun t => if t then some true else loopAny f (i + 1) n)

/-- `CCBitsAny` (`BitsTemplate.h` 252-304), with its early returns. -/
def any (s : Store) (index cnt : Nat) : Option Bool := do
  let off := offset8 index
  let adj := adjusted index cnt
  let n64 := adj / 64
  let t ← loopAny (fun l => (load64 s (off + l * 8)).map (· != 0#64)) 0 n64
  if t then some true else do
    let lead ← leadByte s index cnt
    if lead != 0#8 then some true else do
      let n8 := adj / 8 - n64 * 8
      let o8 := off + n64 * 8
      let t ← loopAny (fun l => (s[o8 + l]?).map (· != 0#8)) 0 n8
      if t then some true else anyTail s index adj o8 n8

/-- The `while (Mask)` loop of `CCBitsMask` (`BitsTemplate.h` 324-333), which reports the positions of
the one bits of a word in increasing order.  `Mask >>= BitIndex + 1` is undefined for a shift by 64. -/
def drain : Nat → U64 → Nat → Option (List Nat)
  | 0, _, _ => some []
  | fuel + 1, m, base =>
    if m = 0#64 then some []
    else
      let i := (countLowestUnset m).toNat
      if i + 1 < 64 then (drain fuel (m >>> (i + 1)) (base + i + 1)).map (fun l => (i + base) :: l)
      else none

/-- One round of the word loop of `CCBitsMask` (`BitsTemplate.h` 316-334). At most 64 one bits. -/
def maskWord (a b : Store) (off l : Nat) (acc : List Nat) : Option (List Nat) := do
  let x ← load64 a (off + l * 8)
  let y ← load64 b (off + l * 8)
  let d ← drain 65 (x &&& y) (l * 64 + off * 8)
  some (acc ++ d)

/-- The remainders of `CCBitsMask` after the leading byte (`BitsTemplate.h` 336-362): a partial
leading byte is reported at once, a short aligned range goes to the remainder. -/
def maskLead (a b : Store) (index cnt : Nat) (acc : List Nat) : Option (List Nat × U64 × U64) :=
  if index % 8 ≠ 0 then do
    let x ← a[offset8 index - 1]?
    let y ← b[offset8 index - 1]?
    let m := leadMask index cnt
    let d ← drain 65 (((x &&& m) &&& (y &&& m)).setWidth 64) ((offset8 index - 1) * 8)
    some (acc ++ d, 0#64, 0#64)
  else if cnt < 8 then do
    let x ← a[offset8 index]?
    let y ← b[offset8 index]?
    let m := shortMask index cnt
    some (acc, (x &&& m).setWidth 64, (y &&& m).setWidth 64)
  else some (acc, 0#64, 0#64)

/-- The trailing partial byte of `CCBitsMask` (`BitsTemplate.h` 375-396). For an aligned start it is
combined into the lowest byte of the remainder (393-394). -/
def maskTail (s : Store) (index adj o8 n8 : Nat) (r : U64) : Option U64 :=
  if adj % 8 ≠ 0 then do
    let b ← s[o8 + n8]?
    let t := (b &&& tailMask adj).setWidth 64
    if index % 8 ≠ 0 then
      if n8 = 7 then some (r ||| (t <<< 56)) else some (r ||| (t <<< (n8 * 8)))
    else some (r ||| t)
  else some r

/-- `CCBitsMask` (`BitsTemplate.h` 306-417): the reported indexes in order. -/
def mask (a b : Store) (index cnt : Nat) : Option (List Nat) := do
  let off := offset8 index
  let adj := adjusted index cnt
  let n64 := adj / 64
  let acc ← loopN (maskWord a b off) n64 []
  let (acc, ra, rb) ← maskLead a b index cnt acc
  let n8 := adj / 8 - n64 * 8
  let o8 := off + n64 * 8
  let ra ← loopN (fun l => orByte a (o8 + l) (l * 8)) n8 ra
  let rb ← loopN (fun l => orByte b (o8 + l) (l * 8)) n8 rb
  let ra ← maskTail a index adj o8 n8 ra
  let rb ← maskTail b index adj o8 n8 rb
  let d ← drain 65 (ra &&& rb) (off * 8 + n64 * 64)
  some (acc ++ d)

end Verif.Bits
