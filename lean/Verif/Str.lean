import Verif.StrTag
/-!
# Model of `CCString.c`

Simplifications:
* The caches of an allocated string (its size, length and hash, once computed, 942-1170, 1183-1287) and the cache of the hashes of tagged strings are left out: the value is computed each time.  The marks that are set when a string is created, with the value stored then, are modelled.
* Allocations succeed.  Reference counts and the freeing of buffers are left out.
* An allocated buffer has exactly the bytes asked for: writing more is `none`.  `none` is also a failing assertion, a read outside the bytes of a string, and the undefined behaviour of shifts.
* The characters of a string are immutable (the owner of an external buffer does not write into it).
-/
namespace Verif.Str

/-- `CCStringInfo` (78-85) with the marks of its hint (92-98).  `pre` is the byte before the characters, if it belongs to the same object: 0 when the characters follow the header (whose last member is then a null pointer), some byte of the allocator's header for a buffer from `CCMalloc`, nothing for other buffers.  `bytes` are the readable bytes from the first character on. -/
structure Info where
  enc : Enc
  size : Option Nat
  len : Option Nat
  free : Bool
  unsafeBuf : Bool
  pre : Option Nat
  bytes : List Nat
  deriving DecidableEq, Repr

/-- `CCString`: a tagged word, or a pointer. -/
inductive Str
  | tagged (w : Nat)
  | info (i : Info)
  deriving DecidableEq, Repr

/-- `SIZE_MAX` -/
def sizeMax : Nat := 2 ^ 64 - 1

/-- `x + 1` on words. -/
def inc (x : Nat) : Nat := (x + 1) % 2 ^ 64

/-- `x - 1` on words. -/
def dec (x : Nat) : Nat := if x = 0 then sizeMax else x - 1

/-- `strlen` -/
def strlen (bs : List Nat) : Option Nat := if 0 ∈ bs then some (bs.takeWhile (· ≠ 0)).length else none

/-- `strncpy(_, bs, n)`: the bytes written.  It reads up to the first NUL or `n` bytes, and fills up with NULs. -/
def strncpy (bs : List Nat) (n : Nat) : Option (List Nat) :=
  let s := (bs.take n).takeWhile (· ≠ 0)
  if s.length < n ∧ bs.length ≤ s.length then none else some (s ++ List.replicate (n - s.length) 0)

/-- The byte at `k`; the index `SIZE_MAX` is the byte before the first. -/
def Info.read (i : Info) (k : Nat) : Option Nat := if k = sizeMax then i.pre else i.bytes[k]?

section
variable (M : Maps)

/-- `CCStringGetSize` (942-973) -/
def getSize : Str → Option Nat
  | .tagged w => tagSize M w
  | .info i => match i.size with
    | some n => some n
    | none => strlen i.bytes

/-- `CCStringGetLength` (975-1170) -/
def getLength : Str → Option Nat
  | .tagged w => some (tagLength w)
  | .info i => match i.len with
    | some n => some n
    | none => match i.enc with
      | .ascii => getSize M (.info i)
      | .utf8 => Utf8.length i.bytes

/-- `CCStringGetEncoding` (934-940) -/
def getEncoding : Str → Enc
  | .tagged w => (M (setOf w)).1
  | .info i => i.enc

/-! ## Enumerator -/

/-- `CCEnumeratorState` as used for strings: `index`, `cur`, `pos` and `back` are `extra[0]` to `extra[3]` (tagged and UTF-8 strings); `index` and `count` are those of the batch (ASCII strings). -/
structure Cursor where
  index : Nat := 0
  cur : Nat := 0
  pos : Nat := 0
  back : Bool := false
  count : Nat := 0
  deriving DecidableEq, Repr

/-- `CCStringEnumerator`, head (1498-1501, 1558-1563, 1591-1600) -/
def enHead : Str → Option (Nat × Cursor)
  | .tagged w => do
    let c ← tagChar M w 0
    return (c, { index := 0, cur := c })
  | .info i => match i.enc with
    | .ascii => do
      let n ← getLength M (.info i)
      return (ofChar (← i.read 0), { index := 0, count := n })
    | .utf8 => do
      let (c, size) ← Utf8.getChar i.bytes
      return (c, { index := 0, cur := c, pos := size, back := false })

/-- `CCStringEnumerator`, tail (1503-1506, 1565-1570, 1602-1611).  For an empty UTF-8 string the code looks at the byte before the first; here that is `none`. -/
def enTail : Str → Option (Nat × Cursor)
  | .tagged w => do
    let c ← tagChar M w (dec (tagLength w))
    return (c, { index := dec (tagLength w), cur := c })
  | .info i => match i.enc with
    | .ascii => do
      let n ← getLength M (.info i)
      return (ofChar (← i.read (dec n)), { index := dec n, count := n })
    | .utf8 => do
      let n ← getLength M (.info i)
      let pos ← Utf8.previous i.bytes (dec (← getSize M (.info i)))
      let (c, _) ← Utf8.getChar (i.bytes.drop pos)
      return (c, { index := dec n, cur := c, pos := pos, back := true })

/-- The end of `CCStringEnumerator`, next, of a UTF-8 string (1629-1634): to the character at `pos`. -/
def utf8Forward (i : Info) (e : Cursor) : Option Cursor := do
  let (c, size) ← Utf8.getChar (i.bytes.drop e.pos)
  return { e with index := inc e.index, cur := c, pos := e.pos + size }

/-- The end of `CCStringEnumerator`, previous, of a UTF-8 string (1650-1655): to the character before `pos`. -/
def utf8Back (i : Info) (e : Cursor) : Option Cursor := do
  let pos ← Utf8.previous i.bytes (dec e.pos)
  let (c, _) ← Utf8.getChar (i.bytes.drop pos)
  return { e with index := dec e.index, cur := c, pos := pos }

/-- `CCStringEnumerator`, next (1508-1521, 1572-1576, 1613-1635).  The recursive call, when the direction changes, comes back at once to the lines after it. -/
def enActNext (s : Str) (e : Cursor) : Option (Nat × Cursor) := match s with
  | .tagged w =>
    if inc e.index ≥ tagLength w then some (0, { e with index := sizeMax, cur := 0 })
    else do
      let c ← tagChar M w (inc e.index)
      return (c, { e with index := inc e.index, cur := c })
  | .info i => match i.enc with
    | .ascii => do return (ofChar (← i.read sizeMax), { e with index := sizeMax, count := 0 })
    | .utf8 => do
      if inc e.index ≥ (← getLength M (.info i)) then return (0, { e with index := sizeMax, cur := 0 })
      else if e.back then
        let e1 ← utf8Forward i { e with back := false }
        let e2 ← utf8Forward i { e1 with index := dec e1.index }
        return (e2.cur, e2)
      else
        let e1 ← utf8Forward i e
        return (e1.cur, e1)

/-- `CCStringEnumerator`, previous (1523-1536, 1572-1576, 1637-1656). -/
def enActPrev (s : Str) (e : Cursor) : Option (Nat × Cursor) := match s with
  | .tagged w =>
    if e.index = 0 then some (0, { e with index := sizeMax, cur := 0 })
    else do
      let c ← tagChar M w (e.index - 1)
      return (c, { e with index := e.index - 1, cur := c })
  | .info i => match i.enc with
    | .ascii => do return (ofChar (← i.read sizeMax), { e with index := sizeMax, count := 0 })
    | .utf8 => do
      if e.index = 0 then return (0, { e with index := sizeMax, cur := 0 })
      else if !e.back then
        let e1 ← utf8Back i { e with back := true }
        let e2 ← utf8Back i { e1 with index := inc e1.index }
        return (e2.cur, e2)
      else
        let e1 ← utf8Back i e
        return (e1.cur, e1)

/-- Whether the enumerator of a string is a batch (`CCStringGetEnumerator`, 1467-1491). -/
def isBatch : Str → Bool
  | .tagged _ => false
  | .info i => i.enc = .ascii

/-- The character of a batch at an index. -/
def batchRead (s : Str) (k : Nat) : Option Nat := match s with
  | .info i => do return ofChar (← i.read k)
  | .tagged _ => none

/-- `CCStringEnumeratorNext` (CCStringEnumerator.h 151-165) -/
def enNext (s : Str) (e : Cursor) : Option (Nat × Cursor) :=
  if isBatch s then
    if e.count = 0 then some (0, e)
    else if inc e.index < e.count then do return (← batchRead s (inc e.index), { e with index := inc e.index })
    else enActNext M s e
  else enActNext M s e

/-- `CCStringEnumeratorPrevious` (CCStringEnumerator.h 167-181) -/
def enPrev (s : Str) (e : Cursor) : Option (Nat × Cursor) :=
  if isBatch s then
    if e.count = 0 then some (0, e)
    else if e.index > 0 then do return (← batchRead s (e.index - 1), { e with index := e.index - 1 })
    else enActPrev M s e
  else enActPrev M s e

/-- `CCStringEnumeratorGetCurrent` (CCStringEnumerator.h 124-139) -/
def enCurrent (s : Str) (e : Cursor) : Option Nat :=
  if isBatch s then (if e.count ≠ 0 then batchRead s e.index else some 0) else some e.cur

/-! ## Observing -/

/-- The loop of `CCStringCopyCharacters` (897-900, 920-923): the bytes written for at most `n` characters from the cursor on; `c` is the current one. -/
def copyLoop (s : Str) (e : Cursor) (c : Nat) : Nat → Option (List Nat)
  | 0 => some []
  | n + 1 =>
    if c ≠ 0 ∧ e.index ≠ sizeMax then do
      let (c', e') ← enNext M s e
      return Utf8.copyChar c ++ (← copyLoop s e' c' n)
    else some []

/-- `for (Loop = 0; Loop < n; Loop++) CCStringEnumeratorNext` (894, 914) -/
def skip (s : Str) (e : Cursor) : Nat → Option Cursor
  | 0 => some e
  | n + 1 => do skip s (← enNext M s e).2 n

/-- The enumerator is moved to `off`, then at most `n` characters are written (890-903, 911-926). -/
def copyFrom (s : Str) (off n : Nat) : Option (List Nat) := do
  let e ← skip M s (← enHead M s).2 off
  copyLoop M s e (← enCurrent s e) n

/-- `CCStringCopyCharacters` (881-932): the bytes from `Buffer` up to the returned pointer. -/
def copyCharacters (s : Str) (off n : Nat) : Option (List Nat) := do
  if off + n ≤ (← getLength M s) then
    match s with
    | .tagged _ => copyFrom M s off n
    | .info i => match i.enc with
      | .ascii => strncpy (i.bytes.drop off) n
      | .utf8 => do
        let _ ← skip M s (← enHead M s).2 off
        if sub64 (← getSize M s) off = n then strncpy (i.bytes.drop off) n
        else copyFrom M s off n
  else none

/-- `CCStringGetCharacterAtIndex` (1300-1329) -/
def charAt (s : Str) (k : Nat) : Option Nat := do
  if k < (← getLength M s) then
    match s with
    | .tagged w => tagChar M w k
    | .info i => match i.enc with
      | .ascii => return ofChar (← i.bytes[k]?)
      | .utf8 => do
        let e ← skip M s (← enHead M s).2 k
        enCurrent s e
  else none

/-- One byte of the hash (1252-1254); `char` is signed. -/
def hashByte (h : UInt32) (b : Nat) : UInt32 :=
  let h := h + UInt32.ofNat (ofChar b)
  let h := h + (h <<< 10)
  h ^^^ (h >>> 6)

/-- The end of the hash (1258-1260) -/
def hashEnd (h : UInt32) : UInt32 :=
  let h := h + (h <<< 3)
  let h := h ^^^ (h >>> 11)
  h + (h <<< 15)

/-- The loop of `CCStringGetHash` (1245-1256); `fuel` is the length. -/
def hashLoop (s : Str) (e : Cursor) (c : Nat) (h : UInt32) : Nat → Option UInt32
  | 0 => if c ≠ 0 ∧ e.index ≠ sizeMax then none else some h
  | n + 1 =>
    if c ≠ 0 ∧ e.index ≠ sizeMax then do
      let h := (Utf8.copyChar c).foldl hashByte h
      let (c', e') ← enNext M s e
      hashLoop s e' c' h n
    else some h

/-- `CCStringGetHash` (1183-1287) without its caches -/
def getHash (s : Str) : Option UInt32 := do
  let e := (← enHead M s).2
  return hashEnd (← hashLoop M s e (← enCurrent s e) 0 (← getLength M s))

/-- The loops of `CCStringEqual` (1393) and `CCStringHasPrefix` (1428): both enumerators move on while they give the same character, not 0.  The cursors at the end. -/
def sameNext (s t : Str) (e f : Cursor) : Nat → Option (Cursor × Cursor)
  | 0 => none
  | n + 1 => do
    let (c, e) ← enNext M s e
    let (d, f) ← enNext M t f
    if c = d ∧ c ≠ 0 then sameNext s t e f n else return (e, f)

/-- The loop of `CCStringHasSuffix` (1459) -/
def samePrev (s t : Str) (e f : Cursor) : Nat → Option (Cursor × Cursor)
  | 0 => none
  | n + 1 => do
    let (c, e) ← enPrev M s e
    let (d, f) ← enPrev M t f
    if c = d ∧ c ≠ 0 then samePrev s t e f n else return (e, f)

/-- `strncmp(a, b, n) == 0` -/
def strncmp : List Nat → List Nat → Nat → Option Bool
  | _, _, 0 => some true
  | a :: as, b :: bs, n + 1 => if a = b then (if a = 0 then some true else strncmp as bs n) else some false
  | _, _, _ + 1 => none

/-- The end of `CCStringEqual` (1380-1399): sizes, lengths and hashes agree; are the characters the same? -/
def equalChars (s t : Str) (n : Nat) : Option Bool := match s, t with
  | .info i, .info j => strncmp i.bytes j.bytes n
  | _, _ => do
    let e := (← enHead M s).2
    let f := (← enHead M t).2
    if (← enCurrent s e) = (← enCurrent t f) then
      let r ← sameNext M s t e f ((← getLength M s) + 2)
      return r.1.index = sizeMax
    else return false

/-- `CCStringEqual` (1370-1403), for strings that are not the same word and not tagged with the same set (1380-1400). -/
def equalSlow (s t : Str) : Option Bool := do
  let n ← getSize M s
  if n = (← getSize M t) then
    if (← getLength M s) = (← getLength M t) then
      if (← getHash M s) = (← getHash M t) then equalChars M s t n else return false
    else return false
  else return false

/-- `CCStringEqual` (1370-1403).  `same`: the two pointers are equal. -/
def equal (same : Bool) (s t : Str) : Option Bool := match s, t with
  | .tagged w, .tagged v => if w = v then some true else if setOf w = setOf v then some false else equalSlow M s t
  | _, _ => if same then some true else equalSlow M s t

/-- The end of `CCStringHasPrefix` (1421-1431).  Moving on takes at most two turns more than the string has characters. -/
def prefixSlow (s t : Str) : Option Bool := do
  let e := (← enHead M s).2
  let f := (← enHead M t).2
  if (← enCurrent s e) = (← enCurrent t f) then
    let r ← sameNext M s t e f ((← getLength M s) + 2)
    return r.2.index = sizeMax
  else return false

/-- The end of `CCStringHasSuffix` (1452-1462) -/
def suffixSlow (s t : Str) : Option Bool := do
  let (c, e) ← enTail M s
  let (d, f) ← enTail M t
  if c = d then
    let r ← samePrev M s t e f ((← getLength M s) + 2)
    return r.2.index = sizeMax
  else return false

/-- `CCStringHasPrefix` (1405-1434) -/
def hasPrefix (same : Bool) (s t : Str) : Option Bool := do
  if ← equal M same s t then return true
  else match s, t with
    | .tagged w, .tagged v => if setOf w = setOf v then tagPrefix w v else prefixSlow M s t
    | _, _ => prefixSlow M s t

/-- `CCStringHasSuffix` (1436-1465) -/
def hasSuffix (same : Bool) (s t : Str) : Option Bool := do
  if ← equal M same s t then return true
  else match s, t with
    | .tagged w, .tagged v => if setOf w = setOf v then tagSuffix w v else suffixSlow M s t
    | _, _ => suffixSlow M s t

/-- The inner loop of `CCStringFindSubstring` (1359-1362): `r` characters of the substring, of length `k`, are left. -/
def matchLoop (s t : Str) (k loop loop2 : Nat) : Nat → Option Bool
  | 0 => some false
  | r + 1 => do
    if (← charAt M s loop) = (← charAt M t loop2) then (if loop2 + 1 = k then return true else matchLoop s t k (loop + 1) (loop2 + 1) r)
    else return false

/-- The outer loop of `CCStringFindSubstring` (1357-1363).  `fuel` is the length of the string. -/
def findLoop (s t : Str) (n k i : Nat) : Nat → Option (Option Nat)
  | 0 => some none
  | fuel + 1 => if n - i ≥ k ∧ i < n then do
      if ← matchLoop M s t k i 0 k then return some i else findLoop s t n k (i + 1) fuel
    else some none

/-- `CCStringFindSubstring` (1331-1368): `some none` is `SIZE_MAX`. -/
def find (s : Str) (i : Nat) (t : Str) : Option (Option Nat) := do
  let n ← getLength M s
  if i ≤ n then
    let k ← getLength M t
    if n ≠ 0 ∧ n - i ≥ k then
      match s, t with
      | .tagged w, .tagged v => if setOf w = setOf v then tagFind w n i v k else findLoop M s t n k i n
      | _, _ => findLoop M s t n k i n
    else return none
  else none

/-! ## Creating -/

/-- `Hint & CCStringHintCopy` (CCString.h 131-132) -/
inductive Mode
  /-- neither: the buffer is used, and not freed -/
  | ref
  /-- `CCStringHintFree`: the buffer is used, and freed with the string -/
  | take
  /-- `CCStringHintCopy` -/
  | copy
  deriving DecidableEq, Repr

/-- `CCStringCreateFromString` (343-390), of a buffer with these readable bytes; `pre` is the byte before it. -/
def createFromString (e : Enc) (m : Mode) (pre : Option Nat) (bytes : List Nat) (size : Nat) (sameLength : Bool) : Option Str := do
  match ← createTagged M bytes size e 3 with
  | some w => return .tagged w
  | none =>
    let len := if e = .ascii then some size else none
    if m = .copy then
      let b ← strncpy bytes size
      return .info ⟨e, some size, len, true, false, some 0, b ++ [0]⟩
    else if sameLength then return .info ⟨e, some size, len, m = .take, false, pre, bytes⟩
    else
      let n ← strlen bytes
      return .info ⟨e, some size, len, m = .take, size ≠ n, pre, bytes⟩

/-- `CCStringCreate` (392-397) -/
def create (e : Enc) (m : Mode) (pre : Option Nat) (bytes : List Nat) : Option Str := do
  createFromString M e m pre bytes (← strlen bytes) true

/-- `CCStringCreateWithSize` (399-404) -/
def createWithSize (e : Enc) (m : Mode) (pre : Option Nat) (bytes : List Nat) (size : Nat) : Option Str :=
  createFromString M e m pre bytes size false

/-- `CC_STRING_ENCODING` (CCString.h 99): a constant; no mark is set. -/
def constant (e : Enc) (chars : List Nat) : Str := .info ⟨e, none, none, false, false, some 0, chars ++ [0]⟩

/-- The loop of `CCStringCreateWithCharacter` (301-308) -/
def charTagged (c : Nat) : Nat → Option (Option Nat)
  | 0 => some none
  | set + 1 => do
    match ← charInMap c (M (set + 1)).2 (mapSize (set + 1)) with
    | some d => return some ((set + 1) ||| (← shl d 2))
    | none => charTagged c set

/-- `CCStringCreateWithCharacter` (299-341).  The byte stored at 331 is the low byte of the character. -/
def createWithCharacter (c : Nat) : Option Str := do
  match ← charTagged M c 3 with
  | some w => return .tagged w
  | none =>
    let size := Utf8.charSize c
    let len := some (if size > 0 then 1 else 0)
    if size > 1 then return .info ⟨.utf8, some size, len, false, false, some 0, Utf8.copyChar c ++ [0]⟩
    else return .info ⟨.ascii, some size, len, false, false, some 0, [c % 256, 0]⟩

/-! ## Editing.  `hdr` is the byte before a buffer from `CCMalloc`. -/

variable (hdr : Nat)

/-- Bytes written to a new buffer of `n` bytes. -/
def fill (n : Nat) (bs : List Nat) : Option (List Nat) := if bs.length ≤ n then some bs else none

/-- `CCStringCopy` (817-826).  A string that owns its characters is retained. -/
def copy : Str → Option Str
  | .tagged w => some (.tagged w)
  | .info i => if i.free then some (.info i) else do createWithSize M i.enc .copy i.pre i.bytes (← getSize M (.info i))

/-- `CCStringCopySubstring` (828-859) -/
def copySubstring (s : Str) (off n : Nat) : Option Str := do
  if off + n ≤ (← getLength M s) then
    match s with
    | .tagged w => return .tagged (← tagSub w off n)
    | .info i =>
      if !i.unsafeBuf ∧ i.enc = .ascii then createWithSize M i.enc .copy (if off = 0 then i.pre else i.bytes[off - 1]?) (i.bytes.drop off) n
      else
        let b ← fill ((← getSize M s) + 1) ((← copyCharacters M s off n) ++ [0])
        create M i.enc .take (some hdr) b
  else none

/-- `CCStringCreateWithoutRange` (453-490) -/
def without (s : Str) (off n : Nat) : Option Str := do
  let len ← getLength M s
  if off + n ≤ len then
    if n = 0 then copy M s
    else if off + n = len then copySubstring M hdr s 0 off
    else match s with
      | .tagged w => return .tagged (← tagWithout w len off n)
      | .info i =>
        let a ← copyCharacters M s 0 off
        let b ← copyCharacters M s (off + n) (len - (off + n))
        let b ← fill (sub64 (← getSize M s) n + 1) (a ++ b ++ [0])
        create M i.enc .take (some hdr) b
  else none

/-- The general case of `CCStringCreateByInsertingString` (436-450) -/
def insertSlow (s : Str) (i : Nat) (t : Str) (n k : Nat) : Option Str := do
  let a ← copyCharacters M s 0 i
  let b ← copyCharacters M t 0 k
  let c ← if i < n then copyCharacters M s i (n - i) else some []
  let b ← fill ((← getSize M s) + (← getSize M t) + 1) (a ++ b ++ c ++ [0])
  create M (if getEncoding M s = .utf8 then .utf8 else getEncoding M t) .take (some hdr) b

/-- `CCStringCreateByInsertingString` (406-451) -/
def insert (s : Str) (i : Nat) (t : Str) : Option Str := do
  let n ← getLength M s
  if i ≤ n then
    let k ← getLength M t
    match s, t with
    | .tagged w, .tagged v =>
      if setOf w = setOf v ∧ n + k < charMax (setOf w) then return .tagged (← tagInsert w n i v k) else insertSlow M hdr s i t n k
    | _, _ => insertSlow M hdr s i t n k
  else none

/-- The second halves of the turns of the replacing functions (506-511, 521-526): a null replacement inserts nothing. -/
def insertMaybe (s : Str) (i : Nat) : Option Str → Option Str
  | none => some s
  | some t => insert M hdr s i t

/-- `CCStringGetLength` of a replacement, 0 for null (503, 512). -/
def lengthMaybe : Option Str → Option Nat
  | none => some 0
  | some t => getLength M t

/-- The loop of `CCStringCreateByReplacingOccurrencesOfString` (515-526): `i` and `len` are `Index` and `StringLength`.  `fuel` is the length of the string. -/
def replaceLoop (occ : Str) (rep : Option Str) (k r : Nat) (s : Str) (i len : Nat) : Nat → Option Str
  | 0 => some s
  | fuel + 1 =>
    if i + r < len then do
      match ← find M s (i + r) occ with
      | none => return s
      | some j => replaceLoop occ rep k r (← insertMaybe M hdr (← without M hdr s j k) j rep) j (len - k + r) fuel
    else some s

/-- `CCStringCreateByReplacingOccurrencesOfString` (492-529) -/
def replace (s occ : Str) (rep : Option Str) : Option Str := do
  match ← find M s 0 occ with
  | none => copy M s
  | some j =>
    let k ← getLength M occ
    let s' ← insertMaybe M hdr (← without M hdr s j k) j rep
    let r ← lengthMaybe M rep
    replaceLoop M hdr occ rep k r s' j (← getLength M s') (← getLength M s)

/-- The loop of `CCStringFindClosestSubstring` (531-545), from the `found`-th of the substrings on; `best` is the smallest index so far and whose it is. -/
def closestLoop (s : Str) (i : Nat) (best : Option (Nat × Nat)) (found : Nat) : List Str → Option (Option (Nat × Nat))
  | [] => some best
  | t :: ts => do
    match ← find M s i t, best with
    | none, best => closestLoop s i best (found + 1) ts
    | some j, none => closestLoop s i (some (j, found)) (found + 1) ts
    | some j, some (j', f) => closestLoop s i (if j < j' then some (j, found) else some (j', f)) (found + 1) ts

/-- `CCStringFindClosestSubstring` (531-545) and `...FromCollection` (591-605), which does the same with the elements of a collection: the index and which of the strings it is. -/
def closest (s : Str) (i : Nat) (occs : List Str) : Option (Option (Nat × Nat)) := closestLoop M s i none 0 occs

/-- The loop of `CCStringCreateByReplacingOccurrencesOfGroupedStrings` (570-586) and `...GroupedEntries` (632-649) -/
def replaceGroupedLoop (occs : List Str) (reps : List (Option Str)) (s : Str) (i r len : Nat) : Nat → Option Str
  | 0 => some s
  | fuel + 1 =>
    if i + r < len then do
      match ← closest M s (i + r) occs with
      | none => return s
      | some (j, f) =>
        let s' ← insertMaybe M hdr (← without M hdr s j (← getLength M (← occs[f]?))) j (← reps[f]?)
        replaceGroupedLoop occs reps s' j (← lengthMaybe M (← reps[f]?)) (← getLength M s') fuel
    else some s

/-- `CCStringCreateByReplacingOccurrencesOfGroupedStrings` (547-589) and `...GroupedEntries` (607-652) -/
def replaceGrouped (s : Str) (occs : List Str) (reps : List (Option Str)) : Option Str := do
  match ← closest M s 0 occs with
  | none => copy M s
  | some (j, f) =>
    let s' ← insertMaybe M hdr (← without M hdr s j (← getLength M (← occs[f]?))) j (← reps[f]?)
    replaceGroupedLoop M hdr occs reps s' j (← lengthMaybe M (← reps[f]?)) (← getLength M s') (← getLength M s)

/-- The loops of `CCStringCreateByJoiningStrings` (664-685) and `...JoiningEntries` (704-726) -/
def joinLoop (sep : Option Str) (s : Str) : List Str → Option Str
  | [] => some s
  | t :: ts => do
    let s ← insertMaybe M hdr s (← getLength M s) sep
    joinLoop sep (← insert M hdr s (← getLength M s) t) ts

/-- `CCStringCreateByJoiningStrings` (654-689) and `...JoiningEntries` (691-731) -/
def join (ts : List Str) (sep : Option Str) : Option Str := match ts with
  | [] => create M .ascii .ref none [0]
  | t :: ts => do joinLoop M hdr sep (← copy M t) ts

/-- The loop of `CCStringCreateBySeparatingOccurrencesOfString` (748-754), and the last element (756).  `Offset` and `Index` are both `off` at its head. -/
def splitLoop (s occ : Str) (k off : Nat) : Nat → Option (List Str)
  | 0 => none
  | fuel + 1 => do
    match ← find M s off occ with
    | none => return [← copySubstring M hdr s off (sub64 (← getLength M s) off)]
    | some j => return (← copySubstring M hdr s off (j - off)) :: (← splitLoop s occ k (j + k) fuel)

/-- `CCStringCreateBySeparatingOccurrencesOfString` (733-759) -/
def split (s occ : Str) : Option (List Str) := do
  match ← find M s 0 occ with
  | none => return [← copy M s]
  | some j =>
    let k ← getLength M occ
    return (← copySubstring M hdr s 0 j) :: (← splitLoop M hdr s occ k (j + k) ((← getLength M s) + 1))

/-- The loop of `CCStringCreateBySeparatingOccurrencesOfGroupedStrings` (778-784) and `...GroupedEntries` (806-812) -/
def splitGroupedLoop (s : Str) (occs : List Str) (off : Nat) : Nat → Option (List Str)
  | 0 => none
  | fuel + 1 => do
    match ← closest M s off occs with
    | none => return [← copySubstring M hdr s off (sub64 (← getLength M s) off)]
    | some (j, f) => return (← copySubstring M hdr s off (j - off)) :: (← splitGroupedLoop s occs (j + (← getLength M (← occs[f]?))) fuel)

/-- `CCStringCreateBySeparatingOccurrencesOfGroupedStrings` (761-787) and `...GroupedEntries` (789-815) -/
def splitGrouped (s : Str) (occs : List Str) : Option (List Str) := do
  match ← closest M s 0 occs with
  | none => return [← copy M s]
  | some (j, f) => return (← copySubstring M hdr s 0 j) :: (← splitGroupedLoop M hdr s occs (j + (← getLength M (← occs[f]?))) ((← getLength M s) + 1))

end
end Verif.Str
