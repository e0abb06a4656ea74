import Verif.Utf8
/-!
# Model of the tagged strings of `CCString.c`, 64 bit build, `CC_STRING_TAGGED_NUL_CHAR_ALWAYS_0`

A tagged string is one machine word: the two low bits are the map set (1, 2 or 3), above them are the indices of the characters in the map of that set, 7, 6 or 5 bits each.
Words are natural numbers.  `none` is undefined behaviour: a shift by 64 or more, or a read outside of a map.
-/
namespace Verif.Str

/-- `CCStringEncoding` (CCString.h 116-119) -/
inductive Enc
  | ascii
  | utf8
  deriving DecidableEq, Repr

/-- `Maps` (135-142): for each set its encoding and its map. -/
abbrev Maps := Nat → Enc × List Nat

/-- `Map127` (110-119) -/
def map127 : List Nat := List.range 127

/-- `Map63` (121-127) -/
def map63 : List Nat := [0, 45, 43, 47, 42, 40, 41, 32, 33, 61, 60, 62, 46, 48, 49, 50, 51, 52, 53, 54, 55, 56, 57,
  97, 98, 99, 100, 101, 102, 103, 104, 105, 106, 107, 108, 109, 110, 111, 112, 113, 114, 115, 116, 117, 118, 119, 120, 121, 122,
  65, 66, 67, 68, 69, 70, 71, 73, 78, 79, 80, 82, 83, 84]

/-- `Map31` (129-133) -/
def map31 : List Nat := [0, 45, 33, 64, 38, 97, 98, 99, 100, 101, 102, 103, 104, 105, 106, 107, 108, 109, 110, 111, 112, 113, 114, 115, 116, 117, 118, 119, 120, 121, 122]

/-- `Maps` (135-142) as initialised. -/
def defaultMaps : Maps
  | 1 => (.ascii, map127)
  | 2 => (.ascii, map63)
  | _ => (.ascii, map31)

/-- `x << n` on words: undefined for 64 and more. -/
def shl (x n : Nat) : Option Nat := if n < 64 then some ((x <<< n) % 2 ^ 64) else none

/-- `x >> n` on words: undefined for 64 and more. -/
def shr (x n : Nat) : Option Nat := if n < 64 then some (x >>> n) else none

/-- `a - b` on words. -/
def sub64 (a b : Nat) : Nat := if b ≤ a then a - b else 2 ^ 64 - (b - a) % 2 ^ 64

/-- `UINTPTR_MAX` -/
def ones : Nat := 2 ^ 64 - 1

/-- `String & CCStringTaggedMask` -/
def setOf (w : Nat) : Nat := w % 4

/-- `CCStringTaggedBitSize` (193-196) -/
def bits (set : Nat) : Nat := 8 - set

/-- `CCStringTaggedMapSize` (198-201) -/
def mapSize (set : Nat) : Nat := 127 >>> (set - 1)

/-- `CCStringTaggedCharacterMax` (253-264) -/
def charMax (set : Nat) : Nat := [8, 10, 12].getD (set - 1) 0

/-- The loop of `CCStringCharacterInMap` (173-186), `n` entries from `i`. -/
def findFrom (map : List Nat) (c i : Nat) : Nat → Option (Option Nat)
  | 0 => some none
  | n + 1 => do if (← map[i]?) = c then some (some i) else findFrom map c (i + 1) n

/-- `CCStringCharacterInMap` (173-186) -/
def charInMap (c : Nat) (map : List Nat) (n : Nat) : Option (Option Nat) := findFrom map c 0 n

/-- A `char` converted to `CCChar`: signed, so the sign is extended. -/
def ofChar (b : Nat) : Nat := if b < 128 then b else b + 2 ^ 32 - 256

/-- `(Index << (Bits * Loop)) << 2` (217, 239) -/
def place (i n : Nat) : Option Nat := do shl (← shl i n) 2

/-- The ASCII loop of `CCStringCreateTaggedFromMapSet` (210-226): `n` more bytes from `i`.  The inner `none` is the result 0. -/
def packAscii (map : List Nat) (set : Nat) (bytes : List Nat) (i w : Nat) : Nat → Option (Option Nat)
  | 0 => some (some w)
  | n + 1 => do
    match ← charInMap (ofChar (← bytes[i]?)) map (mapSize set) with
    | some k => packAscii map set bytes (i + 1) (w ||| (← place k (bits set * i))) n
    | none => some none

/-- The UTF-8 loop of `CCStringCreateTaggedFromMapSet` (228-248).  Each turn moves on by at least one byte, so `fuel = Length` turns are enough. -/
def packUtf8 (map : List Nat) (set : Nat) (bytes : List Nat) (length loop count w : Nat) : Nat → Option (Option Nat)
  | 0 => if loop < length then none else some (some w)
  | fuel + 1 =>
    if loop < length then do
      let (c, size) ← Utf8.getChar (bytes.drop loop)
      if count < (64 - 2) / bits set then
        match ← charInMap c map (mapSize set) with
        | some k => packUtf8 map set bytes length (loop + size) (count + 1) (w ||| (← place k (bits set * count))) fuel
        | none => some none
      else some none
    else some (some w)

/-- `CCStringCreateTaggedFromMapSet` (203-251) -/
def createFromSet (M : Maps) (set : Nat) (bytes : List Nat) (length : Nat) : Enc → Option (Option Nat)
  | .ascii => packAscii (M set).2 set bytes 0 set length
  | .utf8 => packUtf8 (M set).2 set bytes length 0 0 set length

/-- `CCStringCreateTagged` (266-279): the loop from `set` down to 1. -/
def createTagged (M : Maps) (bytes : List Nat) (length : Nat) (e : Enc) : Nat → Option (Option Nat)
  | 0 => some none
  | set + 1 => do
    if length ≤ charMax (set + 1) * (if e = .utf8 then 4 else 1) then
      match ← createFromSet M (set + 1) bytes length e with
      | some w => some (some w)
      | none => createTagged M bytes length e set
    else createTagged M bytes length e set

/-- `CCStringGetLength` of a tagged string (981-1138), set 127. -/
def length127 (w : Nat) : Nat :=
  if w &&& 0x3ffffffc0000000 ≠ 0 then
    if w &&& 0x3fff00000000000 ≠ 0 then (if w &&& 0x3f8000000000000 ≠ 0 then 8 else 7)
    else (if w &&& 0xfe000000000 ≠ 0 then 6 else 5)
  else if w &&& 0x3ffffffc ≠ 0 then
    if w &&& 0x3fff0000 ≠ 0 then (if w &&& 0x3f800000 ≠ 0 then 4 else 3)
    else (if w &&& 0xfe00 ≠ 0 then 2 else 1)
  else 0

/-- `CCStringGetLength` of a tagged string (981-1138), set 63. -/
def length63 (w : Nat) : Nat :=
  if w &&& 0x3fffffff00000000 ≠ 0 then
    if w &&& 0x3ffc000000000000 ≠ 0 then (if w &&& 0x3f00000000000000 ≠ 0 then 10 else 9)
    else if w &&& 0x3ffc000000000 ≠ 0 then (if w &&& 0x3f00000000000 ≠ 0 then 8 else 7)
    else 6
  else if w &&& 0xfffffffc ≠ 0 then
    if w &&& 0xfff00000 ≠ 0 then (if w &&& 0xfc000000 ≠ 0 then 5 else 4)
    else if w &&& 0xfff00 ≠ 0 then (if w &&& 0xfc000 ≠ 0 then 3 else 2)
    else 1
  else 0

/-- `CCStringGetLength` of a tagged string (981-1138), set 31. -/
def length31 (w : Nat) : Nat :=
  if w &&& 0x3fffffff00000000 ≠ 0 then
    if w &&& 0x3fff800000000000 ≠ 0 then
      if w &&& 0x3ff0000000000000 ≠ 0 then (if w &&& 0x3e00000000000000 ≠ 0 then 12 else 11)
      else 10
    else if w &&& 0x7fff00000000 ≠ 0 then
      if w &&& 0x7fe000000000 ≠ 0 then (if w &&& 0x7c0000000000 ≠ 0 then 9 else 8)
      else 7
    else 0
  else if w &&& 0xfffffffc ≠ 0 then
    if w &&& 0xfffe0000 ≠ 0 then
      if w &&& 0xffc00000 ≠ 0 then (if w &&& 0xf8000000 ≠ 0 then 6 else 5)
      else 4
    else if w &&& 0x1fffc ≠ 0 then
      if w &&& 0x1ff80 ≠ 0 then (if w &&& 0x1f000 ≠ 0 then 3 else 2)
      else 1
    else 0
  else 0

/-- `CCStringGetLength` of a tagged string (981-1138) -/
def tagLength (w : Nat) : Nat := match setOf w with
  | 1 => length127 w
  | 2 => length63 w
  | 3 => length31 w
  | _ => 0

/-- The loop of `CCStringGetSize` of a tagged string (955-958), `n` characters from `i`; `w` is already shifted. -/
def tagSizeLoop (map : List Nat) (set w i size : Nat) : Nat → Option Nat
  | 0 => some size
  | n + 1 => do tagSizeLoop map set w (i + 1) (size + Utf8.charSize (← map[(← shr w (bits set * i)) &&& mapSize set]?)) n

/-- `CCStringGetSize` of a tagged string (946-961) -/
def tagSize (M : Maps) (w : Nat) : Option Nat := tagSizeLoop (M (setOf w)).2 (setOf w) (w >>> 2) 0 0 (charMax (setOf w))

/-- `CCStringTaggedCharacterAtIndex` (1289-1298) -/
def tagChar (M : Maps) (w i : Nat) : Option Nat :=
  if i < charMax (setOf w) then do (M (setOf w)).2[(← shr (← shr w (bits (setOf w) * i)) 2) &&& mapSize (setOf w)]? else some 0

/-- `UINTPTR_MAX >> ((sizeof(CCString) * 8) - n)` (e.g. 427): `n` ones. -/
def lowMask (n : Nat) : Option Nat := shr ones (sub64 64 n)

/-- `CCStringCopySubstring` of a tagged string (833-839) -/
def tagSub (w off len : Nat) : Option Nat := do
  if len ≠ 0 then
    let b := bits (setOf w)
    let m ← shl (← lowMask (len * b)) (off * b)
    return (← shl (← shr ((w >>> 2) &&& m) (off * b)) 2) ||| setOf w
  else return setOf w

/-- The first `i` characters of the shifted word `s`, moved above the set (472, 427): the line is skipped for `i = 0`. -/
def tagHead (b s i : Nat) : Option Nat := if i ≠ 0 then do shl (s &&& (← lowMask (i * b))) 2 else some 0

/-- The characters from `i` on, moved up by `k` characters (432): the line is skipped for `i = n`. -/
def tagTail (b s n i k : Nat) : Option Nat := if i < n then do
    let m ← shl (← lowMask ((n - i) * b)) (i * b)
    shl (← shl (s &&& m) (k * b)) 2
  else some 0

/-- `CCStringCreateWithoutRange` of a tagged string (463-475); `n` is the length of the string. -/
def tagWithout (w n off len : Nat) : Option Nat := do
  let b := bits (setOf w)
  let s := w >>> 2
  let head ← tagHead b s off
  let m ← shl (← lowMask (sub64 n (len + off) * b)) ((len + off) * b)
  return setOf w ||| head ||| (← shl (← shr (s &&& m) (len * b)) 2)

/-- `CCStringCreateByInsertingString` of two tagged strings of one set (417-434); `n`, `k` are their lengths. -/
def tagInsert (w n i v k : Nat) : Option Nat := do
  let b := bits (setOf w)
  let s := w >>> 2
  let head ← tagHead b s i
  let mid ← shl (← shl (v >>> 2) (i * b)) 2
  let tail ← tagTail b s n i k
  return setOf w ||| head ||| mid ||| tail

/-- The loop of `CCStringFindSubstring` for tagged strings of one set (1349-1352): `fuel` is `SubstringMax - Loop`; the inner `none` is `SIZE_MAX`. -/
def tagFindLoop (b n sub mask w i : Nat) : Nat → Option (Option Nat)
  | 0 => some none
  | fuel + 1 => if i < n then (if w &&& mask = sub then some (some i) else do tagFindLoop b n sub mask (← shr w b) (i + 1) fuel) else some none

/-- `CCStringFindSubstring` for tagged strings of one set (1341-1353); `n`, `k` are the lengths. -/
def tagFind (w n i v k : Nat) : Option (Option Nat) := do
  let b := bits (setOf w)
  let sub ← shl (v >>> 2) (b * i)
  let mask ← shl (← lowMask (k * b)) (b * i)
  tagFindLoop b n sub mask (w >>> 2) i (sub64 (charMax (setOf w)) k)

/-- `CCStringHasPrefix` for tagged strings of one set (1411-1418) -/
def tagPrefix (w v : Nat) : Option Bool := do
  let mask ← shl (← lowMask (tagLength v * bits (setOf w))) 2
  return w &&& mask = v &&& mask

/-- `CCStringHasSuffix` for tagged strings of one set (1442-1449) -/
def tagSuffix (w v : Nat) : Option Bool := do
  let mask ← shl (← lowMask (tagLength v * bits (setOf w))) 2
  return (← shr w ((sub64 (tagLength w) (tagLength v) * bits (setOf w)) % 2 ^ 64)) &&& mask = v &&& mask

end Verif.Str
