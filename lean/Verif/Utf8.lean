/-!
# Model of the UTF-8 functions of `CCString.c` (289-297, 1662-1738)

A character is a natural number (`CCChar`, 32 bits), a byte a natural number below 256.  Reading outside the given bytes and a failing assertion are `none`.
-/
namespace Verif.Utf8

/-- `CCCharSize` (289-297) -/
def charSize (c : Nat) : Nat := if c = 0 then 0 else if c < 0x80 then 1 else if c < 0x800 then 2 else if c < 0x10000 then 3 else 4

/-- `CCStringFirstByteMarkUTF8` (1716) -/
def mark (n : Nat) : Nat := [0x00, 0x00, 0xc0, 0xe0, 0xf0, 0xf8, 0xfc].getD n 0

/-- `(c | 0x80) & 0xbf`, stored in a `char` (1725-1731) -/
def cont (c : Nat) : Nat := ((c ||| 0x80) &&& 0xbf) % 256

/-- `c | CCStringFirstByteMarkUTF8[Size]`, stored in a `char` (1734) -/
def first (c n : Nat) : Nat := (c ||| mark n) % 256

/-- `CCStringCopyCharacterUTF8` (1718-1738): the bytes written; their number is returned. -/
def copyChar (c : Nat) : List Nat := match charSize c with
  | 4 => [first (c >>> 6 >>> 6 >>> 6) 4, cont (c >>> 6 >>> 6), cont (c >>> 6), cont c]
  | 3 => [first (c >>> 6 >>> 6) 3, cont (c >>> 6), cont c]
  | 2 => [first (c >>> 6) 2, cont c]
  | 1 => [first c 1]
  | _ => []

/-- `CCStringTrailingBytesUTF8` (1679-1688), by its ranges. -/
def trailing (b : Nat) : Nat := if b < 0xc0 then 0 else if b < 0xe0 then 1 else if b < 0xf0 then 2 else if b < 0xf8 then 3 else if b < 0xfc then 4 else 5

/-- `CCStringOffsetsUTF8` (1690) -/
def offset (n : Nat) : Nat := [0, 0x3080, 0xe2080, 0x03c82080, 0xfa082080, 0x82082080].getD n 0

/-- The loop over the leading bytes (1700): the sum, and the bytes that are left. -/
def sumBytes (c : Nat) : Nat → List Nat → Option (Nat × List Nat)
  | 0, bs => some (c, bs)
  | n + 1, b :: bs => sumBytes (((c + b) <<< 6) % 2 ^ 32) n bs
  | _ + 1, [] => none

/-- Subtraction of 32 bit words (1702). -/
def sub32 (a b : Nat) : Nat := (a + 2 ^ 32 - b) % 2 ^ 32

/-- The assertions at the end of `CCStringGetCharacterUTF8` (1704-1705). -/
def valid (c : Nat) : Bool := c ≤ 0x10ffff && (c < 0xd800 || c > 0xdfff)

/-- `CCStringGetCharacterUTF8` (1692-1707): the character and its size. -/
def getChar (bs : List Nat) : Option (Nat × Nat) := do
  let b ← bs.head?
  let extra := trailing b
  let (c, rest) ← sumBytes 0 extra bs
  let last ← rest.head?
  let c := sub32 (c + last) (offset extra)
  if valid c then some (c, extra + 1) else none

/-- The loop of `CCStringGetLengthUTF8` (1662-1669).  It moves on by at least one byte each time, so `fuel`, the number of bytes, is enough. -/
def lengthLoop (bs : List Nat) (len : Nat) : Nat → Option Nat
  | 0 => none
  | fuel + 1 => do
    let (c, n) ← getChar bs
    if c = 0 then return len else lengthLoop (bs.drop n) (len + 1) fuel

/-- `CCStringGetLengthUTF8` (1662-1669) -/
def length (bs : List Nat) : Option Nat := lengthLoop bs 0 bs.length

/-- `CCStringGetPreviousCodepointUTF8` (1709-1714) -/
def previous (bs : List Nat) : Nat → Option Nat
  | 0 => some 0
  | i + 1 => do if (← bs[i + 1]?) &&& 0xc0 = 0x80 then previous bs i else return i + 1

end Verif.Utf8
