/-!
# Model of printing reflected integers (`CommonC/Reflect.c`:459-550)

Memory is a list of bytes; reading outside of it is a fault (`none`).  `fprintf` with `%jd`, `%ju` and `%.2hhx` is its result.
`intmax_t` has 8 bytes and `size_t` 64 bits.
-/
namespace Verif.PrintInt

/-- `CCReflectEndian` (Reflect.h:93-97). -/
inductive Endian where
  | native
  | big
  | little
deriving DecidableEq, Repr

/-- The byte order of the machine (`CC_HARDWARE_ENDIAN_LITTLE`, `CC_HARDWARE_ENDIAN_BIG`). -/
inductive Host where
  | little
  | big
deriving DecidableEq, Repr

/-- `Invert` and `Start` (Reflect.c:465-504); -1 is `SIZE_MAX`. -/
def layout (host : Host) (e : Endian) (size : Nat) : Nat × Nat :=
  match host, e with
  | .little, .native | .little, .little => (1, 0)
  | .little, .big => (2 ^ 64 - 1, (size + (2 ^ 64 - 1)) % 2 ^ 64)
  | .big, .native | .big, .big => (1, 0)
  | .big, .little => (2 ^ 64 - 1, (size + (2 ^ 64 - 1)) % 2 ^ 64)

/-- `PrintInvert` and `PrintStart` (Reflect.c:465-504). -/
def printLayout (host : Host) (e : Endian) (size : Nat) : Nat × Nat :=
  match host, e with
  | .little, .native | .little, .little => (2 ^ 64 - 1, (size + (2 ^ 64 - 1)) % 2 ^ 64)
  | .little, .big => (1, 0)
  | .big, .native | .big, .big => (1, 0)
  | .big, .little => (2 ^ 64 - 1, (size + (2 ^ 64 - 1)) % 2 ^ 64)

/-- `((const uint8_t*)Data)[Start + (Invert * Loop)]` (Reflect.c:510, 516, 533, 546) with the wrapping of `size_t`. -/
def byteAt (data : List Nat) (l : Nat × Nat) (loop : Nat) : Option Nat :=
  data[(l.2 + l.1 * loop) % 2 ^ 64]?

/-- The copying loops (Reflect.c:514-517, 531-534): byte `loop` of `Value` becomes the byte read. -/
def fill (read : Nat → Option Nat) : Nat → Nat → List Nat → Option (List Nat)
  | 0, _, mem => some mem
  | left + 1, loop, mem =>
    match read loop with
    | none => none
    | some b => fill read left (loop + 1) (mem.set loop b)

/-- Number whose bytes are given least significant first. -/
def leNat : List Nat → Nat
  | [] => 0
  | b :: bs => b + 256 * leNat bs

/-- The bytes of a machine word as a number. -/
def wordValue (host : Host) (mem : List Nat) : Nat :=
  match host with
  | .little => leNat mem
  | .big => leNat mem.reverse

/-- Reading a 64 bit word as `intmax_t`. -/
def toSigned (v : Nat) : Int := if v < 2 ^ 63 then (v : Int) else (v : Int) - 2 ^ 64

/-- `%jd`, `%ju`. -/
def decimal (v : Int) : List Char :=
  if v < 0 then '-' :: Nat.toDigits 10 v.natAbs else Nat.toDigits 10 v.natAbs

/-- Digit of `%x`. -/
def hexDigit (n : Nat) : Char := Nat.digitChar n

/-- `%.2hhx` of a byte. -/
def hexByte (b : Nat) : List Char := [hexDigit (b / 16), hexDigit (b % 16)]

/-- The hexadecimal loop (Reflect.c:544-547). -/
def hexLoop (read : Nat → Option Nat) : Nat → Nat → Option (List Char)
  | 0, _ => some []
  | left + 1, loop =>
    match read loop with
    | none => none
    | some b => match hexLoop read left (loop + 1) with
      | none => none
      | some cs => some (hexByte b ++ cs)

/-- The hexadecimal text (Reflect.c:542-547). -/
def printHex (host : Host) (e : Endian) (size : Nat) (data : List Nat) : Option (List Char) :=
  match hexLoop (byteAt data (printLayout host e size)) size 0 with
  | none => none
  | some cs => some ('0' :: 'x' :: cs)

/-- Printing of an integer (Reflect.c:459-550) without the indentation in front of it. -/
def printInt (host : Host) (e : Endian) (sign : Bool) (size : Nat) (data : List Nat) : Option (List Char) :=
  if sign then
    if size ≤ 8 then
      match byteAt data (layout host e size) ((size + (2 ^ 64 - 1)) % 2 ^ 64) with
      | none => none
      | some top =>
        match fill (byteAt data (layout host e size)) size 0 (List.replicate 8 (if top / 128 ≠ 0 then 255 else 0)) with
        | none => none
        | some mem => some (decimal (toSigned (wordValue host mem)))
    else printHex host e size data
  else
    if size ≤ 8 then
      match fill (byteAt data (layout host e size)) size 0 (List.replicate 8 0) with
      | none => none
      | some mem => some (decimal (wordValue host mem))
    else printHex host e size data

end Verif.PrintInt
