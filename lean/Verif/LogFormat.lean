import Verif.BitTricks

/-!
# Model of reading format specifiers (`CommonC/Logging.c` 942-1073) and of `%B` (`CommonC/CustomFormatSpecifiers.c` 35-176)

A string is a list of characters, without the terminator.  An `int` that overflows is `none`.
-/
namespace Verif.LogFormat

/-- `CCFormatSpecifierInfo` (Logging.h 179-202). -/
structure Info where
  optFlags : Bool := false
  optWidth : Bool := false
  optPrecision : Bool := false
  optLength : Bool := false
  left : Bool := false
  plus : Bool := false
  space : Bool := false
  alt : Bool := false
  zero : Bool := false
  width : Nat := 0
  widthArg : Bool := false
  precision : Nat := 0
  precisionArg : Bool := false
  length : Nat := 0
  deriving DecidableEq, Repr

/-- `isdigit`. -/
def digit (c : Char) : Bool := decide ('0' ≤ c) && decide (c ≤ '9')

/-- `c - '0'`. -/
def digitVal (c : Char) : Nat := c.toNat - 48

/-- What the loop does next. -/
inductive Step where
  /-- `break` or `continue`, with `CurrentOption`. -/
  | next (opt : Nat) (i : Info)
  /-- `return (Format - Start) + extra`. -/
  | stop (extra : Nat) (i : Info)
  /-- A negative precision: the digits are skipped, then it returns (1024-1028). -/
  | skip (i : Info)
  /-- An `int` overflows. -/
  | bad

/-- `(value * 10) + (c - '0')`. -/
def grow (v : Nat) (c : Char) (f : Nat → Step) : Step := if v * 10 + digitVal c < 2 ^ 31 then f (v * 10 + digitVal c) else .bad

/-- The length (1031-1069).  The numbers of the characters are those of ASCII; `'hh'` and `'ll'` are two of them.  (`length << 8` may overflow from the fifth `l` on; not
modelled.) -/
def stepLength (i : Info) (c : Char) : Step :=
  if c = 'h' then .next 3 { i with optLength := true, length := i.length * 256 + 104 }
  else if c = 'l' then .next 3 { i with optLength := true, length := i.length * 256 + 108 }
  else if c = 'j' then .stop 1 { i with optLength := true, length := 106 }
  else if c = 'z' then .stop 1 { i with optLength := true, length := 122 }
  else if c = 't' then .stop 1 { i with optLength := true, length := 116 }
  else if c = 'L' then .stop 1 { i with optLength := true, length := 76 }
  else .stop 0 i

/-- The precision (1001-1029). -/
def stepPrecision (i : Info) (c : Char) : Step :=
  if c = '.' then .next 2 { i with optPrecision := true }
  else if i.optPrecision then
    if digit c then grow i.precision c fun v => .next 2 { i with precision := v }
    else if c = '*' then .next 3 { i with precisionArg := true }
    else if c = '-' then .skip { i with optPrecision := false }
    else stepLength i c
  else stepLength i c

/-- The width (984-999). -/
def stepWidth (i : Info) (c : Char) : Step :=
  if digit c then grow i.width c fun v => .next 1 { i with optWidth := true, width := v }
  else if c = '*' then .next 2 { i with optWidth := true, widthArg := true }
  else stepPrecision i c

/-- The flags (955-982). -/
def stepFlags (i : Info) (c : Char) : Step :=
  if c = '-' then .next 0 { i with optFlags := true, left := true }
  else if c = '+' then .next 0 { i with optFlags := true, plus := true }
  else if c = ' ' then .next 0 { i with optFlags := true, space := true }
  else if c = '#' then .next 0 { i with optFlags := true, alt := true }
  else if c = '0' then .next 0 { i with optFlags := true, zero := true }
  else stepWidth i c

/-- `switch (CurrentOption)` (953-1070). -/
def step (opt : Nat) (i : Info) (c : Char) : Step :=
  match opt with
  | 0 => stepFlags i c
  | 1 => stepWidth i c
  | 2 => stepPrecision i c
  | _ => stepLength i c

/-- The loop (950-1072); `pos` is `Format - Start`. -/
def scan (opt : Nat) (i : Info) (pos : Nat) : List Char → Option (Nat × Info)
  | [] => some (pos, i)
  | c :: cs =>
    match step opt i c with
    | .next opt i => scan opt i (pos + 1) cs
    | .stop extra i => some (pos + extra, i)
    | .skip i => some (pos + 1 + (cs.takeWhile digit).length, i)
    | .bad => none

/-- `CCGetFormatSpecifierInfo` (942-1073). -/
def parse : List Char → Option (Nat × Info)
  | '%' :: cs => scan 0 {} 1 cs
  | cs => scan 0 {} 0 cs

/-! ## `%B` -/

/-- `Size` (44-88), in bytes, where an `int` has 32 and a `long` 64 bits. -/
def sizeOf (length : Nat) : Nat :=
  if length = 104 * 256 + 104 then 1
  else if length = 104 then 2
  else if length = 108 then 8
  else if length = 108 * 256 + 108 then 8
  else if length = 106 then 8
  else if length = 122 then 8
  else if length = 116 then 8
  else 4

/-- `Bits` (90-95). -/
def bits (count : Nat) (value : BitVec 64) : List Char :=
  (List.range count).map fun i => if value.getLsbD (count - 1 - i) then '1' else '0'

/-- The padding loops (134-139, 147-152, 164-169): twenty characters at a time. -/
def pad (c : Char) (n : Nat) : List Char :=
  if h : n = 0 then []
  else
    let k := if n > 20 then 20 else n
    List.replicate k c ++ pad c (n - k)
termination_by n
decreasing_by split <;> omega

/-- A comparison with a `size_t` converts an `int`. -/
def toSize (i : Int) : Nat := if i < 0 then (2 ^ 64 + i).toNat else i.toNat

/-- `Formatted` with `FormattedLength` (98-125).  Undefined if the highest bit is beyond the bits there are: the characters before `Bits` are read. -/
def formatted (i : Info) (count : Nat) (value : BitVec 64) : Option (List Char) :=
  if i.alt then
    let high := (BitTricks.countSet (BitTricks.maskForValue (BitTricks.highestSet value))).toNat
    if high = 0 then some ((bits count value).take 1)
    else if high ≤ count then some ((bits count value).drop (count - high))
    else none
  else some (bits count value)

/-- What `CCBinaryFormatSpecifier` writes (90-170), once the specifier is read.  `width` and `precision` are the numbers of the specifier or
those of the arguments. -/
def binary (i : Info) (width precision : Int) (value : BitVec 64) : Option (List Char) := do
  let text ← formatted i (sizeOf i.length * 8) value
  let len := text.length
  let after := if i.optPrecision ∧ toSize precision > len then len + (toSize precision - len) else len
  let lead := if ¬i.left ∧ i.optWidth ∧ toSize width > after then pad (if i.zero then '0' else ' ') (toSize width - after) else []
  let zeros := if i.optPrecision ∧ toSize precision > len then pad '0' (toSize precision - len) else []
  let trail := if i.left ∧ i.optWidth ∧ toSize width > after then pad ' ' (toSize width - after) else []
  some (lead ++ zeros ++ text ++ trail)

/-- `CCBinaryFormatSpecifier` (35-176) of a specifier without `*`: the characters that are consumed, and what is written.  (`char` is read as an `int`; the
argument is `value`.) -/
def binarySpecifier (specifier : List Char) (value : BitVec 64) : Option (Nat × List Char) := do
  let (n, i) ← parse specifier
  if specifier[n]? = some 'B' then
    let out ← binary i i.width i.precision value
    some (n + 1, out)
  else some (0, [])

end Verif.LogFormat
