/-!
# Model of the binary encoding of numbers (`CommonC/Reflect.c` 984-1381)

The stream is a list of bytes; a read of bytes that are not there is `none`, as is everything undefined and every failing
assertion.  Simplified: a little endian machine.
-/
namespace Verif.VarInt

/-- `CCReflectEndian` (Reflect.h 93-97). -/
inductive Endian where
  | native | big | little
  deriving DecidableEq, Repr

/-- Are the bytes stored from the lowest? -/
def Endian.low : Endian → Bool
  | .big => false
  | _ => true

/-- `Start + Invert * i` (1062-1094, 1269-1301): the bytes from the lowest to the highest, and back. -/
def view (e : Endian) (xs : List UInt8) : List UInt8 := if e.low then xs else xs.reverse

/-- `CCReflectSerializeBinaryEndianValue` (984-1058). -/
def writeFixed (src dst : Endian) (xs : List UInt8) : Option (List UInt8) :=
  if src.low = dst.low then some xs
  else if xs.length ≤ 64 then some xs.reverse
  else none

/-- `CCReflectDeserializeBinaryEndianValue` (1191-1265) of `n` bytes. -/
def readFixed (dst src : Endian) (n : Nat) (inp : List UInt8) : Option (List UInt8 × List UInt8) :=
  if n ≤ inp.length then
    if src.low = dst.low then some (inp.take n, inp.drop n)
    else if n ≤ 64 then some ((inp.take n).reverse, inp.drop n)
    else none
  else none

/-- `0x7f >> Mask` for `Mask = k % 8`. -/
def low (k : Nat) : UInt8 := (0x7f : UInt8) >>> UInt8.ofNat (k % 8)

/-- `(InvertMultiplier * x) - InvertAdjust` (1108-1109); only the low eight bits are used. -/
def inverted (sign : Bool) (x : UInt8) : UInt8 := (if sign then 0xff else 1) * x - (if sign then 1 else 0)

/-- `Max` (1113-1115, 1145-1147): the index of the highest byte that is not zero. -/
def maxIdx (ys : List UInt8) : Nat → Nat
  | 0 => 0
  | n + 1 => if ys.getD (n + 1) 0 = 0 then maxIdx ys n else n + 1

/-- The loop over the bytes and what follows it (1117-1140, 1149-1172): `cur` is what `Buffer[Count]` holds already, `k` is
`Count` for unsigned and `Count + 1` for signed numbers. -/
def encodeLoop (cur : UInt8) (k : Nat) : List UInt8 → List UInt8
  | [] => []
  | [x] =>
    if x &&& ~~~low k ≠ 0 then [cur ||| (x &&& low k) ||| 0x80, (x &&& ~~~low k) >>> 1] else [cur ||| (x &&& low k)]
  | x :: y :: xs => (cur ||| (x &&& low k) ||| 0x80) :: encodeLoop ((x &&& ~~~low k) >>> 1) (k + 1) (y :: xs)

/-- `Sign` (1106). -/
def signOf (signed : Bool) (ys : List UInt8) : Bool := signed && ys.getLastD 0 >>> 7 != 0

/-- `CCReflectSerializeBinaryVariableLengthIntegerValue` (1060-1176).  Undefined for a number of no bytes, and when the 65th
byte of `Buffer` is needed. -/
def writeVar (e : Endian) (signed : Bool) (xs : List UInt8) : Option (List UInt8) :=
  if xs = [] ∨ 64 < xs.length then none
  else
    let s := signOf signed (view e xs)
    let ys := (view e xs).map (inverted s)
    let out := encodeLoop (if s then 0x40 else 0) (if signed then 1 else 0) (ys.take (maxIdx ys (ys.length - 1) + 1))
    if out.length ≤ 64 then some out else none

/-- The loop of `CCReflectDeserializeBinaryVariableLengthIntegerValue` (1309-1331, 1346-1366); `d` is one for signed numbers. -/
def decodeLoop (n d : Nat) : List UInt8 → Nat → List UInt8 → Option (List UInt8 × List UInt8)
  | _, _, [] => none
  | data, count, v :: inp =>
    let data := if count < n then data.modify count (· ||| (v &&& low (count + d))) else data
    let rem := v &&& ~~~low (count + d)
    if rem ≠ 0 then
      let data := if 0 < count ∧ count - 1 < n then data.modify (count - 1) (· ||| rem <<< 1) else data
      if rem &&& 0x80 ≠ 0 then decodeLoop n d data (count + 1) inp else some (data, inp)
    else some (if n ≤ count then List.replicate n 0xff else data, inp)

/-- `CCReflectDeserializeBinaryVariableLengthIntegerValue` (1267-1368) of `n` bytes. -/
def readVar (e : Endian) (signed : Bool) (n : Nat) (inp : List UInt8) : Option (List UInt8 × List UInt8) :=
  if n = 0 ∧ signed then none
  else match decodeLoop n (if signed then 1 else 0) (List.replicate n 0) 0 inp with
    | none => none
    | some (ys, rest) =>
      if signed then
        let ys := ys.modify (n - 1) (· &&& 0x7f)
        some (view e (if inp.headD 0 &&& 0x40 ≠ 0 then ys.map (~~~ ·) else ys), rest)
      else some (view e ys, rest)

/-- `CCReflectSerializeBinaryIntegerValue` (1178-1189). -/
def writeInt (src : Endian) (xs : List UInt8) (signed fixed : Bool) (prefer : Nat) (dst : Endian) : Option (List UInt8) :=
  if prefer ≤ xs.length ∨ fixed = false then writeVar src signed xs else writeFixed src dst xs

/-- `CCReflectDeserializeBinaryIntegerValue` (1370-1381). -/
def readInt (dst : Endian) (n : Nat) (signed fixed : Bool) (prefer : Nat) (src : Endian) (inp : List UInt8) :
    Option (List UInt8 × List UInt8) :=
  if prefer ≤ n ∨ fixed = false then readVar dst signed n inp else readFixed dst src n inp

end Verif.VarInt
