import Verif.Reflect
/-!
# Model of the validators of maximum and minimum (`CommonC/ValidateMaximum.c`, `CommonC/ValidateMinimum.c`)

The two files are the same but for the results; `less` is the result for data below the limit (true for the maximum).  Data
is a list of bytes, as many as its type has; an index outside of it is `none`, as is a failing assertion.  Simplified: a
little endian machine.
-/
namespace Verif.Limit

open Verif.VarInt (Endian)
open Verif.Reflect (Ty Mem Env bytes)

/-- `size_t` has 64 bits. -/
def W : Nat := 2 ^ 64

/-- `[Start + (Invert * i)]` (54-80): `Invert` is 1 and `Start` 0, or for swapped bytes `-1` and `Size - 1`, all in `size_t`. -/
def at? (e : Endian) (xs : List UInt8) (i : Nat) : Option UInt8 :=
  if e.low then xs[(0 + 1 * i) % W]? else xs[((xs.length + (W - 1)) % W + (W - 1) * i) % W]?

/-- `NegA`, `NegB` (82-83): the byte is read whether there is a sign or not. -/
def neg (e : Endian) (sign : Bool) (xs : List UInt8) : Option Bool :=
  (at? e xs ((xs.length + (W - 1)) % W)).map fun b => b &&& 0x80 != 0 && sign

/-- The loops over the bytes that only the longer number has (95-98, 103-106, 137-140, 145-148), from `lo + n` down to `lo`:
are all of them `fill`? -/
def rest (get : Nat → Option UInt8) (fill : UInt8) (lo : Nat) : Nat → Option Bool
  | 0 => some true
  | n + 1 => (get (lo + n)).bind fun b => if b ≠ fill then some false else rest get fill lo n

/-- The loops over the bytes of both numbers (109-116, 151-158) and the return behind them. -/
def compare (a b : Nat → Option UInt8) (less : Bool) : Nat → Option Bool
  | 0 => some true
  | n + 1 => (a n).bind fun x => (b n).bind fun y =>
      if x < y then some less else if x > y then some !less else compare a b less n

/-- Numbers of the same sign (87-119, 129-161): `more` is the result when the data has further bytes that are not `fill`. -/
def sameSign (less : Bool) (fill : UInt8) (more : Bool) (ea eb : Endian) (a b : List UInt8) : Option Bool :=
  if b.length < a.length then
    (rest (at? ea a) fill b.length (a.length - b.length)).bind fun all =>
      if all then compare (at? ea a) (at? eb b) less b.length else some more
  else
    (rest (at? eb b) fill a.length (b.length - a.length)).bind fun all =>
      if all then compare (at? ea a) (at? eb b) less a.length else some !more

/-- Both are integers (46-165). -/
def integers (less : Bool) (ea : Endian) (sa : Bool) (a : List UInt8) (eb : Endian) (sb : Bool) (b : List UInt8) : Option Bool :=
  (neg ea sa a).bind fun na => (neg eb sb b).bind fun nb =>
    if na then if nb then sameSign less 0xff less ea eb a b else some less
    else if nb then some !less
    else sameSign less 0 (!less) ea eb a b

/-- Both are floating point numbers (173-216).  `cmp` is the comparison `A <= B` or `A >= B` of the machine, of numbers of
these bytes, lowest first; the types are `float`, `double` and `long double` of 16 bytes. -/
def floats (cmp : List UInt8 → List UInt8 → Bool) (ea : Endian) (a : List UInt8) (eb : Endian) (b : List UInt8) : Option Bool :=
  if a.length ≤ 0xff ∧ b.length ≤ 0xff ∧ a.length ∈ [4, 8, 16] ∧ b.length ∈ [4, 8, 16] then
    some (cmp (if ea.low then a else a.reverse) (if eb.low then b else b.reverse))
  else none

/-- `CCReflectValidateMaximum`, `CCReflectValidateMinimum` (39-229) of data of type `t` and the limit of type `u`. -/
def validate (less : Bool) (cmp : List UInt8 → List UInt8 → Bool) (t : Ty) (a : List UInt8) (u : Ty) (b : List UInt8) : Option Bool :=
  match u, t with
  | .integer _ eb sb _, .integer _ ea sa _ => integers less ea sa a eb sb b
  | .float _ eb, .float _ ea => floats cmp ea a eb b
  | _, _ => none

end Verif.Limit
