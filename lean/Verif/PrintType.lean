import Verif.PrintInt
/-!
# Model of printing types (`CommonC/Reflect.c`:114-196, 198-413)

Types are numbers that are looked up in a table, so they may be cyclic. Running is given fuel: `none` means that it is not over yet. The machine has 2, 4 and 8
byte `short`, `int` and `long`, 8 byte `double` and 16 byte `long double`.
-/
namespace Verif.PrintType
open Verif.PrintInt (Host Endian)

/-- The types (Reflect.h:73-175) with what is printed of them; types they refer to are numbers. -/
inductive Node where
  | pointer (to : Nat)
  | integer (e : Endian) (sign : Bool) (size : Nat) (fixed : Bool)
  | float (e : Endian) (size : Nat)
  | struct (fields : List (Option (List Char) × Nat))
  | opaque
  | array (elem : Nat) (count : Nat)
  | validator (base : Nat)
  | enumerable (elem : Nat)

/-- The machine, the table of types, the result of `CCReflectTypeNameCallback`, the indentation, and the byte behind the last member of a `CCReflectFloat`
(`pad`), which is read as `sign` of a `CCReflectInteger`. -/
structure Ctx where
  host : Host
  node : Nat → Node
  callback : Nat → Option (List Char)
  ind : List Char
  pad : Nat → Bool

/-- The fallback names of integers (Reflect.c:124-171). -/
def integerName (sign : Bool) (size : Nat) (fixed : Bool) : Option (List Char) :=
  match fixed, size, sign with
  | true, 1, false => some ['u', 'i', 'n', 't', '8', '_', 't']
  | true, 1, true => some ['i', 'n', 't', '8', '_', 't']
  | true, 2, false => some ['u', 'i', 'n', 't', '1', '6', '_', 't']
  | true, 2, true => some ['i', 'n', 't', '1', '6', '_', 't']
  | true, 4, false => some ['u', 'i', 'n', 't', '3', '2', '_', 't']
  | true, 4, true => some ['i', 'n', 't', '3', '2', '_', 't']
  | true, 8, false => some ['u', 'i', 'n', 't', '6', '4', '_', 't']
  | true, 8, true => some ['i', 'n', 't', '6', '4', '_', 't']
  | false, 1, false => some ['u', 'n', 's', 'i', 'g', 'n', 'e', 'd', ' ', 'c', 'h', 'a', 'r']
  | false, 1, true => some ['c', 'h', 'a', 'r']
  | false, 2, false => some ['u', 'n', 's', 'i', 'g', 'n', 'e', 'd', ' ', 's', 'h', 'o', 'r', 't']
  | false, 2, true => some ['s', 'h', 'o', 'r', 't']
  | false, 4, false => some ['u', 'n', 's', 'i', 'g', 'n', 'e', 'd', ' ', 'i', 'n', 't']
  | false, 4, true => some ['i', 'n', 't']
  | false, 8, false => some ['u', 'n', 's', 'i', 'g', 'n', 'e', 'd', ' ', 'l', 'o', 'n', 'g']
  | false, 8, true => some ['l', 'o', 'n', 'g']
  | _, _, _ => none

/-- The fallback names of floating point numbers (Reflect.c:173-189). -/
def floatName : Nat → Option (List Char)
  | 4 => some ['f', 'l', 'o', 'a', 't']
  | 8 => some ['d', 'o', 'u', 'b', 'l', 'e']
  | 16 => some ['l', 'o', 'n', 'g', ' ', 'd', 'o', 'u', 'b', 'l', 'e']
  | _ => none

/-- `CCReflectTypeName` (Reflect.c:114-196). -/
def typeName (c : Ctx) (i : Nat) : Option (List Char) :=
  match c.callback i with
  | some n => some n
  | none => match c.node i with
    | .integer _ sign size fixed => integerName sign size fixed
    | .float _ size => floatName size
    | _ => none

/-- The byte order in front of a number (Reflect.c:235-247, 272-284). -/
def order (host : Host) (e : Endian) : List Char :=
  match host, e with
  | .little, .big => ['b', 'i', 'g', ' ']
  | .big, .little => ['l', 'i', 't', 't', 'l', 'e', ' ']
  | _, _ => []

/-- An integer without a name (Reflect.c:256-266); `size * 8` wraps. -/
def integerText (sign : Bool) (size : Nat) (fixed : Bool) : List Char :=
  (if sign then ['i', 'n', 't'] else ['u', 'i', 'n', 't']) ++ Nat.toDigits 10 (size * 8 % 2 ^ 64) ++
    (if fixed then ['_', 'n', 'o', 'n', 'f', 'i', 'x', 'e', 'd'] else [])

/-- The innermost type of an array and the counts (Reflect.c:361-370): the outermost count is first. -/
def dims (c : Ctx) : Nat → Nat → Option (List Nat × Nat)
  | 0, _ => none
  | fuel + 1, i =>
    match c.node i with
    | .array el n => match dims c fuel el with
      | none => none
      | some (ns, t) => some (n :: ns, t)
    | _ => some ([], i)

/-- `[%zu]` for every count (Reflect.c:366-370). -/
def dimsText : List Nat → List Char
  | [] => []
  | n :: ns => ['['] ++ Nat.toDigits 10 n ++ [']'] ++ dimsText ns

/-- Name of a field behind its type (Reflect.c:319-330). -/
def fieldName : Option (List Char) → List Char
  | none => [' ', ';', '\n']
  | some n => [' '] ++ n ++ [';', '\n']

/-- `CCReflectPrintIndent` with TRUE (Reflect.c:198-209). -/
def indent (c : Ctx) (n : Nat) : List Char := (List.replicate n c.ind).flatten

/-- The loop over the fields (Reflect.c:313-331), `one` printing the type of a field. -/
def fieldsText (c : Ctx) (ic : Nat) (one : Nat → Option (List Char)) : List (Option (List Char) × Nat) → Option (List Char)
  | [] => some []
  | (name, i) :: fs =>
    match one i with
    | none => none
    | some t => match fieldsText c ic one fs with
      | none => none
      | some t' => some (indent c (ic + 1) ++ t ++ fieldName name ++ t')

/-- `CCReflectDetailedPrintType` (Reflect.c:211-407); `ShouldIndent` is not used by it. -/
def printType (c : Ctx) : Nat → Nat → Nat → Nat → Option (List Char)
  | 0, _, _, _ => none
  | fuel + 1, levels, i, ic =>
    if levels > 20 then some []
    else
      match c.node i, typeName c i with
      | .pointer _, some n => some n
      | .pointer to, none => match printType c fuel levels to ic with
        | none => none
        | some t => some (t ++ ['*'])
      | .integer e _ _ _, some n => some (order c.host e ++ n)
      | .integer e sign size fixed, none => some (order c.host e ++ integerText sign size fixed)
      | .float e _, some n => some (order c.host e ++ n)
      | .float e size, none => some (order c.host e ++ (if c.pad i then ['l', 'o', 'a', 't'] else ['f', 'l', 'o', 'a', 't']) ++
          Nat.toDigits 10 (size * 8 % 2 ^ 64))
      | .struct _, some n => some n
      | .struct fs, none =>
        if levels < 20 then
          match fieldsText c ic (fun j => printType c fuel (levels + 1) j (ic + 1)) fs with
          | none => none
          | some t => some (['s', 't', 'r', 'u', 'c', 't', ' ', '{', '\n'] ++ t ++ (indent c ic ++ ['}']))
        else some ['s', 't', 'r', 'u', 'c', 't']
      | .opaque, some n => some n
      | .opaque, none => some ['?']
      | .array _ _, some n => some n
      | .array _ _, none =>
        match dims c fuel i with
        | none => none
        | some (ns, el) => match printType c fuel levels el ic with
          | none => none
          | some t => some (t ++ dimsText ns)
      | .validator base, name => match printType c fuel levels base ic with
        | none => none
        | some t => match name with
          | some n => some (n ++ ['('] ++ t ++ [')'])
          | none => some t
      | .enumerable _, some n => some n
      | .enumerable el, none => match printType c fuel levels el ic with
        | none => none
        | some t => some (['C', 'C', 'E', 'n', 'u', 'm', 'e', 'r', 'a', 'b', 'l', 'e', '('] ++ t ++ [')'])

end Verif.PrintType
