import Verif.PrintInt
/-!
# Model of printing reflected data (`CommonC/Reflect.c`:198-209, 420-785)

A type is a tree; the type a pointer points to is looked up by its number in an environment, so types and data may be cyclic. Opaque types (whose mapper is
a function of the user), enumerables and floating point numbers are left out. Memory is a function from addresses to bytes; reading where there is no byte is
a fault (`none`). The text of a type (`CCReflectDetailedPrintType`) and the text of `%p` are parameters.
-/
namespace Verif.PrintData
open Verif.PrintInt (Host Endian printInt wordValue)

mutual
/-- The types (Reflect.h:73-160): integer, pointer to the type of a number, struct, array and validator. -/
inductive Ty where
  | int (e : Endian) (sign : Bool) (size : Nat)
  | pointer (to : Nat)
  | struct (fields : Fields)
  | array (elem : Ty) (elemSize : Nat) (count : Nat)
  | validator (base : Ty)
/-- The fields of a struct (`CCReflectStructField`, Reflect.h:128-132): name, offset and type. -/
inductive Fields where
  | nil
  | cons (name : Option (List Char)) (offset : Nat) (ty : Ty) (rest : Fields)
end

/-- What printing is given: machine, memory, types pointers point to (`none` is `void`), indentation, the text of types and of `%p`. -/
structure Ctx where
  host : Host
  env : Nat → Option Ty
  ind : List Char
  typeText : Nat → Ty → Nat → List Char
  ptrText : Nat → List Char

/-- Memory. -/
abbrev Mem := Nat → Option Nat

/-- `n` bytes from an address on. -/
def readBytes (m : Mem) (a : Nat) : Nat → Option (List Nat)
  | 0 => some []
  | n + 1 => match m a with
    | none => none
    | some b => match readBytes m (a + 1) n with
      | none => none
      | some bs => some (b :: bs)

/-- `*(void**)Data` (Reflect.c:442-457). -/
def readPtr (h : Host) (m : Mem) (a : Nat) : Option Nat :=
  match readBytes m a 8 with
  | none => none
  | some bs => some (wordValue h bs)

/-- `CCReflectPrintIndent` (Reflect.c:198-209): the text; afterwards nothing is to be indented. -/
def indent (c : Ctx) (n : Nat) (si : Bool) : List Char := if si then (List.replicate n c.ind).flatten else []

/-- Printing of the target of a pointer: number of the type, address, `IndentCount`, `ShouldIndent`. -/
abbrev Deref := Nat → Nat → Nat → Bool → Option (List Char × Bool)

/-- The text in front of a compound literal (Reflect.c:425-438) and `ShouldIndent` behind it. -/
def opening (c : Ctx) (levels : Nat) (ty : Ty) (ic : Nat) (si : Bool) : List Char :=
  indent c ic si ++ ('(' :: c.typeText levels ty ic) ++ (indent c ic false ++ [')', '{', '\n'])

/-- The text behind a compound literal (Reflect.c:765-774); the count given is the one inside of the literal. -/
def closing (c : Ctx) (ic : Nat) : List Char := '\n' :: (indent c (ic - 1) true ++ ['}'])

/-- Text of the name of a field (Reflect.c:653-659). -/
def label : Option (List Char) → List Char
  | none => []
  | some n => '.' :: (n ++ [' ', '=', ' '])

/-- The text behind a field, given the fields after it (Reflect.c:663). -/
def fieldSep : Fields → List Char
  | .nil => []
  | .cons _ _ _ _ => [',', '\n']

/-- The loop over the elements (Reflect.c:699-718): `one` prints an element, `left` of the `count` elements are left. -/
def elems (c : Ctx) (count : Nat) (one : Nat → Bool → Option (List Char × Bool)) (ic : Nat) : Nat → Bool → Option (List Char × Bool)
  | 0, si => some ([], si)
  | left + 1, si =>
    match one (count - (left + 1)) false with
    | none => none
    | some (t, si') =>
      match elems c count one ic left (if left ≠ 0 ∧ (count - left) % 16 = 0 then true else si') with
      | none => none
      | some (t', s) =>
        some (indent c ic si ++ t ++ ((if left = 0 then [] else if (count - left) % 16 = 0 then [',', '\n'] else [',', ' ']) ++ t'), s)

mutual
/-- `CCReflectDetailedPrint` (Reflect.c:420-775): the text and `ShouldIndent` afterwards. -/
def print (c : Ctx) (m : Mem) (deref : Deref) (levels : Nat) : Ty → Nat → Bool → Nat → Bool → Option (List Char × Bool)
  | .int e sign size, a, true, ic, si =>
    match readBytes m a size with
    | none => none
    | some bs => match printInt c.host e sign size bs with
      | none => none
      | some t => some (opening c levels (.int e sign size) ic si ++ (indent c (ic + 1) true ++ t) ++ closing c (ic + 1), false)
  | .int e sign size, a, false, ic, si =>
    match readBytes m a size with
    | none => none
    | some bs => match printInt c.host e sign size bs with
      | none => none
      | some t => some (indent c ic si ++ t, false)
  | .pointer to, a, true, ic, si =>
    match readPtr c.host m a with
    | none => none
    | some p =>
      match (if p = 0 then some (['N', 'U', 'L', 'L'], true) else deref to p (ic + 1) true) with
      | none => none
      | some (t, _) => some (opening c levels (.pointer to) ic si ++ t ++ closing c (ic + 1), false)
  | .pointer to, a, false, ic, si =>
    match readPtr c.host m a with
    | none => none
    | some p => if p = 0 then some (['N', 'U', 'L', 'L'], si) else deref to p ic si
  | .struct fs, a, true, ic, si =>
    match printFields c m deref levels fs a (ic + 1) true with
    | none => none
    | some (t, _) => some (opening c levels (.struct fs) ic si ++ t ++ closing c (ic + 1), false)
  | .struct fs, a, false, ic, si =>
    match printFields c m deref levels fs a (ic + 1) true with
    | none => none
    | some (t, si') => some (indent c ic si ++ ['{', '\n'] ++ t ++ ('\n' :: (indent c ic si' ++ ['}'])), false)
  | .array el sz n, a, true, ic, si =>
    match elems c n (fun i s => print c m deref levels el (a + sz * i) false (ic + 1) s) (ic + 1) n true with
    | none => none
    | some (t, _) => some (opening c levels (.array el sz n) ic si ++ t ++ closing c (ic + 1), false)
  | .array el sz n, a, false, ic, si =>
    match elems c n (fun i s => print c m deref levels el (a + sz * i) false ic s) ic n false with
    | none => none
    | some (t, si') => some (indent c ic si ++ ['{', ' '] ++ t ++ (indent c ic si' ++ [' ', '}']), false)
  | .validator base, a, true, ic, si =>
    match print c m deref levels base a false (ic + 1) true with
    | none => none
    | some (t, _) => some (opening c levels (.validator base) ic si ++ t ++ closing c (ic + 1), false)
  | .validator base, a, false, ic, si => print c m deref levels base a false ic si
/-- The loop over the fields (Reflect.c:649-666). -/
def printFields (c : Ctx) (m : Mem) (deref : Deref) (levels : Nat) : Fields → Nat → Nat → Bool → Option (List Char × Bool)
  | .nil, _, _, si => some ([], si)
  | .cons name off ty rest, a, ic, si =>
    match print c m deref levels ty (a + off) false ic false with
    | none => none
    | some (t, _) => match printFields c m deref levels rest a ic true with
      | none => none
      | some (t', si') =>
        some (indent c ic si ++ label name ++ t ++ (fieldSep rest ++ t'), si')
end

/-- The largest level (`CC_REFLECT_PRINT_LEVELS_MAX`, Reflect.c:93). -/
def levelsMax : Nat := 20

/-- Printing of the target of a pointer that is not NULL (Reflect.c:443-454), `left` levels below the largest. -/
def derefAt (c : Ctx) (m : Mem) : Nat → Deref
  | 0, _, p, _, si => some (['(', 'v', 'o', 'i', 'd', '*', ')'] ++ c.ptrText p, si)
  | left + 1, to, p, ic, si =>
    match c.env to with
    | none => some (['(', 'v', 'o', 'i', 'd', '*', ')'] ++ c.ptrText p, si)
    | some ty =>
      match print c m (derefAt c m left) (levelsMax - left) ty p true ic false with
      | none => none
      | some (t, s) => some (indent c ic si ++ '&' :: t, s)

/-- `CCReflectPrint` (Reflect.c:777-785); the memory of the zone is not modelled. -/
def reflectPrint (c : Ctx) (m : Mem) (ty : Ty) (a : Nat) : Option (List Char) :=
  match print { c with ind := ['\t'] } m (derefAt { c with ind := ['\t'] } m levelsMax) 0 ty a true 0 true with
  | none => none
  | some (t, _) => some (t ++ ['\n'])

end Verif.PrintData
