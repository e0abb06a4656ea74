/-!
# Specification: format specifiers, and numbers in binary
-/
namespace Verif.LogFormat.Spec

/-- A number of a specifier: absent, written out, or taken from the arguments. -/
inductive Num where
  | absent
  | digits (ds : List Char)
  | star
  deriving DecidableEq

/-- The lengths. -/
inductive Len where
  | none | hh | h | l | ll | j | z | t | L
  deriving DecidableEq

/-- A format specifier: `%[flags][width][.precision][length]conversion`. -/
structure Specifier where
  flags : List Char := []
  width : Num := .absent
  precision : Num := .absent
  length : Len := .none
  conv : Char
  deriving DecidableEq

def isDigit (c : Char) : Prop := c ∈ ['0', '1', '2', '3', '4', '5', '6', '7', '8', '9']

/-- The number that decimal digits write. -/
def number (ds : List Char) : Nat := ds.foldl (fun n c => 10 * n + (c.toNat - '0'.toNat)) 0

def Num.text : Num → List Char
  | .absent => []
  | .digits ds => ds
  | .star => ['*']

def Num.value : Num → Nat
  | .digits ds => number ds
  | _ => 0

def Len.text : Len → List Char
  | .none => [] | .hh => ['h', 'h'] | .h => ['h'] | .l => ['l'] | .ll => ['l', 'l'] | .j => ['j'] | .z => ['z'] | .t => ['t'] | .L => ['L']

/-- The character constant of a length, `0` if there is none. -/
def Len.code : Len → Nat
  | .none => 0 | .hh => 'h'.toNat * 256 + 'h'.toNat | .h => 'h'.toNat | .l => 'l'.toNat | .ll => 'l'.toNat * 256 + 'l'.toNat
  | .j => 'j'.toNat | .z => 'z'.toNat | .t => 't'.toNat | .L => 'L'.toNat

/-- Everything between the `%` and the conversion. -/
def Specifier.middle (s : Specifier) : List Char :=
  s.flags ++ s.width.text ++ (if s.precision = .absent then [] else '.' :: s.precision.text) ++ s.length.text

/-- The specifier as it is written. -/
def Specifier.text (s : Specifier) : List Char := '%' :: s.middle ++ [s.conv]

/-- The characters a conversion cannot be. -/
def reserved : List Char := ['-', '+', ' ', '#', '0', '1', '2', '3', '4', '5', '6', '7', '8', '9', '*', '.', 'h', 'l', 'j', 'z', 't', 'L']

/-- A specifier as C allows them: a width is a number that does not begin with `0`; numbers fit in an `int`. -/
structure Specifier.WF (s : Specifier) : Prop where
  flags : ∀ c ∈ s.flags, c ∈ ['-', '+', ' ', '#', '0']
  width : ∀ ds, s.width = .digits ds → ds ≠ [] ∧ ds.head? ≠ some '0' ∧ ∀ c ∈ ds, isDigit c
  precision : ∀ ds, s.precision = .digits ds → ∀ c ∈ ds, isDigit c
  conv : s.conv ∉ reserved

/-! ## Binary -/

/-- The number that binary digits write. -/
def binNumber (ds : List Char) : Nat := ds.foldl (fun n c => 2 * n + (c.toNat - '0'.toNat)) 0

/-- The `n` digits that write a number below `2 ^ n`. -/
def IsBinary (ds : List Char) (n v : Nat) : Prop := ds.length = n ∧ (∀ c ∈ ds, c = '0' ∨ c = '1') ∧ binNumber ds = v

/-- The shortest digits that write a number. -/
def IsShortest (ds : List Char) (v : Nat) : Prop := (∀ c ∈ ds, c = '0' ∨ c = '1') ∧ binNumber ds = v ∧ ds ≠ [] ∧ (ds.head? = some '0' → ds = ['0'])

/-- How many bits the argument of a length has. -/
def Len.bits : Len → Nat
  | .hh => 8 | .h => 16 | .none => 32 | .L => 32 | _ => 64

/-- Digits with a precision, in a field of a width. -/
def field (left zero : Bool) (width precision : Nat) (ds : List Char) : List Char :=
  let ds := List.replicate (precision - ds.length) '0' ++ ds
  if left then ds ++ List.replicate (width - ds.length) ' ' else List.replicate (width - ds.length) (if zero then '0' else ' ') ++ ds

end Verif.LogFormat.Spec
