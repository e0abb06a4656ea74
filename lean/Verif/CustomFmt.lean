import Verif.LogMsg

/-!
# Model of the format specifiers of arrays, deletion, strings and characters (`CommonC/CustomFormatSpecifiers.c` 178-464)

They are filters of specifiers (`LogMsg.Filter`): they get the format from the specifier on, the message and the arguments, and return how much of the format they
took.  A string is a list of characters without its terminator.  `none` is undefined behaviour: an argument of another type than the one that is taken, an access outside
an array or through `NULL`, an `int` that overflows.  `snprintf` of one value is a function of the specifier and the value.  That the message grows is assumed to succeed;
whether the other allocations succeed is a parameter.
-/
namespace Verif.CustomFmt
open LogFormat LogMsg

/-- The types of the elements of an array (`CC_PRINT_ARRAY`, 283-351). -/
inductive Ty where
  | uchar | ushort | uint | ulong | ullong | uintmax | size | ptrdiff | float | double | ldouble | wchar | ptr
  deriving DecidableEq, Repr

/-- An argument: a `size_t`, a `char *`, an array of values of a type, a `CCString` (`none` if it is `NULL`, and whether `CCStringGetBuffer` of it is `NULL`), a `CCChar`. -/
inductive Arg (V : Type) where
  | size (n : Nat)
  | text (s : List Char)
  | array (ty : Ty) (vs : List V)
  | string (s : Option (Bool × List Char))
  | char (c : Nat)
  deriving DecidableEq, Repr

variable {V : Type}

/-- `va_arg(*Data->args, size_t)`. -/
def takeSize {β : Type} (args : List (Arg V)) (k : Nat → List (Arg V) → Option β) : Option β :=
  match args with
  | .size n :: args => k n args
  | _ => none

/-- `va_arg(*Data->args, char *)`. -/
def takeText {β : Type} (args : List (Arg V)) (k : List Char → List (Arg V) → Option β) : Option β :=
  match args with
  | .text s :: args => k s args
  | _ => none

/-- `va_arg(*Data->args, CCString)`. -/
def takeString {β : Type} (args : List (Arg V)) (k : Option (Bool × List Char) → List (Arg V) → Option β) : Option β :=
  match args with
  | .string s :: args => k s args
  | _ => none

/-- `va_arg(*Data->args, CCChar)`. -/
def takeChar {β : Type} (args : List (Arg V)) (k : Nat → List (Arg V) → Option β) : Option β :=
  match args with
  | .char c :: args => k c args
  | _ => none

/-- `Data->msg->write` (the result is not looked at). -/
def put (b : Buf) (s : List Char) : Option Buf := (write b s true).map (·.2)

/-- A number in `size_t` (192-193, 378-379). -/
def sizeNumber (ds : List Char) : Nat := ds.foldl (fun n c => (n * 10 + digitVal c) % 2 ^ 64) 0

/-- The type of the elements (283-351), `none` if nothing is printed.  The lengths are the numbers of the characters, as in `LogFormat`. -/
def elementType (conv : Char) (length : Nat) : Option Ty :=
  if conv ∈ ['d', 'i', 'o', 'u', 'x', 'X'] then
    some (if length = 104 * 256 + 104 then .uchar
      else if length = 104 then .ushort
      else if length = 108 then .ulong
      else if length = 108 * 256 + 108 then .ullong
      else if length = 106 then .uintmax
      else if length = 122 then .size
      else if length = 116 then .ptrdiff
      else .uint)
  else if conv ∈ ['f', 'F', 'e', 'E', 'g', 'G', 'a', 'A'] then
    some (if length = 108 then .double else if length = 76 then .ldouble else .float)
  else if conv = 'c' then some (if length = 108 then .wchar else .uchar)
  else if conv = 's' ∨ conv = 'p' then some .ptr
  else none

/-- `FormattedString` grows for a text of `n` characters if it has to and can (236-242). -/
def grown (cap : Option Nat) (n : Nat) (ok : Bool) : Option Nat := if cap.getD 0 < n ∧ ok then some n else cap

/-- `CC_PRINT_ARRAY` (231-252): `i` is `Loop`, `left` how many elements are still to be printed.  `cap` is `FormattedStringLength`, `none` while `FormattedString` is
`NULL` (the length is `0` then, and `snprintf` puts a terminator through `NULL`).  When it cannot grow the text is cut, its length is not: `strncpy` fills it with
terminators. -/
def printArray (render : List Char → V → List Char) (ok : Nat → Bool) (spec sep : List Char) (vs : List V) : Nat → Nat → Option Nat → Buf → Option Buf
  | _, 0, _, b => some b
  | i, left + 1, cap, b => do
    let v ← vs[i]?
    let out := render spec v
    match grown cap out.length (ok (i + 1)) with
    | none => none
    | some k => do
      let b ← put b (out.take k ++ List.replicate (out.length - k) '\x00')
      if left = 0 then some b
      else do
        let b ← put b sep
        printArray render ok spec sep vs (i + 1) left (some k) b

/-- `CCArrayFormatSpecifier` once the separator is read (217-361): `f` is the format of the elements, `at_` where it begins.  (A `*` in it takes an argument that
`snprintf` is not given.) -/
def arrayElements (render : List Char → V → List Char) (ok : Nat → Bool) (count : Nat) (sep f : List Char) (at_ : Nat) (b : Buf) (args : List (Arg V)) :
    Option (Nat × Buf × List (Arg V)) := do
  let (n, i) ← parse f
  if count = 0 then some (at_ + n + 1, b, args)
  else if ok 0 = false then some (0, b, args)
  else
    match args with
    | .array ty vs :: args =>
      match f[n]? with
      | none => some (at_ + n + 1, b, args)
      | some c =>
        match elementType c i.length with
        | none => some (at_ + n + 1, b, args)
        | some t =>
          if t ≠ ty ∨ i.widthArg ∨ i.precisionArg then none
          else do
            let b ← printArray render ok ('%' :: f.take (n + 1)) sep vs 0 count none b
            some (at_ + n + 1, b, args)
    | _ => none

/-- `CCArrayFormatSpecifier` once the number of elements is read (198-215): `f` is what follows it, `at_` where that begins. -/
def arraySeparator (render : List Char → V → List Char) (ok : Nat → Bool) (count : Nat) (f : List Char) (at_ : Nat) (b : Buf) (args : List (Arg V)) :
    Option (Nat × Buf × List (Arg V)) :=
  match f with
  | [] => some (0, b, args)
  | c :: cs =>
    if c = ']' then arrayElements render ok count [',', ' '] cs (at_ + 1) b args
    else if c = '*' then
      takeText args fun sep args => if cs.head? = some ']' then arrayElements render ok count sep cs.tail (at_ + 2) b args else some (0, b, args)
    else if ']' ∈ c :: cs then
      let sep := (c :: cs).takeWhile (· ≠ ']')
      arrayElements render ok count sep ((c :: cs).drop (sep.length + 1)) (at_ + sep.length + 1) b args
    else some (0, b, args)

/-- `CCArrayFormatSpecifier` (178-363). -/
def arrayFilter (render : List Char → V → List Char) (ok : Nat → Bool) : Filter (Arg V) := fun spec b args =>
  match spec with
  | '%' :: '[' :: f =>
    if f.head? = some '*' then
      takeSize args fun n args => arraySeparator render ok n f.tail 3 b args
    else if (f.takeWhile digit).length ≠ 0 then
      arraySeparator render ok (sizeNumber (f.takeWhile digit)) (f.drop (f.takeWhile digit).length) (2 + (f.takeWhile digit).length) b args
    else some (0, b, args)
  | _ => some (0, b, args)

/-- `CCDeletionFormatSpecifier` (365-392). -/
def deletionFilter : Filter (Arg V) := fun spec b args =>
  match spec with
  | '%' :: f =>
    if f.head? = some '*' then
      takeSize args fun n args =>
        if f.tail.take 3 = ['D', 'E', 'L'] then do
          let b ← remove b n
          some (5, b, args)
        else some (0, b, args)
    else
      let ds := f.takeWhile digit
      if (f.drop ds.length).take 3 = ['D', 'E', 'L'] then do
        let b ← remove b (if ds.length = 0 then 1 else sizeNumber ds)
        some (1 + ds.length + 3, b, args)
      else some (0, b, args)
  | _ => some (0, b, args)

/-- What is written for a string (400-427): the characters of one without a buffer are copied; `ok` says whether there is memory for that. -/
def stringText (ok : Bool) : Option (Bool × List Char) → List Char
  | none => "(null)".toList
  | some (false, s) => s
  | some (true, s) => if ok then s else "(write failure)".toList

/-- `CCStringFormatSpecifier` (394-433). -/
def stringFilter (ok : Bool) : Filter (Arg V) := fun spec b args =>
  if spec.take 2 = ['%', 'S'] then
    takeString args fun s args => do
      let b ← put b (stringText ok s)
      some (2, b, args)
  else some (0, b, args)

/-- What is written for a character (441-458).  `encode` is `snprintf` with `%lc`, `none` if it returns a negative number. -/
def charText (encode : Nat → Option (List Char)) (c : Nat) : List Char :=
  match encode c with
  | some (x :: xs) => x :: xs
  | _ => '\\' :: (toString c).toList

/-- `CCCharFormatSpecifier` (435-464); `ok`: whether there is memory. -/
def charFilter (encode : Nat → Option (List Char)) (ok : Bool) : Filter (Arg V) := fun spec b args =>
  if spec.take 2 = ['%', 'C'] then
    takeChar args fun c args => do
      let b ← put b (if ok then charText encode c else "(write failure)".toList)
      some (2, b, args)
  else some (0, b, args)

end Verif.CustomFmt
