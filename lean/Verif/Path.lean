/-!
# Model of `FSPath`: converting text to components and back

`CommonC/Path.c`, `CommonC/PathComponent.c`.

Text is a list of characters; they stand for the non-zero bytes of a C string, `none` for the terminating zero byte.  Of
the characters the parser distinguishes only '/' and '.'.  Simplified: memory is available; the counters, `int` in C, are
natural numbers; components are values instead of tagged pointers (PathComponent.h 31-41, 84-92), and a component that
needs a name has one.
-/
namespace Verif.Path

/-- Text. -/
abbrev Str := List Char

/-- `FSPathComponentType` (PathComponent.h 31-41), without the invalid one. -/
inductive Ty where
  | volume | root | relRoot | dir | parent | file | ext
  deriving DecidableEq, Repr

/-- A path component with its name (PathComponent.c 33-52). -/
inductive Comp where
  | volume (n : Str) | root | relRoot | dir (n : Str) | parent | file (n : Str) | ext (n : Str)
  deriving DecidableEq, Repr

/-- `FSPathComponentGetType` (PathComponent.h 89-92). -/
def Comp.ty : Comp → Ty
  | .volume _ => .volume | .root => .root | .relRoot => .relRoot | .dir _ => .dir
  | .parent => .parent | .file _ => .file | .ext _ => .ext

/-- `FSPathComponentGetString` (PathComponent.h 84-87); `none` is the null pointer. -/
def Comp.str : Comp → Option Str
  | .volume n => some n | .dir n => some n | .file n => some n | .ext n => some n
  | _ => none

/-- Is the component part of a file name? (the loop condition Path.c 169) -/
def Comp.isName (c : Comp) : Bool :=
  c.ty = .ext || c.ty = .file

/-- `FSPathFoundComponentTypeFromInputs` (Path.c 42-88): `cur` is the current character, `first` the first one of the
pending text. -/
def found (cur first : Option Char) (slash dot chr : Nat) : Option Ty :=
  if first = some '/' then
    if (cur = none ∨ cur = some '/') ∧ slash = 2 ∧ dot = 0 ∧ chr ≠ 0 then some .volume
    else if (cur = none ∨ cur ≠ some '/') ∧ slash = 1 ∧ dot = 0 ∧ chr = 0 then some .root
    else none
  else if first = some '.' then
    if slash ≠ 0 ∧ dot = 2 ∧ chr = 0 then some .parent
    else if (cur = none ∨ cur = some '.') ∧ slash = 0 ∧ dot = 1 ∧ chr ≠ 0 then some .ext
    else none
  else
    if slash ≠ 0 ∧ dot = 0 ∧ chr ≠ 0 then some .dir
    else if (cur = none ∨ cur = some '.') ∧ slash = 0 ∧ dot = 0 ∧ chr ≠ 0 then some .file
    else none

/-- `FSPathCopyString` (Path.c 90-102): `len` characters from position `pos` of the text; `none` when that leaves the
text (the access would be out of bounds). -/
def sub (s : Str) (pos len : Int) : Option Str :=
  if 0 ≤ pos ∧ 0 ≤ len ∧ pos + len ≤ s.length then some ((s.drop pos.toNat).take len.toNat) else none

/-- `FSPathCreateComponent` (Path.c 104-133). -/
def mk (ty : Ty) (s : Str) (pos len : Int) : Option Comp :=
  match ty with
  | .volume => (sub s (pos + 2) (len - 2)).map .volume
  | .dir => (sub s pos (len - 1)).map .dir
  | .file => (sub s pos len).map .file
  | .ext => (sub s (pos + 1) (len - 1)).map .ext
  | .root => some .root
  | .relRoot => some .relRoot
  | .parent => some .parent

/-- The variables of `FSPathConvertPathToComponents` (Path.c 137-142).  `low` records that `Start` has pointed in front
of the text. -/
structure St where
  comps : List Comp
  start : Int
  slash : Nat
  dot : Nat
  chr : Nat
  hasFile : Bool
  low : Bool
  deriving DecidableEq, Repr

/-- The character at `Start`: `*Start`. -/
def St.first (st : St) (s : Str) : Option Char :=
  if 0 ≤ st.start then s[st.start.toNat]? else none

/-- Counting a character (Path.c 186-199). -/
def St.count (st : St) (c : Char) : St :=
  if c = '/' then { st with slash := st.slash + 1 }
  else if c = '.' then { st with dot := st.dot + 1 }
  else { st with chr := st.chr + 1 }

/-- Resetting the counters (Path.c 161-163 and 179-181). -/
def St.reset (st : St) (start : Int) : St :=
  { st with start := start, slash := 0, dot := 0, chr := 0 }

/-- The loop that takes the file components back (Path.c 169-172): the components from the last on, and `Start`. -/
def takeBack : List Comp → Int → List Comp × Int
  | [], start => ([], start)
  | c :: cs, start =>
    if c.isName then takeBack cs (start - (((c.str.getD []).length : Int) + 1)) else (c :: cs, start)

/-- A component has been found before character `i` (Path.c 147-164). -/
def flush (s : Str) (st : St) (i : Nat) (ty : Ty) : Option St :=
  let ty' := if !st.hasFile && decide (ty = .ext) then .file else ty
  let hasFile' := st.hasFile || decide (ty = .file) || decide (ty = .ext)
  match mk ty' s st.start (i - st.start) with
  | none => none
  | some c => some ({ st with comps := st.comps ++ [c], hasFile := hasFile' }.reset i)

/-- The directory turns out to contain a '.' (Path.c 167-183). -/
def fixup (s : Str) (st : St) (i : Nat) : Option St :=
  let r := takeBack st.comps.reverse st.start
  match mk .dir s (r.2 + 1) (i - r.2) with
  | none => none
  | some c => some ({ st with comps := r.1.reverse ++ [c], hasFile := false,
                              low := st.low || decide (r.2 < 0) }.reset (i + 1))

/-- One round of the loop (Path.c 143-200) for character `c` at position `i`. -/
def step (s : Str) (st : St) (i : Nat) (c : Char) : Option St :=
  match found (some c) (st.first s) st.slash st.dot st.chr with
  | some ty => (flush s st i ty).map (·.count c)
  | none => if st.hasFile && decide (c = '/') then fixup s st i else some (st.count c)

/-- The loop (Path.c 143-200) over the characters from position `i` on. -/
def run (s : Str) : St → Nat → Str → Option St
  | st, _, [] => some st
  | st, i, c :: cs => match step s st i c with
    | none => none
    | some st' => run s st' (i + 1) cs

/-- After the loop (Path.c 203-206). -/
def finish (s : Str) (st : St) : Option St :=
  match found none (st.first s) st.slash st.dot st.chr with
  | some ty => match mk ty s st.start (s.length - st.start) with
    | none => none
    | some c => some { st with comps := st.comps ++ [c] }
  | none => some st

/-- Before the loop (Path.c 137-142). -/
def St.init : St := ⟨[], 0, 0, 0, 0, false, false⟩

/-- `FSPathConvertPathToComponents(Path, FALSE)` (Path.c 135-218), with the variables at its end; `none` is an access
outside the text. -/
def parseSt (s : Str) : Option St :=
  (run s .init 0 s).bind (finish s)

/-- The components without completion. -/
def parse (s : Str) : Option (List Comp) :=
  (parseSt s).map (·.comps)

/-- Completing the path (Path.c 208-215). -/
def complete (cs : List Comp) : List Comp :=
  match cs with
  | [] => []
  | c :: r => if c.ty ≠ .volume ∧ c.ty ≠ .root then .relRoot :: c :: r else c :: r

/-- `FSPathCreate` (Path.c 275-280): the components of the path. -/
def create (s : Str) : Option (List Comp) :=
  (parse s).map complete

end Verif.Path
