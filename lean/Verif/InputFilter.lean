/-!
# Model of the filter that strips paths from the file name of a log message

`CommonC/CustomInputFilters.c` 31-68 and the part of `CCLogv` that runs the filters of inputs (`CommonC/Logging.c` 289-303,
415-449).

A file name is its characters without the terminator, `none` if it is null.  Simplified: the message itself, the tag and
the place other than the file are not modelled; other filters of inputs only look.  A call of `CCLogv` goes as deep as
`fuel` allows: `deep` is a call that needs more.
-/
namespace Verif.InputFilter

/-- A filter of inputs. -/
inductive Filter where
  /-- `CCFileFilterInput` -/
  | file
  /-- one that changes nothing -/
  | other
  deriving DecidableEq, Repr

/-- What a call of `CCLogv` comes to. -/
inductive Result where
  /-- returns, having printed messages with these file names -/
  | done (printed : List (Option (List Char)))
  /-- undefined behaviour: `strncmp` of null -/
  | fault
  /-- calls itself deeper than `fuel` -/
  | deep
  deriving DecidableEq, Repr

/-- `CCLogAddFilter` for a filter of inputs (Logging.c 291-303): it is asked first. -/
def addFilter (filters : List Filter) (f : Filter) : List Filter := f :: filters

/-- `CCFileFilterInputAddPath` (33-50): `Paths` in the order they were added; `ok` tells whether memory can be had. -/
def addPath (paths : List (List Char)) (path : List Char) (ok : Bool) : List (List Char) :=
  if ok then paths ++ [path] else paths

/-- `!strncmp(Path, filename, strlen(Path))` (58). -/
def matches_ (path file : List Char) : Bool := path.isPrefixOf file

/-- The loop of `CCFileFilterInput` (54-64), over the paths from the last added to the first: the length of the first that
matches. -/
def find : List (List Char) → List Char → Option Nat
  | [], _ => none
  | p :: ps, file => if matches_ p file then some p.length else find ps file

mutual

/-- `CCLogv` (Logging.c 415-449 and, for a message that is not cancelled, the output); `on`: the option is not
`CCLogOptionNone`. -/
def log (filters : List Filter) (paths : List (List Char)) (fuel : Nat) (on : Bool) (file : Option (List Char)) : Result :=
  runFilters filters paths fuel filters on file
termination_by (fuel, filters.length + 1)

/-- The loop over the filters of inputs (Logging.c 438-446) and what follows it.  `CCFileFilterInput` calls `CCLogv` with
the rest of the file name and sets the option to `CCLogOptionNone` (CustomInputFilters.c 60-62). -/
def runFilters (filters : List Filter) (paths : List (List Char)) (fuel : Nat) (left : List Filter) (on : Bool)
    (file : Option (List Char)) : Result :=
  match left with
  | [] => .done (if on then [file] else [])
  | .other :: left => runFilters filters paths fuel left on file
  | .file :: left =>
    if paths.isEmpty then runFilters filters paths fuel left on file else
    match file with
    | none => .fault
    | some name =>
      match find paths.reverse name with
      | none => runFilters filters paths fuel left on file
      | some n =>
        match fuel with
        | 0 => .deep
        | fuel + 1 =>
          match log filters paths fuel on (some (name.drop n)) with
          | .done out =>
            match runFilters filters paths (fuel + 1) left false file with
            | .done out' => .done (out ++ out')
            | r => r
          | r => r
termination_by (fuel, left.length)

end

end Verif.InputFilter
