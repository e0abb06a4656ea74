import Verif.LogFormat

/-!
# Model of composing a log message (`CommonC/Logging.c` 379-702)

Memory is a list of characters, `none` where it was never written.  `none` as a result is undefined behaviour: an access outside the allocation or outside the
format.  `vsnprintf` is a function of the format and the arguments.
-/
namespace Verif.LogMsg
open LogFormat

/-- `Message`, `MessageSize` and `Length` (452-456), that `CCLogMessageBuffer` points to (381-387). -/
structure Buf where
  mem : List (Option Char)
  size : Nat
  len : Nat
  deriving DecidableEq, Repr

/-- The difference of two `size_t`. -/
def sub64 (a b : Nat) : Nat := (a + 2 ^ 64 - b) % 2 ^ 64

/-- `CC_SAFE_Realloc` to a greater size. -/
def realloc (mem : List (Option Char)) (n : Nat) : List (Option Char) := mem.take n ++ List.replicate (n - mem.length) none

/-- `CC_MESSAGE_BATCH_SIZE + ((Length / CC_MESSAGE_BATCH_SIZE) * CC_MESSAGE_BATCH_SIZE)` (393, 470, 492, 542, 634).  (That it does not wrap is assumed.) -/
def batch (n : Nat) : Nat := 64 + n / 64 * 64

/-- Characters put into memory. -/
def put (mem : List (Option Char)) (at_ : Nat) (s : List Char) : Option (List (Option Char)) :=
  if at_ + s.length ≤ mem.length then some (mem.take at_ ++ s.map some ++ mem.drop (at_ + s.length)) else none

/-- What `strncpy` copies: after a terminator, only terminators. -/
def strncpy (s : List Char) : List Char :=
  s.takeWhile (· ≠ '\x00') ++ List.replicate (s.length - (s.takeWhile (· ≠ '\x00')).length) '\x00'

/-- `MessageBufferWrite` (389-403); whether it returned `0`.  `ok`: whether memory can be had. -/
def write (b : Buf) (s : List Char) (ok : Bool) : Option (Bool × Buf) :=
  let more := sub64 b.size b.len < s.length
  let size := if more then b.size + batch s.length else b.size
  if more ∧ ¬ok then some (false, { b with size := size })
  else do
    let mem := if more then realloc b.mem (size + 1) else b.mem
    let mem ← put mem b.len (strncpy s)
    let mem ← put mem (b.len + s.length) ['\x00']
    some (true, { mem := mem, size := size, len := b.len + s.length })

/-- `MessageBufferRemove` (405-412). -/
def remove (b : Buf) (n : Nat) : Option Buf := do
  let n := if n > b.len then b.len else n
  let mem ← put b.mem (b.len - n) ['\x00']
  some { b with mem := mem, len := b.len - n }

/-- The appending in `CCLogv` (490-502, 540-554, 632-643): `vsprintf` (`term`) also puts a terminator.  (That memory cannot be had is not modelled: the call
then returns `-1`.) -/
def append (b : Buf) (s : List Char) (term : Bool) : Option Buf := do
  let more := sub64 b.size b.len < s.length
  let size := if more then b.size + batch s.length else b.size
  let mem := if more then realloc b.mem (size + 1) else b.mem
  let mem ← put mem b.len (if term then s ++ ['\x00'] else s)
  some { mem := mem, size := size, len := b.len + s.length }

/-- `snprintf(Message, n, …)` of a text: as much of it as fits. -/
def snprintf (mem : List (Option Char)) (n : Nat) (s : List Char) : Option (List (Option Char)) :=
  if n = 0 then some mem else put mem 0 (s.take (n - 1) ++ ['\x00'])

/-- `%d` of an `unsigned int`, which is taken for an `int`. -/
def lineText (line : BitVec 32) : List Char := (toString line.toInt).toList

/-- The text before the message (474-477, 677-680). -/
def prefixText (tag : List Char) (file : Option (List Char)) (func : Option (List Char)) (line : BitVec 32) : List Char :=
  match file, func with
  | some f, some g => tag ++ [':', '['] ++ f ++ [':'] ++ lineText line ++ [']', ':'] ++ g ++ [':', ' ']
  | some f, none => tag ++ [':', '['] ++ f ++ [':'] ++ lineText line ++ [']', ':', ' ']
  | none, some g => tag ++ [':'] ++ g ++ [':', ' ']
  | none, none => tag ++ [':', ' ']

/-- The first `Length` (452-455). -/
def bound (tag : List Char) (file : Option (List Char)) (func : Option (List Char)) : Nat :=
  tag.length + 1 + (match file with | some f => 1 + f.length + 1 + 11 + 2 | none => 0) + (match func with | some g => g.length + 1 | none => 0) + 2

section
variable {α : Type}

/-- A filter of specifiers: it gets the format from the specifier on, and returns how much of it it took. -/
abbrev Filter (α : Type) := List Char → Buf → List α → Option (Nat × Buf × List α)

/-- The filters are asked until one takes something (520-528). -/
def runFilters : List (Filter α) → List Char → Buf → List α → Option (Nat × Buf × List α)
  | [], _, b, args => some (0, b, args)
  | f :: fs, spec, b, args => do
    let (n, b, args) ← f spec b args
    if n = 0 then runFilters fs spec b args else some (n, b, args)

/-- The conversions for which an argument is taken (559-624). -/
def takes : List Char := ['d', 'i', 'o', 'u', 'x', 'X', 'f', 'F', 'e', 'E', 'g', 'G', 'a', 'A', 'c', 's', 'p', 'n']

/-- How many arguments are taken after a part of the format (556-625). -/
def consumed (chunk : List Char) : Option Nat := do
  let (n, _) ← parse chunk
  match chunk[n]? with
  | some c => some (if c ∈ takes then 1 else 0)
  | none => some 0

def notPercent (c : Char) : Bool := c ≠ '%'

theorem drop_lt {s : List Char} {n : Nat} (h0 : 0 < n) (h : s ≠ []) : ((s.drop n).dropWhile notPercent).length < s.length := by
  have h1 := (List.dropWhile_sublist notPercent (l := s.drop n)).length_le
  have h2 : 0 < s.length := List.length_pos_iff.2 h
  rw [List.length_drop] at h1
  omega

/-- The loop over the specifiers (505-645); the format is empty when `Specifier` is `NULL`. -/
def loop (fs : List (Filter α)) (printf : List Char → List α → List Char) (spec : List Char) (b : Buf) (args : List α) : Option Buf :=
  if h : spec = [] then some b
  else
    match runFilters fs spec b args with
    | none => none
    | some (n, b, args) =>
      if hn : n = 0 then
        if spec.length < 2 then none
        else
          let chunk := spec.take 2 ++ (spec.drop 2).takeWhile notPercent
          match append b (printf chunk args) true with
          | none => none
          | some b =>
            match consumed chunk with
            | none => none
            | some k => loop fs printf ((spec.drop 2).dropWhile notPercent) b (args.drop k)
      else if n ≤ spec.length then
        let lit := (spec.drop n).takeWhile notPercent
        match (if lit.length > 0 then append b lit false else some b) with
        | none => none
        | some b => loop fs printf ((spec.drop n).dropWhile notPercent) b args
      else none
termination_by spec.length
decreasing_by
  · exact drop_lt (by omega) h
  · exact drop_lt (by omega) h

/-- The message with filters of specifiers (466-649). -/
def composeFilters (fs : List (Filter α)) (printf : List Char → List α → List Char) (tag : List Char) (file func : Option (List Char)) (line : BitVec 32)
    (format : List Char) (args : List α) : Option Buf := do
  let n := bound tag file func
  let size := batch n
  let mem ← snprintf (List.replicate (size + 1) none) n (prefixText tag file func line)
  let b : Buf := { mem := mem, size := size, len := (prefixText tag file func line).length }
  let lit := format.takeWhile notPercent
  let b ← (if lit.length > 0 then append b lit false else some b : Option Buf)
  let b ← loop fs printf (format.dropWhile notPercent) b args
  let mem ← put b.mem b.len ['\x00']
  some { b with mem := mem }

/-- The message without filters of specifiers (651-684): `MessageSize` stays `0`. -/
def composePlain (printf : List Char → List α → List Char) (tag : List Char) (file func : Option (List Char)) (line : BitVec 32)
    (format : List Char) (args : List α) : Option Buf := do
  let n := bound tag file func
  let out := printf format args
  let mem ← snprintf (List.replicate (n + out.length) none) n (prefixText tag file func line)
  let len := (prefixText tag file func line).length
  let mem ← put mem len (out ++ ['\x00'])
  some { mem := mem, size := 0, len := len + out.length }

/-- The message, before the filters of messages (466-684). -/
def compose (fs : List (Filter α)) (printf : List Char → List α → List Char) (tag : List Char) (file func : Option (List Char)) (line : BitVec 32)
    (format : List Char) (args : List α) : Option Buf :=
  if fs.isEmpty then composePlain printf tag file func line format args else composeFilters fs printf tag file func line format args

end

end Verif.LogMsg
