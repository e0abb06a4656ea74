/-!
# Model of `CCLastComponent`

`CommonC/File.c` 36-70.

A path is its characters without the terminator; a pointer into it is its distance from `Path`, which is negative for a
pointer before the path.  The terminator is at the distance of the length.
-/
namespace Verif.LastComp

/-- What the function returns. -/
inductive Result where
  /-- null -/
  | null
  /-- the pointer and `*Length` -/
  | at (start length : Int)
  deriving DecidableEq, Repr

/-- `strrchr` (51) for a separator that is not the terminator: the distance of its last occurrence. -/
def strrchr : List Char → Char → Option Nat
  | [], _ => none
  | c :: s, sep =>
    match strrchr s sep with
    | some i => some (i + 1)
    | none => if c = sep then some 0 else none

/-- A loop `while ((--LastComponent > Path) && test(*LastComponent));` (55, 59) from the distance `i`: where
`LastComponent` is after it. -/
def back (s : List Char) (test : Char → Bool) : Nat → Int
  | 0 => -1
  | 1 => 0
  | i + 2 =>
    match s[i + 1]? with
    | some c => if test c then back s test (i + 1) else ((i + 1 : Nat) : Int)
    | none => ((i + 1 : Nat) : Int)

/-- The second loop starts wherever the first one ended, which may be before the path. -/
def backInt (s : List Char) (test : Char → Bool) (i : Int) : Int :=
  if i ≤ 0 then i - 1 else back s test i.toNat

/-- `CCLastComponent` (36-70) for a path that is not null and a separator that is not the terminator. -/
def lastComponent (s : List Char) (sep : Char) : Result :=
  match strrchr s sep with
  | none => if s.isEmpty then .null else .at 0 0
  | some i =>
    if i + 1 < s.length then .at (i + 1) 0
    else
      let e := back s (fun c => c == sep) i
      let l := backInt s (fun c => c != sep) e
      if l < 0 then .null
      else if l = 0 then .at 0 (e - (-1))
      else .at (l + 1) (e - l)

end Verif.LastComp
