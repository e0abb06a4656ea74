/-!
# Model of `FSPathMatch` and of path components as tagged pointers

`CommonC/Path.c` 567-615, `CommonC/Path.h` 45-73, `CommonC/PathComponent.h` 31-92, `CommonC/PathComponent.c` 33-63.

Strings are lists of non-zero bytes.  `char` is taken to be signed, as on every platform the library supports, and
`tolower` that of the "C" locale: its argument must be an `unsigned char`, so a byte from 128 on, which is a negative
`char`, makes the call undefined (`none`).  Enumerating a collection from its tail is the reversed list.
-/
namespace Verif.PathMatch

/-- Bytes of a string, without the terminating zero. -/
abbrev Str := List UInt8

/-- A component: its type (PathComponent.h 31-41) and its name, address and bytes; `none` is the null pointer. -/
structure Comp where
  ty : Fin 8
  str : Option (Nat × Str)
  deriving DecidableEq, Repr

/-- `FSPathComponentTypeRelativeRoot` (PathComponent.h 35). -/
def relRoot : Fin 8 := 3

/-- `FSMatchNameOptionCaseSensitive` (Path.h 64). -/
def caseSensitive (o : BitVec 32) : Bool := o.getLsbD 5
/-- `FSMatchNameOptionWildcardIsLiteral` (Path.h 66). -/
def literal (o : BitVec 32) : Bool := o.getLsbD 6
/-- `FSMatchNameOptionRequireRelativeRoot` (Path.h 68). -/
def requireRel (o : BitVec 32) : Bool := o.getLsbD 7

/-- `Wildcard` (Path.c 576); 0 is none. -/
def wildcard (o : BitVec 32) : UInt8 :=
  if literal o then 0
  else if (o >>> 25) ≠ 0 then UInt8.ofBitVec ((o >>> 25).setWidth 8) else 42

/-- `tolower` on a `char`. -/
def lower (c : UInt8) : Option UInt8 :=
  if 128 ≤ c.toNat then none else if 65 ≤ c.toNat ∧ c.toNat ≤ 90 then some (c + 32) else some c

/-- The loop that compares ignoring case, and the comparison behind it (Path.c 596-597). -/
def sameNoCase : Str → Str → Option Bool
  | [], [] => some true
  | [], _ :: _ => some false
  | _ :: _, [] => some false
  | a :: as, b :: bs => match lower a, lower b with
    | some x, some y => if x = y then sameNoCase as bs else some (decide (a = b))
    | _, _ => none

/-- Does the name start with the wildcard? (Path.c 583) -/
def starts (w : UInt8) : Option (Nat × Str) → Bool
  | some (_, c :: _) => c == w
  | _ => false

/-- The body of the loop (Path.c 579-611): `some true` is going on, `some false` is `return FALSE`. -/
def one (o : BitVec 32) (l r : Comp) : Option Bool :=
  if l.ty = r.ty then
    if wildcard o ≠ 0 ∧ (starts (wildcard o) l.str ∨ starts (wildcard o) r.str) then some true
    else match l.str, r.str with
      | some (p, a), some (q, b) =>
        if p = q then some true
        else if caseSensitive o then some (decide (a = b))
        else sameNoCase a b
      | _, _ => some true
  else if requireRel o ∨ (l.ty ≠ relRoot ∧ r.ty ≠ relRoot) then some false
  else some true

/-- The loop, from the tails (Path.c 577-612). -/
def loop (o : BitVec 32) : List Comp → List Comp → Option Bool
  | l :: ls, r :: rs => match one o l r with
    | none => none
    | some false => some false
    | some true => loop o ls rs
  | _, _ => some true

/-- `FSPathMatch` (Path.c 567-615). -/
def pathMatch (l r : List Comp) (o : BitVec 32) : Option Bool :=
  loop o l.reverse r.reverse

/-! ## Tagged pointers -/

/-- `FSPathComponentCreate` (PathComponent.c 33-52): the type, with the address of the copied name or'ed in; `none` is no
name.  A failed allocation returns the invalid component 0. -/
def create (ty : BitVec 64) : Option (Option (BitVec 64)) → BitVec 64
  | none => ty
  | some none => 0
  | some (some addr) => ty ||| addr

/-- `FSPathComponentGetString` (PathComponent.h 84-87). -/
def getString (c : BitVec 64) : BitVec 64 := c &&& ~~~ 7

/-- `FSPathComponentGetType` (PathComponent.h 89-92). -/
def getType (c : BitVec 64) : BitVec 64 := c &&& 7

end Verif.PathMatch
