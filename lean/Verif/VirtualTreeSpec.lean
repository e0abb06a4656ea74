import Verif.VirtualTree
/-!
# Specification of the virtual file system: a function from locations to entries
-/
namespace Verif.VirtualTree.Spec
open Verif.Path (Str Comp)
open Verif.VirtualTree (Tree Loc)

/-- What is at a location. -/
inductive Entry where
  | dir
  | file (bytes : List UInt8)
  deriving DecidableEq, Repr

/-- A file system: what is at each location. -/
abbrev FS := Loc → Option Entry

/-- The entry a node is. -/
def entry : Tree → Entry
  | .file b => .file b
  | .dir _ => .dir

/-- What a tree holds at a location. -/
def view (t : Tree) : FS := fun l => (Verif.VirtualTree.get t l).map entry

/-- A new entry. -/
def add (f : FS) (l : Loc) (e : Entry) : FS := fun q => if q = l then some e else f q

/-- Everything at and below a location removed. -/
def cut (f : FS) (l : Loc) : FS := fun q => if l <+: q then none else f q

/-- The file name written by components: the names with dots between them. -/
def nameOf : List Comp → Option Str
  | .file n :: es => some (es.foldl (fun s c => match c with | .ext e => s ++ '.' :: e | _ => s) n)
  | .ext n :: es => some (es.foldl (fun s c => match c with | .ext e => s ++ '.' :: e | _ => s) n)
  | _ => none

/-- A directory or parent component. -/
def IsStep : Comp → Prop
  | .dir _ => True
  | .parent => True
  | _ => False

/-- A component of a file name behind the first. -/
def IsExt : Comp → Prop
  | .ext _ => True
  | _ => False

/-- The components of a file name. -/
def IsName : List Comp → Prop
  | .file _ :: es => ∀ c ∈ es, IsExt c
  | .ext _ :: es => ∀ c ∈ es, IsExt c
  | _ => False

/-- A path from the root: a volume, a root, or both. -/
def IsHead (h : List Comp) : Prop := h = [.root] ∨ (∃ v, h = [.volume v]) ∨ ∃ v, h = [.volume v, .root]

/-- Where directories and parents lead, without a look at the file system. -/
def norm (l : Loc) : List Comp → Loc
  | [] => l
  | .dir n :: cs => norm (l ++ [n]) cs
  | .parent :: cs => norm l.dropLast cs
  | _ :: cs => norm l cs

/-- Walking along directories and parents: the file system - with the directories made on the way - and the place, `none`
when a file is in the way.  `mk` says whether missing directories are made, `mkLast` whether the last one is.  A missing
directory may be walked through. -/
def walk (mk mkLast : Bool) : FS → Loc → List Comp → FS × Option Loc
  | f, l, [] => (f, some l)
  | f, l, .dir n :: cs => match f (l ++ [n]) with
    | some .dir => walk mk mkLast f (l ++ [n]) cs
    | some (.file _) => (f, none)
    | none =>
      if f l = some .dir ∧ (mk || (mkLast && cs.isEmpty)) then walk mk mkLast (add f (l ++ [n]) .dir) (l ++ [n]) cs
      else walk mk mkLast f (l ++ [n]) cs
  | f, l, .parent :: cs => walk mk mkLast f l.dropLast cs
  | f, l, _ :: cs => walk mk mkLast f l cs

/-- Finding: the location of what the path means, if it is there. -/
def find (f : FS) (ds : List Comp) (name : Option Str) : Option Loc :=
  match (walk false false f [] ds).2, name with
  | none, _ => none
  | some l, none => if f l = some .dir then some l else none
  | some l, some n => if (f (l ++ [n])).isSome then some (l ++ [n]) else none

/-- Creating: the file system after it and whether it worked. -/
def create (f : FS) (ds : List Comp) (name : Option Str) (inter : Bool) : FS × Option Loc :=
  match walk inter name.isNone f [] ds, name with
  | (f, none), _ => (f, none)
  | (f, some l), none => (f, if f l = some .dir then some l else none)
  | (f, some l), some n =>
    if (f (l ++ [n])).isSome then (f, some (l ++ [n]))
    else if f l = some .dir then (add f (l ++ [n]) (.file []), some (l ++ [n]))
    else (f, none)

/-- Removing: `none` when it is the root. -/
def remove (f : FS) (ds : List Comp) (name : Option Str) : Option FS :=
  match find f ds name with
  | none => some f
  | some [] => none
  | some l => some (cut f l)

/-- The path `p` is from the root, along `ds`, to the file name `fs` (or to a directory, when `fs` is empty), and short
enough. -/
def Means (p ds fs : List Comp) : Prop :=
  ∃ hd, IsHead hd ∧ p = hd ++ ds ++ fs ∧ (∀ c ∈ ds, IsStep c) ∧ (fs = [] ∨ IsName fs) ∧ p.length ≤ 127

/-- Where such a path leads. -/
def target (ds fs : List Comp) : Loc := norm [] ds ++ (nameOf fs).toList

/-- No file is used as a directory on the way. -/
def Clear (f : FS) (ds : List Comp) : Prop := ∀ (k : Nat) b, f (norm [] (ds.take k)) ≠ some (.file b)

/-- What the path means is there: a directory, or anything with the file name. -/
def There (f : FS) (ds fs : List Comp) : Prop :=
  Clear f ds ∧ match nameOf fs with
    | none => f (target ds fs) = some .dir
    | some _ => ∃ e, f (target ds fs) = some e

/-- Components of a relative path, `d` directories below the current one: the first `..` that leaves it is dropped. -/
def eat : Nat → List Comp → List Comp
  | _, [] => []
  | d, .dir n :: cs => .dir n :: eat (d + 1) cs
  | 0, .parent :: cs => cs
  | d + 1, .parent :: cs => .parent :: eat d cs
  | d, c :: cs => c :: eat d cs

end Verif.VirtualTree.Spec
