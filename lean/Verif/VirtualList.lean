import Verif.VirtualCopy
/-!
# Model of listing a directory of a virtual volume (`CommonC/FileSystem.c` 749-829)

On top of the tree of `VirtualTree.lean`.  Simplified: memory is available; the paths to match are of any type, `mt` says
what `FSPathMatch` (C68) answers.
-/
namespace Verif.VirtualList
open Verif.Path (Str Comp)
open Verif.VirtualTree (Tree Loc get nodeOp)
open Verif.VirtualCopy (keys childPath)

/-- `FSMatch` (Path.h 45-60): the bits 0, 1, 2, 3 and 4. -/
structure Opts where
  skipFile : Bool
  skipDir : Bool
  skipHidden : Bool
  recursive : Bool
  blacklist : Bool
  deriving DecidableEq, Repr

variable {α : Type}

/-- `Match` (759, 788-796): `NULL` and an empty collection match everything. -/
def isMatch (mt : α → List Comp → Bool) (names : Option (List α)) (path : List Comp) : Bool :=
  match names with
  | none => true
  | some [] => true
  | some (m :: ms) => (m :: ms).any (mt · path)

/-- Is the path put into the list? (801-803) -/
def chosen (o : Opts) (mt : α → List Comp → Bool) (names : Option (List α)) (isDir : Bool) (path : List Comp) : Bool :=
  (if o.blacklist then !isMatch mt names path else isMatch mt names path) && !(isDir && o.skipDir) && !(!isDir && o.skipFile)

/-- The loop over the keys (757-817); `rec` is the recursive call. -/
def contentsOf (o : Opts) (mt : α → List Comp → Bool) (names : Option (List α)) (rec : List Comp → Option (List (List Comp)))
    (p : List Comp) (ks : List (Str × Tree)) : List Str → Option (List (List Comp))
  | [] => some []
  | n :: ns => match childPath p ks n with
    | none => none
    | some path =>
      let isDir := match ks.lookup n with
        | some (.dir _) => true
        | _ => false
      match (if o.recursive && isDir then rec path else some []), contentsOf o mt names rec p ks ns with
      | some below, some rest => some ((if chosen o mt names isDir path then [path] else []) ++ below ++ rest)
      | _, _ => none

/-- `FSManagerVirtualAddContentsInPath` (749-819) on an empty list; a list that stays `NULL` is empty.  The fuel bounds the
depth of the recursion. -/
def contents (o : Opts) (mt : α → List Comp → Bool) (names : Option (List α)) (t : Tree) (cur : List Comp) :
    Nat → List Comp → Option (List (List Comp))
  | 0, _ => none
  | fuel + 1, p => match nodeOp t cur p .none false with
    | none => none
    | some (_, none) => some []
    | some (_, some (.fake _)) => none
    | some (_, some (.real l)) => match get t l with
      | some (.file _) => some []
      | some (.dir ks) => contentsOf o mt names (contents o mt names t cur fuel) p ks (keys ks)
      | none => none

end Verif.VirtualList
