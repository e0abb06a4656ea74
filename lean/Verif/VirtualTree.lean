import Verif.Path
/-!
# Model of the virtual file system (`CommonC/FileSystem.c` 477-742, 831-847)

The nodes (`FSVirtualNode`, FileSystem_Private.h 56-65) form a tree without sharing, so a pointer to a node is the list of
names leading to it from the root; the fields `parent` and `name` of a node are then its location without the last name,
and the last name.  Simplified: memory is available; dictionaries are finite maps; names are the characters of C66; the lock
of the volume (C65) is left out.  All nodes are created deletable (516, 570, 672) and no function changes that, so the tests
of `FSAccessDeletable` (645, 688) always succeed and `mode` is left out.
-/
namespace Verif.VirtualTree
open Verif.Path (Str Comp)

/-- `FSVirtualNode` (FileSystem_Private.h 56-65): a file with its bytes or a directory with a dictionary. -/
inductive Tree where
  | file (bytes : List UInt8)
  | dir (nodes : List (Str × Tree))

/-- A node, by the names leading to it. -/
abbrev Loc := List Str

/-- The node at a location. -/
def get : Tree → Loc → Option Tree
  | t, [] => some t
  | .file _, _ :: _ => none
  | .dir ks, n :: l => match ks.lookup n with
    | none => none
    | some t => get t l

/-- `CCDictionarySetValue` and `CCDictionaryRemoveValue` on the dictionary `ks`. -/
def setKey (ks : List (Str × Tree)) (n : Str) : Option Tree → List (Str × Tree)
  | some v => (n, v) :: ks.filter fun k => k.1 != n
  | none => ks.filter fun k => k.1 != n

/-- Setting (or removing) the entry `n` in the directory at `l`. -/
def put : Tree → Loc → Str → Option Tree → Tree
  | .file b, _, _, _ => .file b
  | .dir ks, [], n, v => .dir (setKey ks n v)
  | .dir ks, m :: l, n, v => match ks.lookup m with
    | none => .dir ks
    | some t => .dir (setKey ks m (some (put t l n v)))

/-- `FSVirtualNodeOperation` (FileSystem_Private.h 72-76). -/
inductive Op where
  | none | create | remove
  deriving DecidableEq, Repr

/-- A node pointer: a node of the tree, or `FakeNode` of the call with the number `frame` (527). -/
inductive Nd where
  | real (l : Loc)
  | fake (frame : Nat)
  deriving DecidableEq, Repr

/-- The variables of `FSManagerVirtualNodeOp` (523-531), and the tree.  `dirs` holds the first `*Level` entries of `Dirs`;
entries behind are never read before they are written. -/
structure Walk where
  t : Tree
  /-- `Node`; `none` is `NULL` -/
  node : Option Nd
  /-- `File`; `none` is 0 -/
  file : Option Str
  dirs : List Nd

/-- The dictionary of a node: `none` when the node is a file or not there (using it is undefined). -/
def nodes (t : Tree) (l : Loc) : Option (List (Str × Tree)) :=
  match get t l with
  | some (.dir ks) => some ks
  | _ => none

/-- `Node->isDir` in the call `frame`: `none` when the pointer is not that of a living node. -/
def isDir (frame : Nat) (t : Tree) : Nd → Option Bool
  | .fake f => if f = frame then some true else none
  | .real l => match get t l with
    | some (.dir _) => some true
    | some (.file _) => some false
    | none => none

/-- `case FSPathComponentTypeDirectory` (548-592). -/
def dirComp (frame : Nat) (o : Op) (mk : Bool) (n : Str) (w : Walk) : Option Walk :=
  match w.node with
  | none => some w
  | some nd => match isDir frame w.t nd with
    | none => none
    | some false => some { w with node := none }
    | some true => match nd with
      | .fake _ => some w
      | .real l => match nodes w.t l with
        | none => none
        | some ks => match ks.lookup n with
          | some (.dir _) => some { w with node := some (.real (l ++ [n])) }
          | some (.file _) => some { w with node := none }
          | none =>
            if o = .create ∧ mk then
              some { w with t := put w.t l n (some (.dir [])), node := some (.real (l ++ [n])) }
            else some { w with node := some (.fake frame) }

/-- The conditions of lines 600 and 609. -/
def inDir (frame : Nat) (w : Walk) : Option Bool :=
  match w.node with
  | none => some false
  | some nd => match isDir frame w.t nd with
    | none => none
    | some d => some (d && nd != .fake frame)

/-- One component (534-628); `rel` is the call for the current path, `last` is `Index == Count`. -/
def comp (frame : Nat) (rel : Walk → Option Walk) (o : Op) (inter last : Bool) (w : Walk) : Comp → Option Walk
  | .volume _ => some { w with node := if w.file.isSome then none else some (.real []) }
  | .root => some { w with node := if w.node.isSome then w.node else if w.file.isSome then none else some (.real []) }
  | .relRoot => if w.file.isSome then some { w with node := none } else rel w
  | .dir n => dirComp frame o (last || inter) n w
  | .parent =>
    let level := if 2 < w.dirs.length then w.dirs.length - 2 else 0
    match w.dirs[level]? with
    | none => none
    | some nd => some { w with node := some nd, dirs := w.dirs.take level }
  | .file n => match inDir frame w with
    | none => none
    | some true => match w.file with
      | none => some { w with file := some n }
      | some _ => some { w with node := none }
    | some false => some { w with node := none }
  | .ext n => match inDir frame w with
    | none => none
    | some true => match w.file with
      | some f => some { w with file := some (f ++ '.' :: n) }
      | none => some { w with file := some n }
    | some false => some { w with node := none }

/-- `if (Node->isDir) Dirs[(*Level)++] = Node` (632); `Dirs` has 128 entries. -/
def push (frame : Nat) (w : Walk) (nd : Nd) : Option Walk :=
  match isDir frame w.t nd with
  | none => none
  | some false => some w
  | some true => if w.dirs.length < 128 then some { w with dirs := w.dirs ++ [nd] } else none

/-- The loop over the components (532-635). -/
def loop (frame : Nat) (rel : Walk → Option Walk) (o : Op) (inter : Bool) : List Comp → Walk → Option Walk
  | [], w => some w
  | c :: cs, w => match comp frame rel o inter cs.isEmpty w c with
    | none => none
    | some w => match w.node with
      | none => some w
      | some nd => match push frame w nd with
        | none => none
        | some w => loop frame rel o inter cs w

/-- Behind the loop (637-695): the tree, and the node returned. -/
def finish (frame : Nat) (o : Op) (w : Walk) : Option (Tree × Option Nd) :=
  let node := if w.node = some (.fake frame) then none else w.node
  match w.file, node with
  | some _, none => some (w.t, none)
  | some _, some (.fake _) => none
  | some f, some (.real l) => match nodes w.t l with
    | none => none
    | some ks =>
      if o = .remove then some (put w.t l f none, none)
      else match ks.lookup f with
        | some _ => some (w.t, some (.real (l ++ [f])))
        | none => if o = .create then some (put w.t l f (some (.file [])), some (.real (l ++ [f]))) else some (w.t, none)
  | none, none => some (w.t, none)
  | none, some (.fake f) => if o = .remove then none else some (w.t, some (.fake f))
  | none, some (.real l) =>
    if o = .remove then
      match l.getLast? with
      | none => none
      | some n => some (put w.t l.dropLast n none, none)
    else some (w.t, some (.real l))

/-- The call for the current path (545, 525): relative components in it make the function call itself for ever. -/
def relWalk (cur : List Comp) (o : Op) (inter : Bool) (w : Walk) : Option Walk :=
  let o := if o = .create then .create else .none
  if w.dirs.length < 128 then
    match loop 1 (fun _ => none) o inter cur ⟨w.t, none, none, w.dirs⟩ with
    | none => none
    | some v => match finish 1 o v with
      | none => none
      | some (t, nd) => some ⟨t, nd, none, v.dirs⟩
  else none

/-- `FSManagerVirtualNodeOp` as called by the functions below (523-696, 700): the root in `Dirs[0]`, `*Level` 1. -/
def nodeOp (t : Tree) (cur p : List Comp) (o : Op) (inter : Bool) : Option (Tree × Option Nd) :=
  match loop 0 (relWalk cur o inter) o inter p ⟨t, none, none, [.real []]⟩ with
  | none => none
  | some w => finish 0 o w

/-- `FSManagerVirtualExists` (703-710). -/
def exist (t : Tree) (cur p : List Comp) : Option Bool :=
  (nodeOp t cur p .none false).map fun r => r.2.isSome

/-- `FSManagerVirtualGetSize` (722-742). -/
def getSize (t : Tree) (cur p : List Comp) : Option Nat :=
  match nodeOp t cur p .none false with
  | none => none
  | some (_, none) => some 0
  | some (_, some (.fake _)) => none
  | some (_, some (.real l)) => match get t l with
    | some (.file b) => some b.length
    | some (.dir _) => some 0
    | none => none

/-- `FSManagerVirtualCreate` (831-838): the tree and whether it reports success. -/
def create (t : Tree) (cur p : List Comp) (inter : Bool) : Option (Tree × Bool) :=
  (nodeOp t cur p .create inter).map fun r => (r.1, r.2.isSome)

/-- `FSManagerVirtualRemove` (840-847). -/
def remove (t : Tree) (cur p : List Comp) : Option (Tree × Bool) :=
  (nodeOp t cur p .remove false).map fun r => (r.1, r.2.isNone)

end Verif.VirtualTree
