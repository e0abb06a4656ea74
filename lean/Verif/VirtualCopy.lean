import Verif.VirtualTree
/-!
# Model of copying, moving and renaming in the virtual file system (`CommonC/FileSystem.c` 60-100, 749-932)

On top of the tree of `VirtualTree.lean`; the dispatch on `FSPathIsVirtual` (SystemPath.m 236-485) is left out: all paths are
of the virtual volume.  Simplified: memory is available (also for zero bytes); nobody else works on the volume, so opening a
file and reading it is one step; the bytes of a file are a list (`over` says what C64 proves of writing).
-/
namespace Verif.VirtualCopy
open Verif.Path (Str Comp)
open Verif.VirtualTree (Tree Loc Nd get put nodeOp exist getSize create remove)

/-- `FSOperation` (FileSystem.h 39-43), success or not. -/
abbrev Ok := Bool

/-- `FSPathIsFile` (Path.c 552-558). -/
def isFile (p : List Comp) : Bool :=
  match p.getLast? with
  | some (.file _) => true
  | some (.ext _) => true
  | _ => false

/-- `FSHandleVirtualOpen` (FileHandle.c 367-420): where the file is and its bytes; `some none` when it is not opened. -/
def openFile (t : Tree) (cur p : List Comp) : Option (Option (Loc × List UInt8)) :=
  match nodeOp t cur p .none false with
  | none => none
  | some (_, none) => some none
  | some (_, some (.fake _)) => none
  | some (_, some (.real l)) => match get t l with
    | some (.file b) => some (some (l, b))
    | some (.dir _) => some none
    | none => none

/-- `FSHandleWrite(Handle, Size, Data, FSBehaviourDefault)` at offset 0 (FileHandle.c 477-507) over the bytes `D`: `none` when
`CCArrayAppendElements` is asked to append nothing (498), which it asserts against. -/
def over (D B : List UInt8) : Option (List UInt8) :=
  if B = [] then some D
  else if D = [] then some B
  else if B.length = D.length then none
  else if D.length < B.length then some B
  else some (B ++ D.drop B.length)

/-- The file at `l` with other bytes. -/
def setBytes (t : Tree) (l : Loc) (b : List UInt8) : Tree :=
  match l.getLast? with
  | none => t
  | some n => put t l.dropLast n (some (.file b))

/-- The copy of a file (896-929). -/
def copyFile (t : Tree) (cur p d : List Comp) : Option (Tree × Ok) :=
  match openFile t cur p with
  | none => none
  | some none => some (t, false)
  | some (some (_, B)) => match create t cur d false with
    | none => none
    | some (t, false) => some (t, false)
    | some (t, true) => match openFile t cur d with
      | none => none
      | some none => some (t, false)
      | some (some (l, D)) => match over D B with
        | none => none
        | some X => some (setBytes t l X, true)

/-- The keys of a dictionary, each once (`CC_DICTIONARY_FOREACH_KEY`). -/
def keys : List (Str × Tree) → List Str
  | [] => []
  | (n, _) :: ks => n :: (keys ks).filter (· != n)

/-- The path of an entry in a listing (761-786). -/
def childPath (p : List Comp) (ks : List (Str × Tree)) (n : Str) : Option (List Comp) :=
  match ks.lookup n with
  | none => none
  | some (.dir _) => some (p ++ [.dir n])
  | some (.file _) => match Verif.Path.create n with
    | none => none
    | some cs => some (p ++ cs.drop 1)

/-- `FSManagerVirtualGetContentsAtPath(Path, NULL, FSMatchDefault)` (749-829); a list that stays `NULL` is empty. -/
def listing (t : Tree) (cur p : List Comp) : Option (List (List Comp)) :=
  match nodeOp t cur p .none false with
  | none => none
  | some (_, none) => some []
  | some (_, some (.fake _)) => none
  | some (_, some (.real l)) => match get t l with
    | some (.file _) => some []
    | some (.dir ks) => (keys ks).mapM (childPath p ks)
    | none => none

/-- The components of the child inserted into its destination (881-889), from the last one on: extensions and one more. -/
def nameComps : List Comp → List Comp
  | [] => []
  | .ext e :: c :: cs => nameComps (c :: cs) ++ [.ext e]
  | c :: _ => [c]

/-- The loop over the children (876-893), `copy` being the recursive call, the result of which is not looked at. -/
def copyAll (copy : Tree → List Comp → List Comp → Option (Tree × Ok)) (d : List Comp) : List (List Comp) → Tree → Option Tree
  | [], t => some t
  | c :: cs, t => match copy t c (d ++ nameComps c.reverse) with
    | none => none
    | some (t, _) => copyAll copy d cs t

/-- `FSManagerVirtualCopy` (861-932).  An empty listing is `NULL`, which `CC_COLLECTION_FOREACH` and `CCCollectionDestroy`
assert against.  The fuel bounds the depth of the recursion. -/
def copy : Nat → Tree → (cur p d : List Comp) → Option (Tree × Ok)
  | 0, _, _, _, _ => none
  | fuel + 1, t, cur, p, d => match exist t cur p with
    | none => none
    | some false => some (t, false)
    | some true =>
      if isFile p then copyFile t cur p d
      else match create t cur d false with
        | none => none
        | some (t, false) => some (t, false)
        | some (t, true) => match listing t cur p with
          | none => none
          | some [] => none
          | some cs => match copyAll (fun t p d => copy fuel t cur p d) d cs t with
            | none => none
            | some t => some (t, true)

/-- `FSManagerVirtualMove` (849-859). -/
def move (fuel : Nat) (t : Tree) (cur p d : List Comp) : Option (Tree × Ok) :=
  match copy fuel t cur p d with
  | none => none
  | some (t, false) => some (t, false)
  | some (t, true) => remove t cur p

/-- The path `FSManagerRename` (60-95) moves to: the components of the file name replaced by those of the new name, or the last
component replaced by a directory. -/
def renamed (p : List Comp) (name : Str) : Option (List Comp) :=
  if isFile p then
    match Verif.Path.parse name with
    | none => none
    | some cs => some ((p.reverse.dropWhile fun c => c.isName).reverse ++ cs)
  else some (p.dropLast ++ [.dir name])

/-- `FSManagerRename` (60-100). -/
def rename (fuel : Nat) (t : Tree) (cur p : List Comp) (name : Str) : Option (Tree × Ok) :=
  match renamed p name with
  | none => none
  | some d => move fuel t cur p d

end Verif.VirtualCopy
