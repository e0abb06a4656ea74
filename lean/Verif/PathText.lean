import Verif.PathSpec
/-!
# Model of the strings of an `FSPath`

`CommonC/Path.c` 388-545: the strings of a path are built once, in one allocation, and kept until the path is changed.

A getter returns a pointer into the allocation: its identity and an offset.  Outcomes: `none` stands for undefined
behaviour (the null pointer given to `strlen`, a recursion that never ends).  Memory is available.  The path is not the
current path itself (the functions that change a path assert this, Path.c 317-322).
-/
namespace Verif.Path

/-- The buffer that `FSPathCreatePathStringCache` fills, with the offsets that `pathRep` and `filenameRep` point to. -/
structure Rep where
  buf : Str
  path : Option Nat
  file : Option Nat
  deriving DecidableEq, Repr

/-- The first loop (Path.c 399-433): the length, and whether a volume is needed.  `cur` is the full string of the current
path (`FSPathGetFullPathString(FSPathCurrent())`); `none` when it cannot be had. -/
def size (cur : Option Str) : List Comp → Nat → Bool → Option (Nat × Bool)
  | [], len, req => some (len, req)
  | c :: cs, len, req =>
    let len := len + (c.str.getD []).length
    match c.ty with
    | .volume => size cur cs (len + 2) false
    | .root => size cur cs (len + 2) req
    | .relRoot => match cur with
      | none => none
      | some t => size cur cs (len + t.length) false
    | .dir => size cur cs (len + 1) req
    | .ext => size cur cs (len + 1) req
    | .parent => size cur cs (len + 3) req
    | .file => size cur cs len req

/-- The second loop (Path.c 455-497). -/
def write (cur : Str) : List Comp → Rep → Rep
  | [], rep => rep
  | c :: cs, rep =>
    let here := rep.buf.length
    write cur cs <| match c with
    | .volume n => { rep with path := some (rep.path.getD here), buf := rep.buf ++ '/' :: '/' :: n }
    | .root => { rep with path := some (rep.path.getD here), buf := rep.buf ++ ['/'] }
    | .relRoot => { rep with buf := rep.buf ++ cur }
    | .dir n => { rep with path := some (rep.path.getD here), buf := rep.buf ++ n ++ ['/'] }
    | .parent => { rep with path := some (rep.path.getD here), buf := rep.buf ++ ['.', '.', '/'] }
    | .file n => { rep with file := some (rep.file.getD here), buf := rep.buf ++ n }
    | .ext n => { rep with file := some (rep.file.getD here), buf := rep.buf ++ '.' :: n }

/-- `FSPathGetVolume` (Path.c 547-564) of a path that is not empty; `vol` is the volume of the current path. -/
def volume (vol : Option Str) : List Comp → Option Str
  | .volume n :: _ => some n
  | _ => vol

/-- What building the strings leads to. -/
inductive Built where
  | null
  | rep (alloc : Nat) (r : Rep)
  deriving DecidableEq, Repr

/-- `FSPathCreatePathStringCache` (Path.c 395-501); `alloc` is the number of bytes allocated. -/
def build (cur vol : Option Str) (cs : List Comp) : Option Built :=
  match size cur cs 0 true with
  | none => none
  | some (len, req) =>
    if len = 0 then some .null
    else if req then match volume vol cs with
      | none => none
      | some v =>
        let r := write (cur.getD []) cs ⟨'/' :: '/' :: v, none, none⟩
        some (.rep (len + 2 + v.length + 1) { r with path := r.path.or r.file })
    else
      let r := write (cur.getD []) cs ⟨[], none, none⟩
      some (.rep (len + 1) { r with path := r.path.or r.file })

/-- The full string of the current path with components `cs` (Path.c 503-510 for the current path itself: it finds itself
as the current path again, so a relative current path never ends and a missing volume is the null pointer). -/
def curFull (cs : List Comp) : Option Str :=
  match build none none cs with
  | some (.rep _ r) => some r.buf
  | _ => none

/-- The volume of the current path (Path.c 547-564). -/
def curVol (cs : List Comp) : Option Str := volume none cs

/-- A path and the current path. -/
structure World where
  comps : List Comp
  cur : List Comp
  /-- the allocation `completeRep` and its contents -/
  cache : Option (Nat × Rep)
  /-- identity of the next allocation -/
  next : Nat
  deriving DecidableEq, Repr

/-- Calls. -/
inductive Call where
  | full | path | file
  | change (cs : List Comp)
  | setCurrent (cs : List Comp)
  deriving Repr

/-- What a getter returns: allocation and offset, or the null pointer. -/
abbrev Ptr := Option (Nat × Nat)

/-- Building the strings anew; the old allocation is freed (Path.c 388-397). -/
def rebuild (w : World) : Option World :=
  match build (curFull w.cur) (curVol w.cur) w.comps with
  | none => none
  | some .null => some { w with cache := none }
  | some (.rep _ r) => some { w with cache := some (w.next, r), next := w.next + 1 }

/-- The calls: `FSPathGetFullPathString`, `FSPathGetPathString`, `FSPathGetFilenameString` (Path.c 503-528), any function
that changes the components (Path.c 340-386), `FSPathSetCurrent` (Path.c 229-236). -/
def call (w : World) : Call → Option (World × Ptr)
  | .full => do
    let w ← if w.cache.isNone then rebuild w else some w
    return (w, w.cache.map fun c => (c.1, 0))
  | .path => do
    let w ← if (w.cache.bind (·.2.path)).isNone then rebuild w else some w
    return (w, w.cache.bind fun c => c.2.path.map fun o => (c.1, o))
  | .file => do
    let w ← if (w.cache.bind (·.2.file)).isNone then rebuild w else some w
    return (w, w.cache.bind fun c => c.2.file.map fun o => (c.1, o))
  | .change cs => some ({ w with comps := cs, cache := none }, none)
  | .setCurrent cs => some ({ w with cur := cs }, none)

/-- The string a pointer shows: `none` when its allocation has been freed. -/
def World.show (w : World) (p : Nat × Nat) : Option Str :=
  match w.cache with
  | some (i, r) => if i = p.1 then some (r.buf.drop p.2) else none
  | none => none

end Verif.Path
