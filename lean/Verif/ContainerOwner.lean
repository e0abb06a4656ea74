/-!
# Model of who owns the container of a `CCDataContainer`: `CommonC/DataContainer.c`, `CommonC/Data.c`

`CCDataContainerCreate` takes a reference to the container and gives it back when the data are destroyed.  Containers are numbered and
have a count of references, 0 once they are gone; data are numbered in the order of their creation.  Any allocation may fail: the
outcomes are given.  Using something that is gone is undefined.  The counts do not overflow, containers are not NULL, and the destructor
of the user does nothing.
-/
namespace Verif.ContainerOwner

/-- What goes wrong. -/
inductive Stop where
  | undefined
deriving DecidableEq, Repr

/-- The references to each container, the container and the references of each of the data (`CCDataContainerInternal`,
DataContainer.c:33-39), and how many blocks the data take up (their `CCDataInfo` and their `CCDataContainerInternal`). -/
structure State where
  refs : Nat → Nat
  datas : List (Nat × Nat)
  blocks : Nat

/-- A function with one value replaced. -/
def upd (f : Nat → Nat) (i a : Nat) : Nat → Nat := fun j => if j = i then a else f j

/-- `CCRetain` (MemoryAllocation.c:77-80) of a container. -/
def retain (s : State) (c : Nat) : Except Stop State :=
  if s.refs c = 0 then .error .undefined else .ok { s with refs := upd s.refs c (s.refs c + 1) }

/-- `CCFree` (MemoryAllocation.c:72-75) of a container: it is gone with the last reference. -/
def release (s : State) (c : Nat) : Except Stop State :=
  if s.refs c = 0 then .error .undefined else .ok { s with refs := upd s.refs c (s.refs c - 1) }

/-- `CCDataContainerCreate` (DataContainer.c:60-63) with `CCDataCreate` (Data.c:41-74) and `CCDataContainerConstructor`
(DataContainer.c:65-84); `ok1` and `ok2` say whether the allocations of the data and of the internal succeed. -/
def create (s : State) (c : Nat) (ok1 ok2 : Bool) : Except Stop State :=
  if ok1 then
    let s := { s with blocks := s.blocks + 1 }
    if ok2 then do
      let s ← retain { s with blocks := s.blocks + 1 } c
      .ok { s with datas := s.datas ++ [(c, 1)] }
    else .ok { s with blocks := s.blocks - 1 }
  else .ok s

/-- `CCRetain` (MemoryAllocation.c:77-80) of data. -/
def retainData (s : State) (d : Nat) : Except Stop State :=
  match s.datas[d]? with
  | some (c, n + 1) => .ok { s with datas := s.datas.set d (c, n + 2) }
  | _ => .error .undefined

/-- `CCDataDestroy` (Data.c:76-81); with the last reference `CCDataDestructor` (35-39) and `CCDataContainerDestroy`
(DataContainer.c:86-91). -/
def destroy (s : State) (d : Nat) : Except Stop State :=
  match s.datas[d]? with
  | some (c, n + 1) =>
    if n = 0 then do
      let s ← release s c
      .ok { s with blocks := s.blocks - 1 - 1, datas := s.datas.set d (c, 0) }
    else .ok { s with datas := s.datas.set d (c, n) }
  | _ => .error .undefined

/-- Looking at the elements of the container through the data, as `CCDataContainerSize` (DataContainer.c:98-112), the map (114-143) and
the unmap (145-171) do. -/
def use (s : State) (d : Nat) : Except Stop State :=
  match s.datas[d]? with
  | some (c, _ + 1) => if s.refs c = 0 then .error .undefined else .ok s
  | _ => .error .undefined

/-- What a program does. -/
inductive Op where
  | create (c : Nat) (ok1 ok2 : Bool)
  | retain (c : Nat)
  | release (c : Nat)
  | retainData (d : Nat)
  | destroy (d : Nat)
  | use (d : Nat)

/-- One of them (DataContainer.c:60-171, Data.c:35-81, MemoryAllocation.c:72-80). -/
def step (s : State) : Op → Except Stop State
  | .create c ok1 ok2 => create s c ok1 ok2
  | .retain c => retain s c
  | .release c => release s c
  | .retainData d => retainData s d
  | .destroy d => destroy s d
  | .use d => use s d

/-- A run of them (DataContainer.c:60-171, Data.c:35-81, MemoryAllocation.c:72-80). -/
def run (s : State) : List Op → Except Stop State
  | [] => .ok s
  | o :: os => do run (← step s o) os

end Verif.ContainerOwner
