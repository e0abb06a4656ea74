/-!
# Model of copying reflected data with containers (`CommonC/Reflect.c` 789-980, 2065-2121; `CommonC/ReflectedTypes.c` 482-546, 1410-1560)

Data is copied with `CCReflectAssignmentCopy`, or a container is shared or transferred.  The memory is a list of objects, each with a
count of references; an object of count 0 is freed, and using it is the outcome `none`, as is a failing assertion.

Simplified: types are finite (no recursive types); a structure has two fields; all numbers are alike; validators, static pointers,
the flag `CCReflectAssignmentCopyWeakRefs` and destructors of pointers are left out; allocations succeed, the memory of a pointer
being allocated after its content was copied; a container is one object (C01, C04, C05), and its copied elements, which lie in a
memory zone, are enumerated in order (C59); a string which is not tagged is one whose memory it owns (`CCStringHintFree`).
-/
namespace Verif.CopyCont

/-- `CCReflectOwnership` (Reflect.h 67-71). -/
inductive Own where
  | weak | transfer | retain
  deriving DecidableEq, Repr

/-- The containers `CCReflectCCArray`, `CCReflectCCList` and `CCReflectCCLinkedList`. -/
inductive Kind where
  | array | list | linked
  deriving DecidableEq, Repr

/-- The types. -/
inductive Ty where
  /-- An integer or a float. -/
  | num
  /-- A dynamic pointer to `void`, which is retained or not. -/
  | raw (retained : Bool)
  /-- A dynamic pointer to another type. -/
  | ptr (o : Own) (t : Ty)
  /-- A structure of two fields. -/
  | pair (a b : Ty)
  /-- `CCString`. -/
  | str
  /-- A container. -/
  | cont (k : Kind) (e : Ty)
  deriving DecidableEq, Repr

/-- What a place in memory has. -/
inductive Val where
  | num (n : Nat)
  | null
  | ptr (p : Nat)
  | pair (x y : Val)
  deriving DecidableEq, Repr

/-- What an object has: the characters of a string, the target of a pointer, the elements of a container. -/
inductive Body where
  | text (n : Nat)
  | cell (v : Val)
  | seq (vs : List Val)
  deriving DecidableEq, Repr

/-- An object. -/
structure Obj where
  body : Body
  count : Nat
  deriving DecidableEq, Repr

/-- The memory: an address is a position in it. -/
abbrev Heap := List Obj

/-- `CCMalloc`. -/
def new (h : Heap) (b : Body) : Heap × Nat := (h ++ [⟨b, 1⟩], h.length)

/-- `CCRetain`. -/
def retain (h : Heap) (p : Nat) : Option Heap :=
  match h[p]? with
  | some ⟨b, n + 1⟩ => some (h.set p ⟨b, n + 2⟩)
  | _ => none

/-- `CCFree`. -/
def free (h : Heap) (p : Nat) : Option Heap :=
  match h[p]? with
  | some ⟨b, n + 1⟩ => some (h.set p ⟨b, n⟩)
  | _ => none

/-- Reading the target of a pointer. -/
def readCell (h : Heap) (p : Nat) : Option Val :=
  match h[p]? with
  | some ⟨.cell v, _ + 1⟩ => some v
  | _ => none

/-- Reading the elements of a container. -/
def readSeq (h : Heap) (p : Nat) : Option (List Val) :=
  match h[p]? with
  | some ⟨.seq vs, _ + 1⟩ => some vs
  | _ => none

/-- A loop over elements. -/
def each (f : Val → Heap → Option Heap) : List Val → Heap → Option Heap
  | [], h => some h
  | v :: vs, h => do each f vs (← f v h)

/-- `CCReflectDestroy` (2065-2121): every dynamic pointer is freed, whatever its ownership; opaque types are left alone. -/
def destroy : Ty → Val → Heap → Option Heap
  | .raw _, .ptr p, h => free h p
  | .ptr _ _, .ptr p, h => free h p
  | .pair a b, .pair x y, h => do destroy b y (← destroy a x h)
  | _, _, h => some h

/-- A loop that copies elements (946-949, 967-974). -/
def copyAll (f : Val → Heap → Option (Heap × Val)) : List Val → Heap → Option (Heap × List Val)
  | [], h => some (h, [])
  | v :: vs, h => do
    let (h, x) ← f v h
    let (h, xs) ← copyAll f vs h
    some (h, x :: xs)

/-- The unmappers (ReflectedTypes.c 1427-1449, 1472-1505, 1532-1553): a new container with the elements.  `CCArrayAppendElements`
asserts that there are some (Array.c 88); a linked list without elements is null. -/
def make (k : Kind) (vs : List Val) (h : Heap) : Option (Heap × Val) :=
  match k, vs with
  | .array, [] => none
  | .linked, [] => some (h, .null)
  | _, vs => let (h, q) := new h (.seq vs); some (h, .ptr q)

/-- `CCReflectCopy` (815-980) with `CCReflectAssignmentCopy`.
* A string (ReflectedTypes.c 502-509; Reflect.c 806-813) is retained by `CCStringCopy`, for `CopiedData` and for the destination, and
  freed twice.
* Of a container (ReflectedTypes.c 1410-1425, 1453-1470, 1512-1530) the elements are copied to `CopiedData`; the new container
  is retained for the destination and freed by the unmapper; `CopiedData` is destroyed (812). -/
def copy : Ty → Val → Heap → Option (Heap × Val)
  | .num, v, h => some (h, v)
  | .raw r, v, h =>
    match v with
    | .ptr p => if r then do some (← retain h p, .ptr p) else some (h, .ptr p)
    | v => some (h, v)
  | .ptr o t, v, h =>
    match v with
    | .ptr p =>
      if o = .weak then some (h, .ptr p)
      else do
        let x ← readCell h p
        let (h, x) ← copy t x h
        let (h, q) := new h (.cell x)
        some (h, .ptr q)
    | v => some (h, v)
  | .pair a b, v, h =>
    match v with
    | .pair x y => do
      let (h, x) ← copy a x h
      let (h, y) ← copy b y h
      some (h, .pair x y)
    | v => some (h, v)
  | .str, v, h =>
    match v with
    | .ptr p => do
      let h ← retain h p
      let h ← retain h p
      let h ← retain h p
      let h ← free h p
      let h ← free h p
      some (h, .ptr p)
    | v => some (h, v)
  | .cont k e, v, h =>
    match v with
    | .ptr p => do
      let vs ← readSeq h p
      let (h, xs) ← copyAll (copy e) vs h
      let (h, c) ← make k xs h
      let h ← (match c with
        | .ptr q => do free (← retain h q) q
        | _ => some h)
      let h ← each (destroy e) xs h
      some (h, c)
    | v => some (h, v)

/-- `CCReflectCopy` of a container with `CCReflectAssignmentShare` (796-804, 830-838, 909-938; ReflectedTypes.c 1414-1417, 1447): it
is retained. -/
def share : Val → Heap → Option (Heap × Val)
  | .ptr p, h => do some (← retain h p, .ptr p)
  | v, h => some (h, v)

/-- `CCReflectCopy` of a container with `CCReflectAssignmentTransfer` (791-799, 823-827): the pointer is copied. -/
def transfer : Val → Heap → Option (Heap × Val)
  | v, h => some (h, v)

end Verif.CopyCont
