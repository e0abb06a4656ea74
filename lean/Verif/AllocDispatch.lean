/-!
# Model of choosing an allocator: `CCMemoryAllocate`, `CCMemoryReallocate`, `CCMemoryDeallocate`, the static, standard, custom and callback allocators, groups of allocators and `CCAllocatorAdd` (`Allocator.c` 35-118, 256-276, 460-683, `Allocator.h` 40-60, 84-98, 194-247)

The memory is a set of raw blocks.  A raw block remembers which family of functions made it: family 0 is `malloc`, `realloc` and
`free`, every other family is a set of functions of the client (given to `CC_CUSTOM_ALLOCATOR` or to `CCAllocatorAdd`).
Reallocating or freeing with a function of another family, or anything but the start of a block, is undefined behaviour.  So
is reading or writing outside a block.  Undefined behaviour and failed assertions are the outer `none`.

Simplified: a raw reallocation that succeeds always gives a new block; one thread (several threads: C38); the allocators 4 to 9 the
library comes with are seen here as functions of one family each (what they do is C36, C60, C61 and C96); destructors and
callbacks do not call the library; a reference count wraps at 32 bits.
-/
namespace Verif.AllocDispatch

/-- A family of functions `allocate`, `reallocate` and `free` that belong together; 0 is the C library's. -/
abbrev Fam := Nat

/-- The header of an allocation, `CCAllocatorHeader` (`Allocator.h` 84-92): 16 bytes. -/
structure Header where
  allocator : Int
  refCount : Int
  destructor : Option Nat
  deriving DecidableEq, Repr

/-- Which of the functions of a family. -/
inductive Role where
  | alloc
  | realloc
  | free
  deriving DecidableEq, Repr

/-- What the library stores in front of memory: a header, a function of the custom allocator (`Allocator.c` 62-64), the callback
of the callback allocator (95), the size of static memory (`Allocator.h` 206). -/
inductive Item where
  | hdr (h : Header)
  | fn (r : Role) (f : Option Fam)
  | cb (c : Option Nat)
  | size (n : Nat)
  deriving DecidableEq, Repr

/-- A byte in memory: one of the client's, or the `k`-th byte of something the library stored. -/
inductive Cell where
  | byte (b : UInt8)
  | part (x : Item) (k : Nat)
  deriving DecidableEq, Repr

/-- A raw block; `fam` is `none` for static memory. -/
structure Blk where
  fam : Option Fam
  size : Nat
  cells : Nat → Cell

/-- The raw blocks there are, and the number the next one gets. -/
structure Heap where
  next : Nat
  blk : Nat → Option Blk

/-- A pointer: a block and an offset in it. -/
abbrev Ptr := Nat × Nat

/-- Changing a function at one place. -/
def upd {α : Type} (f : Nat → α) (i : Nat) (v : α) : Nat → α := fun j => if j = i then v else f j

/-- Storing an item of `n` bytes. -/
def Heap.put (H : Heap) (p : Ptr) (n : Nat) (x : Item) : Option Heap :=
  match H.blk p.1 with
  | none => none
  | some B =>
    if p.2 + n ≤ B.size then
      some { H with blk := upd H.blk p.1 (some { B with
        cells := fun i => if p.2 ≤ i ∧ i < p.2 + n then .part x (i - p.2) else B.cells i }) }
    else none

/-- Reading an item of `n` bytes; it must be one that was stored and is whole. -/
def Heap.get (H : Heap) (p : Ptr) (n : Nat) : Option Item :=
  match H.blk p.1 with
  | none => none
  | some B =>
    if p.2 + n ≤ B.size then
      match B.cells p.2 with
      | .part x 0 => if ∀ k, k < n → B.cells (p.2 + k) = .part x k then some x else none
      | _ => none
    else none

/-- The client stores a byte. -/
def Heap.write (H : Heap) (p : Ptr) (b : UInt8) : Option Heap :=
  match H.blk p.1 with
  | none => none
  | some B =>
    if p.2 < B.size then some { H with blk := upd H.blk p.1 (some { B with cells := upd B.cells p.2 (.byte b) }) } else none

/-- The client reads a byte. -/
def Heap.read (H : Heap) (p : Ptr) : Option Cell :=
  match H.blk p.1 with
  | none => none
  | some B => if p.2 < B.size then some (B.cells p.2) else none

/-- Moving a pointer back; in front of its block there is nothing. -/
def back (p : Ptr) (n : Nat) : Option Ptr := if n ≤ p.2 then some (p.1, p.2 - n) else none

/-- What the environment decides about a raw allocation: whether it succeeds, and the bytes that happen to be there. -/
abbrev Env := Option (Nat → UInt8)

/-- `size_t` arithmetic. -/
def wrap (n : Nat) : Nat := n % 2 ^ 64

/-- `int32_t` arithmetic of an atomic counter. -/
def wrap32 (n : Int) : Int := n.bmod (2 ^ 32)

/-- Allocating with a function of family `f`. -/
def rawAlloc (H : Heap) (f : Fam) (size : Nat) : Env → Heap × Option Nat
  | none => (H, none)
  | some fill => (⟨H.next + 1, upd H.blk H.next (some ⟨some f, size, fun i => .byte (fill i)⟩)⟩, some H.next)

/-- Reallocating with a function of family `f`: the common part is kept; when it fails the old block stays. -/
def rawRealloc (H : Heap) (f : Fam) (p : Ptr) (size : Nat) (env : Env) : Option (Heap × Option Nat) :=
  match H.blk p.1 with
  | none => none
  | some B =>
    if p.2 = 0 ∧ B.fam = some f then
      match env with
      | none => some (H, none)
      | some fill =>
        some (⟨H.next + 1, upd (upd H.blk p.1 none) H.next
          (some ⟨some f, size, fun i => if i < B.size then B.cells i else .byte (fill i)⟩)⟩, some H.next)
    else none

/-- Freeing with a function of family `f`. -/
def rawFree (H : Heap) (f : Fam) (p : Ptr) : Option Heap :=
  match H.blk p.1 with
  | none => none
  | some B => if p.2 = 0 ∧ B.fam = some f then some { H with blk := upd H.blk p.1 none } else none

/-- `Type.data` (`Allocator.h` 36-39, 46-57). -/
inductive Data where
  | null
  /-- the three functions of `CC_CUSTOM_ALLOCATOR` (50) -/
  | fns (a r d : Option Fam)
  /-- the callback of `CC_CALLBACK_ALLOCATOR` (51) -/
  | cb (c : Nat)
  /-- the group of `CC_ALLOCATORS` (46) -/
  | group (g : Nat)
  /-- anything else -/
  | other (n : Nat)
  deriving DecidableEq, Repr

/-- `CCAllocatorType` (`Allocator.h` 36-39). -/
structure Ty where
  allocator : Int
  data : Data
  deriving DecidableEq, Repr

/-- `CCAllocatorGroup` (`Allocator.h` 40-44). -/
structure Grp where
  current : Nat
  members : List Ty

/-- An entry of the table of allocators (`Allocator.c` 476-494): one of the first four, or functions of the client. -/
inductive Kind where
  | static
  | std
  | custom
  | callback
  | plain (a r d : Option Fam)
  deriving DecidableEq, Repr

/-- What happens to a callback (`CallbackAllocator.h` 31-37). -/
inductive Event where
  | allocatePre
  | allocatePost
  | reallocatePre
  | reallocatePost
  | deallocatePre
  deriving DecidableEq, Repr

/-- The library and its client: the memory, the table of allocators (`Allocator.c` 476-494), the groups, the client's pointers
(null is `none`), how many calls of `CCMemoryAllocate` may nest.  Not part of the program: the destructors called and the
events callbacks were given. -/
structure St where
  stack : Nat
  heap : Heap
  table : Nat → Kind
  groups : Nat → Grp
  slots : Nat → Option Ptr
  ran : List Nat
  events : List (Nat × Event)

/-- How callbacks change a size, when allocating (`false`) or reallocating (`true`). -/
abbrev Resize := Nat → Bool → Nat → Nat

/-- The size after the callback was asked (`Allocator.c` 91, 105). -/
def resized (rs : Resize) (c : Option Nat) (re : Bool) (size : Nat) : Nat :=
  match c with
  | none => size
  | some c => rs c re size

/-- The events a callback is given. -/
def told (c : Option Nat) (es : List Event) : List (Nat × Event) :=
  match c with
  | none => []
  | some c => es.map fun e => (c, e)

/-- `CustomAllocator` (`Allocator.c` 53-68). -/
def customAlloc (H : Heap) (data : Data) (size : Nat) (env : Env) : Option (Heap × Option Ptr) :=
  match data with
  | .null => some (H, none)
  | .fns none _ _ => some (H, none)
  | .fns (some f) r d =>
    match rawAlloc H f (wrap (size + 24)) env with
    | (H, none) => some (H, none)
    | (H, some i) => do
      let H ← H.put (i, 0) 8 (.fn .alloc (some f))
      let H ← H.put (i, 8) 8 (.fn .realloc r)
      let H ← H.put (i, 16) 8 (.fn .free d)
      some (H, some (i, 24))
  | _ => none

/-- `CustomReallocator` (`Allocator.c` 70-77); calling a null function is undefined behaviour. -/
def customRealloc (H : Heap) (p : Ptr) (size : Nat) (env : Env) : Option (Heap × Option Ptr) :=
  match back p 24 with
  | none => none
  | some q =>
    match H.get (q.1, q.2 + 8) 8 with
    | some (.fn .realloc (some r)) => (rawRealloc H r q (wrap (size + 24)) env).map fun x => (x.1, x.2.map fun i => (i, 24))
    | _ => none

/-- `CustomDeallocator` (`Allocator.c` 79-83). -/
def customFree (H : Heap) (p : Ptr) : Option Heap :=
  match back p 24 with
  | none => none
  | some q =>
    match H.get (q.1, q.2 + 16) 8 with
    | some (.fn .free (some d)) => rawFree H d q
    | _ => none

/-- The callback in `Type.data`. -/
def callbackOf : Data → Option (Option Nat)
  | .null => some none
  | .cb c => some (some c)
  | _ => none

/-- `CallbackAllocator` (`Allocator.c` 87-97). -/
def callbackAlloc (rs : Resize) (H : Heap) (c : Option Nat) (size : Nat) (env : Env) : Option (Heap × Option Ptr) :=
  match rawAlloc H 0 (wrap (resized rs c false size + 8)) env with
  | (H, none) => some (H, none)
  | (H, some i) => do
    let H ← H.put (i, 0) 8 (.cb c)
    some (H, some (i, 8))

/-- `CallbackReallocator` (`Allocator.c` 99-110) and the callback it found. -/
def callbackRealloc (rs : Resize) (H : Heap) (p : Ptr) (size : Nat) (env : Env) :
    Option (Heap × Option Ptr × Option Nat) :=
  match back p 8 with
  | none => none
  | some q =>
    match H.get q 8 with
    | some (.cb c) =>
      (rawRealloc H 0 q (wrap (resized rs c true size + 8)) env).map fun x => (x.1, x.2.map fun i => (i, 8), c)
    | _ => none

/-- `CallbackDeallocator` (`Allocator.c` 112-118) and the callback it found. -/
def callbackFree (H : Heap) (p : Ptr) : Option (Heap × Option Nat) :=
  match back p 8 with
  | none => none
  | some q =>
    match H.get q 8 with
    | some (.cb c) => (rawFree H 0 q).map fun H => (H, c)
    | _ => none

/-- `StaticReallocator` (`Allocator.c` 262-272). -/
def staticRealloc (H : Heap) (p : Ptr) (size : Nat) : Option (Heap × Option Ptr) :=
  match back p 8 with
  | none => none
  | some q =>
    match H.get q 8 with
    | some (.size m) => if size ≤ m then some (H, some p) else some (H, none)
    | _ => none

/-- Calling the allocator function of an entry (`Allocator.c` 528-537): the new memory and the events. -/
def callAlloc (rs : Resize) (H : Heap) (k : Kind) (data : Data) (size : Nat) (env : Env) :
    Option (Heap × Option Ptr × List (Nat × Event)) :=
  match k with
  | .static => some (H, none, [])
  | .std => let r := rawAlloc H 0 size env; some (r.1, r.2.map fun i => (i, 0), [])
  | .custom => (customAlloc H data size env).map fun r => (r.1, r.2, [])
  | .callback =>
    match callbackOf data with
    | none => none
    | some c => (callbackAlloc rs H c size env).map fun r => (r.1, r.2, told c [.allocatePre, .allocatePost])
  | .plain none _ _ => some (H, none, [])
  | .plain (some f) _ _ => let r := rawAlloc H f size env; some (r.1, r.2.map fun i => (i, 0), [])

/-- Calling the reallocator function of an entry (`Allocator.c` 573-579); `_data` is what it is given, none of these look at it. -/
def callRealloc (rs : Resize) (H : Heap) (k : Kind) (_data : Data) (p : Ptr) (size : Nat) (env : Env) :
    Option (Heap × Option Ptr × List (Nat × Event)) :=
  match k with
  | .static => (staticRealloc H p size).map fun r => (r.1, r.2, [])
  | .std => (rawRealloc H 0 p size env).map fun r => (r.1, r.2.map fun i => (i, 0), [])
  | .custom => (customRealloc H p size env).map fun r => (r.1, r.2, [])
  | .callback => (callbackRealloc rs H p size env).map fun r => (r.1, r.2.1, told r.2.2 [.reallocatePre, .reallocatePost])
  | .plain _ none _ => some (H, none, [])
  | .plain _ (some f) _ => (rawRealloc H f p size env).map fun r => (r.1, r.2.map fun i => (i, 0), [])

/-- Calling the deallocator function of an entry (`Allocator.c` 661-663). -/
def callFree (H : Heap) (k : Kind) (p : Ptr) : Option (Heap × List (Nat × Event)) :=
  match k with
  | .static => some (H, [])
  | .std => (rawFree H 0 p).map fun H => (H, [])
  | .custom => (customFree H p).map fun H => (H, [])
  | .callback => (callbackFree H p).map fun r => (r.1, told r.2 [.deallocatePre])
  | .plain _ _ none => some (H, [])
  | .plain _ _ (some f) => (rawFree H f p).map fun H => (H, [])

/-- The allocator a type stands for: groups give theirs in turn (`Allocator.c` 512-525).  `none` when a group has no
allocator left to give, and when groups are nested deeper than the stack (`fuel`) allows. -/
def pick : Nat → (Nat → Grp) → Ty → Option (Ty × (Nat → Grp))
  | 0, _, _ => none
  | fuel + 1, gs, ty =>
    if ty.allocator = -2 then
      match ty.data with
      | .group g =>
        match (gs g).members[(gs g).current]? with
        | none => none
        | some m =>
          match pick fuel gs m with
          | none => none
          | some (leaf, gs) =>
            let G := gs g
            some (leaf, if G.current + 1 < G.members.length then upd gs g { G with current := G.current + 1 } else gs)
      | _ => none
    else some (ty, gs)

/-- `CCMemoryAllocate` (`Allocator.c` 509-549) for a type that is no group. -/
def allocateLeaf (rs : Resize) (S : St) (ty : Ty) (size : Nat) (env : Env) : Option (St × Option Ptr) :=
  if ty.allocator < 0 then some (S, none)
  else if ¬ ty.allocator < 20 then none
  else
    let newSize := wrap (size + 16)
    if ¬ newSize > size then some (S, none)
    else
      match callAlloc rs S.heap (S.table ty.allocator.toNat) ty.data newSize env with
      | none => none
      | some (H, none, es) => some ({ S with heap := H, events := S.events ++ es }, none)
      | some (H, some p, es) => do
        let H ← H.put p 16 (.hdr ⟨ty.allocator, 1, none⟩)
        some ({ S with heap := H, events := S.events ++ es }, some (p.1, p.2 + 16))

/-- `CCMemoryAllocate` (`Allocator.c` 509-549). -/
def allocate (rs : Resize) (S : St) (ty : Ty) (size : Nat) (env : Env) : Option (St × Option Ptr) :=
  match pick S.stack S.groups ty with
  | none => none
  | some (leaf, gs) => allocateLeaf rs { S with groups := gs } leaf size env

/-- `CCMemoryReallocate` (`Allocator.c` 551-590).  No memory has a header that names a group or the null allocator here. -/
def reallocate (rs : Resize) (S : St) (ty : Ty) (p : Option Ptr) (size : Nat) (env : Env) : Option (St × Option Ptr) :=
  match p with
  | none => allocate rs S ty size env
  | some p =>
    match back p 16 with
    | none => none
    | some q =>
      match S.heap.get q 16 with
      | some (.hdr h) =>
        if ¬ (0 ≤ h.allocator ∧ h.allocator < 20) then none
        else
          let newSize := wrap (size + 16)
          if newSize > size then
            (callRealloc rs S.heap (S.table h.allocator.toNat) (if ty.allocator = h.allocator then ty.data else .null) q newSize env).map
              fun r => ({ S with heap := r.1, events := S.events ++ r.2.2 }, r.2.1.map fun p => (p.1, p.2 + 16))
          else some (S, none)
      | _ => none

/-- The header of memory (`Allocator.c` 595, 618, 636, 674). -/
def header (H : Heap) (p : Ptr) : Option (Ptr × Header) :=
  match back p 16 with
  | none => none
  | some q =>
    match H.get q 16 with
    | some (.hdr h) => if 0 ≤ h.allocator ∧ h.allocator < 20 then some (q, h) else none
    | _ => none

/-- `CCMemoryRetain` (`Allocator.c` 592-610). -/
def retain (S : St) (p : Ptr) : Option St := do
  let (q, h) ← header S.heap p
  let H ← S.heap.put q 16 (.hdr { h with refCount := wrap32 (h.refCount + 1) })
  some { S with heap := H }

/-- `CCMemoryRefCount` (`Allocator.c` 612-627). -/
def refCount (S : St) (p : Ptr) : Option Int := (header S.heap p).map fun x => x.2.refCount

/-- `CCMemorySetDestructor` (`Allocator.c` 668-680). -/
def setDestructor (S : St) (p : Ptr) (d : Option Nat) : Option St := do
  let (q, h) ← header S.heap p
  let H ← S.heap.put q 16 (.hdr { h with destructor := d })
  some { S with heap := H }

/-- `CCMemoryDeallocate` (`Allocator.c` 629-666), and whether that was the last reference. -/
def deallocate (S : St) (p : Ptr) : Option (St × Bool) := do
  let (q, h) ← header S.heap p
  let count := wrap32 (h.refCount - 1)
  let H ← S.heap.put q 16 (.hdr { h with refCount := count })
  if count < 0 then none
  else if count = 0 then do
    let (H, es) ← callFree H (S.table h.allocator.toNat) q
    some ({ S with heap := H, ran := S.ran ++ h.destructor.toList, events := S.events ++ es }, true)
  else some ({ S with heap := H }, false)

/-- `CCAllocatorAdd` (`Allocator.c` 497-507). -/
def add (S : St) (index : Int) (a r d : Option Fam) : Option St :=
  if index > 3 ∧ index < 20 then some { S with table := upd S.table index.toNat (.plain a r d) } else none

/-- `CC_STATIC_ALLOC` and `CC_STATIC_ALLOC_BSS` (`Allocator.h` 202-246) for a type of `n` bytes aligned to 8 bytes or less. -/
def static (S : St) (bss : Bool) (n : Nat) (fill : Nat → UInt8) : Option (St × Ptr) := do
  let H : Heap := ⟨S.heap.next + 1, upd S.heap.blk S.heap.next (some ⟨none, 24 + n, fun i => .byte (fill (i - 24))⟩)⟩
  let H ← H.put (S.heap.next, 0) 8 (.size (if bss then 0 else 16 + n))
  let H ← H.put (S.heap.next, 8) 16 (.hdr ⟨0, 0, none⟩)
  some ({ S with heap := H }, (S.heap.next, 24))

/-- What a client may do.  `h` is one of its variables. -/
inductive Op where
  | add (index : Int) (a r d : Option Fam)
  | static (h : Nat) (bss : Bool) (n : Nat) (fill : Nat → UInt8)
  | malloc (h : Nat) (ty : Ty) (size : Nat) (env : Env)
  | realloc (h : Nat) (ty : Ty) (size : Nat) (env : Env)
  | retain (h : Nat)
  | free (h : Nat)
  | setDestructor (h : Nat) (d : Option Nat)
  | write (h : Nat) (i : Nat) (b : UInt8)

/-- One call.  The client keeps the pointer an allocation gave it; a reallocation that gave null leaves the old one; the
last `CCFree` leaves null.  The result is whether an allocation gave memory, or a `CCFree` was the last. -/
def step (rs : Resize) (S : St) : Op → Option (St × Bool)
  | .add index a r d => (add S index a r d).map fun S => (S, true)
  | .static h bss n fill => (static S bss n fill).map fun r => ({ r.1 with slots := upd S.slots h (some r.2) }, true)
  | .malloc h ty size env =>
    (allocate rs S ty size env).map fun r => ({ r.1 with slots := upd S.slots h r.2 }, r.2.isSome)
  | .realloc h ty size env =>
    (reallocate rs S ty (S.slots h) size env).map fun r =>
      (if r.2.isSome then { r.1 with slots := upd S.slots h r.2 } else r.1, r.2.isSome)
  | .retain h =>
    match S.slots h with
    | none => some (S, true)
    | some p => (retain S p).map fun S => (S, true)
  | .free h =>
    match S.slots h with
    | none => some (S, true)
    | some p => (deallocate S p).map fun r => (if r.2 then { r.1 with slots := upd S.slots h none } else r.1, r.2)
  | .setDestructor h d =>
    match S.slots h with
    | none => none
    | some p => (setDestructor S p d).map fun S => (S, true)
  | .write h i b =>
    match S.slots h with
    | none => none
    | some p => (S.heap.write (p.1, p.2 + i) b).map fun H => ({ S with heap := H }, true)

/-- A history and the results of its calls. -/
def run (rs : Resize) (S : St) : List Op → Option (St × List Bool)
  | [] => some (S, [])
  | op :: ops =>
    match step rs S op with
    | none => none
    | some (S, b) =>
      match run rs S ops with
      | none => none
      | some (S, bs) => some (S, b :: bs)

/-- The table the library starts with (`Allocator.c` 481-493); `fams` are the families of the allocators 4 to 9. -/
def table0 (fams : Nat → Fam) : Nat → Kind
  | 0 => .static
  | 1 => .std
  | 2 => .custom
  | 3 => .callback
  | n => if n < 10 then .plain (some (fams n)) (some (fams n)) (some (fams n)) else .plain none none none

/-- The start: no memory. -/
def init (stack : Nat) (fams : Nat → Fam) (groups : Nat → Grp) : St :=
  ⟨stack, ⟨0, fun _ => none⟩, table0 fams, groups, fun _ => none, [], []⟩

end Verif.AllocDispatch
