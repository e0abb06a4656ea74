import Verif.AllocDispatch
/-!
# What a client of the allocators relies on (C102)

The client sees objects: bytes, a number of references and a destructor.  An object remembers who made it; whoever made it also
reallocates and frees it, whatever type a reallocation is given.
-/
namespace Verif.AllocDispatch.Spec

/-- Who made an object. -/
inductive Maker where
  /-- `CC_STATIC_ALLOC`, with the most bytes it may be reallocated to, `CC_STATIC_ALLOC_BSS` may not be reallocated -/
  | static (cap : Option Nat)
  | std
  /-- `CC_CUSTOM_ALLOCATOR` with the functions of a family -/
  | custom (f : Fam)
  /-- `CC_CALLBACK_ALLOCATOR` with a callback, or none -/
  | callback (c : Option Nat)
  /-- an allocator of the table whose functions are of a family -/
  | added (index : Nat) (f : Fam)
  deriving DecidableEq, Repr

/-- An object; a byte is `none` while the client has not stored anything there. -/
structure Obj where
  maker : Maker
  size : Nat
  refs : Nat
  destructor : Option Nat
  bytes : Nat → Option UInt8

/-- What the client sees. -/
structure Abs where
  stack : Nat
  table : Nat → Kind
  groups : Nat → Grp
  objs : Nat → Option Obj
  ran : List Nat
  events : List (Nat × Event)

/-- Who would make an object of this type, if anyone. -/
def makerOf (table : Nat → Kind) (ty : Ty) : Option Maker :=
  if ty.allocator < 0 then none
  else
    match table ty.allocator.toNat with
    | .static => none
    | .std => some .std
    | .custom =>
      match ty.data with
      | .fns (some f) _ _ => some (.custom f)
      | _ => none
    | .callback =>
      match ty.data with
      | .cb c => some (.callback (some c))
      | _ => some (.callback none)
    | .plain (some f) _ _ => some (.added ty.allocator.toNat f)
    | .plain none _ _ => none

/-- The events of the callback of a maker. -/
def tells : Maker → List Event → List (Nat × Event)
  | .callback (some c), es => es.map fun e => (c, e)
  | _, _ => []

/-- Whether a maker will reallocate one of its objects to `size` bytes, when there is memory. -/
def reallocates (table : Nat → Kind) (m : Maker) (size : Nat) (env : Env) : Bool :=
  match m with
  | .static none => false
  | .static (some cap) => decide (size ≤ cap)
  | .added index _ =>
    match table index with
    | .plain _ (some _) _ => env.isSome
    | _ => false
  | _ => env.isSome

/-- Making an object. -/
def make (A : Abs) (h : Nat) (ty : Ty) (size : Nat) (env : Env) : Abs × Bool :=
  match pick A.stack A.groups ty with
  | none => (A, false)
  | some (leaf, gs) =>
    match makerOf A.table leaf with
    | none => ({ A with groups := gs }, false)
    | some m =>
      let A : Abs := { A with groups := gs, events := A.events ++ tells m [.allocatePre, .allocatePost] }
      if env.isSome then ({ A with objs := upd A.objs h (some ⟨m, size, 1, none, fun _ => none⟩) }, true) else (A, false)

/-- What a call does. -/
def next (A : Abs) : Op → Abs × Bool
  | .add index a r d => ({ A with table := upd A.table index.toNat (.plain a r d) }, true)
  | .static h bss n fill =>
    ({ A with objs := upd A.objs h (some ⟨.static (if bss then none else some n), n, 0, none, fun i => some (fill i)⟩) }, true)
  | .malloc h ty size env => make A h ty size env
  | .realloc h ty size env =>
    match A.objs h with
    | none => make A h ty size env
    | some o =>
      let A : Abs := { A with events := A.events ++ tells o.maker [.reallocatePre, .reallocatePost] }
      if reallocates A.table o.maker size env then
        ({ A with objs := upd A.objs h (some { o with size := size, bytes := fun i => if i < o.size then o.bytes i else none }) }, true)
      else (A, false)
  | .retain h =>
    match A.objs h with
    | none => (A, true)
    | some o => ({ A with objs := upd A.objs h (some { o with refs := o.refs + 1 }) }, true)
  | .free h =>
    match A.objs h with
    | none => (A, true)
    | some o =>
      if o.refs = 1 then
        ({ A with objs := upd A.objs h none, ran := A.ran ++ o.destructor.toList, events := A.events ++ tells o.maker [.deallocatePre] }, true)
      else ({ A with objs := upd A.objs h (some { o with refs := o.refs - 1 }) }, false)
  | .setDestructor h d =>
    match A.objs h with
    | none => (A, true)
    | some o => ({ A with objs := upd A.objs h (some { o with destructor := d }) }, true)
  | .write h i b =>
    match A.objs h with
    | none => (A, true)
    | some o => ({ A with objs := upd A.objs h (some { o with bytes := upd o.bytes i (some b) }) }, true)

/-- What a history does. -/
def nexts (A : Abs) : List Op → Abs × List Bool
  | [] => (A, [])
  | op :: ops => let r := next A op; let rs := nexts r.1 ops; (rs.1, r.2 :: rs.2)

/-- Functions of a family, or none. -/
def Of (f : Fam) (g : Option Fam) : Prop := g = none ∨ g = some f

/-- A callback does not shrink a size and the size stays in the address space. -/
def Grows (rs : Resize) (c : Option Nat) (re : Bool) (size : Nat) : Prop :=
  ∀ c', c = some c' → size + 16 ≤ rs c' re (size + 16) ∧ rs c' re (size + 16) + 8 < 2 ^ 64

/-- The rules for making an object: its allocator exists, the functions of a custom allocator are there and belong together, its
data is what it says it is. -/
def MakeOk (rs : Resize) (A : Abs) (ty : Ty) (size : Nat) : Prop :=
  size + 40 < 2 ^ 64 ∧ ∃ leaf gs, pick A.stack A.groups ty = some (leaf, gs) ∧ leaf.allocator < 20 ∧
    (leaf.allocator = 2 → leaf.data = .null ∨ (∃ r d, leaf.data = .fns none r d) ∨ ∃ f, leaf.data = .fns (some f) (some f) (some f)) ∧
    (leaf.allocator = 3 → leaf.data = .null ∨ ∃ c, leaf.data = .cb c ∧ Grows rs (some c) false size)

/-- The rules for a call.  A reallocation may be given any type at all. -/
def Fine (rs : Resize) (A : Abs) : Op → Prop
  | .add index a r d =>
    3 < index ∧ index < 20 ∧ (∀ f, a = some f → Of f r ∧ Of f d) ∧
      ∀ h o f, A.objs h = some o → o.maker = .added index.toNat f → Of f r ∧ Of f d
  | .static h _ _ _ => A.objs h = none
  | .malloc h ty size _ => A.objs h = none ∧ MakeOk rs A ty size
  | .realloc h ty size _ =>
    match A.objs h with
    | none => MakeOk rs A ty size
    | some o => size + 40 < 2 ^ 64 ∧ ∀ c, o.maker = .callback c → Grows rs c true size
  | .retain h => ∀ o, A.objs h = some o → o.refs + 1 < 2 ^ 31
  | .free h => ∀ o, A.objs h = some o → 0 < o.refs
  | .setDestructor h _ => A.objs h ≠ none
  | .write h i _ => ∃ o, A.objs h = some o ∧ i < o.size

/-- The rules for a history. -/
def FineAll (rs : Resize) (A : Abs) : List Op → Prop
  | [] => True
  | op :: ops => Fine rs A op ∧ FineAll rs (next A op).1 ops

/-- Every added allocator can free. -/
def CanFree : Op → Prop
  | .add _ _ _ d => d ≠ none
  | _ => True

/-- The start. -/
def init (stack : Nat) (fams : Nat → Fam) (groups : Nat → Grp) : Abs :=
  ⟨stack, table0 fams, groups, fun _ => none, [], []⟩

/-- The client finds in memory what it expects: for every object a pointer, the number of references and the bytes it stored; all
bytes are there to be used. -/
def Sees (S : St) (A : Abs) : Prop :=
  (∀ h, A.objs h = none → S.slots h = none) ∧
  (∀ h o, A.objs h = some o → ∃ p, S.slots h = some p ∧ refCount S p = some o.refs ∧
    ∀ i, i < o.size → ∃ c, S.heap.read (p.1, p.2 + i) = some c ∧ ∀ b, o.bytes i = some b → c = .byte b) ∧
  S.ran = A.ran ∧ S.events = A.events

end Verif.AllocDispatch.Spec
