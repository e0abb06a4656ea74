import Verif.VarInt
import Verif.Rle
/-!
# Model of copying and binary serialisation of reflected data (`CommonC/Reflect.c` 32-89, 789-980, 1946-2278)

Memory is a function from addresses to bytes; pointers are stored as eight bytes, lowest first.  A type descriptor is
referred to by a number (its address), so that recursive types are possible.  The recursion over the data has fuel, running
out of it is the outcome `loop`: the code does not return when it happens for every fuel.  A failing assertion is `fault`.
Simplified: static pointers, opaque types other than `void` and enumerables (which call functions of the user) are not
modelled; every allocation gives memory above all former ones, until the address space is full; the custom allocator and
the destructor of a pointer have no effect on the data.
-/
namespace Verif.Reflect

open Verif.VarInt (Endian writeFixed readFixed writeInt readInt)
open Verif.Rle (le ofLe)

/-- `CCReflectOwnership` (Reflect.h 68-72). -/
inductive Ownership where
  | weak | transfer | retain
  deriving DecidableEq, Repr

/-- The type descriptors (Reflect.h 74-176). -/
inductive Ty where
  /-- `CC_REFLECT(void)`. -/
  | void
  /-- `CCReflectDynamicPointer`. -/
  | pointer (target : Nat) (own : Ownership)
  /-- `CCReflectInteger`. -/
  | integer (size : Nat) (e : Endian) (sign fixed : Bool)
  /-- `CCReflectFloat`. -/
  | float (size : Nat) (e : Endian)
  /-- `CCReflectStruct`: for every field its offset and type. -/
  | struct (size : Nat) (fields : List (Nat × Nat))
  /-- `CCReflectArray`. -/
  | array (elem count : Nat)
  /-- `CCReflectValidator`. -/
  | validator (base : Nat)
  deriving DecidableEq, Repr

/-- Memory. -/
abbrev Mem := Nat → UInt8

/-- The type descriptors by their address, and what the validators have besides their base type: the function (with the
validator and the base type) and the types and data of the results. -/
structure Env where
  ty : Nat → Option Ty
  check : Nat → Nat → Mem → Nat → Bool
  success : Nat → Option (Nat × Nat)
  failure : Nat → Option (Nat × Nat)

/-- Why there is no result. -/
inductive Err where
  | fault | oom | loop
  deriving DecidableEq, Repr

/-- The bytes at an address. -/
def bytes (m : Mem) (a n : Nat) : List UInt8 := (List.range n).map fun i => m (a + i)

/-- Writing bytes at an address. -/
def store (m : Mem) (a : Nat) (xs : List UInt8) : Mem :=
  fun x => if a ≤ x ∧ x < a + xs.length then xs.getD (x - a) 0 else m x

/-- `*(void**)Data`. -/
def ptr (m : Mem) (a : Nat) : Nat := ofLe (bytes m a 8)

/-- `CCReflectTypeSize` (32-62). -/
def typeSize (env : Env) : Nat → Nat → Except Err Nat
  | 0, _ => .error .loop
  | k + 1, t =>
    match env.ty t with
    | none => .error .fault
    | some .void => .ok 1
    | some (.pointer _ _) => .ok 8
    | some (.integer n _ _ _) => .ok n
    | some (.float n _) => .ok n
    | some (.struct n _) => .ok n
    | some (.array e c) => match typeSize env k e with
      | .ok s => .ok (s * c)
      | .error x => .error x
    | some (.validator b) => typeSize env k b

/-- The offsets and types of the elements of an array. -/
def elements (s e c : Nat) : List (Nat × Nat) := (List.range c).map fun i => (s * i, e)

/-! ## Serialising -/

/-- The loops over fields and elements (1989-1992, 2015-2018). -/
def serParts (f : Nat → Nat → Except Err (List UInt8)) (a : Nat) : List (Nat × Nat) → Except Err (List UInt8)
  | [] => .ok []
  | p :: ps =>
    match f p.2 (a + p.1) with
    | .error x => .error x
    | .ok out => match serParts f a ps with
      | .error x => .error x
      | .ok outs => .ok (out ++ outs)

/-- The outcome of writing a number. -/
def lift {α : Type} : Option α → Except Err α
  | some x => .ok x
  | none => .error .fault

/-- `CCReflectSerializeBinary` (1953-2063) to a stream of byte order `se`. -/
def serialize (env : Env) (se : Endian) (prefer : Nat) (m : Mem) : Nat → Nat → Nat → Except Err (List UInt8)
  | 0, _, _ => .error .loop
  | k + 1, t, a =>
    if a = 0 then .error .fault
    else match env.ty t with
    | none => .error .fault
    | some .void => .ok []
    | some (.pointer target _) =>
      if ptr m a ≠ 0 then match serialize env se prefer m k target (ptr m a) with
        | .ok out => .ok (1 :: out)
        | .error x => .error x
      else .ok [0]
    | some (.integer n e sign fixed) => lift (writeInt e (bytes m a n) sign fixed prefer se)
    | some (.float n e) => lift (writeFixed e se (bytes m a n))
    | some (.struct _ fields) => serParts (serialize env se prefer m k) a fields
    | some (.array e c) => match typeSize env k e with
      | .ok s => serParts (serialize env se prefer m k) a (elements s e c)
      | .error x => .error x
    | some (.validator b) => serialize env se prefer m k b a

/-! ## Copying -/

/-- `CCReflectAssignment` (Reflect.h 377-383): what is done with pointers, and `CCReflectAssignmentCopyWeakRefs`. -/
inductive Kind where
  | transfer | share | copy
  deriving DecidableEq, Repr

/-- See `Kind`. -/
structure Assignment where
  kind : Kind
  weak : Bool
  deriving DecidableEq, Repr

/-- The memory, where the next allocation will be, and the pointers that were retained. -/
structure St where
  mem : Mem
  brk : Nat
  retained : List Nat

/-- `CCMalloc`: the failing one returns null, for which the next call asserts. -/
def alloc (n : Nat) (st : St) : Except Err (Nat × St) :=
  if st.brk + n + 1 ≤ 2 ^ 64 then .ok (st.brk, { st with brk := st.brk + n + 1 }) else .error .oom

/-- The loops over fields and elements. -/
def eachPart {σ : Type} (f : Nat → Nat → Nat → σ → Except Err σ) (a src : Nat) : List (Nat × Nat) → σ → Except Err σ
  | [], st => .ok st
  | p :: ps, st =>
    match f p.2 (a + p.1) (src + p.1) st with
    | .error x => .error x
    | .ok st => eachPart f a src ps st

mutual

/-- `CCReflectCopy` (815-980) of the data at `src` to `a`. -/
def copy (env : Env) (asg : Assignment) (validate : Bool) : Nat → Nat → Nat → Nat → St → Except Err St
  | 0, _, _, _, _ => .error .loop
  | k + 1, t, a, src, st =>
    if a = 0 ∨ src = 0 then .error .fault
    else match env.ty t with
    | none => .error .fault
    | some .void => .ok st
    | some (.pointer target own) =>
      let st := { st with mem := store st.mem a (bytes st.mem src 8) }
      let p := ptr st.mem a
      if (asg.kind ≠ .transfer ∨ asg.weak) ∧ p ≠ 0 then
        if env.ty target = some .void then
          .ok (if own = .retain then { st with retained := st.retained ++ [p] } else st)
        else if own = .weak ∧ ¬asg.weak then .ok st
        else if own = .retain ∧ asg.kind = .share then .ok { st with retained := st.retained ++ [p] }
        else match typeSize env k target with
          | .error x => .error x
          | .ok s => match alloc s st with
            | .error x => .error x
            | .ok (q, st) => match copy env asg validate k target q p st with
              | .error x => .error x
              | .ok st => .ok { st with mem := store st.mem a (le 8 q) }
      else .ok st
    | some (.integer n _ _ _) => .ok { st with mem := store st.mem a (bytes st.mem src n) }
    | some (.float n _) => .ok { st with mem := store st.mem a (bytes st.mem src n) }
    | some (.struct _ fields) => eachPart (copy env asg validate k) a src fields st
    | some (.array e c) => match typeSize env k e with
      | .error x => .error x
      | .ok s => eachPart (copy env asg validate k) a src (elements s e c) st
    | some (.validator b) => match copy env asg validate k b a src st with
      | .error x => .error x
      | .ok st => if validate then (match check env k t b a st with
          | .error x => .error x
          | .ok (_, st) => .ok st) else .ok st

/-- `CCReflectValidate` (64-89) of the validator `v` with base type `b`; the base type is returned. -/
def check (env : Env) : Nat → Nat → Nat → Nat → St → Except Err (Nat × St)
  | 0, _, _, _, _ => .error .loop
  | k + 1, v, b, a, st =>
    match (match env.ty b with
        | some (.validator b') => check env k b b' a st
        | _ => .ok (b, st)) with
    | .error x => .error x
    | .ok (b, st) =>
      match (if env.check v b st.mem a then env.success v else env.failure v) with
      | none => .ok (b, st)
      | some (t, src) => match copy env { kind := .copy, weak := false } true k t a src st with
        | .error x => .error x
        | .ok st => .ok (t, st)

end

/-! ## Deserialising -/

/-- `CCReflectDeserializeBinary` (2128-2278) to the address `a`; the state has what remains of the stream. -/
def deserialize (env : Env) (se : Endian) (prefer : Nat) : Nat → Nat → Nat → St × List UInt8 → Except Err (St × List UInt8)
  | 0, _, _, _ => .error .loop
  | k + 1, t, a, (st, inp) =>
    if a = 0 then .error .fault
    else match env.ty t with
    | none => .error .fault
    | some .void => .ok (st, inp)
    | some (.pointer target _) =>
      match inp with
      | [] => .error .fault
      | x :: inp =>
        if x ≠ 0 then match typeSize env k target with
          | .error x => .error x
          | .ok s => match alloc s st with
            | .error x => .error x
            | .ok (q, st) => match deserialize env se prefer k target q (st, inp) with
              | .error x => .error x
              | .ok (st, inp) => .ok ({ st with mem := store st.mem a (le 8 q) }, inp)
        else .ok ({ st with mem := store st.mem a (le 8 0) }, inp)
    | some (.integer n e sign fixed) => match readInt e n sign fixed prefer se inp with
      | none => .error .fault
      | some (xs, inp) => .ok ({ st with mem := store st.mem a xs }, inp)
    | some (.float n e) => match readFixed e se n inp with
      | none => .error .fault
      | some (xs, inp) => .ok ({ st with mem := store st.mem a xs }, inp)
    | some (.struct _ fields) => eachPart (fun t a _ => deserialize env se prefer k t a) a a fields (st, inp)
    | some (.array e c) => match typeSize env k e with
      | .error x => .error x
      | .ok s => eachPart (fun t a _ => deserialize env se prefer k t a) a a (elements s e c) (st, inp)
    | some (.validator b) => match deserialize env se prefer k b a (st, inp) with
      | .error x => .error x
      | .ok (st, inp) => match check env k t b a st with
        | .error x => .error x
        | .ok (_, st) => .ok (st, inp)

end Verif.Reflect
