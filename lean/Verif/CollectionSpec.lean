import Verif.Collection
/-!
# Specification of collections

The client keeps a ledger: the elements held, in order, each with the entry the collection returned for it.  The ledger is updated
from the call made and the reply received only, by ordinary list operations.  Nothing here refers to an implementation's state.
-/
namespace Verif.Collection.Spec
open Verif.Collection

/-- What the client believes: (entry, element) for every element held, in order. -/
abbrev Ledger (α : Type) := List (Entry × α)

/-- Entries of the array and list implementations are references that last: other calls do not touch them. -/
def lasting {α : Type} (l : Ledger α) : Ledger α := l

/-- Entries of the fast array are, as its header says, just the current index (plus one) of the element. -/
def positional {α : Type} (l : Ledger α) : Ledger α := l.mapIdx fun i p => (i + 1, p.2)

/-- The calls a client makes.  The flag tells whether the memory the call needs is available. -/
inductive Call (α : Type) where
  | insert (x : α) (ok : Bool)
  | insertMany (xs : List α)
  | remove (e : Entry)
  | removeMany (es : List Entry)
  | removeAll
  | insertAt (x : α) (i : Nat) (ok : Bool)
  | append (x : α) (ok : Bool)
  | prepend (x : α) (ok : Bool)
  | replaceAt (x : α) (i : Nat)
  | removeAt (i : Nat)
  | removeLast
  | get (e : Entry)
  | entryAt (i : Nat)
  | indexOf (e : Entry)
  | elementAt (i : Nat)
  | lastEntry
  | lastElement
  | allEntries
  | find (p : α → Bool)
  | findMany (ps : List (α → Bool))

/-- What a call returns. -/
inductive Reply (α : Type) where
  | nothing
  | entry (e : Entry)
  | entries (es : List Entry)
  | element (x : Option α)
  | index (i : Nat)

/-- Carry out a call. -/
def exec {σ α : Type} (I : Iface σ α) (c : Coll σ α) : Call α → Option (Coll σ α × Reply α)
  | .insert x ok => (insertElement I c x ok).map fun r => (r.1, .entry r.2)
  | .insertMany xs => (insertColl I c true xs).map fun r => (r.1, .entries r.2)
  | .remove e => (removeElement I c e).map fun c => (c, .nothing)
  | .removeMany es => (removeColl I c es).map fun c => (c, .nothing)
  | .removeAll => (removeAllElements I c).map fun c => (c, .nothing)
  | .insertAt x i ok => (insertAt I c x i ok).map fun r => (r.1, .entry r.2)
  | .append x ok => (Collection.append I c x ok).map fun r => (r.1, .entry r.2)
  | .prepend x ok => (prepend I c x ok).map fun r => (r.1, .entry r.2)
  | .replaceAt x i => (replaceAt I c x i true).map fun r => (r.1, .entry r.2)
  | .removeAt i => (removeAt I c i).map fun c => (c, .nothing)
  | .removeLast => (removeLast I c).map fun c => (c, .nothing)
  | .get e => (getElement I c e).map fun x => (c, .element x)
  | .entryAt i => (entryAt I c i).map fun r => (r.1, .entry r.2)
  | .indexOf e => (indexOf I c e).map fun i => (c, .index i)
  | .elementAt i => (elementAt I c i).map fun r => (r.1, .element r.2)
  | .lastEntry => (lastEntry I c).map fun r => (r.1, .entry r.2)
  | .lastElement => (lastElement I c).map fun r => (r.1, .element r.2)
  | .allEntries => (getAllEntries I c).map fun r => (r.1, .entries r.2)
  | .find p => (findElement I c p).map fun r => (r.1, .entry r.2)
  | .findMany ps => (findColl I c ps).map fun r => (r.1, .entries r.2)

/-- Which histories are considered. -/
structure Limits where
  /-- allocations may fail -/
  mayFail : Bool
  /-- several entries may be removed in any order (otherwise: in the order their elements have in the collection) -/
  anyOrder : Bool
  /-- removing all elements in one call is allowed -/
  clear : Bool

/-- The calls that make sense for a ledger: an entry must be a current one (or NULL where that is allowed), an index in range. -/
def Allowed {α : Type} (k : Limits) (l : Ledger α) : Call α → Prop
  | .insert _ ok => (k.mayFail = false → ok = true) ∧ l.length + 1 < 2 ^ 64
  | .insertMany xs => l.length + xs.length < 2 ^ 64
  | .remove e => e = 0 ∨ ∃ x, (e, x) ∈ l
  | .removeMany es => es.Nodup ∧ (∀ e ∈ es, ∃ x, (e, x) ∈ l) ∧ (k.anyOrder = false → es.Sublist (l.map Prod.fst))
  | .removeAll => k.clear = true
  | .insertAt _ i ok => (k.mayFail = false → ok = true) ∧ l.length + 1 < 2 ^ 64 ∧ i ≤ l.length
  | .append _ ok => (k.mayFail = false → ok = true) ∧ l.length + 1 < 2 ^ 64
  | .prepend _ ok => (k.mayFail = false → ok = true) ∧ l.length + 1 < 2 ^ 64
  | .replaceAt _ i => i < l.length ∧ l.length + 1 < 2 ^ 64
  | .removeAt i => i < l.length
  | .removeLast => l ≠ []
  | .get e => e = 0 ∨ ∃ x, (e, x) ∈ l
  | .entryAt i => i < l.length
  | .indexOf e => ∃ x, (e, x) ∈ l
  | .elementAt i => i < l.length
  | _ => True

/-- Record a successful insertion before position `i`; NULL reports a failed one, which leaves the ledger as it was. -/
def record {α : Type} (relab : Ledger α → Ledger α) (l : Ledger α) (i : Nat) (x : α) (e : Entry) : Ledger α :=
  if e = 0 then l else relab (l.insertIdx i (e, x))

/-- The ledger after a call with a given reply.  `relab` says what becomes of the entries of the elements (`lasting` or `positional`). -/
def after {α : Type} (relab : Ledger α → Ledger α) (l : Ledger α) : Call α → Reply α → Ledger α
  | .insert x _, .entry e => record relab l l.length x e
  | .insertMany xs, .entries es => relab (l ++ es.zip xs)
  | .remove e, _ => relab (l.filter fun p => p.1 ≠ e)
  | .removeMany es, _ => relab (l.filter fun p => p.1 ∉ es)
  | .removeAll, _ => []
  | .insertAt x i _, .entry e => record relab l i x e
  | .append x _, .entry e => record relab l l.length x e
  | .prepend x _, .entry e => record relab l 0 x e
  | .replaceAt x i, .entry e => relab (l.set i (e, x))
  | .removeAt i, _ => relab (l.eraseIdx i)
  | .removeLast, _ => relab l.dropLast
  | _, _ => l

/-- The elements a call put in, given its reply. -/
def added {α : Type} : Call α → Reply α → List α
  | .insert x _, .entry e | .insertAt x _ _, .entry e | .append x _, .entry e | .prepend x _, .entry e => if e = 0 then [] else [x]
  | .insertMany xs, _ => xs
  | .replaceAt x _, _ => [x]
  | _, _ => []

/-- A history of calls on a new collection: its state, the client's ledger, and every element ever put in. -/
inductive Reach {σ α : Type} (I : Iface σ α) (relab : Ledger α → Ledger α) (k : Limits) (dtor : Bool) :
    Coll σ α → Ledger α → List α → Prop
  | new : Reach I relab k dtor (create I dtor) [] []
  | call {c l ever op c' r} : Reach I relab k dtor c l ever → Allowed k l op → exec I c op = some (c', r) →
      Reach I relab k dtor c' (after relab l op r) (ever ++ added op r)

/-- The entry of the first held element that satisfies `p`, NULL if there is none. -/
def firstEntry {α : Type} (l : Ledger α) (p : α → Bool) : Entry :=
  match l.find? fun q => p q.2 with
  | some q => q.1
  | none => 0

/-- The reply each call must give, for a ledger. -/
def Expected {α : Type} (relab : Ledger α → Ledger α) (l : Ledger α) : Call α → Reply α → Prop
  | .insert x ok, r => ∃ e, r = .entry e ∧ (e = 0 ↔ ok = false) ∧ (ok = true → (record relab l l.length x e)[l.length]? = some (e, x))
  | .insertMany xs, r => ∃ es, r = .entries es ∧ es.length = xs.length ∧ ∀ e ∈ es, e ≠ 0
  | .insertAt x i ok, r => ∃ e, r = .entry e ∧ (e = 0 ↔ ok = false) ∧ (ok = true → (record relab l i x e)[i]? = some (e, x))
  | .append x ok, r => ∃ e, r = .entry e ∧ (e = 0 ↔ ok = false) ∧ (ok = true → (record relab l l.length x e)[l.length]? = some (e, x))
  | .prepend x ok, r => ∃ e, r = .entry e ∧ (e = 0 ↔ ok = false) ∧ (ok = true → (record relab l 0 x e)[0]? = some (e, x))
  | .replaceAt x i, r => ∃ e, r = .entry e ∧ e ≠ 0 ∧ (relab (l.set i (e, x)))[i]? = some (e, x)
  | .get e, r => r = .element (if e = 0 then none else (l.find? fun p => p.1 = e).map Prod.snd)
  | .entryAt i, r => r = .entry ((l[i]?.map Prod.fst).getD 0)
  | .indexOf e, r => r = .index (l.findIdx fun p => p.1 = e)
  | .elementAt i, r => r = .element (l[i]?.map Prod.snd)
  | .lastEntry, r => r = .entry ((l.getLast?.map Prod.fst).getD 0)
  | .lastElement, r => r = .element (l.getLast?.map Prod.snd)
  | .allEntries, r => r = .entries (l.map Prod.fst)
  | .find p, r => r = .entry (firstEntry l p)
  | .findMany ps, r => r = .entries ((ps.map (firstEntry l)).filter (· ≠ 0))
  | _, r => r = .nothing

/-- The collection holds exactly the elements of the ledger, in its order, and its entries are distinct and denote them. -/
structure Holds {σ α : Type} (I : Iface σ α) (c : Coll σ α) (l : Ledger α) : Prop where
  count : getCount I c = l.length
  notNull : ∀ p ∈ l, p.1 ≠ 0
  distinct : (l.map Prod.fst).Nodup
  get : ∀ e x, (e, x) ∈ l → getElement I c e = some (some x)
  walk : ∃ v, forward I c.s = some v ∧ v.map Prod.snd = l.map Prod.snd ∧
    v.map (fun p => I.enumeratorReference c.s p.1) = l.map fun p => some (c.s, p.1)
  walkBack : ∃ v, backward I c.s = some v ∧ v.map Prod.snd = (l.map Prod.snd).reverse ∧
    v.map (fun p => I.enumeratorReference c.s p.1) = (l.map fun p => some (c.s, p.1)).reverse

/-- Calls that only add at the end or take away the last element, or change nothing.  -/
def AtEnd {α : Type} (l : Ledger α) : Call α → Prop
  | .remove e => l.getLast?.map Prod.fst = some e
  | .removeMany _ | .prepend _ _ => False
  | .removeAt i => i + 1 = l.length
  | .insertAt _ i _ => i = l.length
  | _ => True

/-! ### Ordered collections, without entries -/

/-- Calls by position. -/
inductive Pos (α : Type) where
  | insertAt (x : α) (i : Nat)
  | append (x : α)
  | prepend (x : α)
  | replaceAt (x : α) (i : Nat)
  | removeAt (i : Nat)
  | removeLast
  | elementAt (i : Nat)
  | lastElement
  | indexOfEntryAt (i : Nat)

/-- What they show. -/
inductive Seen (α : Type) where
  | nothing
  | element (x : Option α)
  | index (i : Nat)

/-- Carry out a call by position. -/
def observe {σ α : Type} (I : Iface σ α) (c : Coll σ α) : Pos α → Option (Coll σ α × Seen α)
  | .insertAt x i => (Collection.insertAt I c x i true).map fun r => (r.1, .nothing)
  | .append x => (Collection.append I c x true).map fun r => (r.1, .nothing)
  | .prepend x => (Collection.prepend I c x true).map fun r => (r.1, .nothing)
  | .replaceAt x i => (Collection.replaceAt I c x i true).map fun r => (r.1, .nothing)
  | .removeAt i => (Collection.removeAt I c i).map fun c => (c, .nothing)
  | .removeLast => (Collection.removeLast I c).map fun c => (c, .nothing)
  | .elementAt i => (Collection.elementAt I c i).map fun r => (r.1, .element r.2)
  | .lastElement => (Collection.lastElement I c).map fun r => (r.1, .element r.2)
  | .indexOfEntryAt i => (entryAt I c i).bind fun r => (Collection.indexOf I r.1 r.2).map fun j => (r.1, .index j)

/-- Carry out calls by position one after the other: what they show, and the elements found by walking the collection at the end. -/
def script {σ α : Type} (I : Iface σ α) : Coll σ α → List (Pos α) → Option (List (Seen α) × List α)
  | c, [] => (forward I c.s).map fun v => ([], v.map Prod.snd)
  | c, op :: ops => (observe I c op).bind fun r => (script I r.1 ops).map fun t => (r.2 :: t.1, t.2)

/-- The same call on a list; `none` when the position is out of range. -/
def onList {α : Type} (xs : List α) : Pos α → Option (List α × Seen α)
  | .insertAt x i => if i ≤ xs.length then some (xs.insertIdx i x, .nothing) else none
  | .append x => some (xs ++ [x], .nothing)
  | .prepend x => some (x :: xs, .nothing)
  | .replaceAt x i => if i < xs.length then some (xs.set i x, .nothing) else none
  | .removeAt i => if i < xs.length then some (xs.eraseIdx i, .nothing) else none
  | .removeLast => if xs = [] then none else some (xs.dropLast, .nothing)
  | .elementAt i => if i < xs.length then some (xs, .element xs[i]?) else none
  | .lastElement => some (xs, .element xs.getLast?)
  | .indexOfEntryAt i => if i < xs.length then some (xs, .index i) else none

/-- The same calls on a list. -/
def scriptList {α : Type} : List α → List (Pos α) → Option (List (Seen α) × List α)
  | xs, [] => some ([], xs)
  | xs, op :: ops => (onList xs op).bind fun r => (scriptList r.1 ops).map fun t => (r.2 :: t.1, t.2)

end Verif.Collection.Spec
