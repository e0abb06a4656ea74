/-!
# Model of sections inside sections: `LazyGarbageCollector.c` in one thread, with its nodes

The collector used by one thread, which may begin a section while it is in one: its list is then one of nodes with their `next`, that are allocated and freed.  A node is numbered in the order of allocation, and stands for its item (one is made for every
call of `Manage`).  Allocations succeed.  `none`: a null pointer or a freed node is used.
-/
namespace Verif.GCNested

/-- The collector (`CCLazyGarbageCollectorInternal`, LazyGarbageCollector.c:69-76), the state of the thread (`CCLazyGarbageCollectorThread`, 128-131), and the nodes.  `log`: the items given to their reclaimers, in order. -/
structure Sys where
  fresh : Nat
  live : Nat → Bool
  next : Nat → Option Nat
  list : Option Nat
  rc : Nat
  hasLocal : Bool
  head : Option Nat
  tail : Option Nat
  log : List Nat

/-- `CCLazyGarbageCollectorConstructor` (LazyGarbageCollector.c:135-155). -/
def init : Sys := ⟨0, fun _ => false, fun _ => none, none, 0, false, none, none, []⟩

/-- Change one place. -/
def upd {α : Type} (f : Nat → α) (a : Nat) (b : α) : Nat → α := fun x => if x = a then b else f x

/-- `CCLazyGarbageCollectorBegin` (LazyGarbageCollector.c:171-199); the reference count is taken without its wrap after `2^32` sections. -/
def begin (s : Sys) : Option Sys := some { s with hasLocal := true, head := none, tail := none, rc := s.rc + 1 }

/-- `CCLazyGarbageCollectorManage` (LazyGarbageCollector.c:242-255). -/
def manage (s : Sys) : Option Sys :=
  if s.hasLocal then
    some { s with
      fresh := s.fresh + 1
      live := upd s.live s.fresh true
      next := upd s.next s.fresh s.head
      head := some s.fresh
      tail := match s.tail with | none => some s.fresh | some t => some t }
  else none

/-- `CCLazyGarbageCollectorDrain` (LazyGarbageCollector.c:201-211).  The number bounds the rounds: every round frees a node that was not free, so the bound `fresh + 1` is not reached. -/
def drain : Nat → Sys → Option Nat → Option Sys
  | _, s, none => some s
  | 0, _, some _ => none
  | fuel + 1, s, some n =>
    if s.live n then drain fuel { s with log := s.log ++ [n], live := upd s.live n false } (s.next n) else none

/-- `CCLazyGarbageCollectorEnd` (LazyGarbageCollector.c:213-240); nobody interferes, so the exchanges succeed.  A count of 0 (an `End` without `Begin`) is not considered: `none`. -/
def end_ (s : Sys) : Option Sys :=
  if s.hasLocal = false ∨ s.rc = 0 then none
  else
    match s.head with
    | some h =>
      match s.tail with
      | none => none
      | some t =>
        if s.live t then
          let s := { s with next := upd s.next t s.list, list := if s.rc = 1 then none else some h, rc := s.rc - 1 }
          if s.rc = 0 then drain (s.fresh + 1) s (some h) else some s
        else none
    | none =>
      let managed := s.list
      let s := { s with list := if s.rc = 1 then none else s.list, rc := s.rc - 1 }
      if s.rc = 0 then drain (s.fresh + 1) s managed else some s

inductive Call where
  | begin
  | manage
  | end_
deriving DecidableEq, Repr

/-- One call. -/
def call (s : Sys) : Call → Option Sys
  | .begin => begin s
  | .manage => manage s
  | .end_ => end_ s

/-- A series of calls. -/
def run (s : Sys) : List Call → Option Sys
  | [] => some s
  | c :: cs => (call s c).bind fun s => run s cs

end Verif.GCNested
