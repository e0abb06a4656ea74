/-!
# Specification of the concurrent index map: the calls on a list
-/
namespace Verif.ConcIndexMap

/-- The calls. -/
inductive Call (α : Type) where
  | count
  | get (i : Nat)
  | replace (i : Nat) (x : α)
  | exact (i : Nat) (x old : α)
  | append (x : α)
  | remove (i : Nat)
  | insert (i : Nat) (x : α)
deriving DecidableEq, Repr

/-- What a call returns: a number (`none` for `SIZE_MAX`), an element (`none` for false), or a truth value. -/
inductive Res (α : Type) where
  | num (n : Option Nat)
  | elem (a : Option α)
  | bool (b : Bool)
deriving DecidableEq, Repr

variable {α : Type} [DecidableEq α]

/-- What a call does to a list, and what it returns. -/
def spec (l : List α) : Call α → List α × Res α
  | .count => (l, .num (some l.length))
  | .get i => (l, .elem l[i]?)
  | .replace i x => (l.set i x, .elem l[i]?)
  | .exact i x old => if l[i]? = some old then (l.set i x, .bool true) else (l, .bool false)
  | .append x => (l ++ [x], .num (some l.length))
  | .remove i => (l.eraseIdx i, .elem l[i]?)
  | .insert i x => if i < l.length then (l.insertIdx i x, .bool true) else (l, .bool false)

/-- The list after the first `k` of the calls `ops`, one after the other, beginning with the empty list. -/
def content (ops : List (Call α)) (k : Nat) : List α := (ops.take k).foldl (fun l c => (spec l c).1) []

/-- A call that has returned: what was called and returned; the number of changes made to the map before it began (`t0`) and before it returned (`t1`); which of the changes was made by this call, if one was (`k`); and, for a call that
loaded the count, the number of calls that at that moment had stored an element but not yet counted it (`lag`). -/
structure Rec (α : Type) where
  call : Call α
  res : Res α
  t0 : Nat
  t1 : Nat
  k : Option Nat
  lag : Nat

/-- The call made change number `k` while it was in progress, and returned what it should. -/
def Rec.Changed (ops : List (Call α)) (r : Rec α) (k : Nat) : Prop :=
  r.t0 ≤ k ∧ k < r.t1 ∧ ops[k]? = some r.call ∧ r.res = (spec (content ops k) r.call).2

/-- The call changed nothing, and that and what it returned is right for the list at some moment while it was in progress. -/
def Rec.Observed (ops : List (Call α)) (r : Rec α) : Prop :=
  ∃ k, r.t0 ≤ k ∧ k ≤ r.t1 ∧ spec (content ops k) r.call = (content ops k, r.res)

/-- A call that loaded the count and returned it or refused its index because of it, compared with the list `l`: it missed `lag` elements. -/
def Rec.Late (l : List α) (r : Rec α) : Prop := match r.call, r.res with
  | .count, .num (some n) => n + r.lag = l.length
  | .remove i, .elem none | .insert i _, .bool false => l.length ≤ i + r.lag
  | _, _ => False

end Verif.ConcIndexMap
