import Verif.PtrMap
/-!
# Specification of the index map with elements stored by pointer: a list, and calls that may run out of memory
-/
namespace Verif.PtrMap.Spec
open IndexMap (Res)
variable {α : Type} [DecidableEq α]

/-- The calls on a list.  `full` says whether an append needs a new buffer; `fs` are the outcomes of the allocations.
Replacing allocates the element; appending allocates the element, and, if it needs a new buffer, the buffer and the element once more.  A call that runs out of memory fails and changes nothing; removing and inserting go on until there is memory. -/
def exec (full : Nat → Bool) (l : List α) (fs : List Bool) : Op α → List α × Res α
  | .count => (l, .num (some l.length))
  | .get i => (l, .elem l[i]?)
  | .replace i x => if fs.head? = some false then (l, .elem none) else (l.set i x, .elem l[i]?)
  | .replaceExact i x old => if l[i]? = some old ∧ fs.head? ≠ some false then (l.set i x, .bool true) else (l, .bool false)
  | .append x => if false ∈ fs.take (if full l.length then 3 else 1) then (l, .num none) else (l ++ [x], .num (some l.length))
  | .remove i => (l.eraseIdx i, .elem l[i]?)
  | .insert i x => if i < l.length then (l.take i ++ x :: l.drop i, .bool true) else (l, .bool false)

/-- The list after the events and what the calls return; what the collector does is not seen. -/
def run (full : Nat → Bool) (l : List α) : List (Ev α) → List α × List (Res α)
  | [] => (l, [])
  | .collect _ :: es => run full l es
  | .call o fs :: es =>
    let (l, r) := exec full l fs o
    let (l, rs) := run full l es
    (l, r :: rs)

/-- The element of an insertion cannot be allocated although the buffer for it can. -/
def Starved (fs : List Bool) : Prop := ∃ n rest, fs = List.replicate n false ++ true :: false :: rest

/-- No call of the sequence inserts into the list while short of memory for the element. -/
def Fed (full : Nat → Bool) (l : List α) : List (Ev α) → Prop
  | [] => True
  | .collect _ :: es => Fed full l es
  | .call o fs :: es => (∀ i x, o = .insert i x → i < l.length → ¬ Starved fs) ∧ Fed full (exec full l fs o).1 es

end Verif.PtrMap.Spec
