import Verif.IndexMap
/-!
# Specification of the index map: a list
-/
namespace Verif.IndexMap.Spec
variable {α : Type}

/-- The same calls on a list.  `full` says whether an append needs a new buffer; only then can it fail. -/
def exec [DecidableEq α] (full : Nat → Bool) (l : List α) : Op α → List α × Res α
  | .count => (l, .num (some l.length))
  | .get i => (l, .elem l[i]?)
  | .replace i x => (l.set i x, .elem l[i]?)
  | .replaceExact i x old => if l[i]? = some old then (l.set i x, .bool true) else (l, .bool false)
  | .append ok x => if full l.length && !ok then (l, .num none) else (l ++ [x], .num (some l.length))
  | .remove i => (l.eraseIdx i, .elem l[i]?)
  | .insert i x => if i < l.length then (l.take i ++ x :: l.drop i, .bool true) else (l, .bool false)

/-- A sequence of calls. -/
def run [DecidableEq α] (full : Nat → Bool) (l : List α) : List (Op α) → List α × List (Res α)
  | [] => (l, [])
  | o :: os =>
    let (l, r) := exec full l o
    let (l, rs) := run full l os
    (l, r :: rs)

end Verif.IndexMap.Spec
