import Verif.PList
/-!
# Specification of CCList: editing a mathematical list
-/
namespace Verif.PList.Spec
open Verif.Array Verif.PList

/-- Documented bounds of each call on a sequence of length `n`. -/
def valid {α} (n : Nat) : Op α → Prop
  | .append _ => True
  | .appendN s => s.count ≠ 0
  | .replace i _ => i < n
  | .insert i _ => i < n
  | .remove i => i < n
  | .removeAll => True

/-- The edit on the mathematical list (`none`: value not given by the caller). -/
def edit {α} (l : List (Option α)) : Op α → List (Option α)
  | .append e => l ++ [e]
  | .appendN s => l ++ s.cells
  | .replace i e => match e with
    | none => l
    | some v => l.set i (some v)
  | .insert i e => l.take i ++ [e] ++ l.drop i
  | .remove i => l.take i ++ l.drop (i + 1)
  | .removeAll => []

/-- What the call returns. -/
def result {α} (l : List (Option α)) : Op α → Ret
  | .append _ => .index l.length
  | .appendN _ => .index l.length
  | .insert i _ => .index i
  | _ => .unit

/-- Memory cells agree with the list: same length, and every element whose value was given has that value. -/
def Agrees {α} (cs : List (Cell α)) (l : List (Option α)) : Prop :=
  cs.length = l.length ∧ ∀ (i : Nat) (v : α), l[i]? = some (some v) → cs[i]? = some (some v)

/-- The list shows the sequence `l`: count, every index in bounds, and enumeration in both directions. -/
def Shows {α} (L : PL α) (l : List (Option α)) : Prop :=
  getCount L = l.length ∧
  (∀ i, (h : i < l.length) → ∃ c, get L i = .ok c ∧ ∀ v, l[i] = some v → c = some v) ∧
  (∃ cs, forwards L = .ok cs ∧ Agrees cs l) ∧
  (∃ cs, backwards L = .ok cs ∧ Agrees cs l.reverse)

/-- The calls the library handles correctly: an append-many call must not start on a full last page unless it
appends a multiple of the page size; and a NULL source must not span pages.  `n` is the current number of elements. -/
def handled {α} (pageSize n : Nat) : Op α → Prop
  | .appendN (.buf vs) => (n = 0 ∨ n % pageSize ≠ 0) ∨ vs.length % pageSize = 0
  | .appendN (.null k) => (n = 0 ∨ n % pageSize ≠ 0) ∧ n % pageSize + k ≤ pageSize
  | _ => True

/-- Histories of documented calls. -/
inductive History {α} (chunk pageSize : Nat) : PL α → List (Option α) → Prop
  | create (L : PL α) : create α chunk pageSize = .ok L → History chunk pageSize L []
  | call (L : PL α) (l : List (Option α)) (op : Op α) (L' : PL α) (r : Ret) :
      History chunk pageSize L l → valid l.length op → step L op = .ok (L', r) → History chunk pageSize L' (edit l op)

/-- Histories of documented calls that are `handled`. -/
inductive HistoryH {α} (chunk pageSize : Nat) : PL α → List (Option α) → Prop
  | create (L : PL α) : create α chunk pageSize = .ok L → HistoryH chunk pageSize L []
  | call (L : PL α) (l : List (Option α)) (op : Op α) (L' : PL α) (r : Ret) :
      HistoryH chunk pageSize L l → valid l.length op → handled L.pageSize l.length op →
      step L op = .ok (L', r) → HistoryH chunk pageSize L' (edit l op)

end Verif.PList.Spec
