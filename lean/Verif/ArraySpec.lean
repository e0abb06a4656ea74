import Verif.Array
/-!
# Specification of CCArray: editing a mathematical list

`none` entries stand for elements whose value the caller did not provide (NULL element pointer).
-/
namespace Verif.Array.Spec
open Verif.Array

/-- Documented bounds of each call on a sequence of length `n`. -/
def valid {α} (n : Nat) : Op α → Prop
  | .append _ _ => True
  | .appendN s _ => s.count ≠ 0
  | .replace i _ => i < n
  | .replaceN i s => s.count ≠ 0 ∧ i + s.count ≤ n
  | .copy i j => i < n ∧ j < n
  | .copyN i j c => c ≠ 0 ∧ i + c ≤ n ∧ j + c ≤ n
  | .insert i _ _ => i < n
  | .insertN i s _ => s.count ≠ 0 ∧ i < n
  | .remove i => i < n
  | .removeN i c => c ≠ 0 ∧ i + c ≤ n
  | .removeAll => True

/-- The edit on the mathematical list. -/
def edit {α} (l : List (Option α)) : Op α → List (Option α)
  | .append e _ => l ++ [e]
  | .appendN s _ => l ++ s.cells
  | .replace i e => match e with
    | none => l
    | some v => l.set i (some v)
  | .replaceN i s => match s with
    | .null _ => l
    | .buf vs => l.take i ++ vs.map some ++ l.drop (i + vs.length)
  | .copy i j => l.take j ++ (l.drop i).take 1 ++ l.drop (j + 1)
  | .copyN i j c => l.take j ++ (l.drop i).take c ++ l.drop (j + c)
  | .insert i e _ => l.take i ++ [e] ++ l.drop i
  | .insertN i s _ => l.take i ++ s.cells ++ l.drop i
  | .remove i => l.take i ++ l.drop (i + 1)
  | .removeN i c => l.take i ++ l.drop (i + c)
  | .removeAll => []

/-- What a successful call returns. -/
def result {α} (l : List (Option α)) : Op α → Ret
  | .append _ _ => .index l.length
  | .appendN _ _ => .index l.length
  | .insert i _ _ => .index i
  | .insertN i _ _ => .index i
  | _ => .unit

/-- Did the environment refuse memory in this call? -/
def refused {α} : Op α → Bool
  | .append _ ok => !ok
  | .appendN _ ok => !ok
  | .insert _ _ ok => !ok
  | .insertN _ _ ok => !ok
  | _ => false

/-- The array shows the sequence `l`: same count, every index in bounds is readable, and every element whose value was
given reads back as that value. -/
def Shows {α} (a : Arr α) (l : List (Option α)) : Prop :=
  getCount a = l.length ∧
  ∀ i, (h : i < l.length) → ∃ c, get a i = .ok c ∧ ∀ v, l[i] = some v → c = some v

/-- All pairs (array, list) produced by a history: create, then calls within the documented bounds; a call that
reports `SIZE_MAX` counts as not having happened. -/
inductive History {α} (chunk : Nat) : Arr α → List (Option α) → Prop
  | create (ok : Bool) (a : Arr α) : create α chunk ok = .ok a → History chunk a []
  | call (a : Arr α) (l : List (Option α)) (op : Op α) (a' : Arr α) (r : Ret) :
      History chunk a l → valid l.length op → step a op = .ok (a', r) →
      History chunk a' (if r = .sizeMax then l else edit l op)

/-- All arrays reachable by calls that merely pass the functions' own assertions (whatever they return). -/
inductive Reach {α} (chunk : Nat) : Arr α → Prop
  | create (ok : Bool) (a : Arr α) : create α chunk ok = .ok a → Reach chunk a
  | call (a : Arr α) (op : Op α) (a' : Arr α) (r : Ret) :
      Reach chunk a → step a op = .ok (a', r) → Reach chunk a'

/-- As `Reach`, but every replace-many call keeps its whole range inside the array. -/
inductive ReachRange {α} (chunk : Nat) : Arr α → Prop
  | create (ok : Bool) (a : Arr α) : create α chunk ok = .ok a → ReachRange chunk a
  | call (a : Arr α) (op : Op α) (a' : Arr α) (r : Ret) :
      ReachRange chunk a → (∀ i s, op = .replaceN i s → i + s.count ≤ getCount a) →
      step a op = .ok (a', r) → ReachRange chunk a'

end Verif.Array.Spec
