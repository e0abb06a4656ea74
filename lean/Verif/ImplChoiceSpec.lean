import Verif.ImplChoice
/-!
# Specification of the choice of an implementation

A registry is a list of tables, the one registered last in front; hints are sets of bit numbers.
-/
namespace Verif.ImplChoice.Spec
open Verif.ImplChoice

/-- The tables registered at program start. -/
def start (kind : Kind) : List Nat := List.range (builtinTables kind).length

/-- What a call does to the list of registered tables: registering puts the table in front (unless memory runs out), deregistering takes
the table out once (the registration made last). -/
def edit (l : List Nat) : Call → List Nat
  | .register (some i) true => i :: l
  | .register _ _ => l
  | .deregister (some i) => l.erase i
  | .deregister none => l

/-- The registered tables after a history of calls. -/
def registered (kind : Kind) (calls : List Call) : List Nat := calls.foldl edit (start kind)

/-- The calls never register NULL, which the functions assert. -/
def Valid (calls : List Call) : Prop := ∀ m, Call.register none m ∉ calls

/-- The addresses of the tables the library provides hold these tables. -/
def Provided (kind : Kind) (env : Nat → Interface) : Prop := ∀ i, ∀ t, (builtinTables kind)[i]? = some t → env i = t

/-- The hint asks for a collection that keeps its elements in order. -/
def AsksOrder (kind : Kind) (hint : Hint) : Prop := kind = .collection ∧ hint.getLsbD 6 = true

/-- The table can be used for the hint: it can keep an order if that is asked for. -/
def Suits (kind : Kind) (env : Nat → Interface) (hint : Hint) (i : Nat) : Prop := AsksOrder kind hint → (env i).ordered = true

/-- Every registered weight function answers for the hint with an `int`; `w` gives the answers. -/
def Answers (env : Nat → Interface) (hint : Hint) (l : List Nat) (w : Nat → Int) : Prop :=
  ∀ i ∈ l, (env i).weight hint = some (w i) ∧ intMin ≤ w i ∧ w i ≤ intMax

/-- `i` is the best of the registered tables: it suits, no suitable table weighs more, and among those of equal weight it is the one
registered last. -/
def Best (kind : Kind) (env : Nat → Interface) (hint : Hint) (w : Nat → Int) (l : List Nat) (i : Nat) : Prop :=
  Suits kind env hint i ∧ ∃ newer older, l = newer ++ i :: older ∧
    (∀ j ∈ newer, Suits kind env hint j → w j < w i) ∧ (∀ j ∈ older, Suits kind env hint j → w j ≤ w i)

/-- The number of bits of the hint, the two size bits aside, that are in the given set too. -/
def common (hint x : Hint) : Nat := (List.range 30).countP (fun i => hint.getLsbD i && x.getLsbD i)

/-- What the size bits of a hint multiply the weight by: 10 medium (no bit), 1 small (bit 30), 100 large (bit 31). -/
def sizeFactor (hint : Hint) : Int :=
  match hint.getLsbD 31, hint.getLsbD 30 with
  | false, false => 10
  | false, true => 1
  | true, false => 100
  | true, true => 0

/-- The weight of a hint. -/
def weigh (hint fast moderate slow : Hint) : Int :=
  sizeFactor hint * (10 * (common hint fast : Int) - (common hint moderate : Int) - 100 * (common hint slow : Int))

end Verif.ImplChoice.Spec
