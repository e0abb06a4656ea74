import Verif.IDGen
/-!
# Specification for ID generators: what a log of events must satisfy
-/
namespace Verif.IDGen.Spec

/-- Is `id` handed out and not yet recycled at the end of the log? -/
def isOut (id : Nat) (log : List Ev) : Bool :=
  log.foldl (fun o e => match e with
    | .take k _ => if k = id then true else o
    | .give k => if k = id then false else o
    | .fail _ => o) false

/-- A good log: IDs are in range; no ID is handed out while it is out; only IDs that are out are recycled; an ID is handed out only if no smaller one was idle throughout the call;
a try fails only if no ID was idle throughout the call. -/
def Good (size : Nat) (log : List Ev) : Prop :=
  ∀ a e b, log = a ++ e :: b → match e with
    | .take id idle => id < size ∧ isOut id a = false ∧ ∀ x ∈ idle, id ≤ x
    | .give id => isOut id a = true
    | .fail idle => idle = []

end Verif.IDGen.Spec
