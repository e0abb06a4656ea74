import Verif.HashMapSpec
/-!
# Specification for the destructors of a dictionary

A ledger keeps the current mapping (a finite map as in `Verif/HashMapSpec.lean`) and every key and every value that ever went into the dictionary, one occurrence per time it was stored.
-/
namespace Verif.Dictionary.Spec
open Verif.HashMap.Spec (Op has)

structure Ledger (K V : Type) where
  live : List (K × Option V)
  keys : List K
  values : List V

variable {K V : Type} (eq : K → K → Bool)

/-- The key a call copies into the dictionary: the given one, if no equal key is there yet. -/
def keyIn (l : List (K × Option V)) : Op K V → List K
  | .set k _ | .create k | .createSet k _ => if has eq l k then [] else [k]
  | _ => []

/-- The value a call copies into the dictionary. -/
def valueIn (l : List (K × Option V)) : Op K V → List V
  | .set _ v | .createSet _ v => [v]
  | .setEntry k v => if has eq l k then [v] else []
  | _ => []

def Ledger.step (b : Ledger K V) (op : Op K V) : Ledger K V :=
  ⟨HashMap.Spec.step eq b.live op, b.keys ++ keyIn eq b.live op, b.values ++ valueIn eq b.live op⟩

def Ledger.empty : Ledger K V := ⟨[], [], []⟩

/-- Calls that may add a key, and so may grow the dictionary first. -/
def inserts : Op K V → Bool
  | .set _ _ | .create _ | .createSet _ _ => true
  | _ => false

end Verif.Dictionary.Spec
