/-!
# Specification of a finite map, independent of the hash map model

A map is a list of pairs (key, value); the value is `none` for a key that was created but not given a value yet.  Keys are compared with `eq`.
-/
namespace Verif.HashMap.Spec
variable {K V : Type} (eq : K → K → Bool)

/-- Edits of a map. -/
inductive Op (K V : Type) where
  /-- store a value under a key -/
  | set (k : K) (v : V)
  /-- make sure the key has an entry -/
  | create (k : K)
  /-- look the key's entry up and, if there is one, store the value through it -/
  | setEntry (k : K) (v : V)
  /-- make sure the key has an entry, and store the value through it -/
  | createSet (k : K) (v : V)
  /-- remove a key -/
  | remove (k : K)
  /-- look the key's entry up and, if there is one, remove it -/
  | removeEntry (k : K)

def has (l : List (K × Option V)) (k : K) : Bool := l.any fun p => eq k p.1
def lookup (l : List (K × Option V)) (k : K) : Option (Option V) := (l.find? fun p => eq k p.1).map (·.2)
def update (l : List (K × Option V)) (k : K) (v : Option V) : List (K × Option V) := l.map fun p => if eq k p.1 then (p.1, v) else p
def erase (l : List (K × Option V)) (k : K) : List (K × Option V) := l.filter fun p => !eq k p.1

def step (l : List (K × Option V)) : Op K V → List (K × Option V)
  | .set k v | .createSet k v => if has eq l k then update eq l k (some v) else l ++ [(k, some v)]
  | .create k => if has eq l k then l else l ++ [(k, none)]
  | .setEntry k v => if has eq l k then update eq l k (some v) else l
  | .remove k | .removeEntry k => erase eq l k

/-- The map after a history of edits. -/
def run (ops : List (Op K V)) : List (K × Option V) := ops.foldl (step eq) []

/-- `eq` is an equivalence relation and the hash respects it. -/
structure Consistent {H : Type} (eq : K → K → Bool) (hash : K → H) : Prop where
  refl : ∀ a, eq a a = true
  symm : ∀ a b, eq a b = true → eq b a = true
  trans : ∀ a b c, eq a b = true → eq b c = true → eq a c = true
  hash : ∀ a b, eq a b = true → hash a = hash b

end Verif.HashMap.Spec
