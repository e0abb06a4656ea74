import Verif.ReadEnum
/-!
# What the containers rely on when they are read back (C103)
-/
namespace Verif.ReadEnum.Spec

open Verif.Zone (Zone Block Op)
open Verif.ZoneEnum (Addr Ev)
open Verif.Enumerable (Call)

/-- The calls an element may make on the zone while it is read: allocations, and saving and restoring in pairs (as reading
a sequence inside the element does), at any nesting. -/
inductive Nested : List Op → Prop
  | nil : Nested []
  | alloc (size : Nat) (env : Option Nat) {ops : List Op} : Nested ops → Nested (.alloc size env :: ops)
  | aligned (size alignment : Nat) (env : Option Nat) {ops : List Op} : Nested ops → Nested (.allocAligned size alignment env :: ops)
  | frame (env : Option Nat) {inner ops : List Op} : Nested inner → Nested ops → Nested (.save env :: inner ++ .restore :: ops)

/-- The place an address of the enumerable is: addresses have the position of the block in the chain, places its name. -/
def place (bs : List Block) (a : Addr) : Option (Nat × Nat) := bs[a.1]?.map fun b => (b.id, a.2)

/-- Going forwards only, with any allocations between. -/
def Forward (evs : List Ev) : Prop := ∀ ev ∈ evs, ev ≠ .call .head ∧ ev ≠ .call .tail ∧ ev ≠ .call .previous

/-- The answers of a cursor in a list; allocations make no difference. -/
def answers {α : Type} (l : List α) (pos : Nat) : List Ev → List (Option α)
  | [] => []
  | .call c :: evs => (Enumerable.Spec.step l pos c).2 :: answers l (Enumerable.Spec.step l pos c).1 evs
  | .grow _ :: evs => answers l pos evs
  | .add _ :: evs => answers l pos evs

end Verif.ReadEnum.Spec
