import Verif.BitTricks
/-!
# Specification vocabulary for single words
-/
namespace Verif.BitTricks.Spec

/-- Bit `i` of the word is one. -/
def bit (x : U64) (i : Nat) : Prop := x.getLsbD i = true

/-- Number of one bits. -/
def ones (x : U64) : Nat := (List.range 64).countP (fun i => x.getLsbD i)

/-- `k` is the position of the lowest one bit. -/
def LowestOne (x : U64) (k : Nat) : Prop := k < 64 ∧ bit x k ∧ ∀ j < k, ¬ bit x j

/-- `k` is the position of the highest one bit. -/
def HighestOne (x : U64) (k : Nat) : Prop := k < 64 ∧ bit x k ∧ ∀ j > k, ¬ bit x j

end Verif.BitTricks.Spec
