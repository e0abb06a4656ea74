import Verif.Mapped
import Verif.BigIntSpec
import Verif.Utf8Spec
/-!
# Specification for C100: what is written of a big integer or a string
-/
namespace Verif.Mapped.Spec

open Verif.BigInt (BI)

/-- The number written for an integer: its magnitude doubled, plus one for negative ones. -/
def zigzag (sign : Bool) (magnitude : Nat) : Nat := 2 * magnitude + if sign then 1 else 0

/-- The 64-bit digits of a number. -/
def digit (n i : Nat) : Nat := n / 2 ^ (64 * i) % 2 ^ 64

/-- The digits that the stream keeps: all when 64-bit numbers are written with their fixed width, otherwise those below `2 ^ 56`
and the largest one (C75). -/
def Kept (prefer d : Nat) : Prop := 8 < prefer ∨ d < 2 ^ 56 ∨ d = 2 ^ 64 - 1

end Verif.Mapped.Spec
