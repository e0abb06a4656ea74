import Verif.PathMatch
/-!
# Specification of matching paths
-/
namespace Verif.PathMatch.Spec
open Verif.PathMatch

/-- The lower case of an ASCII letter. -/
def low (c : UInt8) : UInt8 := if 65 ≤ c.toNat ∧ c.toNat ≤ 90 then c + 32 else c

/-- Two names are the same under the options. -/
def SameName (o : BitVec 32) (a b : Str) : Prop :=
  if o.getLsbD 5 then a = b else a.map low = b.map low

/-- The wildcard of the options: the top seven bits, a star when they are zero, none when wildcards are literal. -/
def Wild (o : BitVec 32) (w : UInt8) : Prop :=
  o.getLsbD 6 = false ∧ w.toNat = if o.toNat / 2 ^ 25 = 0 then 42 else o.toNat / 2 ^ 25

/-- A name that stands for every name: the wildcard is its first character. -/
def Joker (o : BitVec 32) (c : Comp) : Prop :=
  ∃ w p s, Wild o w ∧ c.str = some (p, w :: s)

/-- Two components agree: they are of one type, and their names are the same unless one of them is missing or stands for
all; or their types differ, one being the relative root and the options not insisting on it. -/
def Agree (o : BitVec 32) (a b : Comp) : Prop :=
  if a.ty = b.ty then
    Joker o a ∨ Joker o b ∨ ∀ p s q t, a.str = some (p, s) → b.str = some (q, t) → SameName o s t
  else o.getLsbD 7 = false ∧ (a.ty = 3 ∨ b.ty = 3)

/-- Strings at one address are one string. -/
def Consistent (cs : List Comp) : Prop :=
  ∀ a ∈ cs, ∀ b ∈ cs, ∀ p s t, a.str = some (p, s) → b.str = some (p, t) → s = t

/-- All names are ASCII. -/
def Ascii (cs : List Comp) : Prop :=
  ∀ c ∈ cs, ∀ p s, c.str = some (p, s) → ∀ x ∈ s, x.toNat < 128

end Verif.PathMatch.Spec
