import Verif.Utf8Spec
/-!
# Specification of string operations on lists of characters
-/
namespace Verif.Str.Spec

/-- `r` is the position of the first occurrence of `m` in `l` at or after `i`; `none`: there is none. -/
def IsFirst (l m : List Nat) (i : Nat) : Option Nat → Prop
  | some j => i ≤ j ∧ m <+: l.drop j ∧ ∀ k, i ≤ k → k < j → ¬ m <+: l.drop k
  | none => ∀ k, i ≤ k → ¬ m <+: l.drop k

/-- A byte as a signed `char`, converted to 32 bits. -/
def signed (b : Nat) : UInt32 := if b < 128 then UInt32.ofNat b else UInt32.ofNat b - 256

/-- A turn of the hash. -/
def mix (h : UInt32) (b : Nat) : UInt32 :=
  let h := h + signed b
  let h := h + (h <<< 10)
  h ^^^ (h >>> 6)

/-- Jenkins's one-at-a-time hash of bytes that are signed characters. -/
def oneAtATime (bs : List Nat) : UInt32 :=
  let h := bs.foldl mix 0
  let h := h + (h <<< 3)
  let h := h ^^^ (h >>> 11)
  h + (h <<< 15)

/-- `l` with every occurrence of the first component of a pair replaced by the second: from the left, not overlapping; where several occur at the same place, the first in the list counts. -/
def replaceAll (ps : List (List Nat × List Nat)) : List Nat → List Nat
  | [] => []
  | c :: l =>
    match ps.find? fun p => p.1.isPrefixOf (c :: l) with
    | some p => p.2 ++ replaceAll ps (l.drop (p.1.length - 1))
    | none => c :: replaceAll ps l
termination_by l => l.length
decreasing_by all_goals simp; try omega

/-- What is before, between and after the occurrences of the separators in `l`: from the left, not overlapping; where several occur at the same place, the first in the list counts. -/
def splitAll (ms : List (List Nat)) : List Nat → List (List Nat)
  | [] => [[]]
  | c :: l =>
    match ms.find? fun m => m.isPrefixOf (c :: l) with
    | some m => [] :: splitAll ms (l.drop (m.length - 1))
    | none => (splitAll ms l).modifyHead (c :: ·)
termination_by l => l.length
decreasing_by all_goals simp; try omega

end Verif.Str.Spec
