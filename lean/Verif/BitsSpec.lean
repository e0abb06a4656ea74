import Verif.Bits
/-!
# What a bit set is: a sequence of bits

Bit `i` of a set made of `w`-bit blocks is bit `i % w` of block `i / w`.  On a little-endian machine
the blocks read as bytes give the same numbering with `w = 8`.
-/
namespace Verif.Bits.Spec

/-- Bit `i` of the blocks `s` (`false` outside the storage). -/
def bit {w : Nat} (s : List (BitVec w)) (i : Nat) : Bool := (s.getD (i / w) 0#w).getLsbD (i % w)

/-- `i` lies in the range of `count` bits from `index`. -/
def InRange (index count i : Nat) : Prop := index ≤ i ∧ i < index + count

instance (index count i : Nat) : Decidable (InRange index count i) :=
  inferInstanceAs (Decidable (_ ∧ _))

/-- Number of set bits in the range. -/
def ones (s : Store) (index count : Nat) : Nat := (List.range' index count).countP (bit s)

/-- The bits behind the range which share its last byte, when the range leaves its first byte. -/
def Spill (index count i : Nat) : Prop :=
  8 ≤ index % 8 + count ∧ index + count ≤ i ∧ i / 8 = (index + count) / 8 ∧ (index + count) % 8 ≠ 0

instance (index count i : Nat) : Decidable (Spill index count i) :=
  inferInstanceAs (Decidable (_ ∧ _))

/-- The positions in the range at which both sets have a one, in increasing order. -/
def common (a b : Store) (index count : Nat) : List Nat :=
  (List.range' index count).filter (fun i => bit a i && bit b i)

/-- Some complete group of 64 bits, counted from the first byte boundary of the range, has its last
bit as its only common bit. -/
def LoneTop (a b : Store) (index count : Nat) : Prop :=
  ∃ l, let p := (index + 7) / 8 * 8 + 64 * l
    p + 64 ≤ index + count ∧ common a b p 64 = [p + 63]

end Verif.Bits.Spec
