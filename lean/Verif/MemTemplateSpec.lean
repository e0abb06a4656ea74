import Verif.Data
/-!
# Specification of wrapping memory accesses
-/
namespace Verif.MemTemplate.Spec
open Verif.Data

/-- The `count` bytes from `off` on of the ring made of the first `size` bytes of `mem`. -/
def ring (mem : List Cell) (size off count : Nat) : List Cell :=
  (List.range count).map fun i => mem.getD ((off + i) % size) none

/-- Value number `k` of a buffer of values of `vs` bytes. -/
def value (vs : Nat) (l : List Cell) (k : Nat) : List Cell := (l.drop (k * vs)).take vs

/-- The number with these bytes, the lowest byte first. -/
def little : List UInt8 → Nat
  | [] => 0
  | b :: l => b.toNat + 256 * little l

/-- The number with these bytes, the highest byte first. -/
def big (l : List UInt8) : Nat := l.foldl (fun n b => 256 * n + b.toNat) 0

/-- The number a machine sees in these bytes. -/
def host (bigEndian : Bool) (l : List UInt8) : Nat := if bigEndian then big l else little l

/-- `mem'` is `mem` with `new` put into the ring of its first `size` bytes, at `off`: later bytes overwrite earlier ones, and nothing
else changes. -/
def Put (mem mem' : List Cell) (size off : Nat) (new : List Cell) : Prop :=
  mem'.length = mem.length ∧
  (∀ i, i < new.length → new.length ≤ i + size → mem'[(off + i) % size]? = new[i]?) ∧
  ∀ j, (∀ i, i < new.length → (off + i) % size ≠ j) → mem'[j]? = mem[j]?

/-- `b` is `a` with the bytes of every value of `vs` bytes in reverse. -/
def Swapped (vs : Nat) (a b : List Cell) : Prop :=
  b.length = a.length ∧ ∀ k, value vs b k = (value vs a k).reverse

end Verif.MemTemplate.Spec
