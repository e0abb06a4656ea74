import Verif.Data
/-!
# Specification of data containers
-/
namespace Verif.Data.Spec
open Verif.Data

/-- The `n` bytes of `l` from `off` on. -/
def range (l : List Cell) (off n : Nat) : List Cell := (l.drop off).take n

/-- `l` with the bytes from `off` on replaced by `new`. -/
def written (l : List Cell) (off : Nat) (new : List Cell) : List Cell := l.take off ++ new ++ l.drop (off + new.length)

/-- What an implementation of the interface has to do to be a store of bytes, for the accesses allowed by `R`: a map shows (a
prefix of) the requested bytes, and unmapping stores them back, if mapped for writing, and nothing else. -/
structure Law {σ : Type} (I : Interface σ) (bytes : σ → List Cell) (Inv : σ → Prop) (R : Access → Nat → Nat → Prop) : Prop where
  size : ∀ s, Inv s → I.size s = (bytes s).length
  map : ∀ s off n a, Inv s → off + n ≤ (bytes s).length → R a off n →
    ∃ m, I.map s off n a = some m ∧ m.offset = off ∧ m.size ≤ n ∧ m.hint = a ∧ m.size ≤ m.mem.length ∧
      (a.read → m.mem.take m.size = range (bytes s) off m.size) ∧
      ∀ new, new.length = m.size → (a.write ∨ new = m.mem.take m.size) →
        ∃ s', I.unmap s { m with mem := new ++ m.mem.drop m.size } = some s' ∧ Inv s' ∧ I.hints s' = I.hints s ∧
          bytes s' = if a.write then written (bytes s) off new else bytes s

/-- Maps are never shorter than requested. -/
def Full {σ : Type} (I : Interface σ) : Prop := ∀ s off n a m, I.map s off n a = some m → m.size = n

/-- The accesses of a transfer of `size` bytes at `off` in chunks of `p` bytes are allowed. -/
def Chunks (R : Nat → Nat → Prop) (p off size : Nat) : Prop :=
  (∀ k, k < size / p → R (off + k * p) p) ∧ R (off + size / p * p) (size % p)

end Verif.Data.Spec
