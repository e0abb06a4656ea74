import Verif.BigInt
/-!
# Specification of big integers
-/
namespace Verif.BigInt.Spec
open Verif.BigInt

/-- The number denoted by components, least significant first. -/
def nat : List Nat → Nat
  | [] => 0
  | c :: cs => c + W * nat cs

/-- The integer denoted by a big integer. -/
def value (b : BI) : Int := if b.sign then -(nat b.comps : Int) else nat b.comps

/-- Components in normal form: at least one, each below `2^64`, no leading zero component. -/
def Digits (cs : List Nat) : Prop :=
  cs ≠ [] ∧ (∀ c ∈ cs, c < W) ∧ (1 < cs.length → cs.getLast? ≠ some 0)

/-- Normal form of a big integer: normal components, and zero is not negative. -/
def Norm (b : BI) : Prop := Digits b.comps ∧ (nat b.comps = 0 → b.sign = false)

/-- The order of two integers. -/
def order (a b : Int) : Ordering := if a < b then .lt else if a = b then .eq else .gt

/-- The subtractions of magnitudes `a - v` that the code performs correctly (`n` is the number of
components of `a`): the borrow or the components of `v` reach the top component of `a`, and the
difference has either `n` components or a single one. -/
def SubRight (a v : List Nat) : Prop :=
  (v.length = a.length ∨ nat a % W ^ (a.length - 1) < nat v) ∧
    (W ^ (a.length - 1) ≤ nat a - nat v ∨ nat a - nat v < W)

instance (a v : List Nat) : Decidable (SubRight a v) := inferInstanceAs (Decidable (_ ∧ _))

/-- The copies the code performs correctly: at most one page, or only full pages, of 16 components. -/
def CopyRight (v : List Nat) : Prop := v.length ≤ 16 ∨ v.length % 16 = 0

instance (v : List Nat) : Decidable (CopyRight v) := inferInstanceAs (Decidable (_ ∨ _))

/-- The differences of magnitudes computed correctly: the smaller is taken from the larger one. -/
def DiffRight (a b : List Nat) : Prop :=
  (nat b ≤ nat a ∧ SubRight a b) ∨ (nat a < nat b ∧ SubRight b a ∧ CopyRight b)

instance (a b : List Nat) : Decidable (DiffRight a b) := inferInstanceAs (Decidable (_ ∨ _))

/-- The differences with a 64-bit magnitude computed correctly. -/
def IntRight (a : List Nat) (n : Nat) : Prop := nat a < n ∨ SubRight a [n]

instance (a : List Nat) (n : Nat) : Decidable (IntRight a n) := inferInstanceAs (Decidable (_ ∨ _))

/-- The calls on a big integer. -/
inductive Op
  | setInt (v : Int)
  | setBig (v : BI)
  | addBig (v : BI)
  | subBig (v : BI)
  | addInt (v : Int)
  | subInt (v : Int)

/-- The integer a call is to store. -/
def Op.meaning (x : Int) : Op → Int
  | .setInt v => v
  | .setBig v => value v
  | .addBig v => x + value v
  | .subBig v => x - value v
  | .addInt v => x + v
  | .subInt v => x - v

/-- Representable by `int64_t` and not `INT64_MIN` (negating which is undefined behaviour). -/
def Int64 (v : Int) : Prop := -(2 ^ 63) < v ∧ v < 2 ^ 63

instance (v : Int) : Decidable (Int64 v) := inferInstanceAs (Decidable (_ ∧ _))

/-- The calls which the code performs exactly: operands in normal form, and whenever the operation
has to subtract magnitudes, a subtraction that is done right. -/
def Op.Right (a : BI) : Op → Prop
  | .setInt v => Int64 v
  | .setBig v => Norm v ∧ CopyRight v.comps
  | .addBig v => Norm v ∧ (a.sign = v.sign ∨ DiffRight a.comps v.comps)
  | .subBig v => Norm v ∧ (a.sign ≠ v.sign ∨ DiffRight a.comps v.comps)
  | .addInt v => Int64 v ∧ (a.sign = decide (v < 0) ∨ IntRight a.comps v.natAbs)
  | .subInt v => Int64 v ∧ (a.sign ≠ decide (v < 0) ∨ IntRight a.comps v.natAbs)

end Verif.BigInt.Spec
