import Verif.BigIntFast
/-!
# Model of the operations of big integers with the integer itself as the operand

`BigInt.c` with `Value == Integer`. `Component` and `*Value` then point into one list, so the list is the
state of the loops and both pointers are an index into it. The enumerable of the operand and that of the
integer advance together and end together (nothing is appended while they run).
-/
namespace Verif.BigInt

/-- `CCBigIntSetBigInt(Integer, Integer)` (`BigInt.c` 62-76): the components are removed (69) before they
are read (71-75), and the loop runs over the list that has just been emptied. The list keeps its first
page or not, which does not matter: no element is left in it. -/
def setSelf (a : BI) : BI := { a with comps := [] }

/-- `CCBigIntCompareBigInt(Integer, Integer)` (`BigInt.c` 256). -/
def compareSelf (_a : BI) : Ordering := .eq

/-- The first loop of `CCBigIntApplyAdd` (`BigInt.c` 306-311) on one list: `*Component` and `*Value` are
both the element at `i`. The result is the list and the carry. -/
def addSelfLoop : Nat → Nat → List Nat → Nat → List Nat × Nat
  | 0, _, m, carry => (m, carry)
  | fuel + 1, i, m, carry =>
    match m[i]? with
    | none => (m, carry)
    | some c =>
      let r := (c + c + carry) % W
      addSelfLoop fuel (i + 1) (m.set i r) (if r ≤ c ∧ (c ||| carry) ≠ 0 then 1 else 0)

/-- `CCBigIntAddBigInt(Integer, Integer)` (`BigInt.c` 361-369, 298-321): the signs are equal. -/
def addSelf (a : BI) : BI :=
  let r := addSelfLoop a.comps.length 0 a.comps 0
  { a with comps := if r.2 ≠ 0 then r.1 ++ [r.2] else r.1 }

/-- The loop of `CCBigIntApplySub` (`BigInt.c` 332-342) on one list. `Result` is read before the
component is written. The result is the list, the carry and `LastNonZero`. -/
def subSelfLoop : Nat → Nat → List Nat → Nat → Nat → List Nat × Nat × Nat
  | 0, _, m, carry, last => (m, carry, last)
  | fuel + 1, i, m, carry, last =>
    match m[i]? with
    | none => (m, carry, last)
    | some c =>
      let s := (c + carry) % W
      let next := if c < c ∨ c < s ∨ (carry ≠ 0 ∧ c = W - 1) then 1 else 0
      let c' := (c + (W - s)) % W
      subSelfLoop fuel (i + 1) (m.set i c') next (if c' ≠ 0 then i else last)

/-- `CCBigIntSubBigInt(Integer, Integer)` (`BigInt.c` 419-428, 323-359): the signs are equal and the
components are not ascending. -/
def subSelf (a : BI) : Option BI :=
  let r := subSelfLoop a.comps.length 0 a.comps 0 0
  do
    let cs ← removeLoop r.1.length r.1.length (r.2.2 + 1) r.1
    fixSign a.sign r.2.1 cs

end Verif.BigInt

namespace Verif.BigIntFast
open Verif.BigInt

/-- `CCBigIntFastSetBigIntFast(&Integer, Integer)` (`BigIntFast.h` 367-380, 339-365). A component is read
before the integer is destroyed (348, 354). -/
def setSelf (asserts : Bool) : Fast → Option Fast
  | .tagged bits => some (.tagged bits)
  | .big b =>
    match b.comps with
    | [c] => if c < 2 ^ 63 ∧ inRange (signed b c) then taggedValue asserts (signed b c) else some (.big (BigInt.setSelf b))
    | _ => some (.big (BigInt.setSelf b))

/-- `CCBigIntFastAddBigIntFast(&Integer, Integer)` (`BigIntFast.h` 516-524, 489-514). -/
def addSelf (asserts : Bool) : Fast → Option Fast
  | .tagged bits => addInt asserts (.tagged bits) (getTagged bits)
  | .big b => some (.big (BigInt.addSelf b))

/-- `CCBigIntFastSubBigIntFast(&Integer, Integer)` (`BigIntFast.h` 606-614, 579-604). -/
def subSelf (asserts : Bool) : Fast → Option Fast
  | .tagged bits => subInt asserts (.tagged bits) (getTagged bits)
  | .big b => do
    let r ← BigInt.subSelf b
    some (.big r)

end Verif.BigIntFast
