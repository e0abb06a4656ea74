import Verif.BigInt
/-!
# Model of fast big integers (`BigIntFast.h`)

A fast big integer is one pointer-sized word: either a tagged value (low bit set) or a pointer to a
big integer (aligned, low bit clear). `asserts` says whether the assertions are compiled in; a failed
assertion is `none`. Pointers are 64 bits. The destruction of the previous value is not modelled.

`CCBigIntFastAdd(Integer, ±Component)` (501, 591) is a generic selection on the type `uint64_t`. It picks
the integer overload, as modelled, only where `uint64_t` and `CCString` (`uintptr_t`, `CCString.h` 101) are
different types. Where they are the same type the component is taken for a string; not modelled.
-/
namespace Verif.BigIntFast
open Verif.BigInt

/-- `CCBigIntFast`. -/
inductive Fast
  | tagged (bits : BitVec 64)
  | big (b : BI)
  deriving DecidableEq, Repr

/-- `CC_BIG_INT_FAST_TAGGED_MAX` (`BigIntFast.h` 33). -/
def taggedMax : Int := ((2 ^ 64 - 1) / 4 : Nat)

/-- `CC_BIG_INT_FAST_TAGGED_MIN` (`BigIntFast.h` 34). -/
def taggedMin : Int := -taggedMax - 1

/-- `CCBigIntFastTaggedValue` (`BigIntFast.h` 325-330). -/
def taggedValue (asserts : Bool) (v : Int) : Option Fast :=
  if asserts ∧ ¬ (v ≤ taggedMax ∧ v ≥ taggedMin) then none
  else some (.tagged (BitVec.ofInt 64 v <<< 1 ||| 1#64))

/-- `CCBigIntFastGetTaggedValue` of a tagged word (`BigIntFast.h` 317-323). -/
def getTagged (bits : BitVec 64) : Int := (bits.sshiftRight 1).toInt

/-- `CCBigIntFastCreate` (`BigIntFast.h` 288-291): the constant of line 39. -/
def create : Fast := .tagged 1#64

/-- The range test of the setters and of the arithmetic (`BigIntFast.h` 352, 387, 545, 635). -/
def inRange (v : Int) : Bool := v ≤ taggedMax || v ≥ taggedMin

/-- `CCBigIntFastSetInt` (`BigIntFast.h` 382-398). -/
def setInt (asserts : Bool) (v : Int) : Option Fast :=
  if inRange v then taggedValue asserts v
  else do
    let b ← BigInt.setInt v
    some (.big b)

/-- `CCBigIntGetSign(Value) ? -Component : Component` for a component below `2^63`. -/
def signed (b : BI) (c : Nat) : Int := if b.sign then -(c : Int) else c

/-- `CCBigIntFastSetBigInt` (`BigIntFast.h` 339-365) for a value that is not the integer itself. -/
def setBig (asserts : Bool) (v : BI) : Option Fast :=
  match v.comps with
  | [c] =>
    if c < 2 ^ 63 ∧ inRange (signed v c) then taggedValue asserts (signed v c)
    else do
      let b ← BigInt.setBig v
      some (.big b)
  | _ => do
    let b ← BigInt.setBig v
    some (.big b)

/-- `CCBigIntFastSetBigIntFast` (`BigIntFast.h` 367-380). -/
def setFast (asserts : Bool) : Fast → Option Fast
  | .tagged bits => some (.tagged bits)
  | .big b => setBig asserts b

/-- `CCBigIntFastGetBigInt` (`BigIntFast.h` 410-421). -/
def getBig : Fast → Option BI
  | .tagged bits => BigInt.setInt (getTagged bits)
  | .big b => some b

/-- The order of two `int64_t` (`BigIntFast.h` 452, 467). -/
def orderInt (a b : Int) : Ordering := if a < b then .lt else if a > b then .gt else .eq

/-- `CCBigIntCompareBigIntFast` (`BigInt.c` 267-272). -/
def compareBigFast (a : BI) : Fast → Option Ordering
  | .tagged bits => compareInt a (getTagged bits)
  | .big b => some (compareBig a b)

/-- `CCBigIntFastCompareBigIntFast` (`BigIntFast.h` 442-459). -/
def compareFast : Fast → Fast → Option Ordering
  | .tagged a, .tagged b => some (orderInt (getTagged a) (getTagged b))
  | .tagged a, .big b => do
    let r ← compareInt b (getTagged a)
    some r.swap
  | .big a, b => compareBigFast a b

/-- `CCBigIntFastCompareInt` (`BigIntFast.h` 461-471). -/
def compareInt (a : Fast) (v : Int) : Option Ordering :=
  match a with
  | .tagged bits => some (orderInt (getTagged bits) v)
  | .big b => BigInt.compareInt b v

/-- `CCBigIntFastCompareBigInt` (`BigIntFast.h` 437-440). -/
def compareBig (a : Fast) (b : BI) : Option Ordering := do
  let r ← compareBigFast b a
  some r.swap

/-- `CCBigIntFastAddInt` (`BigIntFast.h` 526-561). -/
def addInt (asserts : Bool) (a : Fast) (v : Int) : Option Fast :=
  match a with
  | .tagged bits =>
    let i := getTagged bits
    if (v > 0 ∧ i > 2 ^ 63 - 1 - v) ∨ (v < 0 ∧ i < -(2 ^ 63) - v) then do
      let b ← BigInt.setInt i
      let b ← BigInt.addInt b v
      some (.big b)
    else if inRange (i + v) then taggedValue asserts (i + v)
    else do
      let b ← BigInt.setInt (i + v)
      some (.big b)
  | .big b => do
    let b ← BigInt.addInt b v
    some (.big b)

/-- `CCBigIntFastSubInt` (`BigIntFast.h` 616-651). -/
def subInt (asserts : Bool) (a : Fast) (v : Int) : Option Fast :=
  match a with
  | .tagged bits =>
    let i := getTagged bits
    if (v < 0 ∧ i > 2 ^ 63 - 1 + v) ∨ (v > 0 ∧ i < -(2 ^ 63) + v) then do
      let b ← BigInt.setInt i
      let b ← BigInt.subInt b v
      some (.big b)
    else if inRange (i - v) then taggedValue asserts (i - v)
    else do
      let b ← BigInt.setInt (i - v)
      some (.big b)
  | .big b => do
    let b ← BigInt.subInt b v
    some (.big b)

/-- The part of `CCBigIntFastAddBigInt` for larger values (`BigIntFast.h` 507-513). -/
def addLarge (i : Int) (v : BI) : Option Fast := do
  let b ← BigInt.setInt i
  let b ← BigInt.addBig b v
  some (.big b)

/-- `CCBigIntFastAddBigInt` (`BigIntFast.h` 489-514). -/
def addBig (asserts : Bool) (a : Fast) (v : BI) : Option Fast :=
  match a with
  | .tagged bits =>
    match v.comps with
    | [c] => if c < 2 ^ 63 then addInt asserts a (signed v c) else addLarge (getTagged bits) v
    | _ => addLarge (getTagged bits) v
  | .big b => do
    let b ← BigInt.addBig b v
    some (.big b)

/-- The part of `CCBigIntFastSubBigInt` for larger values (`BigIntFast.h` 597-603). -/
def subLarge (i : Int) (v : BI) : Option Fast := do
  let b ← BigInt.setInt i
  let b ← BigInt.subBig b v
  some (.big b)

/-- `CCBigIntFastSubBigInt` (`BigIntFast.h` 579-604). -/
def subBig (asserts : Bool) (a : Fast) (v : BI) : Option Fast :=
  match a with
  | .tagged bits =>
    match v.comps with
    | [c] => if c < 2 ^ 63 then subInt asserts a (signed v c) else subLarge (getTagged bits) v
    | _ => subLarge (getTagged bits) v
  | .big b => do
    let b ← BigInt.subBig b v
    some (.big b)

/-- `CCBigIntFastAddBigIntFast` (`BigIntFast.h` 516-524): a tagged value is replaced by the tagged value
of the integer itself; if that is a pointer its address bits are used, which is left as `none`. -/
def addFast (asserts : Bool) (a : Fast) : Fast → Option Fast
  | .tagged _ =>
    match a with
    | .tagged bits => addInt asserts a (getTagged bits)
    | .big _ => none
  | .big b => addBig asserts a b

/-- `CCBigIntFastSubBigIntFast` (`BigIntFast.h` 606-614). -/
def subFast (asserts : Bool) (a : Fast) : Fast → Option Fast
  | .tagged _ =>
    match a with
    | .tagged bits => subInt asserts a (getTagged bits)
    | .big _ => none
  | .big b => subBig asserts a b

end Verif.BigIntFast
