/-!
# Model of big integers (`BigInt.c`)

The component list (`CCList` of `uint64_t`, least significant first) is a Lean list of numbers below
`2^64`; the list itself is modelled and refined in `PList.lean`. Operations return `none` where the
code runs into an assertion or undefined behaviour. Allocation always succeeds. When both operands
are the same object, both enumerators walk the same list and every component is read before it is
written, so `f x x` describes that call too.
-/
namespace Verif.BigInt

/-- `2^64`, the modulus of `uint64_t`. -/
def W : Nat := 2 ^ 64

/-- `CCBigIntInfo` (`BigInt.h` 40-44): sign flag and magnitude. -/
structure BI where
  sign : Bool
  comps : List Nat
  deriving DecidableEq, Repr

/-- `CCBigIntCreate` (`BigInt.c` 37-54). -/
def create : BI := ⟨false, [0]⟩

/-- `(Value ^ Mask) - Mask` with `Mask = Value >> 63` on `int64_t` (`BigInt.c` 93-97, 400-401,
458-459). The subtraction overflows for `INT64_MIN`. -/
def absInt (v : Int) : Option Nat :=
  if v = -(2 ^ 63) then none else some v.natAbs

/-- `CCBigIntSetInt` (`BigInt.c` 87-98), for an `int64_t` value. -/
def setInt (v : Int) : Option BI := do
  let a ← absInt v
  some ⟨decide (v < 0), [a]⟩

/-- The page loop of `CCBigIntSetBigInt` (`BigInt.c` 71-75): the pages of the source (16 components
each, the last one possibly fewer) are appended with `CCListAppendElements`. `n` components are
already in the list. A partial page appended behind a full page reads beyond the source page
(`List.c` 108-122, see `PList.C04_list_sequence_refuted`). -/
def copyPages : Nat → Nat → List Nat → Option (List Nat)
  | _, _, [] => some []
  | 0, _, _ :: _ => none
  | fuel + 1, n, cs@(_ :: _) =>
    if n ≠ 0 ∧ (cs.take 16).length ≠ 16 then none
    else do
      let rest ← copyPages fuel (n + 16) (cs.drop 16)
      some (cs.take 16 ++ rest)

/-- `CCBigIntSetBigInt` (`BigInt.c` 62-76) for two different objects. -/
def setBig (v : BI) : Option BI := do
  let cs ← copyPages v.comps.length 0 v.comps
  some ⟨v.sign, cs⟩

/-- The loop of `CCBigIntCompareComponents` (`BigInt.c` 239-245), on the components from the most
significant one. -/
def compareDigits : List Nat → List Nat → Ordering
  | a :: as, b :: bs => if a ≠ b then (if a < b then .lt else .gt) else compareDigits as bs
  | _, _ => .eq

/-- `CCBigIntCompareComponents` (`BigInt.c` 231-251); `lt` is `CCComparisonResultAscending`. -/
def compareComponents (a b : List Nat) : Ordering :=
  if a.length = b.length then compareDigits a.reverse b.reverse
  else if a.length < b.length then .lt else .gt

/-- `CCBigIntCompareBigInt` (`BigInt.c` 253-265). -/
def compareBig (a b : BI) : Ordering :=
  if a.sign ≠ b.sign then (if a.sign then .lt else .gt)
  else
    let r := compareComponents a.comps b.comps
    if a.sign then r.swap else r

/-- `CCBigIntCompareInt` (`BigInt.c` 274-284). -/
def compareInt (a : BI) (v : Int) : Option Ordering := do
  let b ← setInt v
  some (compareBig a b)

/-- The second loop and the final carry of `CCBigIntApplyAdd` (`BigInt.c` 313-320). -/
def addTail : List Nat → Nat → List Nat
  | [], carry => if carry ≠ 0 then [carry] else []
  | v :: vs, carry =>
    let r := (v + carry) % W
    r :: addTail vs (if r < v then 1 else 0)

/-- The first loop of `CCBigIntApplyAdd` (`BigInt.c` 306-311). -/
def addLoop : List Nat → List Nat → Nat → List Nat
  | [], vals, carry => addTail vals carry
  | c :: cs, vals, carry =>
    if carry ≠ 0 ∨ vals ≠ [] then
      let v := vals.headD 0
      let r := (c + v + carry) % W
      r :: addLoop cs vals.tail (if r ≤ c ∧ (v ||| carry) ≠ 0 then 1 else 0)
    else c :: cs

/-- `CCBigIntApplyAdd` (`BigInt.c` 298-321). -/
def applyAdd (b : BI) (vals : List Nat) : BI := { b with comps := addLoop b.comps vals 0 }

/-- State at the end of the loop of `CCBigIntApplySub`. -/
structure SubRes where
  comps : List Nat
  left : List Nat
  carry : Nat
  last : Nat
  deriving DecidableEq, Repr

/-- The loop of `CCBigIntApplySub` (`BigInt.c` 332-342). -/
def subLoop : List Nat → List Nat → Nat → Nat → Nat → SubRes
  | [], vals, carry, _, last => ⟨[], vals, carry, last⟩
  | c :: cs, vals, carry, index, last =>
    if carry ≠ 0 ∨ vals ≠ [] then
      let v := vals.headD 0
      let s := (v + carry) % W
      let next := if c < v ∨ c < s ∨ (carry ≠ 0 ∧ v = W - 1) then 1 else 0
      let c' := (c + (W - s)) % W
      let r := subLoop cs vals.tail next (index + 1) (if c' ≠ 0 then index else last)
      { r with comps := c' :: r.comps }
    else ⟨c :: cs, vals, carry, last⟩

/-- `CCListRemoveElementAtIndex` (`List.c`, see `PList.remove`). -/
def removeAt (cs : List Nat) (i : Nat) : Option (List Nat) :=
  if i < cs.length then some (cs.eraseIdx i) else none

/-- The removal loop of `CCBigIntApplySub` (`BigInt.c` 346-349), `loop` counting up to `count`. -/
def removeLoop (count : Nat) : Nat → Nat → List Nat → Option (List Nat)
  | 0, _, cs => some cs
  | fuel + 1, loop, cs =>
    if loop < count then do
      let cs ← removeAt cs (count - loop)
      removeLoop count fuel (loop + 1) cs
    else some cs

/-- The sign fix of `CCBigIntApplySub` (`BigInt.c` 351-358); the least significant component is
reinterpreted as `int64_t`, negating `INT64_MIN` overflows. -/
def fixSign (sign : Bool) (carry : Nat) : List Nat → Option BI
  | cs =>
    if carry ≠ 0 then
      match cs with
      | [] => none
      | c :: cs => if c = 2 ^ 63 then none else some ⟨!sign, (if c < 2 ^ 63 then c else W - c) :: cs⟩
    else some ⟨sign, cs⟩

/-- `CCBigIntApplySub` (`BigInt.c` 323-359). -/
def applySub (b : BI) (vals : List Nat) : Option BI :=
  let r := subLoop b.comps vals 0 0 0
  if r.left ≠ [] then none
  else do
    let cs ← removeLoop r.comps.length r.comps.length (r.last + 1) r.comps
    fixSign b.sign r.carry cs

/-- The branch of `CCBigIntAddBigInt` / `CCBigIntSubBigInt` for operands of different sign
(`BigInt.c` 370-384, 428-442). -/
def differ (a v : BI) : Option BI :=
  if compareComponents a.comps v.comps ≠ .lt then applySub a v.comps
  else do
    let c ← setBig v
    let r ← applySub c a.comps
    some { r with sign := !a.sign }

/-- `CCBigIntAddBigInt` (`BigInt.c` 361-385). -/
def addBig (a v : BI) : Option BI :=
  if a.sign = v.sign then some (applyAdd a v.comps) else differ a v

/-- `CCBigIntSubBigInt` (`BigInt.c` 419-443). -/
def subBig (a v : BI) : Option BI :=
  if a.sign ≠ v.sign then some (applyAdd a v.comps) else differ a v

/-- `CCBigIntAddInt` (`BigInt.c` 396-407). -/
def addInt (a : BI) (v : Int) : Option BI := do
  let n ← absInt v
  if a.sign = decide (v < 0) then some (applyAdd a [n]) else applySub a [n]

/-- `CCBigIntSubInt` (`BigInt.c` 454-465). -/
def subInt (a : BI) (v : Int) : Option BI := do
  let n ← absInt v
  if a.sign ≠ decide (v < 0) then some (applyAdd a [n]) else applySub a [n]

end Verif.BigInt
