import Verif.SimdShuffle
import Verif.BitTricks

/-!
# Model of the horizontal operations of the vector types

`CCSimdHadd`, `CCSimdHsub` and `CCSimdDot` of `CommonC/SimdFallback.h` lines 654-930 for vectors of
2, 4 and 8 integer lanes, over the swizzles, interleaves and merges of `SimdShuffle` (parameters
`swz`, `itl`, `mg`, so that one definition serves the 128-bit and the 64-bit register).  A vector is
the list of its lanes, a lane is a bit vector, an argument `v0`, `v1`, … is a number (simplification:
the arguments are `uint8_t`, numbers above 255 do not occur).  A failing assertion is `none`, and so
are undefined behaviour and an unreachable case.

Not modelled: lanes of floats (the same code, but addition is not associative).  The variants of 16
lanes are declared but have no implementation (SimdFallback.h line 731, `&& 0`).
-/
namespace Verif.SimdHoriz
open Verif.SimdShuffle

variable {w : Nat}

/-- A vector of integer lanes. -/
abbrev Vec (w : Nat) := List (BitVec w)

/-- `CCSimdSwizzle` of some register width. -/
abbrev Swz (w : Nat) := Vec w → List Nat → Option (Vec w)

/-- `CCSimdInterleave` or `CCSimdMerge` of some register width. -/
abbrev Mrg (w : Nat) := Vec w → Vec w → List Nat → Option (Vec w)

/-- `CCSimdAdd` (Simd128_arm.h lines 763-765, `vaddq`; Simd64_arm.h lines 505-507, `vadd`). -/
def add (a b : Vec w) : Vec w := List.zipWith (· + ·) a b

/-- `CCSimdSub` (Simd128_arm.h lines 767-769, `vsubq`; Simd64_arm.h lines 509-511, `vsub`). -/
def sub (a b : Vec w) : Vec w := List.zipWith (· - ·) a b

/-- `CCSimdMul` (Simd128_arm.h lines 776-778, `vmulq`; Simd64_arm.h lines 513-515, `vmul`). -/
def mul (a b : Vec w) : Vec w := List.zipWith (· * ·) a b

/-- `CCSimdHadd` of 2 lanes (SimdFallback.h lines 655-689); the switch is over `(v1 << 2) | v0`. -/
def hadd2 (swz : Swz w) (itl : Mrg w) (a : Vec w) (v0 v1 : Nat) : Option (Vec w) :=
  if v0 ≤ 3 ∧ v1 ≤ 3 then
    match v0, v1 with
    | 1, 0 | 0, 2 | 1, 2 | 0, 0 => some a
    | 1, 1 => swz a [0, 0]
    | 2, 2 => swz a [1, 1]
    | 0, 1 | 2, 0 | 2, 1 => swz a [1, 0]
    | 1, 3 => do itl a (add a (← swz a [1, 0])) [0, 1]
    | 2, 3 => do itl (← swz a [1, 0]) (add a (← swz a [1, 0])) [0, 1]
    | 3, 1 => do itl (← swz a [1, 0]) (add a (← swz a [1, 0])) [1, 0]
    | 3, 2 => do itl a (add a (← swz a [1, 0])) [1, 0]
    | 0, 3 | 3, 0 | 3, 3 => do return add a (← swz a [1, 0])
    | _, _ => none
  else none

/-- `CCSimdHsub` of 2 lanes (SimdFallback.h lines 766-799). -/
def hsub2 (swz : Swz w) (itl : Mrg w) (a : Vec w) (v0 v1 : Nat) : Option (Vec w) :=
  if v0 ≤ 3 ∧ v1 ≤ 3 then
    match v0, v1 with
    | 1, 0 | 0, 2 | 1, 2 | 0, 0 => some a
    | 1, 1 => swz a [0, 0]
    | 2, 2 => swz a [1, 1]
    | 0, 1 | 2, 0 | 2, 1 => swz a [1, 0]
    | 1, 3 => do itl a (sub (← swz a [1, 0]) a) [0, 1]
    | 2, 3 => do itl (← swz a [1, 0]) (sub (← swz a [1, 0]) a) [0, 1]
    | 3, 1 => do itl (← swz a [1, 0]) (sub a (← swz a [1, 0])) [1, 0]
    | 3, 2 => do itl a (sub a (← swz a [1, 0])) [1, 0]
    | 0, 3 => do return sub (← swz a [1, 0]) a
    | 3, 0 => do return sub a (← swz a [1, 0])
    | 3, 3 => do return sub (← swz a [0, 0]) (← swz a [1, 1])
    | _, _ => none
  else none

/-- `CCSimdDot` of 2 lanes (SimdFallback.h lines 873-906). -/
def dot2 (swz : Swz w) (itl : Mrg w) (a b : Vec w) (v0 v1 : Nat) : Option (Vec w) :=
  if v0 ≤ 3 ∧ v1 ≤ 3 then
    match v0, v1 with
    | 0, 0 => some a
    | 1, 1 => swz (mul a b) [0, 0]
    | 2, 2 => swz (mul a b) [1, 1]
    | 0, 2 | 1, 0 | 1, 2 => some (mul a b)
    | 0, 1 | 2, 0 | 2, 1 => swz (mul a b) [1, 0]
    | 1, 3 => hadd2 swz itl (mul a b) 1 3
    | 2, 3 => hadd2 swz itl (mul a b) 2 3
    | 3, 1 => hadd2 swz itl (mul a b) 3 1
    | 3, 2 => hadd2 swz itl (mul a b) 3 2
    | 0, 3 | 3, 0 | 3, 3 => hadd2 swz itl (mul a b) 3 3
    | _, _ => none
  else none

/-- `CC_SIMD_Ak | ((v << (4 - k)) & 16)`, for `k` above 4 `CC_SIMD_Ak | ((v >> (k - 4)) & 16)`
(SimdFallback.h lines 698-701 and 716-723). -/
def pick (k v : Nat) : Nat :=
  k ||| ((if k ≤ 4 then v <<< (4 - k) else v >>> (k - 4)) &&& 16)

/-- `CCSimdHadd` of 4 lanes (SimdFallback.h lines 691-707). -/
def hadd4 (mg : Mrg w) (a : Vec w) (vs : List Nat) : Option (Vec w) :=
  if vs.all (· ≤ 15) then do
    let zero := List.replicate 4 0
    let l0 ← mg zero a (vs.map (pick 0))
    let l1 ← mg zero a (vs.map (pick 1))
    let l2 ← mg zero a (vs.map (pick 2))
    let l3 ← mg zero a (vs.map (pick 3))
    return add (add l0 l1) (add l2 l3)
  else none

/-- `CCSimdHadd` of 8 lanes (SimdFallback.h lines 709-729). -/
def hadd8 (mg : Mrg w) (a : Vec w) (vs : List Nat) : Option (Vec w) :=
  if vs.all (· ≤ 255) then do
    let zero := List.replicate 8 0
    let l0 ← mg zero a (vs.map (pick 0))
    let l1 ← mg zero a (vs.map (pick 1))
    let l2 ← mg zero a (vs.map (pick 2))
    let l3 ← mg zero a (vs.map (pick 3))
    let l4 ← mg zero a (vs.map (pick 4))
    let l5 ← mg zero a (vs.map (pick 5))
    let l6 ← mg zero a (vs.map (pick 6))
    let l7 ← mg zero a (vs.map (pick 7))
    return add (add (add l0 l1) (add l2 l3)) (add (add l4 l5) (add l6 l7))
  else none

/-- `AdjustV = CCBitCountLowestUnset(v)` (SimdFallback.h lines 807-810 and 835-842), 64 for no bit;
stored in a `uint8_t`. -/
def adjust (v : Nat) : Nat := (BitTricks.countLowestUnset (BitVec.ofNat 64 v)).toNat % 256

/-- `v >>= AdjustV` (SimdFallback.h lines 812-815 and 844-851): `v` is promoted to `int`, and
shifting an `int` by 32 or more bits is undefined behaviour. -/
def adjusted (v : Nat) : Option Nat := if adjust v < 32 then some (v >>> adjust v) else none

/-- `(CC_SIMD_Ak + (AdjustV * ((v >> k) & 1))) | ((v << (4 - k)) & 16)` with the shifted `v`, for
`k` above 4 with a shift right (SimdFallback.h lines 819-822 and 855-862; the second one without the
outer brackets, which bind the same way).  The first component is `AdjustV`. -/
def pickSub (k : Nat) (p : Nat × Nat) : Nat :=
  (k + p.1 * ((p.2 >>> k) &&& 1)) |||
    ((if k ≤ 4 then p.2 <<< (4 - k) else p.2 >>> (k - 4)) &&& 16)

/-- The `AdjustV`s and the shifted masks. -/
def adjustAll (vs : List Nat) : Option (List (Nat × Nat)) :=
  vs.mapM fun v => (adjusted v).map fun s => (adjust v, s)

/-- `CCSimdHsub` of 4 lanes (SimdFallback.h lines 802-828). -/
def hsub4 (mg : Mrg w) (a : Vec w) (vs : List Nat) : Option (Vec w) :=
  if vs.all (· ≤ 15) then do
    let ps ← adjustAll vs
    let zero := List.replicate 4 0
    let l0 ← mg zero a (ps.map (pickSub 0))
    let l1 ← mg zero a (ps.map (pickSub 1))
    let l2 ← mg zero a (ps.map (pickSub 2))
    let l3 ← mg zero a (ps.map (pickSub 3))
    return sub (sub l0 l1) (add l2 l3)
  else none

/-- `CCSimdHsub` of 8 lanes (SimdFallback.h lines 830-868). -/
def hsub8 (mg : Mrg w) (a : Vec w) (vs : List Nat) : Option (Vec w) :=
  if vs.all (· ≤ 255) then do
    let ps ← adjustAll vs
    let zero := List.replicate 8 0
    let l0 ← mg zero a (ps.map (pickSub 0))
    let l1 ← mg zero a (ps.map (pickSub 1))
    let l2 ← mg zero a (ps.map (pickSub 2))
    let l3 ← mg zero a (ps.map (pickSub 3))
    let l4 ← mg zero a (ps.map (pickSub 4))
    let l5 ← mg zero a (ps.map (pickSub 5))
    let l6 ← mg zero a (ps.map (pickSub 6))
    let l7 ← mg zero a (ps.map (pickSub 7))
    return sub (sub (sub l0 l1) (add l2 l3)) (add (add l4 l5) (add l6 l7))
  else none

/-- `CCSimdDot` of 4 lanes (SimdFallback.h lines 907-917). -/
def dot4 (mg : Mrg w) (a b : Vec w) (vs : List Nat) : Option (Vec w) :=
  if vs.all (· ≤ 15) then hadd4 mg (mul a b) vs else none

/-- `CCSimdDot` of 8 lanes (SimdFallback.h lines 919-928). -/
def dot8 (mg : Mrg w) (a b : Vec w) (vs : List Nat) : Option (Vec w) :=
  if vs.all (· ≤ 255) then hadd8 mg (mul a b) vs else none

/-- `CCSimdMerge` of 8 lanes of 16 bits, which moves the bytes of the lanes (Simd128_arm.h lines
1794-1803): the lanes as pairs of bytes, lower one first. -/
def merge8x16 (a b : Vec 16) (vs : List Nat) : Option (Vec 16) :=
  let bytes (x : BitVec 16) : BitVec 8 × BitVec 8 := (x.setWidth 8, (x >>> 8).setWidth 8)
  (Q.merge8 (a.map bytes) (b.map bytes) vs).map fun r => r.map fun p => p.2 ++ p.1

end Verif.SimdHoriz
