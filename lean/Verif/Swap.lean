/-!
# Model of `CommonC/Swap.h`
-/
namespace Verif.Swap

/-- Body of the loop of `CCSwap` (Swap.h:44-46) at `i`: exchanges byte `i` and byte `size - i - 1`.  `none`: an access outside the buffer. -/
def exchange (d : List UInt8) (i j : Nat) : Option (List UInt8) := do
  let temp ← d[i]?
  let other ← d[j]?
  return (d.set i other).set j temp

/-- The loop of `CCSwap` (Swap.h:42-47), `n` iterations left, at index `i`. -/
def loop (size : Nat) : Nat → Nat → List UInt8 → Option (List UInt8)
  | 0, _, d => some d
  | n + 1, i, d => do
    let d ← exchange d i (size - i - 1)
    loop size n (i + 1) d

/-- `CCSwap` (Swap.h:40-48). -/
def swap (d : List UInt8) (size : Nat) : Option (List UInt8) := loop size (size / 2) 0 d

end Verif.Swap
