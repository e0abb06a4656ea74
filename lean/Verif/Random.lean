/-!
# Model of the random number generators (`Random.c`, `Random.h`)
-/
namespace Verif.Random

abbrev U32 := BitVec 32

/-- `CCRandom_xorshift` (`Random.c` 30-37): the new state, which is also the returned number. -/
def xorshift (s : U32) : U32 :=
  let s := s ^^^ s <<< 13
  let s := s ^^^ s >>> 17
  s ^^^ s <<< 5

/-- `CCRandomSeed_xorshift` (`Random.c` 44-47). -/
def seedXorshift (seed : U32) : U32 := if seed ≠ 0#32 then seed else 1#32

/-- `CCRandomState_xorwow` (`Random.h` 75-78). -/
structure Wow where
  a : U32
  b : U32
  c : U32
  d : U32
  counter : U32
  deriving DecidableEq, Repr

/-- `CCRandom_xorwow` (`Random.c` 51-67): the new state and the returned number. -/
def xorwow (st : Wow) : Wow × U32 :=
  let t := st.d
  let s := st.a
  let t := t ^^^ t >>> 2
  let t := t ^^^ t <<< 1
  let t := t ^^^ (s ^^^ s <<< 4)
  let counter := st.counter + 362437#32
  (⟨t, s, st.b, st.c, counter⟩, t + counter)

/-- `CCRandomSeed_xorwow` (`Random.c` 74-86).  The initialisers of the compound literal are evaluated
in an unspecified order: `perm` says which of the five successive xorshift numbers each field gets. -/
def seedXorwow (perm : Fin 5 → Fin 5) (seed : U32) : Wow :=
  let n (k : Fin 5) : U32 := Nat.repeat xorshift (k.1 + 1) (seedXorshift seed)
  ⟨n (perm 0), n (perm 1), n (perm 2), n (perm 3), n (perm 4)⟩

/-- Value of an `int32_t` expression: `none` on signed overflow. -/
def int32 (x : Int) : Option Int := if -2 ^ 31 ≤ x ∧ x < 2 ^ 31 then some x else none

/-- `CCRandomRangei` (`Random.h` 365-369) for the number `r` drawn by `CCRandom()` (stored to an
`int32_t`): `(r % (max - min + 1)) + (r < 0 ? max : min)`; `%` truncates towards zero and is
undefined for a zero divisor. -/
def rangei (draw : U32) (min max : Int) : Option Int := do
  let r := draw.toInt
  let d ← int32 (max - min)
  let n ← int32 (d + 1)
  if n = 0 then none
  else int32 (r.tmod n + (if r < 0 then max else min))

/-- `CCRandomi` (`Random.h` 350-353): `CCRandom() % ((unsigned int)RAND_MAX + 1)`. -/
def randomi (draw : U32) (randMax : Nat) : Nat := draw.toNat % ((randMax + 1) % 2 ^ 32)

end Verif.Random
