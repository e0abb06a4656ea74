import Verif.SimdHorizLemmas

/-!
# C95: horizontal sums, differences and dot products
-/
namespace Verif.SimdHoriz
open Verif.SimdShuffle Spec

/-- A function of two arguments as one of a list of arguments. -/
def args2 {β : Type} (f : Nat → Nat → Option β) : List Nat → Option β
  | [v0, v1] => f v0 v1
  | _ => none

theorem horizontal_args2 {w : Nat} {what : List (BitVec w) → Nat → BitVec w → Prop}
    {f : List (BitVec w) → Nat → Nat → Option (List (BitVec w))}
    (h : Horizontal what 2 (fun a vs => match vs with | [v0, v1] => f a v0 v1 | _ => none)) :
    Horizontal what 2 (fun a => args2 (f a)) := by
  intro a vs ha hv
  have := h a vs ha hv
  obtain ⟨v0, v1, rfl⟩ := length_two hv
  exact this

/-- **C95, adding horizontally.**  `CCSimdHadd` on vectors of 2, 4 and 8 integer lanes, in the 128-bit and
in the 64-bit register: lane `j` is the sum, modulo 2^w, of the lanes the mask `j` selects; a mask
for more lanes than there are aborts. -/
theorem C95_hadd :
    Horizontal (w := 64) Added 2 (fun a => args2 (hadd2 Q.swizzle2 Q.interleave2 a)) ∧
    Horizontal (w := 32) Added 4 (hadd4 Q.merge4) ∧
    Horizontal (w := 16) Added 8 (hadd8 merge8x16) ∧
    Horizontal (w := 32) Added 2 (fun a => args2 (hadd2 D.swizzle2 D.interleave2 a)) ∧
    Horizontal (w := 16) Added 4 (hadd4 D.merge4) ∧
    Horizontal (w := 8) Added 8 (hadd8 D.merge8) :=
  ⟨horizontal_args2 (hadd2_spec Q.swizzle2_spec Q.interleave2_spec), hadd4_spec Q.merge4_spec,
    hadd8_spec merge8x16_spec, horizontal_args2 (hadd2_spec D.swizzle2_spec D.interleave2_spec),
    hadd4_spec D.merge4_spec, hadd8_spec D.merge8_spec⟩

example : (∀ v ∈ [0b1011, 0b1000, 0b1111, 0b0110], v < 2 ^ 4) ∧
    hadd4 Q.merge4 [1#32, 20#32, 300#32, 4000#32] [0b1011, 0b1000, 0b1111, 0b0110] =
      some [4021#32, 4000#32, 4321#32, 320#32] ∧
    hadd2 Q.swizzle2 Q.interleave2 [1#64, 20#64] 2 3 = some [20#64, 21#64] := by
  decide +kernel

/-- **C95, dot products.**  `CCSimdDot` likewise gives the sums of the products of the lanes selected.
(Lanes of 64 bits have no multiplication.) -/
theorem C95_dot :
    (∀ (a b : List (BitVec 32)), a.length = 4 → b.length = 4 → ∀ vs : List Nat, vs.length = 4 →
      ((∀ v ∈ vs, v < 2 ^ 4) → ∃ r, dot4 Q.merge4 a b vs = some r ∧ Lanes Added (products a b) vs r) ∧
      ((∃ v ∈ vs, 2 ^ 4 ≤ v) → dot4 Q.merge4 a b vs = none)) ∧
    (∀ (a b : List (BitVec 16)), a.length = 8 → b.length = 8 → ∀ vs : List Nat, vs.length = 8 →
      ((∀ v ∈ vs, v < 2 ^ 8) → ∃ r, dot8 merge8x16 a b vs = some r ∧ Lanes Added (products a b) vs r) ∧
      ((∃ v ∈ vs, 2 ^ 8 ≤ v) → dot8 merge8x16 a b vs = none)) ∧
    (∀ (a b : List (BitVec 32)), a.length = 2 → b.length = 2 → ∀ v0 v1 : Nat,
      (v0 < 2 ^ 2 → v1 < 2 ^ 2 → ∃ r, dot2 D.swizzle2 D.interleave2 a b v0 v1 = some r ∧
        Lanes Added (products a b) [v0, v1] r) ∧
      (2 ^ 2 ≤ v0 ∨ 2 ^ 2 ≤ v1 → dot2 D.swizzle2 D.interleave2 a b v0 v1 = none)) ∧
    (∀ (a b : List (BitVec 16)), a.length = 4 → b.length = 4 → ∀ vs : List Nat, vs.length = 4 →
      ((∀ v ∈ vs, v < 2 ^ 4) → ∃ r, dot4 D.merge4 a b vs = some r ∧ Lanes Added (products a b) vs r) ∧
      ((∃ v ∈ vs, 2 ^ 4 ≤ v) → dot4 D.merge4 a b vs = none)) ∧
    (∀ (a b : List (BitVec 8)), a.length = 8 → b.length = 8 → ∀ vs : List Nat, vs.length = 8 →
      ((∀ v ∈ vs, v < 2 ^ 8) → ∃ r, dot8 D.merge8 a b vs = some r ∧ Lanes Added (products a b) vs r) ∧
      ((∃ v ∈ vs, 2 ^ 8 ≤ v) → dot8 D.merge8 a b vs = none)) :=
  ⟨fun _ _ ha hb _ hv => dot4_spec Q.merge4_spec hb ha hv,
    fun _ _ ha hb _ hv => dot8_spec merge8x16_spec hb ha hv,
    fun _ _ ha hb _ _ => dot2_spec D.swizzle2_spec D.interleave2_spec ha hb,
    fun _ _ ha hb _ hv => dot4_spec D.merge4_spec hb ha hv,
    fun _ _ ha hb _ hv => dot8_spec D.merge8_spec hb ha hv⟩

example : dot4 Q.merge4 [1#32, 2#32, 3#32, 4#32] [10#32, 20#32, 30#32, 40#32] [15, 1, 6, 8] =
    some [300#32, 10#32, 130#32, 160#32] := by decide +kernel

/-- **C95, subtracting horizontally, two lanes**: lane `j` is the first lane the mask `j` selects less
the other one if that is selected. -/
theorem C95_hsub_two :
    Horizontal (w := 64) Subtracted 2 (fun a => args2 (hsub2 Q.swizzle2 Q.interleave2 a)) ∧
    Horizontal (w := 32) Subtracted 2 (fun a => args2 (hsub2 D.swizzle2 D.interleave2 a)) :=
  ⟨horizontal_args2 (hsub2_spec Q.swizzle2_spec Q.interleave2_spec),
    horizontal_args2 (hsub2_spec D.swizzle2_spec D.interleave2_spec)⟩

example : hsub2 Q.swizzle2 Q.interleave2 [5#64, 3#64] 3 2 = some [2#64, 3#64] ∧
    hsub2 Q.swizzle2 Q.interleave2 [5#64, 3#64] 0 3 = some [-2#64, 2#64] := by decide +kernel

/-- The vectors of 4 and 8 lanes: right if no mask is zero, and undefined behaviour if one is. -/
def SubtractsUnlessZero {w : Nat} (n : Nat)
    (f : List (BitVec w) → List Nat → Option (List (BitVec w))) : Prop :=
  ∀ (a : List (BitVec w)) (vs : List Nat), a.length = n → vs.length = n →
    ((∀ v ∈ vs, v < 2 ^ n) → (∀ v ∈ vs, v ≠ 0) → ∃ r, f a vs = some r ∧ Lanes Subtracted a vs r) ∧
    ((∃ v ∈ vs, 2 ^ n ≤ v ∨ v = 0) → f a vs = none)

/-- **C95, subtracting horizontally, four and eight lanes**: if no mask is zero, lane `j` is the first
lane the mask `j` selects less all the others selected.  With a mask of zero, which the documentation
allows, the code shifts an `int` by 64 bits, which is undefined. -/
theorem C95_hsub_partial :
    SubtractsUnlessZero (w := 32) 4 (hsub4 Q.merge4) ∧
    SubtractsUnlessZero (w := 16) 8 (hsub8 merge8x16) ∧
    SubtractsUnlessZero (w := 16) 4 (hsub4 D.merge4) ∧
    SubtractsUnlessZero (w := 8) 8 (hsub8 D.merge8) :=
  ⟨fun _ _ ha hv => hsub4_spec Q.merge4_spec ha hv, fun _ _ ha hv => hsub8_spec merge8x16_spec ha hv,
    fun _ _ ha hv => hsub4_spec D.merge4_spec ha hv, fun _ _ ha hv => hsub8_spec D.merge8_spec ha hv⟩

example : (∀ v ∈ [0b1110, 0b1000, 0b1111, 0b0110], v < 2 ^ 4 ∧ v ≠ 0) ∧
    hsub4 Q.merge4 [1#32, 1000#32, 300#32, 40#32] [0b1110, 0b1000, 0b1111, 0b0110] =
      some [660#32, 40#32, -1339#32, 700#32] := by
  decide +kernel

/-- **C95, subtracting horizontally with a mask of zero is refuted**: the example of the documentation,
all lanes into the first and nothing into the others, is undefined behaviour. -/
theorem C95_hsub_refuted : hsub4 Q.merge4 [10#32, 2#32, 3#32, 4#32] [15, 0, 0, 0] = none ∧
    ¬ Horizontal (w := 32) Subtracted 4 (hsub4 Q.merge4) := by
  have h : hsub4 Q.merge4 [10#32, 2#32, 3#32, 4#32] [15, 0, 0, 0] = none :=
    (hsub4_spec Q.merge4_spec rfl rfl).2 ⟨0, by decide, Or.inr rfl⟩
  refine ⟨h, fun hh => ?_⟩
  obtain ⟨r, hr, -⟩ := (hh [10#32, 2#32, 3#32, 4#32] [15, 0, 0, 0] rfl rfl).1 (by decide)
  rw [h] at hr
  cases hr

#print axioms C95_hadd
#print axioms C95_dot
#print axioms C95_hsub_two
#print axioms C95_hsub_partial
#print axioms C95_hsub_refuted

end Verif.SimdHoriz
