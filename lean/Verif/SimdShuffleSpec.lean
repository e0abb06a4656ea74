/-!
# What moving lanes means

Specification for C93, from the documentation of `CCSimdSwizzle`, `CCSimdInterleave` and
`CCSimdMerge` (CommonC/Simd128.h lines 7927-7938, 8086-8097 and 8247-8259).  A vector is the list
of its lanes.
-/
namespace Verif.SimdShuffle.Spec

/-- "The index of the element in `a` to be moved to `[j]`": lane `j` of the result is lane `vs[j]`
of `a`. -/
def IsSwizzle {α : Type} (a : List α) (vs : List Nat) (r : List α) : Prop :=
  r.length = vs.length ∧ ∀ (j v : Nat), vs[j]? = some v → r[j]? = a[v]?

/-- "The index of the vector argument to include the element from. Use 0 for `a` and 1 for `b`":
lane `j` of the result is lane `j` of the vector `vs[j]` names. -/
def IsInterleave {α : Type} (a b : List α) (vs : List Nat) (r : List α) : Prop :=
  r.length = vs.length ∧ ∀ (j v : Nat), vs[j]? = some v → r[j]? = if v = 0 then a[j]? else b[j]?

/-- "The vector element argument to be moved to `[j]`. Use CC_SIMD_An or CC_SIMD_Bn": `An` is `n`
and `Bn` is `n + 16`. -/
def IsMerge {α : Type} (a b : List α) (vs : List Nat) (r : List α) : Prop :=
  r.length = vs.length ∧
    ∀ (j v : Nat), vs[j]? = some v → r[j]? = if v < 16 then a[v]? else b[v - 16]?

/-- The operation `f` on vectors of `n` lanes swizzles: with lane numbers of the vector it returns
the swizzled vector, with any other it aborts. -/
def Swizzles {α : Type} (n : Nat) (f : List α → List Nat → Option (List α)) : Prop :=
  ∀ (a : List α) (vs : List Nat), a.length = n → vs.length = n →
    ((∀ v ∈ vs, v < n) → ∃ r, f a vs = some r ∧ IsSwizzle a vs r) ∧
    ((∃ v ∈ vs, n ≤ v) → f a vs = none)

/-- The operation `f` on vectors of `n` lanes interleaves: with arguments 0 and 1 it returns the
interleaved vector, with any other it aborts. -/
def Interleaves {α : Type} (n : Nat) (f : List α → List α → List Nat → Option (List α)) : Prop :=
  ∀ (a b : List α) (vs : List Nat), a.length = n → b.length = n → vs.length = n →
    ((∀ v ∈ vs, v < 2) → ∃ r, f a b vs = some r ∧ IsInterleave a b vs r) ∧
    ((∃ v ∈ vs, 2 ≤ v) → f a b vs = none)

/-- `v` is one of `CC_SIMD_A0`, …, `CC_SIMD_A(n-1)`, `CC_SIMD_B0`, …, `CC_SIMD_B(n-1)`. -/
def NamesLane (n v : Nat) : Prop := v < n ∨ (16 ≤ v ∧ v < 16 + n)

/-- The operation `f` on vectors of `n` lanes merges: with names of lanes of its vectors it
returns the merged vector, with any other it aborts. -/
def Merges {α : Type} (n : Nat) (f : List α → List α → List Nat → Option (List α)) : Prop :=
  ∀ (a b : List α) (vs : List Nat), a.length = n → b.length = n → vs.length = n →
    ((∀ v ∈ vs, NamesLane n v) → ∃ r, f a b vs = some r ∧ IsMerge a b vs r) ∧
    ((∃ v ∈ vs, ¬ NamesLane n v) → f a b vs = none)

end Verif.SimdShuffle.Spec
