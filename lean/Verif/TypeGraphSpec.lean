import Verif.TypeGraph

/-!
# What it is for a description of a type to be read back
-/
namespace Verif.TypeGraph

/-- The types a descriptor refers to. -/
def Desc.refs {X α : Type} : Desc X α → List α
  | .pointer _ _ t _ _ => [t]
  | .struct _ fs => fs.map (·.type)
  | .array _ t => [t]
  | .enumerable _ t => [t]
  | _ => []

/-- The same descriptor with its references renamed, and without the names of its fields (which are not written). -/
def Desc.image {X α β : Type} (φ : α → β) : Desc X α → Desc X β
  | .pointer s o t c x => .pointer s o (φ t) c x
  | .integer s f e n => .integer s f e n
  | .float e n => .float e n
  | .struct n fs => .struct n (fs.map fun f => ⟨0, f.offset, φ f.type⟩)
  | .opaque n x => .opaque n x
  | .array n t => .array n (φ t)
  | .validator => .validator
  | .enumerable n t => .enumerable n (φ t)

/-- A descriptor that can be written: the members are in their ranges, the numbers are below `2 ^ 56` (a signed one within `2 ^ 48`, as that of an enumerable
of unknown size, `2 ^ 64 - 1`, is), it is no validator, and no dynamic pointer with an allocator of its own. -/
def Desc.Ok {X α : Type} : Desc X α → Prop
  | .pointer s o _ c _ => s ≤ 1 ∧ o ≤ 2 ∧ c = false
  | .integer _ _ e n => e ≤ 2 ∧ n < 2 ^ 56
  | .float e n => e ≤ 2 ∧ n < 2 ^ 56
  | .struct n fs => n < 2 ^ 56 ∧ fs.length < 2 ^ 56 ∧ ∀ f ∈ fs, f.offset < 2 ^ 56
  | .opaque n _ => n < 2 ^ 56
  | .array n _ => n < 2 ^ 56
  | .validator => False
  | .enumerable n _ => n < 2 ^ 48 ∨ 2 ^ 64 - 2 ^ 48 ≤ n ∧ n < 2 ^ 64

/-- The types that are met from `root` on, not looking into those that are looked up (`known`). -/
inductive Reach {N X : Type} (g : N → Desc X N) (known : N → Prop) (root : N) : N → Prop
  | root : Reach g known root root
  | ref {s t : N} : Reach g known root s → ¬known s → t ∈ (g s).refs → Reach g known root t

end Verif.TypeGraph
