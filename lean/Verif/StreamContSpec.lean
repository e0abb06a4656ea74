import Verif.StreamCont
import Verif.CopyContSpec
/-!
# Specification for C104: what data with containers is, all pointers followed
-/
namespace Verif.StreamCont

open Verif.CopyCont

/-- The data with everything it leads to. -/
inductive Tree where
  | num (n : Nat)
  | null
  /-- Memory of unknown type. -/
  | blank
  | text (n : Nat)
  | target (t : Tree)
  | pair (x y : Tree)
  | seq (ts : List Tree)

/-- There is data of the type: every pointer, a weak one too, is null or to an object of its type. -/
def Fits (h : Heap) : Ty → Val → Prop
  | .num, v => ∃ n, v = .num n
  | .raw _, v => v = .null ∨ ∃ p, v = .ptr p ∧ p < h.length
  | .ptr _ t, v => v = .null ∨ ∃ p x n, v = .ptr p ∧ h[p]? = some ⟨.cell x, n⟩ ∧ Fits h t x
  | .pair a b, v => ∃ x y, v = .pair x y ∧ Fits h a x ∧ Fits h b y
  | .str, v => (∃ w, v = .num w) ∨ ∃ p s n, v = .ptr p ∧ h[p]? = some ⟨.text s, n⟩
  | .cont k e, v => v = .null ∨ ∃ p xs n, v = .ptr p ∧ h[p]? = some ⟨.seq xs, n⟩ ∧ (k = .linked → xs ≠ []) ∧ ∀ x ∈ xs, Fits h e x

/-- The data. -/
def whole (h : Heap) : Ty → Val → Tree
  | .num, .num n => .num n
  | .str, .num n => .num n
  | .str, .ptr p => .text (characters h p)
  | .raw _, .ptr _ => .blank
  | .ptr _ t, .ptr p => .target (whole h t (target h p))
  | .pair a b, .pair x y => .pair (whole h a x) (whole h b y)
  | .cont _ e, .ptr p => .seq ((elements h p).map (whole h e))
  | _, _ => .null

/-- The objects the data leads to, each as often as it does. -/
def reached (h : Heap) : Ty → Val → List Nat
  | .raw _, .ptr p => [p]
  | .ptr _ t, .ptr p => p :: reached h t (target h p)
  | .pair a b, .pair x y => reached h a x ++ reached h b y
  | .str, .ptr p => [p]
  | .cont _ e, .ptr p => p :: (elements h p).flatMap (reached h e)
  | _, _ => []

/-- The objects the data leads to without holding them: those that a weak pointer or one to `void` that is not retained leads to. -/
def loose (h : Heap) : Ty → Val → List Nat
  | .raw false, .ptr p => [p]
  | .ptr o t, .ptr p => if o = .weak then p :: reached h t (target h p) else loose h t (target h p)
  | .pair a b, .pair x y => loose h a x ++ loose h b y
  | .cont _ e, .ptr p => (elements h p).flatMap (loose h e)
  | _, _ => []

/-- No array in the data is empty. -/
def NoEmptyArray (h : Heap) : Ty → Val → Prop
  | .ptr _ t, .ptr p => NoEmptyArray h t (target h p)
  | .pair a b, .pair x y => NoEmptyArray h a x ∧ NoEmptyArray h b y
  | .cont k e, .ptr p => (k = .array → elements h p ≠ []) ∧ ∀ x ∈ elements h p, NoEmptyArray h e x
  | _, _ => True

/-- Everything the data leads to has not been freed. -/
def Alive (h : Heap) (t : Ty) (v : Val) : Prop := ∀ p ∈ reached h t v, 0 < count h p

end Verif.StreamCont
