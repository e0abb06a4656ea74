import Verif.PrintType
import Verif.PrintDataProps
/-!
# C121: types are printed, and integer types are told apart
-/
namespace Verif.PrintType
open Verif.PrintInt (Host Endian)
open Verif.PrintData.Spec (Balanced walk)
open Verif.PrintData (bal_append bal_flat bal_between bal_none walk_append)

namespace Spec

/-- The text of a type. -/
def Text (c : Ctx) (levels i ic : Nat) (t : List Char) : Prop := ∃ fuel, printType c fuel levels i ic = some t

/-- `j` is printed as a part of `i` without entering a struct. -/
inductive Part (c : Ctx) : Nat → Nat → Prop
  | pointer {i j} : c.node i = .pointer j → typeName c i = none → Part c i j
  | array {i j n} : c.node i = .array j n → Part c i j
  | validator {i j} : c.node i = .validator j → Part c i j
  | enumerable {i j} : c.node i = .enumerable j → typeName c i = none → Part c i j

/-- What an integer type is: whether its byte order differs from that of the machine, sign, size and whether the size is fixed. -/
structure IntType where
  foreign : Bool
  sign : Bool
  size : Nat
  fixed : Bool
deriving DecidableEq

/-- The byte order differs from that of the machine. -/
def foreign : Host → Endian → Bool
  | .little, .big | .big, .little => true
  | _, _ => false

end Spec
open Verif.PrintType.Spec

/-! ## More fuel does not change the text -/

theorem dims_mono {c : Ctx} {f : Nat} : ∀ {i x}, dims c f i = some x → dims c (f + 1) i = some x := by
  induction f with
  | zero => intro i x h; exact absurd h (by simp [dims])
  | succ f ih =>
    intro i x h
    rw [dims] at h
    rw [dims]
    split at h
    · split at h
      · exact absurd h (by simp)
      rename_i e
      simp only [ih e]; exact h
    · exact h

theorem fields_mono {c : Ctx} {ic : Nat} {o1 o2 : Nat → Option (List Char)} (ho : ∀ {i t}, o1 i = some t → o2 i = some t) :
    ∀ {fs t}, fieldsText c ic o1 fs = some t → fieldsText c ic o2 fs = some t := by
  intro fs
  induction fs with
  | nil => intro t h; exact h
  | cons x fs ih =>
    obtain ⟨name, i⟩ := x
    intro t h
    rw [fieldsText] at h
    split at h
    · exact absurd h (by simp)
    rename_i e
    split at h
    · exact absurd h (by simp)
    rename_i e'
    rw [fieldsText, ho e, ih e']; exact h

theorem type_mono {c : Ctx} {f : Nat} : ∀ {lv i ic t}, printType c f lv i ic = some t → printType c (f + 1) lv i ic = some t := by
  induction f with
  | zero => intro lv i ic t h; exact absurd h (by simp [printType])
  | succ f ih =>
    intro lv i ic t h
    rw [printType] at h
    rw [printType]
    split at h
    · rename_i hl; rw [if_pos hl]; exact h
    rename_i hl
    rw [if_neg hl]
    cases hn : c.node i <;> cases hN : typeName c i <;> simp only [hn, hN] at h ⊢ <;> try exact h
    · split at h
      · exact absurd h (by simp)
      rename_i e; rw [ih e]; exact h
    · split at h
      · rename_i h20
        rw [if_pos h20]
        split at h
        · exact absurd h (by simp)
        rename_i e
        rw [fields_mono (fun k => ih k) e]; exact h
      · rename_i h20
        rw [if_neg h20]; exact h
    · split at h
      · exact absurd h (by simp)
      rename_i e
      rw [dims_mono e]
      simp only []
      split at h
      · exact absurd h (by simp)
      rename_i e'
      rw [ih e']; exact h
    · split at h
      · exact absurd h (by simp)
      rename_i e; rw [ih e]; exact h
    · split at h
      · exact absurd h (by simp)
      rename_i e; rw [ih e]; exact h
    · split at h
      · exact absurd h (by simp)
      rename_i e; rw [ih e]; exact h

theorem type_add {c : Ctx} {f lv i ic : Nat} {t : List Char} (h : printType c f lv i ic = some t) (k : Nat) : printType c (f + k) lv i ic = some t := by
  induction k with
  | zero => exact h
  | succ k ih => exact type_mono ih

theorem dims_add {c : Ctx} {f i : Nat} {x : List Nat × Nat} (h : dims c f i = some x) (k : Nat) : dims c (f + k) i = some x := by
  induction k with
  | zero => exact h
  | succ k ih => exact dims_mono ih

theorem type_le {c : Ctx} {f g lv i ic : Nat} {t : List Char} (h : printType c f lv i ic = some t) (hg : f ≤ g) : printType c g lv i ic = some t := by
  have := type_add h (g - f)
  rwa [show f + (g - f) = g by omega] at this

/-- **C121.** A type has one text. -/
theorem C121_one_text {c : Ctx} {levels i ic : Nat} {t u : List Char} (h : Text c levels i ic t) (k : Text c levels i ic u) : t = u := by
  obtain ⟨f, h⟩ := h
  obtain ⟨g, k⟩ := k
  have h' := type_add h g
  have k' := type_add k f
  rw [Nat.add_comm] at k'
  exact Option.some.inj (h'.symm.trans k')

/-! ## Printing ends -/

theorem fields_end {c : Ctx} {lv ic ic' : Nat} : ∀ (fs : List (Option (List Char) × Nat)), (∀ x ∈ fs, ∃ f t, printType c f lv x.2 ic = some t) →
    ∃ f t, fieldsText c ic' (fun j => printType c f lv j ic) fs = some t := by
  intro fs
  induction fs with
  | nil => intro _; exact ⟨0, [], rfl⟩
  | cons x fs ih =>
    intro h
    obtain ⟨f, t, h1⟩ := h x (by simp)
    obtain ⟨g, u, h2⟩ := ih (fun y hy => h y (by simp [hy]))
    obtain ⟨name, i⟩ := x
    refine ⟨f + g, indent c (ic' + 1) ++ t ++ fieldName name ++ u, ?_⟩
    rw [fieldsText, type_add h1 g]
    simp only []
    rw [fields_mono (fun k => type_le k (Nat.le_add_left g f)) h2]

theorem dims_end {c : Ctx} {r : Nat → Nat} (hr : ∀ i j, Part c i j → r j < r i) : ∀ (n i : Nat), r i ≤ n →
    ∃ f ns el, dims c f i = some (ns, el) ∧ r el ≤ r i ∧ ∀ j k, c.node i = .array j k → r el < r i := by
  intro n
  induction n with
  | zero =>
    intro i hi
    refine ⟨1, [], i, ?_, Nat.le_refl _, fun j k h => absurd (hr i j (.array h)) (by omega)⟩
    rw [dims]
    split
    · rename_i h; exact absurd (hr i _ (.array h)) (by omega)
    · rfl
  | succ n ih =>
    intro i hi
    cases hn : c.node i with
    | array j k =>
      have hlt := hr i j (.array hn)
      obtain ⟨f, ns, el, h1, h2, _⟩ := ih j (by omega)
      refine ⟨f + 1, k :: ns, el, ?_, by omega, fun _ _ _ => by omega⟩
      rw [dims, hn]
      simp only [h1]
    | _ =>
      refine ⟨1, [], i, ?_, Nat.le_refl _, fun j k h => by simp at h⟩
      rw [dims, hn]

theorem ends {c : Ctx} {r : Nat → Nat} (hr : ∀ i j, Part c i j → r j < r i) : ∀ (k lv : Nat), 21 - lv ≤ k → ∀ (n i : Nat), r i ≤ n → ∀ ic,
    ∃ f t, printType c f lv i ic = some t := by
  intro k
  induction k with
  | zero =>
    intro lv hk n i _ ic
    exact ⟨1, [], by rw [printType, if_pos (by omega)]⟩
  | succ k ihk =>
    intro lv hk n
    induction n with
    | zero =>
      intro i hi ic
      by_cases hl : lv > 20
      · exact ⟨1, [], by rw [printType, if_pos hl]⟩
      cases hn : c.node i with
      | struct fs =>
        cases hN : typeName c i with
        | some nm => exact ⟨1, nm, by rw [printType, if_neg hl, hn, hN]⟩
        | none =>
          by_cases h20 : lv < 20
          · obtain ⟨f, t, h⟩ := fields_end (ic' := ic) fs (fun x _ => ihk (lv + 1) (by omega) (r x.2) x.2 (Nat.le_refl _) (ic + 1))
            refine ⟨f + 1, ['s', 't', 'r', 'u', 'c', 't', ' ', '{', '\n'] ++ t ++ (indent c ic ++ ['}']), ?_⟩
            rw [printType, if_neg hl, hn, hN]
            simp only []
            rw [if_pos h20, h]
          · exact ⟨1, _, by rw [printType, if_neg hl, hn, hN]; simp only []; rw [if_neg h20]⟩
      | pointer j =>
        cases hN : typeName c i with
        | some nm => exact ⟨1, nm, by rw [printType, if_neg hl, hn, hN]⟩
        | none => exact absurd (hr i j (.pointer hn hN)) (by omega)
      | array j m => exact absurd (hr i j (.array hn)) (by omega)
      | validator j => exact absurd (hr i j (.validator hn)) (by omega)
      | enumerable j =>
        cases hN : typeName c i with
        | some nm => exact ⟨1, nm, by rw [printType, if_neg hl, hn, hN]⟩
        | none => exact absurd (hr i j (.enumerable hn hN)) (by omega)
      | _ =>
        cases hN : typeName c i <;> exact ⟨1, _, by rw [printType, if_neg hl, hn, hN]⟩
    | succ n ihn =>
      intro i hi ic
      by_cases hl : lv > 20
      · exact ⟨1, [], by rw [printType, if_pos hl]⟩
      cases hn : c.node i with
      | struct fs =>
        cases hN : typeName c i with
        | some nm => exact ⟨1, nm, by rw [printType, if_neg hl, hn, hN]⟩
        | none =>
          by_cases h20 : lv < 20
          · obtain ⟨f, t, h⟩ := fields_end (ic' := ic) fs (fun x _ => ihk (lv + 1) (by omega) (r x.2) x.2 (Nat.le_refl _) (ic + 1))
            refine ⟨f + 1, ['s', 't', 'r', 'u', 'c', 't', ' ', '{', '\n'] ++ t ++ (indent c ic ++ ['}']), ?_⟩
            rw [printType, if_neg hl, hn, hN]
            simp only []
            rw [if_pos h20, h]
          · exact ⟨1, _, by rw [printType, if_neg hl, hn, hN]; simp only []; rw [if_neg h20]⟩
      | pointer j =>
        cases hN : typeName c i with
        | some nm => exact ⟨1, nm, by rw [printType, if_neg hl, hn, hN]⟩
        | none =>
          have := hr i j (.pointer hn hN)
          obtain ⟨f, t, h⟩ := ihn j (by omega) ic
          exact ⟨f + 1, t ++ ['*'], by rw [printType, if_neg hl, hn, hN]; simp only [h]⟩
      | array j m =>
        cases hN : typeName c i with
        | some nm => exact ⟨1, nm, by rw [printType, if_neg hl, hn, hN]⟩
        | none =>
          obtain ⟨f, ns, el, h1, _, h3⟩ := dims_end hr (r i) i (Nat.le_refl _)
          have := h3 j m hn
          obtain ⟨g, t, h⟩ := ihn el (by omega) ic
          refine ⟨f + g + 1, t ++ dimsText ns, ?_⟩
          rw [printType, if_neg hl, hn, hN]
          simp only []
          rw [dims_add h1 g]
          simp only []
          rw [type_le h (Nat.le_add_left g f)]
      | validator j =>
        have := hr i j (.validator hn)
        obtain ⟨f, t, h⟩ := ihn j (by omega) ic
        cases hN : typeName c i with
        | some nm => exact ⟨f + 1, nm ++ ['('] ++ t ++ [')'], by rw [printType, if_neg hl, hn, hN]; simp only [h]⟩
        | none => exact ⟨f + 1, t, by rw [printType, if_neg hl, hn, hN]; simp only [h]⟩
      | enumerable j =>
        cases hN : typeName c i with
        | some nm => exact ⟨1, nm, by rw [printType, if_neg hl, hn, hN]⟩
        | none =>
          have := hr i j (.enumerable hn hN)
          obtain ⟨f, t, h⟩ := ihn j (by omega) ic
          exact ⟨f + 1, ['C', 'C', 'E', 'n', 'u', 'm', 'e', 'r', 'a', 'b', 'l', 'e', '('] ++ t ++ [')'], by rw [printType, if_neg hl, hn, hN]; simp only [h]⟩
      | _ =>
        cases hN : typeName c i <;> exact ⟨1, _, by rw [printType, if_neg hl, hn, hN]⟩

/-- **C121.** Printing a type ends when its parts, as far as no struct is entered, form no cycle (so that they can be ranked). Cycles through structs, which
recursive structs have, do no harm. -/
theorem C121_ends_partial {c : Ctx} {r : Nat → Nat} (hr : ∀ i j, Part c i j → r j < r i) (levels i ic : Nat) : ∃ t, Text c levels i ic t := by
  obtain ⟨f, t, h⟩ := ends hr _ levels (Nat.le_refl _) _ i (Nat.le_refl _) ic
  exact ⟨t, f, h⟩

/-- **C121, refuted for cycles without a struct.** Printing a type never ends when there is no end to its parts. -/
theorem C121_ends_refuted {c : Ctx} (chain : Nat → Nat) (hp : ∀ k, Part c (chain k) (chain (k + 1)))
    (hN : ∀ k, (∃ j n, c.node (chain k) = .array j n) → typeName c (chain k) = none) (levels ic : Nat) (hl : levels ≤ 20) :
    ¬ ∃ t, Text c levels (chain 0) ic t := by
  have hdims : ∀ f k ns el, dims c f (chain k) = some (ns, el) → ∃ k', el = chain k' ∧ ∀ j n, c.node el ≠ .array j n := by
    intro f
    induction f with
    | zero => intro k ns el h; exact absurd h (by simp [dims])
    | succ f ih =>
      intro k ns el h
      rw [dims] at h
      split at h
      · rename_i j n hn
        have hj : j = chain (k + 1) := by
          have := hp k
          cases this with
          | pointer h1 _ => rw [hn] at h1; exact absurd h1 (by simp)
          | array h1 => rw [hn] at h1; exact (Node.array.inj h1).1
          | validator h1 => rw [hn] at h1; exact absurd h1 (by simp)
          | enumerable h1 _ => rw [hn] at h1; exact absurd h1 (by simp)
        subst hj
        split at h
        · exact absurd h (by simp)
        rename_i e
        simp only [Option.some.injEq, Prod.mk.injEq] at h
        obtain ⟨_, rfl⟩ := h
        exact ih _ _ _ e
      · rename_i hna
        simp only [Option.some.injEq, Prod.mk.injEq] at h
        obtain ⟨_, rfl⟩ := h
        exact ⟨k, rfl, hna⟩
  have main : ∀ f k, printType c f levels (chain k) ic = none := by
    intro f
    induction f with
    | zero => intro k; rfl
    | succ f ih =>
      intro k
      rw [printType, if_neg (by omega)]
      have := hp k
      cases this with
      | pointer h1 h2 => rw [h1, h2]; simp only [ih (k + 1)]
      | array h1 =>
        rw [h1, hN k ⟨_, _, h1⟩]
        simp only []
        split
        · rfl
        rename_i e
        obtain ⟨k', rfl, _⟩ := hdims _ _ _ _ e
        rw [ih k']
      | validator h1 => rw [h1]; simp only [ih (k + 1)]
      | enumerable h1 h2 => rw [h1, h2]; simp only [ih (k + 1)]
  rintro ⟨t, f, h⟩
  rw [main f 0] at h
  exact absurd h (by simp)

/-! ## Braces -/

theorem digits_brace (n : Nat) : Balanced (Nat.toDigits 10 n) := bal_none (by
  intro ch h
  have := Nat.isDigit_of_mem_toDigits (b := 10) (by decide) (by decide) h
  constructor <;> rintro rfl <;> exact absurd this (by decide))

theorem dims_brace (ns : List Nat) : Balanced (dimsText ns) := by
  induction ns with
  | nil => rfl
  | cons n ns ih => exact bal_append (bal_append (bal_append (show Balanced ['['] from rfl) (digits_brace n)) (show Balanced [']'] from rfl)) ih

theorem order_brace (h : Host) (e : Endian) : Balanced (order h e) := by cases h <;> cases e <;> rfl

theorem name_brace {c : Ctx} (hcb : ∀ i n, c.callback i = some n → Balanced n) {i : Nat} {n : List Char} (h : typeName c i = some n) : Balanced n := by
  rw [typeName] at h
  split at h
  · rename_i e
    rw [Option.some.injEq] at h
    subst h; exact hcb i _ e
  · split at h
    · unfold integerName at h
      split at h <;> first | (rw [Option.some.injEq] at h; subst h; rfl) | exact absurd h (by simp)
    · unfold floatName at h
      split at h <;> first | (rw [Option.some.injEq] at h; subst h; rfl) | exact absurd h (by simp)
    · exact absurd h (by simp)

theorem fields_brace {c : Ctx} (hi : Balanced c.ind) {ic : Nat} {o : Nat → Option (List Char)} (ho : ∀ {i t}, o i = some t → Balanced t) :
    ∀ {fs t}, (∀ x ∈ fs, ∀ n, x.1 = some n → Balanced n) → fieldsText c ic o fs = some t → Balanced t := by
  intro fs
  induction fs with
  | nil => intro t _ h; rw [fieldsText, Option.some.injEq] at h; subst h; rfl
  | cons x fs ih =>
    obtain ⟨name, i⟩ := x
    intro t hn h
    rw [fieldsText] at h
    split at h
    · exact absurd h (by simp)
    rename_i e
    split at h
    · exact absurd h (by simp)
    rename_i e'
    rw [Option.some.injEq] at h
    subst h
    refine bal_append (bal_append (bal_append (bal_flat hi _) (ho e)) ?_) (ih (fun y hy => hn y (by simp [hy])) e')
    cases name with
    | none => rfl
    | some n => exact bal_append (bal_append (show Balanced [' '] from rfl) (hn (some n, i) (by simp) n rfl)) rfl

/-- **C121.** The braces of the text of a type are balanced when those of the names and of the indentation are. -/
theorem C121_braces {c : Ctx} (hi : Balanced c.ind) (hcb : ∀ i n, c.callback i = some n → Balanced n)
    (hf : ∀ i fs, c.node i = .struct fs → ∀ x ∈ fs, ∀ n, x.1 = some n → Balanced n) {levels i ic : Nat} {t : List Char} (h : Text c levels i ic t) :
    Balanced t := by
  obtain ⟨f, h⟩ := h
  revert levels i ic t
  induction f with
  | zero => intro lv i ic t h; exact absurd h (by simp [printType])
  | succ f ih =>
    intro lv i ic t h
    rw [printType] at h
    split at h
    · rw [Option.some.injEq] at h; subst h; rfl
    cases hn : c.node i <;> cases hN : typeName c i <;> simp only [hn, hN] at h
    case pointer.some => rw [Option.some.injEq] at h; subst h; exact name_brace hcb hN
    case pointer.none =>
      split at h
      · exact absurd h (by simp)
      rename_i e
      rw [Option.some.injEq] at h; subst h
      exact bal_append (ih e) rfl
    case integer.some => rw [Option.some.injEq] at h; subst h; exact bal_append (order_brace _ _) (name_brace hcb hN)
    case integer.none sign size fixed =>
      rw [Option.some.injEq] at h; subst h
      refine bal_append (order_brace _ _) (bal_append (bal_append ?_ (digits_brace _)) ?_)
      · split <;> rfl
      · split <;> rfl
    case float.some => rw [Option.some.injEq] at h; subst h; exact bal_append (order_brace _ _) (name_brace hcb hN)
    case float.none =>
      rw [Option.some.injEq] at h; subst h
      refine bal_append (bal_append (order_brace _ _) ?_) (digits_brace _)
      split <;> rfl
    case struct.some => rw [Option.some.injEq] at h; subst h; exact name_brace hcb hN
    case struct.none fs =>
      split at h
      · split at h
        · exact absurd h (by simp)
        rename_i e
        rw [Option.some.injEq] at h; subst h
        refine bal_between rfl (fields_brace hi (fun k => ih k) (hf i fs hn) e) ?_
        rw [walk_append, indent, (bal_flat hi ic).walk]; rfl
      · rw [Option.some.injEq] at h; subst h; rfl
    case opaque.some => rw [Option.some.injEq] at h; subst h; exact name_brace hcb hN
    case opaque.none => rw [Option.some.injEq] at h; subst h; rfl
    case array.some => rw [Option.some.injEq] at h; subst h; exact name_brace hcb hN
    case array.none =>
      split at h
      · exact absurd h (by simp)
      split at h
      · exact absurd h (by simp)
      rename_i e
      rw [Option.some.injEq] at h; subst h
      exact bal_append (ih e) (dims_brace _)
    case validator.some =>
      split at h
      · exact absurd h (by simp)
      rename_i e
      rw [Option.some.injEq] at h; subst h
      exact bal_append (bal_append (bal_append (name_brace hcb hN) rfl) (ih e)) rfl
    case validator.none =>
      split at h
      · exact absurd h (by simp)
      rename_i e
      rw [Option.some.injEq] at h; subst h
      exact ih e
    case enumerable.some => rw [Option.some.injEq] at h; subst h; exact name_brace hcb hN
    case enumerable.none =>
      split at h
      · exact absurd h (by simp)
      rename_i e
      rw [Option.some.injEq] at h; subst h
      exact bal_append (bal_append rfl (ih e)) rfl

/-! ## Integer types -/

/-- The text of an integer without its byte order. -/
def base (sign : Bool) (size : Nat) (fixed : Bool) : List Char := (integerName sign size fixed).getD (integerText sign size fixed)

/-- Reading sign, size and whether the size is fixed. -/
def decodeInt (sign : Bool) (r : List Char) : Bool × Nat × Bool :=
  (sign, Nat.ofDigitChars 10 (r.takeWhile Char.isDigit) 0 / 8, !(r.dropWhile Char.isDigit).isEmpty)

/-- Reading the text of an integer. -/
def decode (t : List Char) : Bool × Nat × Bool :=
  if t = ['u', 'n', 's', 'i', 'g', 'n', 'e', 'd', ' ', 'c', 'h', 'a', 'r'] then (false, 1, false)
  else if t = ['c', 'h', 'a', 'r'] then (true, 1, false)
  else if t = ['u', 'n', 's', 'i', 'g', 'n', 'e', 'd', ' ', 's', 'h', 'o', 'r', 't'] then (false, 2, false)
  else if t = ['s', 'h', 'o', 'r', 't'] then (true, 2, false)
  else if t = ['u', 'n', 's', 'i', 'g', 'n', 'e', 'd', ' ', 'i', 'n', 't'] then (false, 4, false)
  else if t = ['i', 'n', 't'] then (true, 4, false)
  else if t = ['u', 'n', 's', 'i', 'g', 'n', 'e', 'd', ' ', 'l', 'o', 'n', 'g'] then (false, 8, false)
  else if t = ['l', 'o', 'n', 'g'] then (true, 8, false)
  else match t with
    | 'u' :: 'i' :: 'n' :: 't' :: r => decodeInt false r
    | 'i' :: 'n' :: 't' :: r => decodeInt true r
    | _ => (false, 0, false)

theorem decodeInt_text (sign : Bool) (size : Nat) (fixed : Bool) (hs : size < 2 ^ 61) :
    decodeInt sign (Nat.toDigits 10 (size * 8 % 2 ^ 64) ++ (if fixed then ['_', 'n', 'o', 'n', 'f', 'i', 'x', 'e', 'd'] else [])) = (sign, size, fixed) := by
  have hd : ∀ ch ∈ Nat.toDigits 10 (size * 8 % 2 ^ 64), ch.isDigit = true := fun ch h => Nat.isDigit_of_mem_toDigits (by decide) (by decide) h
  rw [decodeInt, List.takeWhile_append_of_pos hd, List.dropWhile_append_of_pos hd]
  have e1 : (if fixed = true then (['_', 'n', 'o', 'n', 'f', 'i', 'x', 'e', 'd'] : List Char) else []).takeWhile Char.isDigit = [] := by cases fixed <;> rfl
  have e2 : (!((if fixed = true then (['_', 'n', 'o', 'n', 'f', 'i', 'x', 'e', 'd'] : List Char) else []).dropWhile Char.isDigit).isEmpty) = fixed := by
    cases fixed <;> rfl
  rw [e1, e2, List.append_nil, Nat.ofDigitChars_ten_toDigits, show size * 8 % 2 ^ 64 / 8 = size by omega]

theorem decode_text {sign : Bool} {size : Nat} {fixed : Bool} (hs : size < 2 ^ 61) : decode (integerText sign size fixed) = (sign, size, fixed) := by
  have hne : Nat.toDigits 10 (size * 8 % 2 ^ 64) ≠ [] := Nat.toDigits_ne_nil
  have h := decodeInt_text sign size fixed hs
  rw [integerText]
  generalize (if fixed then (['_', 'n', 'o', 'n', 'f', 'i', 'x', 'e', 'd'] : List Char) else []) = tail at *
  cases sign with
  | false => simpa [decode] using h
  | true => simpa [decode, hne] using h

theorem decode_base {sign : Bool} {size : Nat} {fixed : Bool} (hs : size < 2 ^ 61) : decode (base sign size fixed) = (sign, size, fixed) := by
  rw [base]
  cases h : integerName sign size fixed with
  | none => exact decode_text hs
  | some n =>
    rw [Option.getD_some]
    unfold integerName at h
    split at h <;> first | (rw [Option.some.injEq] at h; subst h; decide) | exact absurd h (by simp)

theorem base_head (sign : Bool) (size : Nat) (fixed : Bool) :
    ∃ x y r, base sign size fixed = x :: y :: r ∧ x ≠ 'b' ∧ (x = 'l' → y = 'o') := by
  rw [base]
  cases h : integerName sign size fixed with
  | none =>
    rw [Option.getD_none, integerText]
    cases sign
    · exact ⟨'u', 'i', _, rfl, by decide, by decide⟩
    · exact ⟨'i', 'n', _, rfl, by decide, by decide⟩
  | some n =>
    rw [Option.getD_some]
    unfold integerName at h
    split at h <;> first | (rw [Option.some.injEq] at h; subst h; exact ⟨_, _, _, rfl, by decide, by decide⟩) | exact absurd h (by simp)

theorem order_cancel {host : Host} {e1 e2 : Endian} {s1 f1 s2 f2 : Bool} {n1 n2 : Nat}
    (h : order host e1 ++ base s1 n1 f1 = order host e2 ++ base s2 n2 f2) : foreign host e1 = foreign host e2 ∧ base s1 n1 f1 = base s2 n2 f2 := by
  obtain ⟨x1, y1, r1, k1, hb1, hl1⟩ := base_head s1 n1 f1
  obtain ⟨x2, y2, r2, k2, hb2, hl2⟩ := base_head s2 n2 f2
  cases host <;> cases e1 <;> cases e2 <;> simp only [order, List.nil_append] at h <;>
    first
      | exact ⟨rfl, h⟩
      | exact ⟨rfl, List.append_cancel_left h⟩
      | (exfalso; rw [k1] at h; simp only [List.cons_append, List.cons.injEq] at h; first | exact hb1 h.1 | exact absurd (hl1 h.1) (by rw [h.2.1]; decide))
      | (exfalso; rw [k2] at h; simp only [List.cons_append, List.cons.injEq] at h; first | exact hb2 h.1.symm | exact absurd (hl2 h.1.symm) (by rw [← h.2.1]; decide))

theorem int_text {c : Ctx} {levels i ic : Nat} {e : Endian} {sign fixed : Bool} {size : Nat} (hn : c.node i = .integer e sign size fixed)
    (hcb : c.callback i = none) (hl : levels ≤ 20) {t : List Char} : Text c levels i ic t ↔ t = order c.host e ++ base sign size fixed := by
  have hN : typeName c i = integerName sign size fixed := by rw [typeName, hcb, hn]
  have h1 : ∀ f, printType c (f + 1) levels i ic = some (order c.host e ++ base sign size fixed) := by
    intro f
    rw [printType, if_neg (by omega), hn, hN, base]
    cases integerName sign size fixed <;> rfl
  constructor
  · intro ⟨f, h⟩
    cases f with
    | zero => exact absurd h (by simp [printType])
    | succ f => rw [h1] at h; exact (Option.some.inj h).symm
  · intro h
    exact ⟨1, by rw [h1 0, h]⟩

/-- **C121.** The texts of two integer types without names of their own are the same exactly when the types have the same sign, size and fixedness and agree
on whether their byte order is that of the machine. -/
theorem C121_integers {c : Ctx} {levels i j ic : Nat} {e1 e2 : Endian} {s1 f1 s2 f2 : Bool} {n1 n2 : Nat} (hi : c.node i = .integer e1 s1 n1 f1)
    (hj : c.node j = .integer e2 s2 n2 f2) (ci : c.callback i = none) (cj : c.callback j = none) (hl : levels ≤ 20) (h1 : n1 < 2 ^ 61) (h2 : n2 < 2 ^ 61)
    {t u : List Char} (ht : Text c levels i ic t) (hu : Text c levels j ic u) :
    t = u ↔ (⟨foreign c.host e1, s1, n1, f1⟩ : IntType) = ⟨foreign c.host e2, s2, n2, f2⟩ := by
  rw [(int_text hi ci hl).1 ht, (int_text hj cj hl).1 hu]
  constructor
  · intro h
    obtain ⟨hf, hb⟩ := order_cancel h
    have := congrArg decode hb
    rw [decode_base h1, decode_base h2] at this
    simp only [Prod.mk.injEq] at this
    rw [hf, this.1, this.2.1, this.2.2]
  · intro h
    simp only [IntType.mk.injEq] at h
    obtain ⟨hf, rfl, rfl, rfl⟩ := h
    have : order c.host e1 = order c.host e2 := by
      revert hf; cases c.host <;> cases e1 <;> cases e2 <;> simp [foreign, order]
    rw [this]

/-- **C121, refuted for the word `_nonfixed`.** An integer of a size without a name has it at its end exactly when its size is fixed. -/
theorem C121_nonfixed_refuted {c : Ctx} {levels i ic : Nat} {e : Endian} {sign fixed : Bool} {size : Nat} (hn : c.node i = .integer e sign size fixed)
    (hcb : c.callback i = none) (hs : size ≠ 1 ∧ size ≠ 2 ∧ size ≠ 4 ∧ size ≠ 8) (hl : levels ≤ 20) {t : List Char} (ht : Text c levels i ic t) :
    (['_', 'n', 'o', 'n', 'f', 'i', 'x', 'e', 'd'] <:+ t) ↔ fixed = true := by
  have hN : integerName sign size fixed = none := by
    unfold integerName
    split <;> first | rfl | (exfalso; omega)
  rw [(int_text hn hcb hl).1 ht, base, hN, Option.getD_none, integerText]
  cases fixed with
  | true => exact ⟨fun _ => rfl, fun _ => ⟨_, by simp only [List.append_assoc]; rw [← List.append_assoc, ← List.append_assoc]; rfl⟩⟩
  | false =>
    refine ⟨fun ⟨a, ha⟩ => ?_, fun h => absurd h (by simp)⟩
    exfalso
    have hlast := congrArg List.getLast? ha
    have hne : Nat.toDigits 10 (size * 8 % 2 ^ 64) ≠ [] := Nat.toDigits_ne_nil
    simp only [Bool.false_eq_true, if_false, List.append_nil] at hlast
    rw [← List.append_assoc, List.getLast?_append, List.getLast?_append, List.getLast?_eq_some_getLast hne] at hlast
    have hd := Nat.isDigit_of_mem_toDigits (b := 10) (by decide) (by decide) (List.getLast_mem hne)
    simp only [List.getLast?_cons_cons, List.getLast?_singleton, Option.some_or, Option.some.injEq] at hlast
    rw [← hlast] at hd
    exact absurd hd (by decide)

/-- A half precision number. -/
def half (pad : Bool) : Ctx where
  host := .little
  node := fun _ => .float .native 2
  callback := fun _ => none
  ind := ['\t']
  pad := fun _ => pad

/-- **C121, refuted for floating point numbers without a name.** The text depends on a byte that is no part of the description: the member `sign` of an integer
is read from a description that has none. -/
theorem C121_float_refuted : Text (half false) 0 0 0 (['f', 'l', 'o', 'a', 't', '1', '6']) ∧ Text (half true) 0 0 0 (['l', 'o', 'a', 't', '1', '6']) :=
  ⟨⟨1, by decide +kernel⟩, ⟨1, by decide +kernel⟩⟩

/-! ## Concrete cases -/

/-- `0`: a struct with a pointer to itself; `1`: the pointer; `2`: an array of 3 arrays (`3`) of 2 pointers; `4`: a pointer to itself. -/
def table : Ctx where
  host := .little
  node := fun i => match i with
    | 0 => .struct [(some ['n'], 1), (none, 2)]
    | 1 => .pointer 0
    | 2 => .array 3 3
    | 3 => .array 5 2
    | 4 => .pointer 4
    | 5 => .integer .big true 3 false
    | _ => .opaque
  callback := fun _ => none
  ind := ['\t']
  pad := fun _ => false

/-- The text of an array of arrays. -/
example : Text table 0 2 0 (['b', 'i', 'g', ' ', 'i', 'n', 't', '2', '4', '[', '3', ']', '[', '2', ']']) := ⟨4, by decide +kernel⟩

/-- Leaving out the pointer to itself, printing ends, though the struct is recursive. -/
def table' : Ctx := { table with node := fun i => if i = 4 then .opaque else table.node i }

example : ∃ t, Text table' 0 0 0 t := by
  refine C121_ends_partial (r := fun i => match i with | 1 => 1 | 2 => 2 | 3 => 1 | _ => 0) ?_ 0 0 0
  have hnode : ∀ i, 5 < i → table'.node i = .opaque := by
    intro i hi
    match i, hi with
    | n + 6, _ => rfl
  intro i j h
  by_cases hi : 5 < i
  · cases h with
    | pointer h1 _ => rw [hnode i hi] at h1; cases h1
    | array h1 => rw [hnode i hi] at h1; cases h1
    | validator h1 => rw [hnode i hi] at h1; cases h1
    | enumerable h1 _ => rw [hnode i hi] at h1; cases h1
  · have : i = 0 ∨ i = 1 ∨ i = 2 ∨ i = 3 ∨ i = 4 ∨ i = 5 := by omega
    rcases this with rfl | rfl | rfl | rfl | rfl | rfl <;> cases h with
    | pointer h1 _ => first | (cases h1; decide) | cases h1
    | array h1 => first | (cases h1; decide) | cases h1
    | validator h1 => first | (cases h1; decide) | cases h1
    | enumerable h1 _ => first | (cases h1; decide) | cases h1

/-- The pointer to itself is never printed to the end. -/
example : ¬ ∃ t, Text table 0 4 0 t :=
  C121_ends_refuted (fun _ => 4) (fun _ => .pointer rfl rfl) (fun _ ⟨_, _, h⟩ => by cases h) 0 0 (by decide)

#print axioms C121_one_text
#print axioms C121_ends_partial
#print axioms C121_ends_refuted
#print axioms C121_braces
#print axioms C121_integers
#print axioms C121_nonfixed_refuted
#print axioms C121_float_refuted

end Verif.PrintType
