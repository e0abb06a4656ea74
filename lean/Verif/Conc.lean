/-!
# Counting over a list of threads

Helpers for the concurrent models: a sum over the threads and how it changes when one thread moves.
-/
namespace Verif.Conc

/-- The sum of `f` over a list. -/
def sumBy {α : Type} (f : α → Nat) (l : List α) : Nat := (l.map f).sum

@[simp] theorem sumBy_nil {α : Type} (f : α → Nat) : sumBy f [] = 0 := rfl

@[simp] theorem sumBy_cons {α : Type} (f : α → Nat) (a : α) (l : List α) : sumBy f (a :: l) = f a + sumBy f l := by
  simp [sumBy]

theorem sumBy_append {α : Type} (f : α → Nat) (l m : List α) : sumBy f (l ++ m) = sumBy f l + sumBy f m := by
  simp [sumBy]

theorem sumBy_replicate {α : Type} (f : α → Nat) (n : Nat) (a : α) : sumBy f (List.replicate n a) = n * f a := by
  simp [sumBy]

theorem sumBy_set {α : Type} (f : α → Nat) {l : List α} {i : Nat} {a : α} (h : l[i]? = some a) (b : α) :
    sumBy f (l.set i b) + f a = sumBy f l + f b := by
  induction l generalizing i with
  | nil => simp at h
  | cons x l ih =>
    cases i with
    | zero =>
      simp at h
      subst h
      simp
      omega
    | succ i =>
      simp at h
      have := ih h
      simp
      omega

theorem le_sumBy {α : Type} (f : α → Nat) {l : List α} {i : Nat} {a : α} (h : l[i]? = some a) : f a ≤ sumBy f l := by
  induction l generalizing i with
  | nil => simp at h
  | cons x l ih =>
    cases i with
    | zero => simp at h; subst h; simp
    | succ i => simp at h; have := ih h; simp; omega

/-- Two different threads contribute separately. -/
theorem add_le_sumBy {α : Type} (f : α → Nat) {l : List α} {i j : Nat} {a b : α} (h : l[i]? = some a) (h' : l[j]? = some b) (hij : i ≠ j) :
    f a + f b ≤ sumBy f l := by
  induction l generalizing i j with
  | nil => simp at h
  | cons x l ih =>
    cases i with
    | zero =>
      cases j with
      | zero => exact absurd rfl hij
      | succ j =>
        simp at h h'
        subst h
        have := le_sumBy f h'
        simp
        omega
    | succ i =>
      cases j with
      | zero =>
        simp at h h'
        subst h'
        have := le_sumBy f h
        simp
        omega
      | succ j =>
        simp at h h'
        have := ih h h' (by omega)
        simp
        omega

theorem sumBy_zero {α : Type} (f : α → Nat) {l : List α} (h : sumBy f l = 0) : ∀ a ∈ l, f a = 0 := by
  induction l with
  | nil => simp
  | cons x l ih =>
    simp at h
    intro a ha
    simp at ha
    rcases ha with rfl | ha
    · exact h.1
    · exact ih h.2 a ha

theorem sumBy_pos {α : Type} (f : α → Nat) {l : List α} (h : 0 < sumBy f l) : ∃ a ∈ l, 0 < f a := by
  induction l with
  | nil => simp at h
  | cons x l ih =>
    rw [sumBy_cons] at h
    by_cases hx : 0 < f x
    · exact ⟨x, by simp, hx⟩
    · obtain ⟨a, ha, h⟩ := ih (by omega)
      exact ⟨a, by simp [ha], h⟩

theorem sumBy_eq_zero {α : Type} (f : α → Nat) {l : List α} (h : ∀ a ∈ l, f a = 0) : sumBy f l = 0 := by
  induction l with
  | nil => rfl
  | cons x l ih =>
    simp only [sumBy_cons]
    rw [h x (by simp), ih fun a ha => h a (by simp [ha])]

theorem sumBy_congr {α : Type} {f g : α → Nat} {l : List α} (h : ∀ a ∈ l, f a = g a) : sumBy f l = sumBy g l := by
  induction l with
  | nil => rfl
  | cons x l ih =>
    simp only [sumBy_cons]
    rw [h x (by simp), ih fun a ha => h a (by simp [ha])]

theorem sumBy_add {α : Type} (f g : α → Nat) (l : List α) : sumBy (fun a => f a + g a) l = sumBy f l + sumBy g l := by
  induction l with
  | nil => rfl
  | cons x l ih => simp only [sumBy_cons, ih]; omega

end Verif.Conc
