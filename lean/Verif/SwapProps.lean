import Verif.Swap
/-!
# C45: byte swapping
-/
namespace Verif.Swap

theorem loop_spec (size : Nat) : ∀ (n i : Nat) (d : List UInt8), d.length = size → i + n ≤ size / 2 →
    ∃ d', loop size n i d = some d' ∧ d'.length = size ∧
      ∀ k, d'[k]? = if (i ≤ k ∧ k < i + n) ∨ (size - (i + n) ≤ k ∧ k < size - i) then d[size - 1 - k]? else d[k]? := by
  intro n
  induction n with
  | zero =>
    intro i d hd hi
    refine ⟨d, rfl, hd, fun k => ?_⟩
    rw [if_neg]; omega
  | succ n ih =>
    intro i d hd hi
    have h1 : i < d.length := by omega
    have h2 : size - i - 1 < d.length := by omega
    have he : exchange d i (size - i - 1) = some ((d.set i d[size - i - 1]).set (size - i - 1) d[i]) := by
      simp [exchange, List.getElem?_eq_getElem h1, List.getElem?_eq_getElem h2]
    obtain ⟨d', e1, e2, e3⟩ := ih (i + 1) ((d.set i d[size - i - 1]).set (size - i - 1) d[i]) (by simpa using hd) (by omega)
    refine ⟨d', ?_, e2, fun k => ?_⟩
    · simp only [loop]; rw [he]; exact e1
    · rw [e3]
      simp only [List.getElem?_set, List.length_set]
      by_cases c1 : (i + 1 ≤ k ∧ k < i + 1 + n) ∨ (size - (i + 1 + n) ≤ k ∧ k < size - (i + 1))
      · have c2 : (i ≤ k ∧ k < i + (n + 1)) ∨ (size - (i + (n + 1)) ≤ k ∧ k < size - i) := by omega
        have c3 : ¬ size - i - 1 = size - 1 - k := by omega
        have c4 : ¬ i = size - 1 - k := by omega
        rw [if_pos c1, if_pos c2, if_neg c3, if_neg c4]
      · rw [if_neg c1]
        by_cases hk : size - i - 1 = k
        · have c2 : (i ≤ k ∧ k < i + (n + 1)) ∨ (size - (i + (n + 1)) ≤ k ∧ k < size - i) := by omega
          have c3 : size - i - 1 < d.length := h2
          have c4 : size - 1 - k = i := by omega
          rw [if_pos hk, if_pos c2, if_pos c3, c4, List.getElem?_eq_getElem h1]
        · rw [if_neg hk]
          by_cases hk2 : i = k
          · have c2 : (i ≤ k ∧ k < i + (n + 1)) ∨ (size - (i + (n + 1)) ≤ k ∧ k < size - i) := by omega
            have c4 : size - 1 - k = size - i - 1 := by omega
            rw [if_pos hk2, if_pos c2, if_pos h1, c4, List.getElem?_eq_getElem h2]
          · have c2 : ¬ ((i ≤ k ∧ k < i + (n + 1)) ∨ (size - (i + (n + 1)) ≤ k ∧ k < size - i)) := by omega
            rw [if_neg hk2, if_neg c2]

/-- **C45.** For every buffer, swapping stays inside it and reverses it; swapping twice restores it. -/
theorem C45_swap (d : List UInt8) :
    swap d d.length = some d.reverse ∧ (∀ d', swap d d.length = some d' → swap d' d'.length = some d) := by
  have key : ∀ d : List UInt8, swap d d.length = some d.reverse := by
    intro d
    obtain ⟨d', e1, e2, e3⟩ := loop_spec d.length (d.length / 2) 0 d rfl (by omega)
    rw [swap, e1]; congr 1
    apply List.ext_getElem?
    intro k
    rw [e3]
    rcases Nat.lt_or_ge k d.length with hk | hk
    · rw [List.getElem?_reverse hk]
      split
      · rfl
      · congr 1; omega
    · rw [if_neg (by omega), List.getElem?_eq_none hk, List.getElem?_eq_none (by simpa using hk)]
  refine ⟨key d, fun d' h => ?_⟩
  rw [key d] at h; cases h
  rw [key]; simp

example : swap [1, 2, 3, 4, 5] 5 = some [5, 4, 3, 2, 1] := by decide

#print axioms C45_swap
end Verif.Swap
