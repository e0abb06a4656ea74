import Verif.TermArray

/-!
C146: an array that ends at a terminator is taken up to and with the first terminator, and copied as such.
-/

namespace Verif.TermArray

/-- The element `i` of an array in memory. -/
def element (es : Nat) (m : List UInt8) (i : Nat) : List UInt8 := (m.drop (i * es)).take es

/-- The array has `n` elements: the last of them, and no other, is the terminator, and all are in memory. -/
def Ends (es : Nat) (term m : List UInt8) (n : Nat) : Prop := 0 < n ∧ n * es ≤ m.length ∧ element es m (n - 1) = term ∧ ∀ i, i + 1 < n → element es m i ≠ term

theorem element_succ (es : Nat) (m : List UInt8) (i : Nat) : element es m (i + 1) = element es (m.drop es) i := by
  simp only [element, List.drop_drop]
  congr 2
  rw [Nat.add_mul, Nat.one_mul, Nat.add_comm]

theorem ends_succ {es : Nat} {term m : List UInt8} {n : Nat} (h : es ≤ m.length) (h1 : m.take es ≠ term) : Ends es term m (n + 1) ↔ Ends es term (m.drop es) n := by
  have e0 : element es m 0 = m.take es := by simp [element]
  constructor
  · rintro ⟨_, b, c, d⟩
    cases n with
    | zero => exact absurd (e0 ▸ c) h1
    | succ k =>
      refine ⟨Nat.succ_pos _, ?_, ?_, fun i hi => ?_⟩
      · rw [List.length_drop]; rw [Nat.add_mul, Nat.one_mul] at b; omega
      · rw [← element_succ]; exact c
      · rw [← element_succ]; exact d (i + 1) (by omega)
  · rintro ⟨a, b, c, d⟩
    refine ⟨Nat.succ_pos _, ?_, ?_, fun i hi => ?_⟩
    · rw [List.length_drop] at b; rw [Nat.add_mul, Nat.one_mul]; omega
    · obtain ⟨k, rfl⟩ : ∃ k, n = k + 1 := ⟨n - 1, by omega⟩
      show element es m (k + 1) = term
      rw [element_succ]; exact c
    · cases i with
      | zero => rw [e0]; exact h1
      | succ i => rw [element_succ]; exact d i (by omega)

/-- C146: the mapper counts the elements up to and with the first terminator, if there is one within the memory of the array; if there is none, and only then, it reads beyond it. -/
theorem C146_count (es : Nat) (hes : 0 < es) (term m : List UInt8) (n : Nat) : (count es term m = some n ↔ Ends es term m n) ∧ (count es term m = none ↔ ¬ ∃ n, Ends es term m n) := by
  have key : ∀ l (m : List UInt8), m.length ≤ l → ∀ n, count es term m = some n ↔ Ends es term m n := by
    intro l
    induction l with
    | zero =>
      intro m hm n
      rw [count, if_neg (by omega), if_pos (by omega)]
      constructor
      · intro h; cases h
      · rintro ⟨a, b, _⟩
        have := Nat.le_mul_of_pos_left es a
        omega
    | succ l ih =>
      intro m hm n
      rw [count, if_neg (by omega)]
      split
      · rename_i h
        constructor
        · intro h; cases h
        · rintro ⟨a, b, _⟩
          have := Nat.le_mul_of_pos_left es a
          omega
      · rename_i h
        have h : es ≤ m.length := by omega
        have e0 : element es m 0 = m.take es := by simp [element]
        split
        · rename_i h1
          constructor
          · intro k; cases k
            exact ⟨Nat.one_pos, by omega, by rw [show 1 - 1 = 0 from rfl, e0, h1], fun i hi => by omega⟩
          · rintro ⟨a, _, _, d⟩
            by_cases hn : n = 1
            · rw [hn]
            · exact absurd (e0.trans h1) (d 0 (by omega))
        · rename_i h1
          have i := ih (m.drop es) (by rw [List.length_drop]; omega)
          cases n with
          | zero =>
            refine ⟨fun k => ?_, fun k => absurd k.1 (Nat.lt_irrefl 0)⟩
            cases c : count es term (m.drop es) <;> rw [c] at k <;> simp at k
          | succ n =>
            rw [ends_succ h h1, ← i n]
            cases count es term (m.drop es) <;> simp
  refine ⟨key _ m (Nat.le_refl _) n, ?_⟩
  constructor
  · rintro h ⟨k, hk⟩
    rw [(key _ m (Nat.le_refl _) k).mpr hk] at h
    cases h
  · intro h
    cases c : count es term m with
    | none => rfl
    | some k => exact absurd ⟨k, (key _ m (Nat.le_refl _) k).mp c⟩ h

/-- C146: what is handed over is the array of that length, with its bytes. -/
theorem C146_map (es : Nat) (hes : 0 < es) (term m : List UInt8) (n : Nat) (h : Ends es term m n) : ∃ b, map es term m = some (n, b) ∧ b.length = n * es ∧ ∀ i, i < n → element es b i = element es m i := by
  refine ⟨_, by rw [map, ((C146_count es hes term m n).1).mpr h]; rfl, by rw [List.length_take]; have := h.2.1; omega, fun i hi => ?_⟩
  simp only [element, List.drop_take, List.take_take]
  congr 1
  have : (i + 1) * es ≤ n * es := Nat.mul_le_mul_right es hi
  rw [Nat.add_mul, Nat.one_mul] at this
  omega

/-- C146: a copy to memory of the same size, or any in which the elements have room, has the same elements and ends at the same place; what lies beyond them in the destination is left as it was. -/
theorem C146_copy (es : Nat) (hes : 0 < es) (term src dst : List UInt8) (n : Nat) (h : Ends es term src n) (hd : n * es ≤ dst.length) :
    ∃ out, copy es term src dst = some out ∧ out.length = dst.length ∧ (∀ i, i < n → element es out i = element es src i) ∧ Ends es term out n ∧ out.drop (n * es) = dst.drop (n * es) := by
  have hs := h.2.1
  have c : copy es term src dst = some (src.take (n * es) ++ dst.drop (n * es)) := by
    rw [copy, map, ((C146_count es hes term src n).1).mpr h]
    simp only [Option.map_some, Option.bind_some, unmap]
    rw [if_neg (by rw [List.length_take]; omega), List.take_take, Nat.min_self]
  have len : (src.take (n * es)).length = n * es := by rw [List.length_take]; omega
  have el : ∀ i, i < n → element es (src.take (n * es) ++ dst.drop (n * es)) i = element es src i := fun i hi => by
    have a : (i + 1) * es ≤ n * es := Nat.mul_le_mul_right es hi
    rw [Nat.add_mul, Nat.one_mul] at a
    simp only [element]
    rw [List.drop_append_of_le_length (by omega), List.take_append_of_le_length (by rw [List.length_drop]; omega), List.drop_take, List.take_take]
    congr 1
    omega
  refine ⟨_, c, by rw [List.length_append, len, List.length_drop]; omega, el, ⟨h.1, by rw [List.length_append, len, List.length_drop]; omega, ?_, fun i hi => ?_⟩, ?_⟩
  · rw [el _ (by have := h.1; omega)]; exact h.2.2.1
  · rw [el _ (by omega)]; exact h.2.2.2 i hi
  · rw [List.drop_append_of_le_length (by omega), List.drop_of_length_le (by omega), List.nil_append]

/-- C146, refuted for arrays that fill their memory: without a terminator the mapper reads on beyond the size of the type, which it does not look at; and the unmapper writes as many elements as it is given, whatever the size of the destination. -/
theorem C146_full_refuted (k : Nat) : count 1 [0] (List.replicate k 65) = none ∧ unmap 1 (k + 1, List.replicate (k + 1) 65) (List.replicate k 0) = none := by
  refine ⟨((C146_count 1 Nat.one_pos _ _ 0).2).mpr ?_, by simp [unmap]⟩
  rintro ⟨n, a, b, c, -⟩
  rw [List.length_replicate, Nat.mul_one] at b
  simp only [element, Nat.mul_one, List.drop_replicate, List.take_replicate] at c
  rw [show min 1 (k - (n - 1)) = 1 by omega] at c
  exact absurd c (by decide)

/-- A text of two characters in eight bytes. -/
example : Ends 1 [0] [72, 105, 0, 9, 0, 9, 9, 9] 3 ∧ copy 1 [0] [72, 105, 0, 9, 0, 9, 9, 9] [1, 2, 3, 4, 5, 6, 7, 8] = some [72, 105, 0, 4, 5, 6, 7, 8] := by
  have h : Ends 1 [0] [72, 105, 0, 9, 0, 9, 9, 9] 3 := ⟨by decide, by decide, by decide, fun i hi => by
    rcases i with _ | _ | i
    · decide
    · decide
    · omega⟩
  refine ⟨h, ?_⟩
  rw [copy, map, ((C146_count 1 Nat.one_pos _ _ 3).1).mpr h]
  rfl

/-- Elements of two bytes: a terminator that is not at the start of an element does not count. -/
example : Ends 2 [0, 0] [1, 0, 0, 1, 0, 0] 3 := ⟨by decide, by decide, by decide, fun i hi => by
  rcases i with _ | _ | i
  · decide
  · decide
  · omega⟩

#print axioms C146_count
#print axioms C146_map
#print axioms C146_copy
#print axioms C146_full_refuted

end Verif.TermArray
