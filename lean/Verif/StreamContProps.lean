import Verif.StreamContLemmas
/-!
# C104: data with containers is read back as it was written
-/
namespace Verif.StreamCont

open Verif.CopyCont (Heap Obj Ty Val Kind Own Body count held)

/-- **C104 (what was written is read back).**  Data of any type made of numbers, pointers, strings, structures and containers is
written, unless something it leads to was freed; and unless an array in it is empty, reading it - into any memory, with anything
behind it in the stream - stops behind it and gives equal data.  Nothing is changed of the memory there was; what is new has one
reference each and is led to from the new data exactly once. -/
theorem C104_roundtrip_partial {h : Heap} {t : Ty} {v : Val} (hf : Fits h t v) (ha : Alive h t v) (hn : NoEmptyArray h t v) :
    ∃ ts, write h t v = some ts ∧ ∀ (h2 : Heap) (rest : List Tok), ∃ ex v',
      read t (ts ++ rest) h2 = some (h2 ++ ex, v', rest) ∧ Fits (h2 ++ ex) t v' ∧ whole (h2 ++ ex) t v' = whole h t v ∧
      (∀ o ∈ ex, o.count = 1) ∧ (reached (h2 ++ ex) t v').Perm (List.range' h2.length ex.length) := by
  obtain ⟨ts, e⟩ := write_some t v hf ha
  refine ⟨ts, e, fun h2 rest => ?_⟩
  obtain ⟨ex, v', er, g⟩ := back t v hf hn ts e h2 rest
  exact ⟨ex, v', er, g.fits, g.whole, g.ones, g.perm⟩

theorem count_append (h ex : Heap) (he : ∀ o ∈ ex, o.count = 1) (q : Nat) :
    count (h ++ ex) q = count h q + (List.range' h.length ex.length).count q := by
  unfold count
  by_cases hq : q < h.length
  · rw [List.getElem?_append_left hq, List.count_eq_zero_of_not_mem (by rw [List.mem_range'_1]; omega), Nat.add_zero]
  · rw [List.getElem?_append_right (by omega), List.getElem?_eq_none (by omega : h.length ≤ q)]
    by_cases hq' : q < h.length + ex.length
    · have hc : (List.range' h.length ex.length).count q = 1 := by
        rw [List.Nodup.count List.nodup_range', if_pos (by rw [List.mem_range'_1]; omega)]
      rw [hc]
      have hlt : q - h.length < ex.length := by omega
      rw [List.getElem?_eq_getElem hlt]
      simp [he _ (List.getElem_mem hlt)]
    · rw [List.getElem?_eq_none (by omega), List.count_eq_zero_of_not_mem (by rw [List.mem_range'_1]; omega)]

/-- **C104 (references, exactly).**  The references to every object have grown by what the new data holds - so that destroying the
data frees what was allocated for it, and no more - exactly when the data has no weak pointer and no unretained pointer to
`void` that is not null.  (The memory read for such a pointer is never freed.) -/
theorem C104_held_exact {h : Heap} {t : Ty} {v : Val} (hf : Fits h t v) (hn : NoEmptyArray h t v) {ts : List Tok}
    (hw : write h t v = some ts) {h2 h3 : Heap} {rest rest' : List Tok} {v' : Val} (hr : read t (ts ++ rest) h2 = some (h3, v', rest')) :
    (∀ q, count h3 q = count h2 q + (held h3 t v').count q) ↔ loose h t v = [] := by
  obtain ⟨ex, w, er, g⟩ := back t v hf hn ts hw h2 rest
  rw [er] at hr
  simp only [Option.some.injEq, Prod.mk.injEq] at hr
  obtain ⟨rfl, rfl, rfl⟩ := hr
  rw [loose_nil, ← g.whole, ← loose_nil]
  have key : ∀ q, count (h2 ++ ex) q = count h2 q + ((held (h2 ++ ex) t w).count q + (loose (h2 ++ ex) t w).count q) := by
    intro q
    rw [count_append h2 ex g.ones, ← held_loose, g.perm.count_eq]
  constructor
  · intro hq
    rw [List.eq_nil_iff_forall_not_mem]
    intro a hm
    have := hq a
    have := key a
    have := List.count_pos_iff.2 hm
    omega
  · intro hl q
    have := key q
    rw [hl] at this
    simpa using this

/-- **C104 refuted** for empty arrays: an array without elements is written, and reading what was written aborts. -/
theorem C104_empty_refuted (e : Ty) {h : Heap} {p n : Nat} (hp : h[p]? = some ⟨.seq [], n + 1⟩) :
    ∃ ts, write h (.cont .array e) (.ptr p) = some ts ∧ ∀ (h2 : Heap) (rest : List Tok), read (.cont .array e) (ts ++ rest) h2 = none :=
  ⟨[.array e 0], by simp [write, CopyCont.readSeq, hp, writeAll, container], fun h2 rest => by simp [read, readN, finish, CopyCont.make]⟩

/-- **C104 (other containers).**  What was written for a list is read as a linked list with the same elements, and the other way
round, if there is an element; an empty list is read as the linked list `NULL`; and an array is read as neither. -/
theorem C104_convert {h : Heap} {e : Ty} {p n : Nat} {xs : List Val} (hp : h[p]? = some ⟨.seq xs, n + 1⟩) (hf : ∀ x ∈ xs, Fits h e x)
    (ha : ∀ x ∈ xs, Alive h e x) (hn : ∀ x ∈ xs, NoEmptyArray h e x) (k k' : Kind) :
    ∃ ts, write h (.cont k e) (.ptr p) = some ts ∧ ∀ (h2 : Heap) (rest : List Tok),
      (k ≠ .array → k' ≠ .array → (xs ≠ [] ∨ k' = .list) → ∃ ex v', read (.cont k' e) (ts ++ rest) h2 = some (h2 ++ ex, v', rest) ∧
        whole (h2 ++ ex) (.cont k' e) v' = .seq (xs.map (whole h e))) ∧
      (k ≠ .array → k' = .linked → xs = [] → read (.cont k' e) (ts ++ rest) h2 = some (h2, .null, rest)) ∧
      ((k = .array ↔ k' ≠ .array) → read (.cont k' e) (ts ++ rest) h2 = none) := by
  obtain ⟨tss, e2⟩ := writeAll_some (f := write h e) xs (fun x hx => write_some e x (hf x hx) (ha x hx))
  refine ⟨container k e tss, by simp [write, CopyCont.readSeq, hp, e2], fun h2 rest => ⟨?_, ?_, ?_⟩⟩
  · intro hk hk' hx
    obtain ⟨ex, v', er, g⟩ := container_back (fun x hx => back e x (hf x hx) (hn x hx)) e2 k k' (by simp [hk, hk']) hx h2 rest
    exact ⟨ex, v', er, g.whole⟩
  · rintro hk rfl rfl
    cases e2
    cases k with
    | array => exact absurd rfl hk
    | list => simp [container, read, readN, finish, CopyCont.make]
    | linked => simp [container, read, readWhile, finish, CopyCont.make]
  · intro hk
    cases k <;> cases k' <;> simp at hk <;> simp [container, read]

/-! ## The hypotheses are met -/

/-- A linked list of lists of strings, and a weak pointer to a number. -/
def exTy : Ty := .pair (.cont .linked (.cont .list .str)) (.ptr .weak .num)

/-- Two strings, a list of them and of a tagged one, an empty list, the linked list of both with the first twice, the number. -/
def exHeap : Heap := [⟨.text 7, 1⟩, ⟨.text 8, 2⟩, ⟨.seq [.ptr 0, .ptr 1, .num 5], 2⟩, ⟨.seq [], 1⟩, ⟨.seq [.ptr 2, .ptr 3, .ptr 2], 1⟩, ⟨.cell (.num 6), 1⟩]

def exVal : Val := .pair (.ptr 4) (.ptr 5)

theorem exFits : Fits exHeap exTy exVal := by
  refine ⟨.ptr 4, .ptr 5, rfl, Or.inr ⟨4, [.ptr 2, .ptr 3, .ptr 2], 1, rfl, rfl, by simp, fun x hx => ?_⟩, Or.inr ⟨5, .num 6, 1, rfl, rfl, 6, rfl⟩⟩
  have h2 : Fits exHeap (.cont .list .str) (.ptr 2) := by
    refine Or.inr ⟨2, [.ptr 0, .ptr 1, .num 5], 2, rfl, rfl, by simp, fun x hx => ?_⟩
    simp at hx
    rcases hx with rfl | rfl | rfl
    · exact Or.inr ⟨0, 7, 1, rfl, rfl⟩
    · exact Or.inr ⟨1, 8, 2, rfl, rfl⟩
    · exact Or.inl ⟨5, rfl⟩
  simp at hx
  rcases hx with rfl | rfl | rfl
  · exact h2
  · exact Or.inr ⟨3, [], 1, rfl, rfl, by simp, by simp⟩
  · exact h2

example : Fits exHeap exTy exVal ∧ Alive exHeap exTy exVal ∧ NoEmptyArray exHeap exTy exVal :=
  ⟨exFits, by unfold Alive; decide, by simp [NoEmptyArray, exTy, exVal, CopyCont.elements, exHeap, CopyCont.target]⟩

example : write exHeap exTy exVal = some [.enumerable (.cont .list .str), .count none,
    .flag true, .enumerable .str, .count (some 3), .text 7, .text 8, .word 5, .flag true, .enumerable .str, .count (some 0),
    .flag true, .enumerable .str, .count (some 3), .text 7, .text 8, .word 5, .flag false, .flag true, .num 6] := by decide

/-- The list that was there twice is read as two lists. -/
example : (write exHeap exTy exVal).bind (fun ts => read exTy ts []) = some
    ([⟨.text 7, 1⟩, ⟨.text 8, 1⟩, ⟨.seq [.ptr 0, .ptr 1, .num 5], 1⟩, ⟨.seq [], 1⟩, ⟨.text 7, 1⟩, ⟨.text 8, 1⟩,
      ⟨.seq [.ptr 4, .ptr 5, .num 5], 1⟩, ⟨.seq [.ptr 2, .ptr 3, .ptr 6], 1⟩, ⟨.cell (.num 6), 1⟩], .pair (.ptr 7) (.ptr 8), []) := by decide

example : loose exHeap exTy exVal = [5] ∧ loose exHeap (.cont .linked (.cont .list .str)) (.ptr 4) = [] := by decide

#print axioms C104_roundtrip_partial
#print axioms C104_held_exact
#print axioms C104_empty_refuted
#print axioms C104_convert

end Verif.StreamCont
