import Verif.PListOps
/-!
# C04: a CCList is its mathematical sequence
-/
namespace Verif.PList
open Verif.Array PList.Spec

/-- **C04 is false as stated**: there is a history of documented calls, and then a documented call (`CCListAppendElements` of 3
elements on a list of 2 elements with page size 2), that reads past the end of the caller's buffer. -/
theorem C04_list_sequence_refuted :
    ¬ ∀ (chunk pageSize : Nat) (L : PL Nat) (l : List (Option Nat)) (op : Op Nat), 1 ≤ chunk → 1 ≤ pageSize →
      History chunk pageSize L l → valid l.length op → ∃ L' r, step L op = .ok (L', r) := by
  intro h
  have h0 : History (α := Nat) 1 2 _ _ := History.create _ rfl
  have h1 := History.call _ _ (.append (some 10)) _ _ h0 trivial rfl
  have h2 := History.call _ _ (.append (some 20)) _ _ h1 trivial rfl
  obtain ⟨L', r, hs⟩ := h 1 2 _ _ (.appendN (.buf [1, 2, 3])) (by omega) (by omega) h2 (by simp [valid, Src.count])
  cases hs

/-- The same call with a NULL source (documented as "leave uninitialised") spanning a page boundary: the address NULL + offset is read. -/
theorem C04_list_null_source_refuted :
    ¬ ∀ (chunk pageSize : Nat) (L : PL Nat) (l : List (Option Nat)) (k : Nat), 1 ≤ chunk → 1 ≤ pageSize →
      History chunk pageSize L l → k ≠ 0 → ∃ L' r, step L (.appendN (.null k)) = .ok (L', r) := by
  intro h
  have h0 : History (α := Nat) 1 2 _ _ := History.create _ rfl
  obtain ⟨L', r, hs⟩ := h 1 2 _ _ 3 (by omega) (by omega) h0 (by omega)
  cases hs

/-- **C04 (partial)**: for every chunk and page size and every history of documented calls in which no append-many call starts on a
full last page with a count that is not a multiple of the page size (or gives NULL for elements spanning pages), the list shows exactly the
mathematically edited sequence, by index and by enumeration in both directions; and every further such call succeeds, returns the
documented result, and leaves the list showing the edited sequence.
Missing: the calls excluded by `handled` (on which the property is false, see above), and allocation failure. -/
theorem C04_list_sequence_partial {α : Type} (chunk pageSize : Nat) (L : PL α) (l : List (Option α)) (h : HistoryH chunk pageSize L l) :
    Shows L l ∧
    ∀ op, valid l.length op → handled L.pageSize l.length op →
      ∃ L', step L op = .ok (L', result l op) ∧ Shows L' (edit l op) := by
  have rep := history_rep h
  refine ⟨rep_shows rep, fun op hv hh => ?_⟩
  obtain ⟨L', e, -, rep'⟩ := step_rep rep op hv hh
  exact ⟨L', e, rep_shows rep'⟩

/-- Creation succeeds for all positive sizes, so histories exist; the page size in force is a multiple of the chunk size, at least the requested one
and less than one chunk bigger. -/
theorem C04_create (α : Type) (chunk pageSize : Nat) (hc : 1 ≤ chunk) (hp : 1 ≤ pageSize) :
    ∃ L, create α chunk pageSize = .ok L ∧ HistoryH chunk pageSize L [] ∧ L.pageSize % chunk = 0 ∧ pageSize ≤ L.pageSize ∧ L.pageSize < pageSize + chunk := by
  obtain ⟨a, e, -⟩ := pg_create (α := α) hc
  have hcr : create α chunk pageSize = .ok { chunk, pageSize := if pageSize % chunk ≠ 0 then pageSize + (chunk - pageSize % chunk) else pageSize, count := 0, pages := [a], hasLast := true } := by
    simp only [create, hc, hp, and_self, if_true]
    rw [e, ebind]; rfl
  refine ⟨_, hcr, .create _ hcr, ?_, ?_, ?_⟩
  · simp only; split
    · have hm := Nat.mod_lt pageSize (show chunk > 0 by omega)
      have : pageSize + (chunk - pageSize % chunk) = chunk * (pageSize / chunk) + chunk := by
        have := Nat.div_add_mod pageSize chunk; omega
      rw [this]; simp
    · omega
  · simp only; split <;> omega
  · simp only; split <;> omega

/-- A concrete history: three pages, an insertion that carries across pages and a removal, meets the hypotheses. -/
example : ∃ (L : PL Nat), HistoryH 1 2 L [some 1, some 9, some 3, some 4] := by
  have h0 : HistoryH (α := Nat) 1 2 _ _ := HistoryH.create _ rfl
  have h1 := HistoryH.call _ _ (.appendN (.buf [1, 2, 3, 4])) _ _ h0 (by simp [valid, Src.count]) (by simp [handled]) rfl
  have h2 := HistoryH.call _ _ (.insert 1 (some 9)) _ _ h1 (by simp [valid, edit, Src.cells]) trivial rfl
  have h3 := HistoryH.call _ _ (.remove 2) _ _ h2 (by simp [valid, edit, Src.cells]) trivial rfl
  exact ⟨_, h3⟩

#print axioms C04_list_sequence_refuted
#print axioms C04_list_null_source_refuted
#print axioms C04_list_sequence_partial
#print axioms C04_create
end Verif.PList
