import Verif.ArrayLemmas
/-!
# Property theorems C01 - C03 (CCArray)
-/
namespace Verif.Array
open Verif.Array.Spec
variable {α : Type}

/-- **C01.** After any history of calls within the documented bounds the array shows exactly the edited list (count and
every element that was given a value), and any further valid call succeeds: it performs the edit and returns the documented
index, or it reports `SIZE_MAX`, which only happens when the allocator refused memory. -/
theorem C01_array_sequence (chunk : Nat) (a : Arr α) (l : List (Option α)) (h : History chunk a l) :
    Shows a l ∧
    ∀ op, valid l.length op → ∃ a' r, step a op = .ok (a', r) ∧
      (r = .sizeMax ∧ refused op = true ∧ Shows a' l ∨
       r = result l op ∧ Shows a' (edit l op)) := by
  have g := history_good h
  refine ⟨good_shows g, fun op hv => ?_⟩
  obtain ⟨a', r, h1, -, h3, h4, h5⟩ := step_good g op hv
  refine ⟨a', r, h1, ?_⟩
  by_cases hr : r = .sizeMax
  · rw [if_pos hr] at h3; exact Or.inl ⟨hr, (h4 hr).1, good_shows h3⟩
  · rw [if_neg hr] at h3; exact Or.inr ⟨h5 hr, good_shows h3⟩

/-- The index an append or insert returns reads back as the given element. -/
theorem C01_returned_index_readable (chunk : Nat) (a : Arr α) (l : List (Option α)) (h : History chunk a l)
    (op : Op α) (hv : valid l.length op) (a' : Arr α) (i : Nat) (hs : step a op = .ok (a', .index i)) :
    (∀ v ok, op = .append (some v) ok → get a' i = .ok (some v)) ∧
    (∀ j v ok, op = .insert j (some v) ok → get a' i = .ok (some v)) ∧
    (∀ v vs ok, op = .appendN (.buf (v :: vs)) ok → get a' i = .ok (some v)) ∧
    (∀ j v vs ok, op = .insertN j (.buf (v :: vs)) ok → get a' i = .ok (some v)) := by
  obtain ⟨-, hc⟩ := C01_array_sequence chunk a l h
  obtain ⟨a'', r, h1, h2⟩ := hc op hv
  rw [hs] at h1; cases h1
  rcases h2 with ⟨h, -⟩ | ⟨hr, -, hsh⟩
  · cases h
  · have key : ∀ v, (∃ hlt : i < (edit l op).length, (edit l op)[i] = some v) → get a' i = .ok (some v) := by
      rintro v ⟨hlt, he⟩
      obtain ⟨c, h3, h4⟩ := hsh i hlt
      rw [h3, h4 v he]
    refine ⟨?_, ?_, ?_, ?_⟩
    · rintro v ok rfl; simp [result] at hr; subst hr; exact key v ⟨by simp [edit], by simp [edit]⟩
    · rintro j v ok rfl; simp [result] at hr; subst hr
      simp [valid] at hv
      exact key v ⟨by simp [edit]; omega, by simp [edit, Nat.min_eq_left (Nat.le_of_lt hv)]⟩
    · rintro v vs ok rfl; simp [result] at hr; subst hr
      exact key v ⟨by simp [edit, Src.cells], by simp [edit, Src.cells]⟩
    · rintro j v vs ok rfl; simp [result] at hr; subst hr
      simp [valid] at hv
      exact key v ⟨by simp [edit, Src.cells]; omega, by simp [edit, Src.cells, Nat.min_eq_left (Nat.le_of_lt hv.2)]⟩

/-- Non-vacuity: a history with growth, insertion and removal (chunk size 2). -/
example : ∃ (a : Arr Nat), History 2 a [some 1, some 9, some 3, none] := by
  have h0 : History (α := Nat) 2 _ [] := .create true _ rfl
  have h1 := History.call _ _ (.append (some 1) true) _ _ h0 trivial rfl
  have h2 := History.call _ _ (.appendN (.buf [2, 3]) true) _ _ h1 (by simp [valid, Src.count]) rfl
  have h3 := History.call _ _ (.append none true) _ _ h2 trivial rfl
  have h4 := History.call _ _ (.insert 2 (some 9) true) _ _ h3 (by simp [valid, edit, Src.cells]) rfl
  have h5 := History.call _ _ (.remove 1) _ _ h4 (by simp [valid, edit, Src.cells]) rfl
  exact ⟨_, h5⟩

/-- **C02 (refuted as stated).** `CCArrayReplaceElementsAtIndex` asserts only that the first index is in bounds, so a call
that passes all assertions writes past the allocated block. -/
theorem C02_memory_safety_refuted :
    ∃ (a : Arr Nat) (op : Op Nat), Reach 1 a ∧ step a op = .error .outOfBounds :=
  ⟨_, .replaceN 0 (.buf [7, 8]), .call _ (.append (some 1) true) _ _ (.create true _ rfl) rfl, rfl⟩

/-- **C02 (partial).** In every history of calls passing the assertions (with allocator refusals anywhere) in which
replace-many calls also keep their whole range inside the array, no call touches memory outside the block: a further call either
fails its own assertion or completes; and reading never leaves the block.
Missing: replace-many ranges that overrun the count (see `C02_memory_safety_refuted`). -/
theorem C02_memory_safety_partial (chunk : Nat) (a : Arr α) (h : ReachRange chunk a) :
    (∀ op : Op α, (∀ i s, op = .replaceN i s → i + s.count ≤ getCount a) → step a op ≠ .error .outOfBounds) ∧
    (∀ i, get a i ≠ .error .outOfBounds) := by
  have : ∃ l, Good a l := by
    induction h with
    | create ok a h => exact ⟨_, good_create h⟩
    | call a op a' r _ hr hs ih =>
      obtain ⟨l, g⟩ := ih
      rcases passes_good g op hr with h | ⟨a'', r', l', h, g'⟩
      · rw [h] at hs; cases hs
      · rw [h] at hs; cases hs; exact ⟨l', g'⟩
  obtain ⟨l, g⟩ := this
  refine ⟨fun op hr => ?_, fun i => ?_⟩
  · rcases passes_good g op hr with h | ⟨a'', r', l', h, g'⟩ <;> rw [h] <;> simp
  · rcases Nat.lt_or_ge i l.length with hi | hi
    · obtain ⟨c, hc, -⟩ := (good_shows g).2 i hi; rw [hc]; simp
    · have := g.cnt; rw [get, if_neg (by omega)]; simp

/-- Non-vacuity: a reachable array that has had growth refused once and then granted. -/
example : ∃ a : Arr Nat, ReachRange 1 a ∧ getCount a = 2 :=
  ⟨_, .call _ (.append (some 5) true) _ _ (.call _ (.append (some 5) false) _ .sizeMax
    (.call _ (.append (some 1) true) _ _ (.create true _ rfl) (by simp) rfl) (by simp) rfl) (by simp) rfl, rfl⟩

/-- **C03.** When a valid call reports `SIZE_MAX` the array is exactly the one before the call (so every later call behaves as
if the failed one had not been made), and a call that needs more room while the allocator refuses reports `SIZE_MAX`. -/
theorem C03_growth_failure_atomic (chunk : Nat) (a : Arr α) (l : List (Option α)) (h : History chunk a l)
    (op : Op α) (hv : valid l.length op) :
    (∀ a', step a op = .ok (a', .sizeMax) → a' = a ∧ refused op = true) ∧
    (∀ cells, a.data = some cells → cells.length < (edit l op).length → refused op = true → step a op = .ok (a, .sizeMax)) ∧
    (a.data = none → refused op = true → step a op = .ok (a, .sizeMax)) := by
  have g := history_good h
  obtain ⟨a', r, h1, -, h3, h4, h5⟩ := step_good g op hv
  refine ⟨fun b hb => ?_, fun cells hd hlt href => ?_, fun hd href => ?_⟩
  · rw [h1] at hb; cases hb; exact ⟨(h4 rfl).2, (h4 rfl).1⟩
  · by_cases hr : r = .sizeMax
    · rw [h1, hr, (h4 hr).2]
    · exfalso
      rw [if_neg hr] at h3
      obtain ⟨c', hc1, hc2⟩ := no_room h1 href hr hd
      have hi := h3.inv.2; rw [hc1] at hi
      obtain ⟨k, -, hk2, hk3⟩ := hi
      have := h3.cnt
      omega
  · by_cases hr : r = .sizeMax
    · rw [h1, hr, (h4 hr).2]
    · exfalso
      exact hr (no_room_null g h1 href hd)

/-- Non-vacuity: a full array whose growth is refused. -/
example : ∃ (a : Arr Nat), History 1 a [some 1] ∧ a.data = some [some 1] ∧
    [some 1].length < (edit [some 1] (Op.append (some 2) false)).length := by
  have h0 : History (α := Nat) 1 _ [] := .create true _ rfl
  have h1 := History.call _ _ (.append (some 1) true) _ _ h0 trivial rfl
  exact ⟨_, h1, rfl, by decide⟩

#print axioms C01_array_sequence
#print axioms C01_returned_index_readable
#print axioms C02_memory_safety_refuted
#print axioms C02_memory_safety_partial
#print axioms C03_growth_failure_atomic
end Verif.Array
