import Verif.StrFix
/-!
# Searching
-/
namespace Verif.Str
open Utf8.Spec (Scalar encode encodeAll)
open Spec (IsFirst)

section
variable {M : Maps}

theorem matchLoop_eq (hM : GoodMaps M) {s t : Str} {l m : List Nat} (hs : Val M s l) (ht : Val M t m) :
    ∀ (r loop loop2 : Nat), loop2 + r = m.length → 0 < r → loop + r ≤ l.length → matchLoop M s t m.length loop loop2 r = some (decide (m.drop loop2 <+: l.drop loop)) := by
  intro r
  induction r with
  | zero => intro loop loop2 _ h; omega
  | succ r ih =>
    intro loop loop2 h1 _ h2
    have hl : loop < l.length := by omega
    have hm : loop2 < m.length := by omega
    rw [matchLoop, charAt_eq hM hs, charAt_eq hM ht, List.getElem?_eq_getElem hl, List.getElem?_eq_getElem hm, List.drop_eq_getElem_cons hl, List.drop_eq_getElem_cons hm]
    simp only [Option.bind_eq_bind, Option.bind_some, List.cons_prefix_cons]
    by_cases hc : l[loop] = m[loop2]
    · rw [if_pos hc]
      by_cases hr : r = 0
      · subst hr
        rw [if_pos (by omega), List.drop_of_length_le (by omega : m.length ≤ loop2 + 1)]
        simp [hc]
      · rw [if_neg (by omega), ih (loop + 1) (loop2 + 1) (by omega) (by omega) (by omega)]
        simp [hc]
    · rw [if_neg hc]
      simp [Ne.symm hc]

theorem findLoop_eq (hM : GoodMaps M) {s t : Str} {l m : List Nat} (hs : Val M s l) (ht : Val M t m) (hm : m ≠ []) :
    ∀ (fuel i : Nat), i ≤ l.length → l.length ≤ i + fuel → ∃ r, findLoop M s t l.length m.length i fuel = some r ∧ IsFirst l m i r := by
  have hmp : 0 < m.length := List.length_pos_iff.2 hm
  have none_at : ∀ k, l.length < k + m.length → ¬ m <+: l.drop k := by
    intro k hk hp
    have := hp.length_le
    rw [List.length_drop] at this
    omega
  intro fuel
  induction fuel with
  | zero => intro i h1 h2; exact ⟨none, rfl, fun k hk => none_at k (by omega)⟩
  | succ fuel ih =>
    intro i h1 h2
    rw [findLoop]
    by_cases hc : l.length - i ≥ m.length ∧ i < l.length
    · rw [if_pos hc, matchLoop_eq hM hs ht m.length i 0 (by omega) hmp (by omega), List.drop_zero]
      simp only [Option.bind_eq_bind, Option.bind_some]
      by_cases hp : m <+: l.drop i
      · simp only [hp, decide_true, if_true]
        exact ⟨some i, rfl, Nat.le_refl _, hp, fun k h1 h2 => by omega⟩
      · simp only [hp, decide_false, Bool.false_eq_true, if_false]
        obtain ⟨r, h3, h4⟩ := ih (i + 1) (by omega) (by omega)
        refine ⟨r, h3, ?_⟩
        cases r with
        | none => intro k hk; by_cases e : k = i; · rw [e]; exact hp
                  · exact h4 k (by omega)
        | some j =>
          obtain ⟨h5, h6, h7⟩ := h4
          refine ⟨by omega, h6, fun k h8 h9 => ?_⟩
          by_cases e : k = i
          · rw [e]; exact hp
          · exact h7 k (by omega) h9
    · rw [if_neg hc]
      exact ⟨none, rfl, fun k hk => none_at k (by omega)⟩

/-- The search that goes wrong: for tagged strings of the same set, from the start of a string of the maximal length, when the first occurrence is at its very end. -/
def Missed (s t : Str) (l m : List Nat) (i : Nat) : Prop :=
  sameSet s t = true ∧ i = 0 ∧ (∃ w, s = .tagged w ∧ l.length = charMax (setOf w)) ∧ IsFirst l m 0 (some (l.length - m.length))

theorem isFirst_chars (hM : GoodMaps M) {set : Nat} {ds es : List Nat} (h : Digits set ds) (h' : Digits set es) (i : Nat) (r : Option Nat) : IsFirst (chars M set ds) (chars M set es) i r ↔ IsFirst ds es i r := by
  have key : ∀ k, chars M set es <+: (chars M set ds).drop k ↔ es <+: ds.drop k := fun k => by rw [← chars_drop]; exact chars_prefix hM (h.drop k) h'
  cases r with
  | none => simp only [IsFirst, key]
  | some j => simp only [IsFirst, key]

theorem find_eq (hM : GoodMaps M) {s t : Str} {l m : List Nat} (hs : Val M s l) (ht : Val M t m) {i : Nat} (hi : i ≤ l.length) (hm : m ≠ []) :
    ∃ r, find M s i t = some r ∧ (IsFirst l m i r ∧ ¬ Missed s t l m i ∨ r = none ∧ Missed s t l m i) := by
  have hmp : 0 < m.length := List.length_pos_iff.2 hm
  unfold find
  rw [hs.length hM, ht.length hM]
  simp only [Option.bind_eq_bind, Option.bind_some]
  rw [if_pos hi]
  by_cases hc : l.length ≠ 0 ∧ l.length - i ≥ m.length
  · rw [if_pos hc]
    have slow : sameSet s t = false → ∃ r, findLoop M s t l.length m.length i l.length = some r ∧ (IsFirst l m i r ∧ ¬ Missed s t l m i ∨ r = none ∧ Missed s t l m i) := by
      intro hb
      obtain ⟨r, h1, h2⟩ := findLoop_eq hM hs ht hm l.length i hi (by omega)
      exact ⟨r, h1, .inl ⟨h2, fun h => by rw [Missed, hb] at h; simp at h⟩⟩
    cases s with
    | info i => exact slow rfl
    | tagged w =>
      cases t with
      | info j => exact slow rfl
      | tagged v =>
        dsimp only
        by_cases hset : setOf w = setOf v
        · rw [if_pos hset]
          obtain ⟨set, ds, h1, rfl, rfl⟩ := hs
          obtain ⟨set', es, h1', rfl, rfl⟩ := ht
          have : set = set' := by rw [← h1.setOf, ← h1'.setOf, hset]
          subst this
          have hne : es ≠ [] := by rintro rfl; exact hm rfl
          rw [chars_length, chars_length] at *
          obtain ⟨r, h2, h3⟩ := tagFind_word h1 h1' hne (i := i) (by omega)
          refine ⟨r, h2, ?_⟩
          have miss : Missed (.tagged (word set ds)) (.tagged (word set es)) (chars M set ds) (chars M set es) i ↔ i = 0 ∧ ds.length = charMax set ∧ IsFirst ds es 0 (some (ds.length - es.length)) := by
            rw [Missed, isFirst_chars hM h1 h1', chars_length, chars_length]
            constructor
            · rintro ⟨-, h4, ⟨w, h5, h6⟩, h7⟩
              cases h5
              rw [h1.setOf] at h6
              exact ⟨h4, h6, h7⟩
            · rintro ⟨h4, h5, h6⟩
              exact ⟨by simp [sameSet, hset], h4, ⟨_, rfl, by rw [h1.setOf]; exact h5⟩, h6⟩
          rw [miss, isFirst_chars hM h1 h1']
          rcases h3 with ⟨h3, h4⟩ | ⟨h3, h4, h5, h6⟩
          · refine .inl ⟨h3, ?_⟩
            rintro ⟨rfl, h6, h7⟩
            refine h4 ⟨rfl, h6, ?_⟩
            cases r with
            | none => exact absurd h7.2.1 (h3 _ (by omega))
            | some j =>
              congr 1
              rcases Nat.lt_trichotomy j (ds.length - es.length) with h | h | h
              · exact absurd h3.2.1 (h7.2.2 j (by omega) h)
              · exact h
              · exact absurd h7.2.1 (h3.2.2 _ (by omega) h)
          · exact .inr ⟨h3, h4, h5, h6⟩
        · rw [if_neg hset]; exact slow (by simp [sameSet, hset])
  · rw [if_neg hc]
    have none_at : ∀ k, i ≤ k → ¬ m <+: l.drop k := by
      intro k hk hp
      have := hp.length_le
      rw [List.length_drop] at this
      omega
    refine ⟨none, rfl, .inl ⟨none_at, fun h => ?_⟩⟩
    obtain ⟨-, h1, -, h2⟩ := h
    exact none_at _ (by omega) h2.2.1

/-- Outside the string it asserts. -/
theorem find_none (hM : GoodMaps M) {s t : Str} {l : List Nat} (hs : Val M s l) {i : Nat} (hi : l.length < i) : find M s i t = none := by
  unfold find
  rw [hs.length hM]
  simp only [Option.bind_eq_bind, Option.bind_some]
  rw [if_neg (by omega)]

/-- An empty string is never found; for two tagged strings of the same set the behaviour is undefined. -/
theorem find_empty (hM : GoodMaps M) {s t : Str} {l : List Nat} (hs : Val M s l) (ht : Val M t []) {i : Nat} (hi : i ≤ l.length) :
    find M s i t = if sameSet s t = true ∧ l ≠ [] then none else some none := by
  unfold find
  rw [hs.length hM, ht.length hM]
  simp only [Option.bind_eq_bind, Option.bind_some]
  rw [if_pos hi]
  by_cases hl : l = []
  · subst hl; simp
  · have hlp : 0 < l.length := List.length_pos_iff.2 hl
    rw [if_pos ⟨by omega, by simp⟩]
    have slow : findLoop M s t l.length ([] : List Nat).length i l.length = some none := by
      have : ∀ fuel i, findLoop M s t l.length 0 i fuel = some none := by
        intro fuel
        induction fuel with
        | zero => intro i; rfl
        | succ fuel ih =>
          intro i
          rw [findLoop]
          split
          · simp [matchLoop, ih]
          · rfl
      exact this _ _
    cases s with
    | info i => simpa [sameSet] using slow
    | tagged w =>
      cases t with
      | info j => simpa [sameSet] using slow
      | tagged v =>
        dsimp only
        by_cases hset : setOf w = setOf v
        · rw [if_pos hset]
          simp only [sameSet, hset, decide_true, ne_eq, hl, not_false_eq_true, and_self, if_true]
          simp only [tagFind, List.length_nil, Nat.zero_mul, lowMask_zero]
          cases shl (v >>> 2) (bits (setOf w) * i) <;> rfl
        · rw [if_neg hset]; simpa [sameSet, hset] using slow

end
end Verif.Str
