import Verif.StrTagFind
/-!
# Tagged strings (C53)
-/
namespace Verif.Str
open Utf8.Spec (Scalar encodeAll)

theorem sets {set : Nat} (h1 : 1 ≤ set) (h3 : set ≤ 3) : set = 1 ∨ set = 2 ∨ set = 3 := by omega

/-- The maps the library starts with are good. -/
theorem goodMaps_default : GoodMaps defaultMaps where
  len h1 h3 := by
    rcases sets h1 h3 with rfl | rfl | rfl
    · exact List.length_range
    · rfl
    · rfl
  zero h1 h3 := by rcases sets h1 h3 with rfl | rfl | rfl <;> rfl
  nodup h1 h3 := by
    rcases sets h1 h3 with rfl | rfl | rfl
    · exact List.nodup_range
    · show map63.Nodup; decide
    · show map31.Nodup; decide
  scalar h1 h3 := by
    rcases sets h1 h3 with rfl | rfl | rfl
    · intro c hc h0
      have hc : c < 127 := List.mem_range.1 hc
      exact ⟨by omega, by omega, by omega⟩
    · show ∀ c ∈ map63, _; decide
    · show ∀ c ∈ map31, _; decide
  ascii h1 h3 _ := by
    rcases sets h1 h3 with rfl | rfl | rfl
    · intro c hc
      have hc : c < 127 := List.mem_range.1 hc
      omega
    · show ∀ c ∈ map63, _; decide
    · show ∀ c ∈ map31, _; decide

theorem mem_chars {M : Maps} (hM : GoodMaps M) {set : Nat} {ds : List Nat} (h : Digits set ds) : ∀ c ∈ chars M set ds, c ∈ (M set).2 := by
  intro c hc
  obtain ⟨d, hd, rfl⟩ := List.mem_map.1 hc
  exact List.mem_of_getElem? (hM.get h.set_pos h.set_le (h.digit d hd).2)

/-- C53.  A text (`l`, in its encoding) becomes a tagged string exactly when it fits one of the sets: it is not longer than the set allows and all its characters are in the map of the set.
The tagged string is then one machine word, whose two low bits are not both 0, and its length, its size in UTF-8 and all its characters are those of the text.  Creating it never reads outside the text. -/
theorem C53_tagged {M : Maps} (hM : GoodMaps M) {e : Enc} {l rest : List Nat} (hc : ∀ c ∈ l, CharOk e c) :
    ∃ r, createTagged M (bytesOf e l ++ rest) (bytesOf e l).length e 3 = some r ∧
      (r.isSome ↔ ∃ set, 1 ≤ set ∧ set ≤ 3 ∧ Fits M set l) ∧
      ∀ w ∈ r, w < 2 ^ 64 ∧ w % 4 ≠ 0 ∧ tagLength w = l.length ∧ tagSize M w = some (encodeAll l).length ∧ ∀ i, tagChar M w i = some (l.getD i 0) := by
  obtain ⟨r, hr, hs⟩ := createTagged_spec hM (rest := rest) hc 3 (Nat.le_refl 3)
  refine ⟨r, hr, ?_⟩
  cases r with
  | none => exact ⟨⟨fun h => by simp at h, fun ⟨set, h1, h3, hf⟩ => absurd hf (hs set h1 h3)⟩, by simp⟩
  | some w =>
    obtain ⟨set, ds, h1, rfl, h3, rfl, h5⟩ := hs
    refine ⟨⟨fun _ => ⟨set, h3.set_pos, h1, by rw [chars_length]; exact h3.len, mem_chars hM h3⟩, fun _ => rfl⟩, ?_⟩
    intro w hw
    cases hw
    have := h3.word_lt
    have hs := h3.setOf
    have := h3.set_pos
    rw [setOf] at hs
    exact ⟨by omega, by omega, by rw [tagLength_word h3, chars_length], tagSize_word hM h3, tagChar_word hM h3⟩

/-- C53.  Tagged strings of two texts, in whatever encoding these were, are the same word exactly when the texts are the same: so comparing the words compares the texts. -/
theorem C53_canonical {M : Maps} (hM : GoodMaps M) {e e' : Enc} {l l' rest rest' : List Nat} (hc : ∀ c ∈ l, CharOk e c) (hc' : ∀ c ∈ l', CharOk e' c) {w w' : Nat}
    (h : createTagged M (bytesOf e l ++ rest) (bytesOf e l).length e 3 = some (some w))
    (h' : createTagged M (bytesOf e' l' ++ rest') (bytesOf e' l').length e' 3 = some (some w')) : w = w' ↔ l = l' := by
  obtain ⟨r, hr, hs⟩ := createTagged_spec hM (rest := rest) hc 3 (Nat.le_refl 3)
  obtain ⟨r', hr', hs'⟩ := createTagged_spec hM (rest := rest') hc' 3 (Nat.le_refl 3)
  rw [h] at hr; cases hr
  rw [h'] at hr'; cases hr'
  obtain ⟨set, ds, h1, rfl, h3, rfl, h5⟩ := hs
  obtain ⟨set', ds', h1', rfl, h3', rfl, h5'⟩ := hs'
  have key : set = set' → (word set ds = word set' ds' ↔ chars M set ds = chars M set' ds') := by
    rintro rfl
    exact ⟨fun e => by rw [h3.word_inj h3' e], fun e => by rw [hM.chars_inj h3 h3' e]⟩
  constructor
  · intro e
    exact (key (by rw [← h3.setOf, e, h3'.setOf])).1 e
  · intro e
    refine (key ?_).2 e
    have f : Fits M set (chars M set ds) := ⟨by rw [chars_length]; exact h3.len, mem_chars hM h3⟩
    have f' : Fits M set' (chars M set' ds') := ⟨by rw [chars_length]; exact h3'.len, mem_chars hM h3'⟩
    rcases Nat.lt_trichotomy set set' with hlt | heq | hgt
    · exact absurd (by rw [e]; exact f') (h5 set' hlt h1')
    · exact heq
    · exact absurd (by rw [← e]; exact f) (h5' set hgt h1)

/-- "hello", from ASCII and from UTF-8: the same tagged word. -/
example : (∀ c ∈ [104, 101, 108, 108, 111], CharOk .ascii c) ∧ (∀ c ∈ [104, 101, 108, 108, 111], CharOk .utf8 c) ∧
    createTagged defaultMaps [104, 101, 108, 108, 111, 0] 5 .ascii 3 = createTagged defaultMaps [104, 101, 108, 108, 111, 0] 5 .utf8 3 ∧
    createTagged defaultMaps [104, 101, 108, 108, 111, 0] 5 .ascii 3 = some (some (word 3 [12, 9, 16, 16, 19])) := by
  refine ⟨by simp [CharOk], by simp [CharOk]; decide, by decide +kernel, by decide +kernel⟩

/-- With an upper case letter it needs the second set; with a comma the first. -/
example : (createTagged defaultMaps [72, 105] 2 .ascii 3).isSome ∧ createTagged defaultMaps [65, 105] 2 .ascii 3 = some (some (word 2 [49, 31])) ∧
    createTagged defaultMaps [97, 44] 2 .ascii 3 = some (some (word 1 [97, 44])) := by decide +kernel

/-- A text of nine characters with a comma fits no set. -/
example : createTagged defaultMaps [97, 44, 97, 97, 97, 97, 97, 97, 97] 9 .ascii 3 = some none := by decide +kernel

#print axioms goodMaps_default
#print axioms C53_tagged
#print axioms C53_canonical
end Verif.Str
