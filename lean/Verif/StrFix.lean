import Verif.StrCmp
/-!
# Prefixes and suffixes
-/
namespace Verif.Str
open Utf8.Spec (Scalar encode encodeAll)

section
variable {M : Maps}

/-- What `CCStringHasPrefix` and `CCStringHasSuffix` may take for a character of the string: the byte before its first, for an ASCII string that is not tagged. -/
def Ghost (s : Str) (g : Nat) : Prop := ghost s = some g ∧ g ≠ 0

theorem getD_append {a b : List Nat} {k : Nat} (h : k < a.length) : (a ++ b).getD k 0 = a.getD k 0 := by
  simp only [List.getD_eq_getElem?_getD, List.getElem?_append_left h]

theorem getD_append_right {a b : List Nat} {k : Nat} (h : a.length ≤ k) : (a ++ b).getD k 0 = b.getD (k - a.length) 0 := by
  simp only [List.getD_eq_getElem?_getD, List.getElem?_append_right h]

theorem chars_prefix (hM : GoodMaps M) {set : Nat} {ds es : List Nat} (h : Digits set ds) (h' : Digits set es) : chars M set es <+: chars M set ds ↔ es <+: ds := by
  rw [prefix_iff_take, prefix_iff_take, chars_length, ← chars_take]
  exact ⟨fun e => hM.chars_inj (h.take _) h' e, fun e => by rw [e]⟩

theorem chars_suffix (hM : GoodMaps M) {set : Nat} {ds es : List Nat} (h : Digits set ds) (h' : Digits set es) : chars M set es <:+ chars M set ds ↔ es <:+ ds := by
  rw [List.suffix_iff_eq_drop, List.suffix_iff_eq_drop, chars_length, chars_length, ← chars_drop]
  exact ⟨fun e => hM.chars_inj h' (h.drop _) e, fun e => by conv => lhs; rw [e]⟩

theorem prefixSlow_eq (hM : GoodMaps M) {s t : Str} {l m : List Nat} (hs : Val M s l) (ht : Val M t m) (rs : Readable s l) (rt : Readable t m) (hm : m ≠ []) :
    ∃ b, prefixSlow M s t = some b ∧ (b = true ↔ m <+: l ∨ l ≠ [] ∧ ∃ g, Ghost s g ∧ m = l ++ [g]) := by
  obtain ⟨e, h1, h2⟩ := head_at hM hs
  obtain ⟨f, h3, h4⟩ := head_at hM ht
  have hmp : 0 < m.length := List.length_pos_iff.2 hm
  have hm0 := getD_ne_zero (ht.scalar hM) hmp
  unfold prefixSlow
  rw [h1, h3, hs.length hM]
  simp only [Option.bind_eq_bind, Option.bind_some]
  rw [current_at hM ht h4 (.inl hmp)]
  by_cases hl : l = []
  · subst hl
    rw [current_at hM hs h2 (.inr rfl)]
    simp only [Option.bind_some]
    rw [List.getD_nil, if_neg (Ne.symm hm0)]
    exact ⟨false, rfl, by simp [hm]⟩
  · have hlp : 0 < l.length := List.length_pos_iff.2 hl
    obtain ⟨g, hg⟩ := rs.some hl
    obtain ⟨d, hd⟩ := rt.some hm
    rw [current_at hM hs h2 (.inl hlp)]
    simp only [Option.bind_some]
    have sm := ht.scalar hM
    have gh : (∃ g, Ghost s g ∧ m = l ++ [g]) ↔ m = l ++ [g] := by
      constructor
      · rintro ⟨g', ⟨h, -⟩, h'⟩; rw [hg] at h; cases h; exact h'
      · intro h; exact ⟨g, ⟨hg, by have := (sm g (by simp [h])).1; omega⟩, h⟩
    by_cases hh : l.getD 0 0 = m.getD 0 0
    · rw [if_pos hh]
      obtain ⟨e', f', h5, -, h6⟩ := sameNext_head hM hs ht hl hm hg hd h2 h4 hh
      rw [h5]
      refine ⟨_, rfl, ?_⟩
      rw [decide_eq_true_iff, h6, gh]
      simp [hl]
    · rw [if_neg hh]
      refine ⟨false, rfl, ?_⟩
      rw [gh]
      constructor
      · intro h; simp at h
      · rintro (⟨r, rfl⟩ | ⟨-, rfl⟩)
        · exact absurd (by rw [getD_append hmp]) hh
        · exact absurd (by rw [getD_append hlp]) hh

theorem hasPrefix_eq (hM : GoodMaps M) {s t : Str} {l m : List Nat} (hs : Val M s l) (ht : Val M t m) (rs : Readable s l) (rt : Readable t m) {same : Bool} (hsame : same = true → s = t ∧ l = m) (hm : m ≠ []) :
    ∃ b, hasPrefix M same s t = some b ∧ (b = true ↔ m <+: l ∨ l ≠ [] ∧ ∃ g, Ghost s g ∧ m = l ++ [g]) := by
  unfold hasPrefix
  rw [equal_eq hM hs ht rs rt hsame]
  simp only [Option.bind_eq_bind, Option.bind_some]
  by_cases he : l = m ∧ ¬ Odd s t l
  · rw [if_pos (by simpa using he)]
    exact ⟨true, rfl, by simp [he.1]⟩
  · rw [if_neg (by simpa using he)]
    cases s with
    | info i => exact prefixSlow_eq hM hs ht rs rt hm
    | tagged w =>
      cases t with
      | info j => exact prefixSlow_eq hM hs ht rs rt hm
      | tagged v =>
        dsimp only
        by_cases hset : setOf w = setOf v
        · rw [if_pos hset]
          obtain ⟨set, ds, h1, rfl, rfl⟩ := hs
          obtain ⟨set', es, h1', rfl, rfl⟩ := ht
          have : set = set' := by rw [← h1.setOf, ← h1'.setOf, hset]
          subst this
          have hne : es ≠ [] := by rintro rfl; exact hm rfl
          rw [tagPrefix_word h1 h1' hne]
          refine ⟨_, rfl, ?_⟩
          rw [decide_eq_true_iff, chars_prefix hM h1 h1']
          simp [Ghost, ghost]
        · rw [if_neg hset]; exact prefixSlow_eq hM hs ht rs rt hm

/-- The enumerators of two strings, from their tails. -/
theorem samePrev_tail (hM : GoodMaps M) {s t : Str} {l m : List Nat} (hs : Val M s l) (ht : Val M t m) (hl : l ≠ []) (hm : m ≠ []) {g d : Nat} (hg : ghost s = some g) (hd : ghost t = some d)
    {e f : Cursor} (he : At s l e (l.length - 1)) (hf : At t m f (m.length - 1)) (hh : l.getD (l.length - 1) 0 = m.getD (m.length - 1) 0) :
    ∃ e' f', samePrev M s t e f (l.length + 2) = some (e', f') ∧ (f'.index = sizeMax ↔ m <:+ l ∨ m = g :: l) := by
  have sl := hs.scalar hM
  have sm := ht.scalar hM
  have hlp : 0 < l.length := List.length_pos_iff.2 hl
  have hmp : 0 < m.length := List.length_pos_iff.2 hm
  rw [getD_of_lt (by omega), getD_of_lt (by omega)] at hh
  have el : l = l.take (l.length - 1) ++ [l[l.length - 1]] := by
    conv => lhs; rw [← List.take_append_drop (l.length - 1) l]
    rw [List.drop_eq_getElem_cons (by omega), List.drop_of_length_le (by omega)]
  have em : m = m.take (m.length - 1) ++ [m[m.length - 1]] := by
    conv => lhs; rw [← List.take_append_drop (m.length - 1) m]
    rw [List.drop_eq_getElem_cons (by omega), List.drop_of_length_le (by omega)]
  obtain ⟨e', f', h1, -, h3⟩ := same2_spec (stream_prev hM hs hg) (stream_prev hM ht hd) (l.length + 2) (l.take (l.length - 1)).reverse (m.take (m.length - 1)).reverse e f
    ⟨_, he, by omega, rfl⟩ ⟨_, hf, by omega, rfl⟩
    (fun c hc => by have := (sl c (List.mem_of_mem_take (List.mem_reverse.1 hc))).1; omega) (fun c hc => by have := (sm c (List.mem_of_mem_take (List.mem_reverse.1 hc))).1; omega) (by simp)
  refine ⟨e', f', by rw [samePrev_eq]; exact h1, ?_⟩
  rw [h3]
  generalize l.take (l.length - 1) = a at *
  generalize m.take (m.length - 1) = b at *
  generalize l[l.length - 1] = x at *
  generalize m[m.length - 1] = y at *
  subst el em hh
  rw [← List.reverse_prefix (l₁ := b ++ [x]), List.reverse_append, List.reverse_append, List.reverse_singleton, List.singleton_append, List.singleton_append, List.cons_prefix_cons]
  rw [show b.reverse = a.reverse ++ [g] ↔ b = g :: a from by rw [← List.reverse_inj (xs := b), List.reverse_cons], ← List.cons_append, List.append_cancel_right_eq]
  simp

theorem tail_empty_internal (hM : GoodMaps M) {w : Nat} (h : Val M (.tagged w) []) : ∃ e, enTail M (.tagged w) = some (0, e) := by
  have hn := h.length hM
  simp only [getLength, Option.some.injEq] at hn
  simp only [enTail]
  rw [hn]
  obtain ⟨set, ds, h1, rfl, h2⟩ := h
  simp only [tagChar_word hM h1, ← h2, Option.bind_eq_bind, Option.bind_some]
  exact ⟨_, rfl⟩

theorem tail_empty_batch (hM : GoodMaps M) {i : Info} (he : i.enc = .ascii) (h : Val M (.info i) []) {g : Nat} (hg : ghost (.info i) = some g) : ∃ e, enTail M (.info i) = some (g, e) ∧ Off (.info i) e := by
  have hn := h.length hM
  simp only [enTail, he]
  rw [hn]
  simp only [Option.bind_eq_bind, Option.bind_some]
  simp only [ghost, he] at hg
  obtain ⟨p, hp, rfl⟩ := Option.map_eq_some_iff.1 hg
  simp only [List.length_nil, dec, if_true, Info.read, hp, Option.bind_some]
  exact ⟨_, rfl, rfl, by simp [isBatch, he]⟩

theorem suffixSlow_eq (hM : GoodMaps M) {s t : Str} {l m : List Nat} (hs : Val M s l) (ht : Val M t m) (rs : (ghost s).isSome) (rt : (ghost t).isSome) (hm : m ≠ [])
    (hu : l = [] → isTagged s = true ∨ isBatch s = true) :
    ∃ b, suffixSlow M s t = some b ∧ (b = true ↔ m <:+ l ∨ ∃ g, Ghost s g ∧ m = g :: l) := by
  have hmp : 0 < m.length := List.length_pos_iff.2 hm
  obtain ⟨g, hg⟩ := Option.isSome_iff_exists.1 rs
  obtain ⟨d, hd⟩ := Option.isSome_iff_exists.1 rt
  have sm := ht.scalar hM
  have gh : (∃ g, Ghost s g ∧ m = g :: l) ↔ m = g :: l := by
    constructor
    · rintro ⟨g', ⟨h, -⟩, h'⟩; rw [hg] at h; cases h; exact h'
    · intro h; exact ⟨g, ⟨hg, by have := (sm g (by simp [h])).1; omega⟩, h⟩
  rw [gh]
  obtain ⟨f, h3, h4⟩ := tail_at hM ht hm
  have hm0 := getD_ne_zero sm (k := m.length - 1) (by omega)
  unfold suffixSlow
  rw [hs.length hM]
  by_cases hl : l = []
  · subst hl
    cases s with
    | tagged w =>
      obtain ⟨e, h1⟩ := tail_empty_internal hM hs
      rw [h1]
      simp only [Option.bind_eq_bind, Option.bind_some]
      rw [h3]
      simp only [Option.bind_some]
      rw [if_neg (Ne.symm hm0)]
      refine ⟨false, rfl, ?_⟩
      simp only [ghost, Option.some.injEq] at hg
      have : m ≠ [g] := by rintro rfl; exact hm0 hg.symm
      simp [hm, this]
    | info i =>
      have hb : isBatch (.info i) = true := (hu rfl).resolve_left (by simp [isTagged])
      have he : i.enc = .ascii := by simpa [isBatch] using hb
      obtain ⟨e, h1, h2⟩ := tail_empty_batch hM he hs hg
      rw [h1]
      simp only [Option.bind_eq_bind, Option.bind_some]
      rw [h3]
      simp only [Option.bind_some]
      by_cases hgm : g = m.getD (m.length - 1) 0
      · rw [if_pos hgm]
        have ho := prev_off_batch (M := M) hb h2
        by_cases h1 : m.length = 1
        · rw [h1] at h4
          obtain ⟨f', h5, h6⟩ := prev_out hM ht h4 hm hd
          rw [samePrev_eq, same2_stop ho h5 (by simp)]
          refine ⟨_, rfl, ?_⟩
          obtain ⟨x, rfl⟩ := List.length_eq_one_iff.1 h1
          have : g = x := hgm
          simp [h6.1, this]
        · obtain ⟨f', h5, h6⟩ := prev_in hM ht (k := m.length - 2) (by rw [show m.length - 2 + 1 = m.length - 1 by omega]; exact h4) (by omega)
          rw [samePrev_eq, same2_stop ho h5 (by simp)]
          refine ⟨_, rfl, ?_⟩
          have := ht.lt.1
          have h7 : m ≠ [g] := by rintro rfl; exact h1 rfl
          have h8 := h6.index
          simp only [hm, List.suffix_nil, h7, or_self, iff_false, decide_eq_true_eq]
          omega
      · rw [if_neg hgm]
        refine ⟨false, rfl, ?_⟩
        have : m ≠ [g] := by rintro rfl; exact hgm rfl
        simp [hm, this]
  · have hlp : 0 < l.length := List.length_pos_iff.2 hl
    obtain ⟨e, h1, h2⟩ := tail_at hM hs hl
    rw [h1]
    simp only [Option.bind_eq_bind, Option.bind_some]
    rw [h3]
    simp only [Option.bind_some]
    by_cases hh : l.getD (l.length - 1) 0 = m.getD (m.length - 1) 0
    · rw [if_pos hh]
      obtain ⟨e', f', h5, h6⟩ := samePrev_tail hM hs ht hl hm hg hd h2 h4 hh
      rw [h5]
      exact ⟨_, rfl, by rw [decide_eq_true_iff, h6]⟩
    · rw [if_neg hh]
      refine ⟨false, rfl, ?_⟩
      constructor
      · intro h; simp at h
      · have key : ∀ x : List Nat, m = x ++ l ∨ l = x ++ m → l.getD (l.length - 1) 0 = m.getD (m.length - 1) 0 := by
          have last : ∀ a b : List Nat, b ≠ [] → (a ++ b).getD ((a ++ b).length - 1) 0 = b.getD (b.length - 1) 0 := by
            intro a b hb
            have := List.length_pos_iff.2 hb
            rw [getD_append_right (by rw [List.length_append]; omega), List.length_append]
            congr 1; omega
          rintro x (rfl | rfl)
          · exact (last x l hl).symm
          · exact last x m hm
        rintro (⟨x, hx⟩ | hx)
        · exact absurd (key x (.inr hx.symm)) hh
        · exact absurd (key [g] (.inl hx)) hh

theorem hasSuffix_eq (hM : GoodMaps M) {s t : Str} {l m : List Nat} (hs : Val M s l) (ht : Val M t m) (rs : (ghost s).isSome) (rt : (ghost t).isSome) {same : Bool} (hsame : same = true → s = t ∧ l = m) (hm : m ≠ [])
    (hu : l = [] → isTagged s = true ∨ isBatch s = true) (hlong : sameSet s t = true → m.length ≤ l.length) :
    ∃ b, hasSuffix M same s t = some b ∧ (b = true ↔ m <:+ l ∨ ∃ g, Ghost s g ∧ m = g :: l) := by
  unfold hasSuffix
  rw [equal_eq hM hs ht (.inl rs) (.inl rt) hsame]
  simp only [Option.bind_eq_bind, Option.bind_some]
  by_cases he : l = m ∧ ¬ Odd s t l
  · rw [if_pos (by simpa using he)]
    exact ⟨true, rfl, by simp [he.1]⟩
  · rw [if_neg (by simpa using he)]
    cases s with
    | info i => exact suffixSlow_eq hM hs ht rs rt hm hu
    | tagged w =>
      cases t with
      | info j => exact suffixSlow_eq hM hs ht rs rt hm hu
      | tagged v =>
        dsimp only
        by_cases hset : setOf w = setOf v
        · rw [if_pos hset]
          replace hlong := hlong (by simp [sameSet, hset])
          obtain ⟨set, ds, h1, rfl, rfl⟩ := hs
          obtain ⟨set', es, h1', rfl, rfl⟩ := ht
          have : set = set' := by rw [← h1.setOf, ← h1'.setOf, hset]
          subst this
          have hne : es ≠ [] := by rintro rfl; exact hm rfl
          rw [chars_length, chars_length] at hlong
          rw [tagSuffix_word h1 h1' hne hlong]
          refine ⟨_, rfl, ?_⟩
          rw [decide_eq_true_iff, chars_suffix hM h1 h1']
          simp [Ghost, ghost]
        · rw [if_neg hset]; exact suffixSlow_eq hM hs ht rs rt hm hu

end
end Verif.Str
