import Verif.StrGroup2
/-!
# Strings (C54, C55, C56, C57, C58)

`Val M s l` says that the string `s` has the characters `l`.  Every function that makes a string establishes it (`C54_create`, `C54_create_with_size`, `C54_constant`, `C54_character`, and the theorems about editing), so it holds for all strings in a program whose texts were well formed; `C54_observe` says what it means for the user.
-/
namespace Verif.Str
open Utf8.Spec (Scalar encode encodeAll)
open Spec (IsFirst replaceAll splitAll)

section
variable {M : Maps}

/-! ## C54: creating and observing -/

/-- What the API shows of a string with the characters `l`: the length, the size in bytes of UTF-8, the characters, what `CCStringCopyCharacters` writes. -/
structure Shows (M : Maps) (s : Str) (l : List Nat) : Prop where
  length : getLength M s = some l.length
  size : getSize M s = some (encodeAll l).length
  charAt : ∀ k, charAt M s k = l[k]?
  copy : ∀ off n, copyCharacters M s off n = if off + n ≤ l.length then some (encodeAll ((l.drop off).take n)) else none

/-- C54.  A string is observed to have exactly its characters, however it is represented; an index or a range that is not in it is an assertion.  The hash is a function of the characters. -/
theorem C54_observe (hM : GoodMaps M) {s : Str} {l : List Nat} (h : Val M s l) :
    Shows M s l ∧ (Safe s ∨ l = [] → getHash M s = some (Spec.oneAtATime (encodeAll l))) := by
  refine ⟨⟨h.length hM, h.size hM, charAt_eq hM h, fun off n => ?_⟩, getHash_eq hM h⟩
  split
  · rename_i hn; exact copyCharacters_eq hM h hn
  · rename_i hn; exact copyCharacters_none hM h hn

/-- The characters are determined by what is observed. -/
theorem C54_unique {s : Str} {l m : List Nat} (h : Shows M s l) (h' : Shows M s m) : l = m := by
  apply List.ext_getElem?
  intro k
  rw [← h.charAt, ← h'.charAt]

/-- C54.  `CCStringCreate`, of a NUL terminated text, in whichever mode. -/
theorem C54_create (hM : GoodMaps M) {e : Enc} {l : List Nat} (hc : ∀ c ∈ l, CharOk e c) (mode : Mode) (pre : Option Nat) (rest : List Nat) (hlen : (bytesOf e l ++ 0 :: rest).length < sizeMax) :
    ∃ s, create M e mode pre (bytesOf e l ++ 0 :: rest) = some s ∧ Val M s l ∧ (mode = .copy ∨ e = .utf8 ∨ pre.isSome → Safe s) :=
  create_eq hM hc (by simpa using hlen)

/-- C54.  `CCStringCreateWithSize`, with the size of the text; unless it is copied, the text must be followed by something, and terminated by a NUL: at once if it is UTF-8. -/
theorem C54_create_with_size (hM : GoodMaps M) {e : Enc} {l : List Nat} (hc : ∀ c ∈ l, CharOk e c) (mode : Mode) (pre : Option Nat) (rest : List Nat) (hlen : (bytesOf e l ++ rest).length + 1 < sizeMax)
    (hrest : mode ≠ .copy → 0 ∈ rest ∧ (e = .utf8 → rest.head? = some 0)) :
    ∃ s, createWithSize M e mode pre (bytesOf e l ++ rest) (bytesOf e l).length = some s ∧ Val M s l ∧ (mode = .copy ∨ e = .utf8 ∨ pre.isSome → Safe s) := by
  rw [List.length_append] at hlen
  refine createFromString_eq hM hc (fun h => ?_) (by omega) (by omega)
  obtain ⟨h1, h2⟩ := hrest h
  cases rest with
  | nil => simp at h1
  | cons x r =>
    refine ⟨x, r, rfl, ?_, fun _ => h1⟩
    rintro (h | h)
    · simpa using h2 h
    · simp at h

/-- C54.  A constant string. -/
theorem C54_constant {e : Enc} {l : List Nat} (hc : ∀ c ∈ l, CharOk e c) (hlen : (bytesOf e l).length + 1 < sizeMax) : Val M (constant e (bytesOf e l)) l ∧ Safe (constant e (bytesOf e l)) := by
  refine ⟨⟨by simpa [constant] using hlen, ?_⟩, by cases e <;> rfl⟩
  cases e with
  | ascii => exact ⟨hc, ⟨0, [], rfl, fun _ => rfl⟩, .inr ⟨rfl, rfl⟩, .inr rfl⟩
  | utf8 => exact ⟨hc, ⟨[], rfl⟩, rfl, .inr rfl, .inr rfl⟩

theorem charTagged_eq (hM : GoodMaps M) {c : Nat} (hc : Scalar c) : ∀ n, n ≤ 3 → ∃ r, charTagged M c n = some r ∧
    match r with
    | some w => Val M (.tagged w) [c]
    | none => True := by
  intro n
  induction n with
  | zero => intro _; exact ⟨none, rfl, trivial⟩
  | succ n ih =>
    intro hn
    obtain ⟨r, hr, hs⟩ := charInMap_spec hM (set := n + 1) (by omega) hn c
    rw [charTagged, hr]
    simp only [Option.bind_eq_bind, Option.bind_some]
    cases r with
    | none => exact ih (by omega)
    | some d =>
      dsimp only at hs ⊢
      have hd0 : 0 < d := digit_pos hM (by omega) hn hs.2 (by have := hc.1; omega)
      have hD : Digits (n + 1) [] := ⟨by omega, hn, by simp, by simp⟩
      have hb := bits_max (set := n + 1) (by omega) hn
      have hpos : 0 < charMax (n + 1) := by rcases sets (set := n + 1) (by omega) hn with h | h | h <;> rw [h] <;> decide
      obtain ⟨x, h1, h2, h3⟩ := place_word hD ⟨hd0, hs.1⟩ (by simpa using hpos)
      have hms : mapSize (n + 1) ≤ 127 := by rcases sets (set := n + 1) (by omega) hn with h | h | h <;> rw [h] <;> decide
      have hdl : d < 127 := by omega
      rw [place, List.length_nil, Nat.mul_zero, shl_some (by omega) (by omega)] at h1
      simp only [Nat.pow_zero, Nat.mul_one, Option.bind_eq_bind, Option.bind_some] at h1
      rw [h1]
      rw [word_nil] at h2
      simp only [Option.bind_some]
      rw [h2]
      exact ⟨_, rfl, ⟨n + 1, [d], h3, rfl, by simp only [chars, List.map_cons, List.map_nil]; rw [hs.2]⟩⟩

/-- C54.  `CCStringCreateWithCharacter` -/
theorem C54_character (hM : GoodMaps M) {c : Nat} (hc : Scalar c) : ∃ s, createWithCharacter M c = some s ∧ Val M s [c] ∧ Safe s := by
  obtain ⟨r, hr, hs⟩ := charTagged_eq hM hc 3 (Nat.le_refl 3)
  rw [createWithCharacter, hr]
  simp only [Option.bind_eq_bind, Option.bind_some]
  cases r with
  | some w => exact ⟨_, rfl, hs, rfl⟩
  | none =>
    dsimp only
    have h1 := Utf8.size_eq hc
    have h2 : encodeAll [c] = encode c := by simp [encodeAll]
    have h3 : Utf8.charSize c ≤ 4 := by unfold Utf8.charSize; (repeat' split) <;> omega
    have h4 := hc.1
    by_cases h : Utf8.charSize c > 1
    · rw [if_pos h, if_pos (by omega)]
      refine ⟨_, rfl, ⟨?_, ?_⟩, rfl⟩
      · rw [Utf8.copyChar_eq hc, List.length_append, h1]; simp [sizeMax]; omega
      · exact ⟨by simpa using hc, ⟨[], by rw [h2, Utf8.copyChar_eq hc]⟩, rfl, .inl (by rw [h2, h1]), .inl rfl⟩
    · rw [if_neg h]
      have h5 : c < 128 := by
        unfold Utf8.charSize at h
        rw [if_neg (by omega)] at h
        by_cases h6 : c < 128
        · exact h6
        · exfalso; revert h; rw [if_neg h6]; (repeat' split) <;> omega
      have h6 : Utf8.charSize c = 1 := by
        unfold Utf8.charSize; rw [if_neg (by omega), if_pos h5]
      refine ⟨_, rfl, ⟨by simp [sizeMax], ?_⟩, rfl⟩
      exact ⟨by simp; omega, ⟨0, [], by rw [Nat.mod_eq_of_lt (by omega)]; rfl, fun _ => rfl⟩, .inl (by rw [h6]; rfl), .inl (by rw [h6]; rfl)⟩

/-- C54.  `CCStringEqual`, exactly: whether the characters are the same, except that two empty strings, of which the first is an ASCII string that is not tagged and the second is tagged, are called different.  `same`: the two are the same pointer. -/
theorem C54_equal_exact (hM : GoodMaps M) {s t : Str} {l m : List Nat} (hs : Val M s l) (ht : Val M t m) (rs : Safe s) (rt : Safe t) {same : Bool} (hsame : same = true → s = t) :
    equal M same s t = some (decide (l = m ∧ ¬ Odd s t l)) :=
  equal_eq hM hs ht (.inl rs) (.inl rt) fun h => by
    obtain rfl := hsame h
    exact ⟨rfl, C54_unique (C54_observe hM hs).1 (C54_observe hM ht).1⟩

/-- C54, equality, for strings that are not both empty or of which the first is not one of the bad kind.  Missing: see `C54_equal_refuted`. -/
theorem C54_equal_partial (hM : GoodMaps M) {s t : Str} {l m : List Nat} (hs : Val M s l) (ht : Val M t m) (rs : Safe s) (rt : Safe t) {same : Bool} (hsame : same = true → s = t)
    (hne : l ≠ [] ∨ m ≠ [] ∨ isBatch s = false) : equal M same s t = some (decide (l = m)) := by
  rw [C54_equal_exact hM hs ht rs rt hsame]
  congr 1
  rw [decide_eq_decide]
  refine ⟨And.left, fun e => ⟨e, ?_⟩⟩
  rintro ⟨h1, h2, h3⟩
  subst e
  rcases hne with h | h | h
  · exact h h1
  · exact h h1
  · rw [h] at h2; simp at h2

end

/-- `CCStringEqual(CC_STRING(""), CCStringCreate("", ...))` is false; with the arguments swapped it is true. -/
theorem C54_equal_refuted : ∃ s t, Val defaultMaps s [] ∧ Val defaultMaps t [] ∧ Safe s ∧ Safe t ∧
    equal defaultMaps false s t = some false ∧ equal defaultMaps false t s = some true := by
  have h1 := C54_constant (M := defaultMaps) (e := .ascii) (l := []) (by simp) (by simp [bytesOf, sizeMax])
  obtain ⟨t, h2, h3, h4⟩ := C54_create goodMaps_default (e := .ascii) (l := []) (by simp) .copy none [] (by simp [bytesOf, sizeMax])
  have h5 : create defaultMaps .ascii .copy none (bytesOf .ascii [] ++ [0]) = some (.tagged 3) := by decide +kernel
  rw [h5] at h2
  cases h2
  exact ⟨_, _, h1.1, h3, h1.2, rfl, by decide +kernel, by decide +kernel⟩

/-- Three ways to have "Grüße": a constant, a buffer that is copied, and one that is used.  A tagged string, and an ASCII string that is too long to be tagged. -/
example : (∀ c ∈ [71, 114, 252, 223, 101], CharOk .utf8 c) ∧
    Val defaultMaps (constant .utf8 (bytesOf .utf8 [71, 114, 252, 223, 101])) [71, 114, 252, 223, 101] ∧
    (create defaultMaps .utf8 .copy none (bytesOf .utf8 [71, 114, 252, 223, 101] ++ [0])).map isTagged = some false ∧
    (create defaultMaps .ascii .ref none [104, 105, 0]).map isTagged = some true ∧
    (create defaultMaps .ascii .take (some 7) (List.replicate 20 65 ++ [0])).map isTagged = some false := by
  have h : ∀ c ∈ [71, 114, 252, 223, 101], CharOk .utf8 c := by simp only [CharOk]; decide
  exact ⟨h, (C54_constant h (by decide)).1, by decide +kernel, by decide +kernel, by decide +kernel⟩

/-! ## C55: editing -/

section
variable {M : Maps} (hdr : Nat)

/-- C55.  A copy has the same characters; a substring has those of the range; without a range, the others; after inserting, the inserted ones are at the index. -/
theorem C55_edit (hM : GoodMaps M) {s : Str} {l : List Nat} (hs : Val M s l) :
    (∃ r, copy M s = some r ∧ Val M r l ∧ (Safe s → Safe r)) ∧
    (∀ off n, off + n ≤ l.length → ∃ r, copySubstring M hdr s off n = some r ∧ Val M r ((l.drop off).take n) ∧ Safe r) ∧
    (∀ off n, off + n ≤ l.length → ∃ r, without M hdr s off n = some r ∧ Val M r (l.take off ++ l.drop (off + n)) ∧ (Safe s → Safe r)) ∧
    (∀ i t m, Val M t m → i ≤ l.length → (encodeAll l).length + (encodeAll m).length + 1 < sizeMax → ∃ r, insert M hdr s i t = some r ∧ Val M r (l.take i ++ m ++ l.drop i) ∧ Safe r) :=
  ⟨copy_eq hM hs, fun _ _ h => copySubstring_eq hM hdr hs h, fun _ _ h => without_eq hM hdr hs h, fun _ _ _ ht hi hl => insert_eq hM hdr hs ht hi hl⟩

/-- C55.  Positions that are not in the string are assertions. -/
theorem C55_edit_none (hM : GoodMaps M) {s : Str} {l : List Nat} (hs : Val M s l) :
    (∀ off n, l.length < off + n → copySubstring M hdr s off n = none ∧ without M hdr s off n = none) ∧ ∀ i t, l.length < i → insert M hdr s i t = none := by
  refine ⟨fun off n h => ⟨?_, ?_⟩, fun i t h => ?_⟩
  · unfold copySubstring; rw [hs.length hM]; simp only [Option.bind_eq_bind, Option.bind_some]; rw [if_neg (by omega)]
  · unfold without; rw [hs.length hM]; simp only [Option.bind_eq_bind, Option.bind_some]; rw [if_neg (by omega)]
  · unfold insert; rw [hs.length hM]; simp only [Option.bind_eq_bind, Option.bind_some]; rw [if_neg (by omega)]

/-- C55.  Joining strings, with or without a string between each two. -/
theorem C55_join (hM : GoodMaps M) {sep : Option Str} {x : List Nat} (hx : ValMaybe M sep x) {ts : List Str} {ms : List (List Nat)} (h : Vals M ts ms) (hlen : (encodeAll (x.intercalate ms)).length + 1 < sizeMax) :
    ∃ r, join M hdr ts sep = some r ∧ Val M r (x.intercalate ms) ∧ ((∀ t ∈ ts, Safe t) → Safe r) :=
  join_eq hM hdr hx h hlen

end

/-- "hello" as a tagged string, "Grüße" as a constant. -/
theorem hello : Val defaultMaps (.tagged (word 3 [12, 9, 16, 16, 19])) [104, 101, 108, 108, 111] := ⟨3, _, ⟨by omega, by omega, by decide, by decide⟩, rfl, by decide⟩

theorem gruesse : Val defaultMaps (constant .utf8 (bytesOf .utf8 [71, 114, 252, 223, 101])) [71, 114, 252, 223, 101] :=
  (C54_constant (by simp only [CharOk]; decide) (by decide)).1

/-- Inserting one in the other, and joining them, is within the hypotheses. -/
example : (∃ r, insert defaultMaps 0 (.tagged (word 3 [12, 9, 16, 16, 19])) 2 (constant .utf8 (bytesOf .utf8 [71, 114, 252, 223, 101])) = some r ∧ Val defaultMaps r [104, 101, 71, 114, 252, 223, 101, 108, 108, 111]) ∧
    ∃ r, join defaultMaps 0 [.tagged (word 3 [12, 9, 16, 16, 19]), constant .utf8 (bytesOf .utf8 [71, 114, 252, 223, 101])] none = some r ∧ Val defaultMaps r [104, 101, 108, 108, 111, 71, 114, 252, 223, 101] := by
  constructor
  · obtain ⟨r, h1, h2, -⟩ := (C55_edit 0 goodMaps_default hello).2.2.2 2 _ _ gruesse (by decide) (by decide)
    exact ⟨r, h1, h2⟩
  · obtain ⟨r, h1, h2, -⟩ := C55_join 0 goodMaps_default (sep := none) (x := []) rfl (ts := [_, _]) (ms := [_, _]) ⟨hello, gruesse, trivial⟩ (by decide)
    exact ⟨r, h1, h2⟩

/-! ## C56: searching -/

section
variable {M : Maps}

/-- C56.  `CCStringFindSubstring`, exactly: the first occurrence at or after the index, if there is one, except in the case `Missed`, where one is not found although there is one: both strings are tagged and of the same set, the search is from 0, the string has the largest length the set allows and the only occurrence is at its very end. -/
theorem C56_find_exact (hM : GoodMaps M) {s t : Str} {l m : List Nat} (hs : Val M s l) (ht : Val M t m) {i : Nat} (hi : i ≤ l.length) (hm : m ≠ []) :
    ∃ r, find M s i t = some r ∧ (¬ Missed s t l m i → IsFirst l m i r) ∧ (Missed s t l m i → r = none ∧ IsFirst l m i (some (l.length - m.length))) := by
  obtain ⟨r, h1, h2⟩ := find_eq hM hs ht hi hm
  refine ⟨r, h1, ?_⟩
  rcases h2 with ⟨h2, h3⟩ | ⟨h2, h3⟩
  · exact ⟨fun _ => h2, fun h => absurd h h3⟩
  · refine ⟨fun h => absurd h3 h, fun _ => ⟨h2, ?_⟩⟩
    obtain ⟨-, rfl, -, h4⟩ := h3
    exact h4

/-- C56.  `CCStringFindSubstring` finds the first occurrence at or after the index, unless that is at the end and both strings are tagged or the substring is empty.  Missing: see `C56_find_refuted`, `C56_find_empty`. -/
theorem C56_find_partial (hM : GoodMaps M) {s t : Str} {l m : List Nat} (hs : Val M s l) (ht : Val M t m) {i : Nat} (hi : i ≤ l.length) (hm : m ≠ []) (h : isTagged t = false ∨ ¬ m <:+ l ∨ i ≠ 0) :
    ∃ r, find M s i t = some r ∧ IsFirst l m i r := by
  obtain ⟨r, h1, h2, -⟩ := C56_find_exact hM hs ht hi hm
  exact ⟨r, h1, h2 (not_missed_of h)⟩

/-- C56.  The empty string is not found; for two tagged strings of the same set the behaviour is undefined (a shift by 64). -/
theorem C56_find_empty (hM : GoodMaps M) {s t : Str} {l : List Nat} (hs : Val M s l) (ht : Val M t []) {i : Nat} (hi : i ≤ l.length) :
    find M s i t = if sameSet s t = true ∧ l ≠ [] then none else some none := find_empty hM hs ht hi

/-- C56.  `CCStringHasPrefix` of a prefix that is not empty, exactly.  The enumerator of an ASCII string that is not tagged gives the byte before its characters at the end, so that a string followed by this byte is called a prefix of it. -/
theorem C56_prefix_exact (hM : GoodMaps M) {s t : Str} {l m : List Nat} (hs : Val M s l) (ht : Val M t m) (rs : Safe s) (rt : Safe t) {same : Bool} (hsame : same = true → s = t) (hm : m ≠ []) :
    ∃ b, hasPrefix M same s t = some b ∧ (b = true ↔ m <+: l ∨ l ≠ [] ∧ ∃ g, Ghost s g ∧ m = l ++ [g]) :=
  hasPrefix_eq hM hs ht (.inl rs) (.inl rt) (fun h => by
    obtain rfl := hsame h
    exact ⟨rfl, C54_unique (C54_observe hM hs).1 (C54_observe hM ht).1⟩) hm

/-- C56.  `CCStringHasSuffix` of a suffix that is not empty, exactly, where the behaviour is defined: not for an empty UTF-8 string that is not tagged, and not for tagged strings of the same set with the suffix longer than the string. -/
theorem C56_suffix_exact (hM : GoodMaps M) {s t : Str} {l m : List Nat} (hs : Val M s l) (ht : Val M t m) (rs : Safe s) (rt : Safe t) {same : Bool} (hsame : same = true → s = t) (hm : m ≠ [])
    (hu : l = [] → isTagged s = true ∨ isBatch s = true) (hlong : sameSet s t = true → m.length ≤ l.length) :
    ∃ b, hasSuffix M same s t = some b ∧ (b = true ↔ m <:+ l ∨ ∃ g, Ghost s g ∧ m = g :: l) :=
  hasSuffix_eq hM hs ht rs rt (fun h => by
    obtain rfl := hsame h
    exact ⟨rfl, C54_unique (C54_observe hM hs).1 (C54_observe hM ht).1⟩) hm hu hlong

/-- C56.  Prefix and suffix, for a string whose enumerator gives 0 at the end: tagged, UTF-8, constant, or copied.  Missing: see `C56_prefix_refuted`, `C56_suffix_refuted`. -/
theorem C56_prefix_suffix_partial (hM : GoodMaps M) {s t : Str} {l m : List Nat} (hs : Val M s l) (ht : Val M t m) (rs : ghost s = some 0) (rt : Safe t) {same : Bool} (hsame : same = true → s = t) (hm : m ≠ []) (hlen : m.length ≤ l.length) :
    (∃ b, hasPrefix M same s t = some b ∧ (b = true ↔ m <+: l)) ∧ ∃ b, hasSuffix M same s t = some b ∧ (b = true ↔ m <:+ l) := by
  have hS : Safe s := by rw [Safe, rs]; rfl
  have hg : ∀ g, ¬ Ghost s g := fun g h => h.2 (by have := h.1; rw [rs] at this; exact (Option.some.inj this).symm)
  have hmp : 0 < m.length := List.length_pos_iff.2 hm
  obtain ⟨b, h1, h2⟩ := C56_prefix_exact hM hs ht hS rt hsame hm
  obtain ⟨b', h3, h4⟩ := C56_suffix_exact hM hs ht hS rt hsame hm (fun e => by rw [e, List.length_nil] at hlen; omega) (fun _ => hlen)
  exact ⟨⟨b, h1, by rw [h2]; simp [hg]⟩, ⟨b', h3, by rw [h4]; simp [hg]⟩⟩

end

/-- The letters a to l, and l: both tagged, of the set of 12 characters. -/
theorem atol : Val defaultMaps (.tagged (word 3 [5, 6, 7, 8, 9, 10, 11, 12, 13, 14, 15, 16])) [97, 98, 99, 100, 101, 102, 103, 104, 105, 106, 107, 108] := ⟨3, _, ⟨by omega, by omega, by decide, by decide⟩, rfl, by decide⟩

theorem justl : Val defaultMaps (.tagged (word 3 [16])) [108] := ⟨3, _, ⟨by omega, by omega, by decide, by decide⟩, rfl, by decide⟩

theorem first_atol : IsFirst [97, 98, 99, 100, 101, 102, 103, 104, 105, 106, 107, 108] [108] 0 (some 11) :=
  ⟨by decide, by decide, fun k _ h => (by decide : ∀ k, k < 11 → ¬ [108] <+: [97, 98, 99, 100, 101, 102, 103, 104, 105, 106, 107, 108].drop k) k h⟩

/-- "l" is not found in "abcdefghijkl" from 0, though it is from 1. -/
theorem C56_find_refuted : ∃ s t l m, Val defaultMaps s l ∧ Val defaultMaps t m ∧ m ≠ [] ∧ find defaultMaps s 0 t = some none ∧ IsFirst l m 0 (some 11) ∧ find defaultMaps s 1 t = some (some 11) :=
  ⟨_, _, _, _, atol, justl, by decide, by decide +kernel, first_atol, by decide +kernel⟩

/-- The string "x,yyyyyyyy" in a buffer that was given away, with the byte 65 before it, "has" the prefix "x,yyyyyyyyA". -/
theorem C56_prefix_refuted : ∃ s t l m, create defaultMaps .ascii .take (some 65) ([120, 44] ++ List.replicate 8 121 ++ [0]) = some s ∧ Val defaultMaps s l ∧ Val defaultMaps t m ∧ m ≠ [] ∧
    hasPrefix defaultMaps false s t = some true ∧ ¬ m <+: l := by
  obtain ⟨s, h1, h2, -⟩ := C54_create goodMaps_default (e := .ascii) (l := [120, 44] ++ List.replicate 8 121) (by simp only [CharOk]; decide) .take (some 65) [] (by decide)
  obtain ⟨t, h3, h4, -⟩ := C54_create goodMaps_default (e := .ascii) (l := [120, 44] ++ List.replicate 8 121 ++ [65]) (by simp only [CharOk]; decide) .copy none [] (by decide)
  have e1 : create defaultMaps .ascii .take (some 65) (bytesOf .ascii ([120, 44] ++ List.replicate 8 121) ++ [0]) = some (.info ⟨.ascii, some 10, some 10, true, false, some 65, [120, 44] ++ List.replicate 8 121 ++ [0]⟩) := by decide +kernel
  have e2 : create defaultMaps .ascii .copy none (bytesOf .ascii ([120, 44] ++ List.replicate 8 121 ++ [65]) ++ [0]) = some (.info ⟨.ascii, some 11, some 11, true, false, some 0, [120, 44] ++ List.replicate 8 121 ++ [65, 0]⟩) := by decide +kernel
  rw [e1] at h1
  rw [e2] at h3
  cases h1
  cases h3
  exact ⟨_, _, _, _, e1, h2, h4, by decide, by decide +kernel, by decide⟩

/-- The same string "has" the suffix "Ax,yyyyyyyy". -/
theorem C56_suffix_refuted : ∃ s t l m, create defaultMaps .ascii .take (some 65) ([120, 44] ++ List.replicate 8 121 ++ [0]) = some s ∧ Val defaultMaps s l ∧ Val defaultMaps t m ∧ m ≠ [] ∧
    hasSuffix defaultMaps false s t = some true ∧ ¬ m <:+ l := by
  obtain ⟨s, h1, h2, -⟩ := C54_create goodMaps_default (e := .ascii) (l := [120, 44] ++ List.replicate 8 121) (by simp only [CharOk]; decide) .take (some 65) [] (by decide)
  obtain ⟨t, h3, h4, -⟩ := C54_create goodMaps_default (e := .ascii) (l := [65, 120, 44] ++ List.replicate 8 121) (by simp only [CharOk]; decide) .copy none [] (by decide)
  have e1 : create defaultMaps .ascii .take (some 65) (bytesOf .ascii ([120, 44] ++ List.replicate 8 121) ++ [0]) = some (.info ⟨.ascii, some 10, some 10, true, false, some 65, [120, 44] ++ List.replicate 8 121 ++ [0]⟩) := by decide +kernel
  have e2 : create defaultMaps .ascii .copy none (bytesOf .ascii ([65, 120, 44] ++ List.replicate 8 121) ++ [0]) = some (.info ⟨.ascii, some 11, some 11, true, false, some 0, [65, 120, 44] ++ List.replicate 8 121 ++ [0]⟩) := by decide +kernel
  rw [e1] at h1
  rw [e2] at h3
  cases h1
  cases h3
  exact ⟨_, _, _, _, e1, h2, h4, by decide, by decide +kernel, by decide⟩

/-- For tagged strings of the same set, a longer suffix makes the code shift by a huge number. -/
theorem C56_suffix_undefined : ∃ s t l m, Val defaultMaps s l ∧ Val defaultMaps t m ∧ hasSuffix defaultMaps false s t = none :=
  ⟨_, _, _, _, justl, atol, by decide +kernel⟩

/-- "lo" in "hello": the hypotheses of the theorems above are met. -/
example : (∃ r, find defaultMaps (.tagged (word 3 [12, 9, 16, 16, 19])) 1 (.tagged (word 3 [16, 19])) = some r ∧ IsFirst [104, 101, 108, 108, 111] [108, 111] 1 r) ∧
    find defaultMaps (.tagged (word 3 [12, 9, 16, 16, 19])) 1 (.tagged (word 3 [16, 19])) = some (some 3) ∧
    hasSuffix defaultMaps false (.tagged (word 3 [12, 9, 16, 16, 19])) (.tagged (word 3 [16, 19])) = some true := by
  have h : Val defaultMaps (.tagged (word 3 [16, 19])) [108, 111] := ⟨3, _, ⟨by omega, by omega, by decide, by decide⟩, rfl, by decide⟩
  exact ⟨C56_find_partial goodMaps_default hello h (by decide) (by decide) (.inr (.inr (by decide))), by decide +kernel, by decide +kernel⟩

/-! ## C57: replacing and splitting -/

section
variable {M : Maps} (hdr : Nat)

/-- C57.  Replacing every occurrence of a string, from the left, by another (or by nothing, if null); what was inserted is not searched.  Missing: tagged strings that are at the end of the string, see `C57_replace_refuted`; the empty string. -/
theorem C57_replace_partial (hM : GoodMaps M) {s occ : Str} {l m : List Nat} (hs : Val M s l) (ho : Val M occ m) (hm : m ≠ []) {rep : Option Str} {x : List Nat} (hx : ValMaybe M rep x)
    (hno : isTagged occ = false ∨ ¬ m <:+ l ∨ (x ≠ [] ∧ ¬ Missed s occ l m 0)) (hlen : (encodeAll l).length + l.length * (encodeAll x).length + 1 < sizeMax) :
    ∃ r, replace M hdr s occ rep = some r ∧ Val M r (replaceAll [(m, x)] l) ∧ (Safe s → Safe r) :=
  replace_eq hM hdr hs ho hm hx hno hlen

/-- C57.  The same with several strings, each with its replacement; where several occur at the same place the first in the list counts. -/
theorem C57_replace_grouped_partial (hM : GoodMaps M) {s : Str} {l : List Nat} (hs : Val M s l) {occs : List Str} {reps : List (Option Str)} {ps : List (List Nat × List Nat)} (ho : Vals M occs (ps.map Prod.fst)) (hr : ValsMaybe M reps (ps.map Prod.snd))
    (hne : ∀ p ∈ ps, p.1 ≠ []) {big : Nat} (hbig : ∀ p ∈ ps, (encodeAll p.2).length ≤ big) (hno : NoTail l occs (ps.map Prod.fst) ∨ NoMiss s l 0 occs (ps.map Prod.fst) ∧ ∀ x ∈ ps, x.2 ≠ [])
    (hlen : (encodeAll l).length + l.length * big + 1 < sizeMax) :
    ∃ r, replaceGrouped M hdr s occs reps = some r ∧ Val M r (replaceAll ps l) ∧ (Safe s → Safe r) :=
  replaceGrouped_eq hM hdr hs ho hr hne hbig hno hlen

/-- C57.  Splitting at every occurrence of a string.  Missing: the case `Missed`, see `C57_split_refuted`; the empty string. -/
theorem C57_split_partial (hM : GoodMaps M) {s occ : Str} {l m : List Nat} (hs : Val M s l) (ho : Val M occ m) (hm : m ≠ []) (hnm : ¬ Missed s occ l m 0) :
    ∃ rs, split M hdr s occ = some rs ∧ Vals M rs (splitAll [m] l) ∧ (Safe s → ∀ r ∈ rs, Safe r) :=
  split_eq hM hdr hs ho hm hnm

/-- C57.  The same with several strings. -/
theorem C57_split_grouped_partial (hM : GoodMaps M) {s : Str} {l : List Nat} (hs : Val M s l) {occs : List Str} {ms : List (List Nat)} (ho : Vals M occs ms) (hne : ∀ m ∈ ms, m ≠ []) (hnm : NoMiss s l 0 occs ms) :
    ∃ rs, splitGrouped M hdr s occs = some rs ∧ Vals M rs (splitAll ms l) ∧ (Safe s → ∀ r ∈ rs, Safe r) :=
  splitGrouped_eq hM hdr hs ho hne hnm

/-- C57.  In the case `Missed` nothing is replaced, and the string is not split. -/
theorem C57_missed (hM : GoodMaps M) {s occ : Str} {l m : List Nat} (hs : Val M s l) (ho : Val M occ m) (hm : m ≠ []) (h : Missed s occ l m 0) :
    (∀ rep, replace M hdr s occ rep = some s) ∧ split M hdr s occ = some [s] :=
  ⟨fun rep => replace_missed hM hdr hs ho hm rep h, split_missed hM hdr hs ho hm h⟩

end

theorem missed_atol : Missed (.tagged (word 3 [5, 6, 7, 8, 9, 10, 11, 12, 13, 14, 15, 16])) (.tagged (word 3 [16])) [97, 98, 99, 100, 101, 102, 103, 104, 105, 106, 107, 108] [108] 0 :=
  ⟨by decide, rfl, ⟨_, rfl, by decide⟩, first_atol⟩

/-- Splitting "abcdefghijkl" at "l" gives one piece, "abcdefghijkl"; replacing "l" by "h" does nothing. -/
theorem C57_split_refuted : ∃ s t l m, Val defaultMaps s l ∧ Val defaultMaps t m ∧ split defaultMaps 0 s t = some [s] ∧ splitAll [m] l = [[97, 98, 99, 100, 101, 102, 103, 104, 105, 106, 107], []] :=
  ⟨_, _, _, _, atol, justl, (C57_missed 0 goodMaps_default atol justl (by decide) missed_atol).2, by decide +kernel⟩

theorem C57_replace_refuted : ∃ s t l m, Val defaultMaps s l ∧ Val defaultMaps t m ∧ replace defaultMaps 0 s t none = some s ∧ replaceAll [(m, [])] l ≠ l :=
  ⟨_, _, _, _, atol, justl, (C57_missed 0 goodMaps_default atol justl (by decide) missed_atol).1 _, by decide +kernel⟩

/-- Replacing "l" in "hello" by "Grüße", and splitting "hello" at it. -/
example : (∃ r, replace defaultMaps 0 (.tagged (word 3 [12, 9, 16, 16, 19])) (.tagged (word 3 [16])) (some (constant .utf8 (bytesOf .utf8 [71, 114, 252, 223, 101]))) = some r ∧
      Val defaultMaps r [104, 101, 71, 114, 252, 223, 101, 71, 114, 252, 223, 101, 111]) ∧
    ∃ rs, split defaultMaps 0 (.tagged (word 3 [12, 9, 16, 16, 19])) (.tagged (word 3 [16])) = some rs ∧ Vals defaultMaps rs [[104, 101], [], [111]] := by
  have h1 : replaceAll [([108], [71, 114, 252, 223, 101])] [104, 101, 108, 108, 111] = [104, 101, 71, 114, 252, 223, 101, 71, 114, 252, 223, 101, 111] := by decide +kernel
  have h2 : splitAll [[108]] [104, 101, 108, 108, 111] = [[104, 101], [], [111]] := by decide +kernel
  constructor
  · obtain ⟨r, h3, h4, -⟩ := C57_replace_partial 0 goodMaps_default hello justl (by decide) (rep := some _) (x := [71, 114, 252, 223, 101]) (show ValMaybe defaultMaps (some (constant .utf8 (bytesOf .utf8 [71, 114, 252, 223, 101]))) _ from gruesse) (.inr (.inl (by decide))) (by decide)
    exact ⟨r, h3, h1 ▸ h4⟩
  · obtain ⟨r, h3, h4, -⟩ := C57_split_partial 0 goodMaps_default hello justl (by decide) (not_missed_of (.inr (.inl (by decide))))
    exact ⟨r, h3, h2 ▸ h4⟩

/-- Two at once: "l" by nothing and "he" by "l". -/
example : ∃ r, replaceGrouped defaultMaps 0 (.tagged (word 3 [12, 9, 16, 16, 19])) [.tagged (word 3 [16]), .tagged (word 3 [12, 9])] [none, some (.tagged (word 3 [16]))] = some r ∧ Val defaultMaps r [108, 111] := by
  have he : Val defaultMaps (.tagged (word 3 [12, 9])) [104, 101] := ⟨3, _, ⟨by omega, by omega, by decide, by decide⟩, rfl, by decide⟩
  have h1 : replaceAll [([108], []), ([104, 101], [108])] [104, 101, 108, 108, 111] = [108, 111] := by decide +kernel
  obtain ⟨r, h3, h4, -⟩ := C57_replace_grouped_partial 0 goodMaps_default hello (occs := [_, _]) (reps := [none, some _]) (ps := [([108], []), ([104, 101], [108])]) ⟨justl, he, trivial⟩ ⟨rfl, show ValMaybe defaultMaps (some (.tagged (word 3 [16]))) _ from justl, trivial⟩ (by decide) (big := 1) (by decide)
    (.inl ⟨.inr (by decide), .inr (by decide), trivial⟩) (by decide)
  exact ⟨r, h3, h1 ▸ h4⟩

/-! ## C58: the enumerator -/

section
variable {M : Maps}

/-- The moves of an enumerator: `true` is `CCStringEnumeratorNext`, `false` is `CCStringEnumeratorPrevious`.  The last character returned, and the enumerator. -/
def walk (M : Maps) (s : Str) : Nat × Cursor → List Bool → Option (Nat × Cursor)
  | x, [] => some x
  | (_, e), b :: bs => do walk M s (← if b then enNext M s e else enPrev M s e) bs

/-- The position after the moves, from `k`, in a text of `n` characters, if they never leave it. -/
def position (n k : Nat) : List Bool → Option Nat
  | [] => some k
  | true :: bs => if k + 1 < n then position n (k + 1) bs else none
  | false :: bs => if 0 < k then position n (k - 1) bs else none

theorem walk_at (hM : GoodMaps M) {s : Str} {l : List Nat} (h : Val M s l) : ∀ (bs : List Bool) {e : Cursor} {k j : Nat}, At s l e k → k < l.length → position l.length k bs = some j →
    ∃ e', walk M s (l.getD k 0, e) bs = some (l.getD j 0, e') ∧ At s l e' j ∧ j < l.length := by
  intro bs
  induction bs with
  | nil => intro e k j ha hk hp; cases hp; exact ⟨e, rfl, ha, hk⟩
  | cons b bs ih =>
    intro e k j ha hk hp
    cases b with
    | true =>
      rw [position] at hp
      split at hp
      · rename_i h1
        obtain ⟨e', h2, h3⟩ := next_in hM h ha h1
        rw [walk, if_pos rfl, h2]
        exact ih h3 h1 hp
      · simp at hp
    | false =>
      rw [position] at hp
      split at hp
      · rename_i h1
        obtain ⟨k, rfl⟩ : ∃ k', k = k' + 1 := ⟨k - 1, by omega⟩
        obtain ⟨e', h2, h3⟩ := prev_in hM h ha hk
        rw [walk, if_neg (by simp), h2]
        exact ih h3 (by omega) hp
      · simp at hp

/-- C58.  From the head or the tail, after any moves that stay inside, the enumerator is at the character of its position: the last move returned it, it is the current one, and the index is right. -/
theorem C58_walk (hM : GoodMaps M) {s : Str} {l : List Nat} (h : Val M s l) (hl : l ≠ []) (fromTail : Bool) {bs : List Bool} {j : Nat} (hp : position l.length (if fromTail then l.length - 1 else 0) bs = some j) :
    ∃ x c e, (if fromTail then enTail M s else enHead M s) = some x ∧ walk M s x bs = some (c, e) ∧ l[j]? = some c ∧ enCurrent s e = some c ∧ e.index = j := by
  have hpos : 0 < l.length := List.length_pos_iff.2 hl
  have key : ∀ k e, At s l e k → k < l.length → position l.length k bs = some j → ∃ c e', walk M s (l.getD k 0, e) bs = some (c, e') ∧ l[j]? = some c ∧ enCurrent s e' = some c ∧ e'.index = j := by
    intro k e h1 h2 h3
    obtain ⟨e', h4, h5, h6⟩ := walk_at hM h bs h1 h2 h3
    exact ⟨_, e', h4, by rw [List.getElem?_eq_getElem h6, getD_of_lt h6], current_at hM h h5 (.inl h6), h5.index⟩
  cases fromTail with
  | true =>
    obtain ⟨e, h1, h2⟩ := tail_at hM h hl
    obtain ⟨c, e', h3, h4⟩ := key _ e h2 (by omega) hp
    exact ⟨_, c, e', h1, h3, h4⟩
  | false =>
    obtain ⟨e, h1, h2⟩ := head_at hM h
    obtain ⟨c, e', h3, h4⟩ := key _ e h2 hpos hp
    exact ⟨_, c, e', h1, h3, h4⟩

/-- C58.  A move that leaves the text gives the index `SIZE_MAX`, and 0; an ASCII string that is not tagged gives the byte before its characters instead.  Missing: see `C58_end_refuted`. -/
theorem C58_leave_partial (hM : GoodMaps M) {s : Str} {l : List Nat} (h : Val M s l) (hl : l ≠ []) {fromTail : Bool} {bs : List Bool} {j : Nat} (hp : position l.length (if fromTail then l.length - 1 else 0) bs = some j)
    {x : Nat × Cursor} {c : Nat} {e : Cursor} (hx : (if fromTail then enTail M s else enHead M s) = some x) (hw : walk M s x bs = some (c, e)) {g : Nat} (hg : ghost s = some g) :
    (j + 1 = l.length → ∃ e', enNext M s e = some (g, e') ∧ e'.index = sizeMax) ∧ (j = 0 → ∃ e', enPrev M s e = some (g, e') ∧ e'.index = sizeMax) := by
  have hpos : 0 < l.length := List.length_pos_iff.2 hl
  have ha : At s l e j := by
    cases fromTail with
    | true =>
      obtain ⟨e0, h1, h2⟩ := tail_at hM h hl
      obtain ⟨e1, h3, h4, -⟩ := walk_at hM h bs h2 (by omega) hp
      rw [if_pos rfl, h1] at hx
      cases hx
      rw [h3] at hw
      cases hw
      exact h4
    | false =>
      obtain ⟨e0, h1, h2⟩ := head_at hM h
      obtain ⟨e1, h3, h4, -⟩ := walk_at hM h bs h2 hpos hp
      rw [if_neg (by simp), h1] at hx
      cases hx
      rw [h3] at hw
      cases hw
      exact h4
  constructor
  · intro hk
    obtain ⟨e', h1, h2⟩ := next_out hM h ha hk hg
    exact ⟨e', h1, h2.1⟩
  · rintro rfl
    obtain ⟨e', h1, h2⟩ := prev_out hM h ha hl hg
    exact ⟨e', h1, h2.1⟩

/-- `CC_STRING_FOREACH` (CCStringEnumerator.h 50-53): the characters the body is run with, at most `n`. -/
def foreachLoop (M : Maps) (s : Str) : Nat → Nat × Cursor → Option (List Nat)
  | 0, _ => some []
  | n + 1, (c, e) => if c = 0 then some [] else do return c :: (← foreachLoop M s n (← enNext M s e))

/-- Starts with the current character of a new enumerator, which is at the head. -/
def foreach (M : Maps) (s : Str) (n : Nat) : Option (List Nat) := do
  let (_, e) ← enHead M s
  foreachLoop M s n (← enCurrent s e, e)

theorem foreachLoop_eq (hM : GoodMaps M) {s : Str} {l : List Nat} (h : Val M s l) (hg : ghost s = some 0) : ∀ (n k : Nat) {e : Cursor}, At s l e k → k < l.length → l.length < k + n → foreachLoop M s n (l.getD k 0, e) = some (l.drop k) := by
  have hs := h.scalar hM
  intro n
  induction n with
  | zero => intro k e _ h1 h2; omega
  | succ n ih =>
    intro k e ha hk hn
    rw [foreachLoop, if_neg (getD_ne_zero hs hk), List.drop_eq_getElem_cons hk, getD_of_lt hk]
    by_cases h1 : k + 1 < l.length
    · obtain ⟨e', h2, h3⟩ := next_in hM h ha h1
      rw [h2]
      simp only [Option.bind_eq_bind, Option.bind_some]
      rw [ih (k + 1) h3 h1 (by omega)]
      rfl
    · obtain ⟨e', h2, h3⟩ := next_out hM h ha (by omega) hg
      rw [h2]
      simp only [Option.bind_eq_bind, Option.bind_some]
      obtain ⟨n, rfl⟩ : ∃ n', n = n' + 1 := ⟨n - 1, by omega⟩
      rw [foreachLoop, if_pos rfl, List.drop_of_length_le (by omega)]
      rfl

/-- C58.  `CC_STRING_FOREACH` runs its body with each character, in order, for every string whose enumerator gives 0 at the end, and ends.  Missing: ASCII strings that are not tagged in buffers that were not copied. -/
theorem C58_foreach_partial (hM : GoodMaps M) {s : Str} {l : List Nat} (h : Val M s l) (hg : ghost s = some 0) {n : Nat} (hn : l.length < n) : foreach M s n = some l := by
  obtain ⟨e, h1, h2⟩ := head_at hM h
  rw [foreach, h1]
  simp only [Option.bind_eq_bind, Option.bind_some]
  by_cases hl : l = []
  · subst hl
    rw [current_at hM h h2 (.inr rfl)]
    obtain ⟨n, rfl⟩ : ∃ n', n = n' + 1 := ⟨n - 1, by omega⟩
    rfl
  · rw [current_at hM h h2 (.inl (List.length_pos_iff.2 hl))]
    exact foreachLoop_eq hM h hg n 0 h2 (List.length_pos_iff.2 hl) (by omega)

end

/-- A string whose buffer was given away, with the byte 65 before it, is enumerated with an "A" at the end. -/
theorem C58_end_refuted : ∃ s l, create defaultMaps .ascii .take (some 65) ([120, 44] ++ List.replicate 8 121 ++ [0]) = some s ∧ Val defaultMaps s l ∧ foreach defaultMaps s 100 = some (l ++ [65]) := by
  obtain ⟨s, h1, h2, -⟩ := C54_create goodMaps_default (e := .ascii) (l := [120, 44] ++ List.replicate 8 121) (by simp only [CharOk]; decide) .take (some 65) [] (by decide)
  have e1 : create defaultMaps .ascii .take (some 65) (bytesOf .ascii ([120, 44] ++ List.replicate 8 121) ++ [0]) = some (.info ⟨.ascii, some 10, some 10, true, false, some 65, [120, 44] ++ List.replicate 8 121 ++ [0]⟩) := by decide +kernel
  rw [e1] at h1
  cases h1
  exact ⟨_, _, e1, h2, by decide +kernel⟩

/-- If nothing is known about the byte before, as for an array of the user, it is read all the same: undefined behaviour. -/
theorem C58_end_undefined : ∃ s l, create defaultMaps .ascii .ref none ([120, 44] ++ List.replicate 8 121 ++ [0]) = some s ∧ Val defaultMaps s l ∧ foreach defaultMaps s 100 = none ∧ getHash defaultMaps s = none := by
  obtain ⟨s, h1, h2, -⟩ := C54_create goodMaps_default (e := .ascii) (l := [120, 44] ++ List.replicate 8 121) (by simp only [CharOk]; decide) .ref none [] (by decide)
  have e1 : create defaultMaps .ascii .ref none (bytesOf .ascii ([120, 44] ++ List.replicate 8 121) ++ [0]) = some (.info ⟨.ascii, some 10, some 10, false, false, none, [120, 44] ++ List.replicate 8 121 ++ [0]⟩) := by decide +kernel
  rw [e1] at h1
  cases h1
  exact ⟨_, _, e1, h2, by decide +kernel, by decide +kernel⟩

/-- Forward, forward, back in "Grüße", from the tail back twice. -/
example : position 5 0 [true, true, false, true] = some 2 ∧ position 5 4 [false, false, true] = some 3 ∧ ghost (constant .utf8 (bytesOf .utf8 [71, 114, 252, 223, 101])) = some 0 ∧
    foreach defaultMaps (constant .utf8 (bytesOf .utf8 [71, 114, 252, 223, 101])) 6 = some [71, 114, 252, 223, 101] := ⟨rfl, rfl, rfl, C58_foreach_partial goodMaps_default gruesse rfl (by decide)⟩

#print axioms C54_observe
#print axioms C54_create
#print axioms C54_create_with_size
#print axioms C54_constant
#print axioms C54_character
#print axioms C54_equal_exact
#print axioms C54_equal_partial
#print axioms C54_equal_refuted
#print axioms C55_edit
#print axioms C55_edit_none
#print axioms C55_join
#print axioms C56_find_exact
#print axioms C56_find_partial
#print axioms C56_find_empty
#print axioms C56_prefix_exact
#print axioms C56_suffix_exact
#print axioms C56_prefix_suffix_partial
#print axioms C56_find_refuted
#print axioms C56_prefix_refuted
#print axioms C56_suffix_refuted
#print axioms C56_suffix_undefined
#print axioms C57_replace_partial
#print axioms C57_replace_grouped_partial
#print axioms C57_split_partial
#print axioms C57_split_grouped_partial
#print axioms C57_missed
#print axioms C57_split_refuted
#print axioms C57_replace_refuted
#print axioms C58_walk
#print axioms C58_leave_partial
#print axioms C58_foreach_partial
#print axioms C58_end_refuted
#print axioms C58_end_undefined
end Verif.Str
