import Verif.StrFindAny
/-!
# Creating and editing strings
-/
namespace Verif.Str
open Utf8.Spec (Scalar encode encodeAll)

section
variable {M : Maps}

/-- The enumerator of the string may be used. -/
def Safe (s : Str) : Prop := (ghost s).isSome

theorem charOk_scalar {e : Enc} {c : Nat} (h : CharOk e c) : Scalar c := by
  cases e with
  | ascii => exact ⟨h.1, by have := h.2; omega, by have := h.2; omega⟩
  | utf8 => exact h

theorem charOk_utf8 {c : Nat} (h : Scalar c) : CharOk .utf8 c := h

theorem bytesOf_eq {e : Enc} {l : List Nat} (h : ∀ c ∈ l, CharOk e c) : bytesOf e l = encodeAll l := by
  cases e with
  | ascii => exact (encodeAll_ascii fun c hc => (h c hc).2).symm
  | utf8 => rfl

theorem Val.charOk (hM : GoodMaps M) {s : Str} {l : List Nat} (h : Val M s l) : ∀ c ∈ l, CharOk (getEncoding M s) c := by
  have hs := h.scalar hM
  intro c hc
  have h0 := hs c hc
  cases he : getEncoding M s with
  | utf8 => exact h0
  | ascii =>
    refine ⟨h0.1, ?_⟩
    cases s with
    | tagged w =>
      obtain ⟨set, ds, h1, rfl, rfl⟩ := h
      simp only [getEncoding, h1.setOf] at he
      exact hM.chars_ascii h1 he c hc
    | info i => exact ((val_ascii he h).chars c hc).2

theorem fits_nil {set : Nat} : Fits M set [] := ⟨by simp, by simp⟩

/-- A string created from the bytes of `l`. -/
theorem createFromString_eq (hM : GoodMaps M) {e : Enc} {l rest : List Nat} (hc : ∀ c ∈ l, CharOk e c) {mode : Mode} {pre : Option Nat} {sl : Bool}
    (hrest : mode ≠ .copy → ∃ x r, rest = x :: r ∧ (e = .utf8 ∨ sl = true → x = 0) ∧ (sl = false → 0 ∈ rest)) (hlen : (bytesOf e l).length + rest.length < sizeMax) (hl1 : (bytesOf e l).length + 1 < sizeMax) :
    ∃ s, createFromString M e mode pre (bytesOf e l ++ rest) (bytesOf e l).length sl = some s ∧ Val M s l ∧ (mode = .copy ∨ e = .utf8 ∨ pre.isSome → Safe s) := by
  obtain ⟨r, hr, hs⟩ := createTagged_spec hM (rest := rest) hc 3 (Nat.le_refl 3)
  rw [createFromString, hr]
  simp only [Option.bind_eq_bind, Option.bind_some]
  cases r with
  | some w =>
    obtain ⟨set, ds, -, h2, h3, h4, -⟩ := hs
    exact ⟨.tagged w, rfl, ⟨set, ds, h3, h2, h4.symm⟩, fun _ => rfl⟩
  | none =>
    dsimp only at hs ⊢
    have hne : l ≠ [] := fun e => hs 1 (Nat.le_refl 1) (by omega) (by rw [e]; exact fits_nil)
    have hsc : ∀ c ∈ l, Scalar c := fun c hx => charOk_scalar (hc c hx)
    have hb := bytesOf_eq hc
    have hnz : ∀ b ∈ bytesOf e l, b ≠ 0 := by rw [hb]; exact encodeAll_nz hsc
    have hbl : e = .ascii → bytesOf e l = l := by rintro rfl; rfl
    have rep : ∀ i : Info, i.enc = e → i.bytes.length < sizeMax → i.size = some (bytesOf e l).length → i.len = (if e = .ascii then some (bytesOf e l).length else none) →
        (∃ x r, i.bytes = bytesOf e l ++ x :: r ∧ (e = .utf8 ∨ i.unsafeBuf = false → x = 0)) → (e = .utf8 → i.unsafeBuf = false) → Val M (.info i) l := by
      intro i h1 h2 h3 h4 h5 h6
      refine ⟨h2, ?_⟩
      rw [h1]
      obtain ⟨x, r, h5, h7⟩ := h5
      cases e with
      | ascii => exact ⟨hc, ⟨x, r, h5, fun h => h7 (.inr (h.resolve_right hne))⟩, .inl h3, .inl (by simpa [bytesOf] using h4)⟩
      | utf8 => exact ⟨hc, ⟨r, by rw [h5, h7 (.inl rfl)]; rfl⟩, h6 rfl, .inl h3, .inr (by simpa using h4)⟩
    by_cases hm : mode = .copy
    · rw [if_pos hm, strncpy_eq hnz (Nat.le_refl _), List.take_length]
      simp only [Option.bind_some]
      refine ⟨_, rfl, rep _ rfl (by simp; omega) rfl rfl ⟨0, [], rfl, fun _ => rfl⟩ (fun _ => rfl), fun _ => ?_⟩
      cases e <;> rfl
    · rw [if_neg hm]
      obtain ⟨x, r, rfl, hx, h0⟩ := hrest hm
      have safe : ∀ i : Info, i.enc = e → i.pre = pre → (mode = .copy ∨ e = .utf8 ∨ pre.isSome → Safe (.info i)) := by
        rintro i rfl rfl hp
        rw [Safe, ghost]
        cases hi : i.enc with
        | utf8 => rfl
        | ascii =>
          rcases hp with hp | hp | hp
          · exact absurd hp hm
          · rw [hi] at hp; cases hp
          · simpa using hp
      have hlen' : (bytesOf e l ++ x :: r).length < sizeMax := by rw [List.length_append]; exact hlen
      cases sl with
      | true =>
        simp only [if_true]
        exact ⟨_, rfl, rep _ rfl hlen' rfl rfl ⟨x, r, rfl, fun _ => hx (.inr rfl)⟩ (fun _ => rfl), safe _ rfl rfl⟩
      | false =>
        simp only [Bool.false_eq_true, if_false]
        have hmem := h0 rfl
        have hst : ∃ n, strlen (bytesOf e l ++ x :: r) = some n ∧ (n = (bytesOf e l).length ↔ x = 0) := by
          by_cases hx0 : x = 0
          · subst hx0; exact ⟨_, strlen_eq hnz, by simp⟩
          · refine ⟨_, by rw [strlen, if_pos (List.mem_append_right _ hmem)], ?_⟩
            rw [List.takeWhile_append_of_pos (by simpa using hnz), List.takeWhile_cons_of_pos (by simpa using hx0)]
            simp [hx0]
        obtain ⟨n, h1, h2⟩ := hst
        rw [h1]
        simp only [Option.bind_some]
        refine ⟨_, rfl, rep _ rfl hlen' rfl rfl ⟨x, r, rfl, ?_⟩ ?_, safe _ rfl rfl⟩
        · rintro (h | h)
          · exact hx (.inl h)
          · simp only [ne_eq, decide_not, Bool.not_eq_eq_eq_not, Bool.not_false, decide_eq_true_eq] at h
            exact h2.1 h.symm
        · intro h
          simp [h2.2 (hx (.inl h))]

theorem strlen_bytesOf {e : Enc} {l rest : List Nat} (hc : ∀ c ∈ l, CharOk e c) : strlen (bytesOf e l ++ 0 :: rest) = some (bytesOf e l).length :=
  strlen_eq (by rw [bytesOf_eq hc]; exact encodeAll_nz fun c hx => charOk_scalar (hc c hx))

theorem create_eq (hM : GoodMaps M) {e : Enc} {l rest : List Nat} (hc : ∀ c ∈ l, CharOk e c) {mode : Mode} {pre : Option Nat} (hlen : (bytesOf e l).length + (rest.length + 1) < sizeMax) :
    ∃ s, create M e mode pre (bytesOf e l ++ 0 :: rest) = some s ∧ Val M s l ∧ (mode = .copy ∨ e = .utf8 ∨ pre.isSome → Safe s) := by
  rw [create, strlen_bytesOf hc]
  exact createFromString_eq hM hc (fun _ => ⟨0, rest, rfl, fun _ => rfl, fun h => by simp at h⟩) (by simpa using hlen) (by omega)

/-- The way the editing functions end: the bytes of the result, with a NUL, in a buffer of `n` bytes. -/
theorem made (hM : GoodMaps M) (hdr : Nat) {e : Enc} {l : List Nat} {n : Nat} (hc : ∀ c ∈ l, CharOk e c) (hn : (encodeAll l).length + 1 ≤ n) (hlen : (encodeAll l).length + 1 < sizeMax) :
    ∃ s, (do create M e .take (some hdr) (← fill n (encodeAll l ++ [0]))) = some s ∧ Val M s l ∧ Safe s := by
  rw [fill, if_pos (by simpa using hn)]
  simp only [Option.bind_eq_bind, Option.bind_some]
  obtain ⟨s, h1, h2, h3⟩ := create_eq hM (rest := []) hc (mode := .take) (pre := some hdr) (by rw [bytesOf_eq hc]; simpa using hlen)
  rw [bytesOf_eq hc] at h1
  exact ⟨s, h1, h2, h3 (.inr (.inr rfl))⟩

theorem Val.room {s : Str} {l : List Nat} (h : Val M s l) : (∃ w, s = .tagged w) ∨ (encodeAll l).length + 1 < sizeMax := by
  cases s with
  | tagged w => exact .inl ⟨w, rfl⟩
  | info i =>
    have h1 := h.lt.2 i rfl
    have h2 := h.1
    exact .inr (by omega)

theorem encodeAll_le4 {l : List Nat} (h : ∀ c ∈ l, Scalar c) : (encodeAll l).length ≤ l.length * 4 := by
  induction l with
  | nil => simp [encodeAll]
  | cons c l ih =>
    have h1 := ih fun c hc => h c (by simp [hc])
    have h2 := Utf8.size_eq (h c (by simp))
    have h3 : Utf8.charSize c ≤ 4 := by unfold Utf8.charSize; (repeat' split) <;> omega
    rw [Utf8.encodeAll_cons, List.length_append, List.length_cons]; omega

theorem Val.room' (hM : GoodMaps M) {s : Str} {l : List Nat} (h : Val M s l) : (encodeAll l).length + 1 < sizeMax := by
  rcases h.room with ⟨w, rfl⟩ | h'
  · have := encodeAll_le4 (h.scalar hM)
    obtain ⟨set, ds, h1, rfl, rfl⟩ := h
    have := h1.len; have := bits_max h1.set_pos h1.set_le
    rw [chars_length] at *
    rw [sizeMax]; omega
  · exact h'

theorem copy_eq (hM : GoodMaps M) {s : Str} {l : List Nat} (h : Val M s l) : ∃ r, copy M s = some r ∧ Val M r l ∧ (Safe s → Safe r) := by
  cases s with
  | tagged w => exact ⟨_, rfl, h, id⟩
  | info i =>
    simp only [copy]
    cases hf : i.free with
    | true => exact ⟨_, rfl, h, id⟩
    | false =>
      simp only [Bool.false_eq_true, if_false]
      rw [h.size hM]
      simp only [Option.bind_eq_bind, Option.bind_some]
      obtain ⟨r, hr⟩ := h.bytes
      have hc : ∀ c ∈ l, CharOk i.enc c := h.charOk hM
      have hb := bytesOf_eq hc
      have hlt := h.1
      have hroom := h.room' hM
      rw [hr, List.length_append] at hlt
      rw [hr, ← hb, createWithSize]
      obtain ⟨s, h1, h2, h3⟩ := createFromString_eq hM (rest := r) hc (mode := .copy) (pre := i.pre) (sl := false) (fun h => absurd rfl h) (by rw [hb]; exact hlt) (by rw [hb]; exact hroom)
      exact ⟨s, h1, h2, fun _ => h3 (.inl rfl)⟩

theorem sub_charOk {e : Enc} {l m : List Nat} (h : ∀ c ∈ l, CharOk e c) (hs : ∀ c ∈ m, c ∈ l) : ∀ c ∈ m, CharOk e c := fun c hc => h c (hs c hc)

theorem encodeAll_take_le (l : List Nat) (off n : Nat) : (encodeAll ((l.drop off).take n)).length ≤ (encodeAll l).length := by
  have h1 : l = l.take off ++ ((l.drop off).take n ++ (l.drop off).drop n) := by rw [List.take_append_drop, List.take_append_drop]
  conv => rhs; rw [h1, Utf8.encodeAll_append, Utf8.encodeAll_append]
  simp only [List.length_append]; omega

theorem copySubstring_eq (hM : GoodMaps M) (hdr : Nat) {s : Str} {l : List Nat} (h : Val M s l) {off n : Nat} (hn : off + n ≤ l.length) :
    ∃ r, copySubstring M hdr s off n = some r ∧ Val M r ((l.drop off).take n) ∧ Safe r := by
  have hroom := h.room' hM
  have hle := encodeAll_take_le l off n
  have hcc := copyCharacters_eq hM h hn
  have hsz := h.size hM
  unfold copySubstring
  rw [h.length hM]
  simp only [Option.bind_eq_bind, Option.bind_some]
  rw [if_pos hn]
  cases s with
  | tagged w =>
    obtain ⟨set, ds, h1, rfl, rfl⟩ := h
    rw [chars_length] at hn
    dsimp only
    rw [tagSub_word h1 hn]
    exact ⟨_, rfl, ⟨set, _, (h1.drop off).take n, rfl, by rw [chars_take, chars_drop]⟩, rfl⟩
  | info i =>
    have hc : ∀ c ∈ l, CharOk i.enc c := h.charOk hM
    have hc' : ∀ c ∈ (l.drop off).take n, CharOk i.enc c := fun c hx => hc c (List.mem_of_mem_drop (List.mem_of_mem_take hx))
    dsimp only
    by_cases hp : !i.unsafeBuf ∧ i.enc = .ascii
    · rw [if_pos hp]
      have hr := val_ascii hp.2 h
      obtain ⟨x, rest, hb, -⟩ := hr.bytes
      have e1 : i.bytes.drop off = (l.drop off).take n ++ ((l.drop off).drop n ++ x :: rest) := by
        rw [hb, List.drop_append_of_le_length (by omega), ← List.append_assoc, List.take_append_drop]
      have hlt := h.1
      have hl2 := congrArg List.length e1
      rw [List.length_drop, List.length_append] at hl2
      rw [hp.2] at hc'
      rw [e1, hp.2, createWithSize]
      obtain ⟨s, h1, h2, h3⟩ := createFromString_eq hM (e := .ascii) (rest := (l.drop off).drop n ++ x :: rest) hc' (mode := .copy) (pre := if off = 0 then i.pre else i.bytes[off - 1]?) (sl := false) (fun h => absurd rfl h)
        (by simp only [bytesOf]; omega) (by rw [bytesOf_eq hc']; omega)
      simp only [bytesOf, List.length_take, List.length_drop] at h1
      rw [Nat.min_eq_left (by omega)] at h1
      exact ⟨s, h1, h2, h3 (.inl rfl)⟩
    · rw [if_neg hp, hsz, hcc]
      simp only [Option.bind_some]
      exact made hM hdr hc' (by omega) (by omega)

theorem without_eq (hM : GoodMaps M) (hdr : Nat) {s : Str} {l : List Nat} (h : Val M s l) {off n : Nat} (hn : off + n ≤ l.length) :
    ∃ r, without M hdr s off n = some r ∧ Val M r (l.take off ++ l.drop (off + n)) ∧ (Safe s → Safe r) := by
  have hroom := h.room' hM
  have hsz := h.size hM
  unfold without
  rw [h.length hM]
  simp only [Option.bind_eq_bind, Option.bind_some]
  rw [if_pos hn]
  by_cases h0 : n = 0
  · rw [if_pos h0]
    subst h0
    rw [Nat.add_zero, List.take_append_drop]
    exact copy_eq hM h
  · rw [if_neg h0]
    by_cases h1 : off + n = l.length
    · rw [if_pos h1, List.drop_of_length_le (by omega), List.append_nil]
      obtain ⟨r, h2, h3, h4⟩ := copySubstring_eq hM hdr h (off := 0) (n := off) (by omega)
      exact ⟨r, h2, by simpa using h3, fun _ => h4⟩
    · rw [if_neg h1]
      cases s with
      | tagged w =>
        obtain ⟨set, ds, h2, rfl, rfl⟩ := h
        rw [chars_length] at *
        dsimp only
        rw [tagWithout_word h2 (by omega)]
        refine ⟨_, rfl, ⟨set, _, ?_, rfl, by rw [chars_append, chars_take, chars_drop]⟩, fun _ => rfl⟩
        refine (h2.take off).append (h2.drop (off + n)) ?_
        have := h2.len
        rw [List.length_take, List.length_drop]; omega
      | info i =>
        have hc : ∀ c ∈ l, CharOk i.enc c := h.charOk hM
        have hc' : ∀ c ∈ l.take off ++ l.drop (off + n), CharOk i.enc c := fun c hx => by
          rcases List.mem_append.1 hx with hx | hx
          · exact hc c (List.mem_of_mem_take hx)
          · exact hc c (List.mem_of_mem_drop hx)
        dsimp only
        rw [copyCharacters_eq hM h (off := 0) (n := off) (by omega), copyCharacters_eq hM h (off := off + n) (n := l.length - (off + n)) (by omega), hsz]
        simp only [Option.bind_some]
        rw [List.drop_zero, show (l.drop (off + n)).take (l.length - (off + n)) = l.drop (off + n) from List.take_of_length_le (by rw [List.length_drop]; omega),
          ← Utf8.encodeAll_append]
        have hsum : (encodeAll l).length = (encodeAll (l.take off ++ l.drop (off + n))).length + (encodeAll ((l.drop off).take n)).length := by
          have e1 : l = l.take off ++ ((l.drop off).take n ++ l.drop (off + n)) := by
            rw [show l.drop (off + n) = (l.drop off).drop n by rw [List.drop_drop], List.take_append_drop, List.take_append_drop]
          conv => lhs; rw [e1, Utf8.encodeAll_append, Utf8.encodeAll_append]
          rw [Utf8.encodeAll_append]
          simp only [List.length_append]; omega
        have hge := Utf8.length_le_encodeAll (l := (l.drop off).take n) fun c hx => h.scalar hM c (List.mem_of_mem_drop (List.mem_of_mem_take hx))
        rw [List.length_take, List.length_drop, Nat.min_eq_left (by omega)] at hge
        obtain ⟨r, h2, h3, h4⟩ := made hM hdr (n := sub64 (encodeAll l).length n + 1) hc' (by rw [sub64, if_pos (by omega)]; omega) (by omega)
        exact ⟨r, h2, h3, fun _ => h4⟩

theorem insertSlow_eq (hM : GoodMaps M) (hdr : Nat) {s t : Str} {l m : List Nat} (hs : Val M s l) (ht : Val M t m) {i : Nat} (hi : i ≤ l.length) (hlen : (encodeAll l).length + (encodeAll m).length + 1 < sizeMax) :
    ∃ r, insertSlow M hdr s i t l.length m.length = some r ∧ Val M r (l.take i ++ m ++ l.drop i) ∧ Safe r := by
  unfold insertSlow
  rw [hs.size hM, ht.size hM, copyCharacters_eq hM hs (off := 0) (n := i) (by omega), copyCharacters_eq hM ht (off := 0) (n := m.length) (by omega)]
  have e3 : i < l.length → copyCharacters M s i (l.length - i) = some (encodeAll (l.drop i)) := by
    intro hlt
    rw [copyCharacters_eq hM hs (by omega), List.take_of_length_le (by rw [List.length_drop]; omega)]
  simp only [Option.bind_eq_bind, Option.bind_some]
  have e4 : ∀ f : List Nat → Option Str, (if i < l.length then (copyCharacters M s i (l.length - i)).bind fun c => f c else f []) = f (encodeAll (l.drop i)) := by
    intro f
    split
    · rename_i hlt; rw [e3 hlt, Option.bind_some]
    · rw [List.drop_of_length_le (by omega)]; rfl
  rw [e4]
  rw [List.drop_zero, List.drop_zero, List.take_length, ← Utf8.encodeAll_append, ← Utf8.encodeAll_append]
  have hsum : (encodeAll (l.take i ++ m ++ l.drop i)).length = (encodeAll l).length + (encodeAll m).length := by
    conv => rhs; rw [← List.take_append_drop i l, Utf8.encodeAll_append]
    rw [Utf8.encodeAll_append, Utf8.encodeAll_append]
    simp only [List.length_append]; omega
  refine made hM hdr ?_ (by omega) (by omega)
  have hc := hs.charOk hM
  have hc' := ht.charOk hM
  have key : ∀ c, c ∈ l ∨ c ∈ m → CharOk (if getEncoding M s = .utf8 then .utf8 else getEncoding M t) c := by
    intro c hx
    split
    · rcases hx with hx | hx
      · exact charOk_scalar (hc c hx)
      · exact charOk_scalar (hc' c hx)
    · rename_i hne
      rcases hx with hx | hx
      · have h1 := hc c hx
        cases hg : getEncoding M s with
        | utf8 => exact absurd hg hne
        | ascii =>
          rw [hg] at h1
          cases getEncoding M t with
          | ascii => exact h1
          | utf8 => exact charOk_scalar h1
      · exact hc' c hx
  intro c hx
  simp only [List.mem_append] at hx
  rcases hx with (hx | hx) | hx
  · exact key c (.inl (List.mem_of_mem_take hx))
  · exact key c (.inr hx)
  · exact key c (.inl (List.mem_of_mem_drop hx))

theorem insert_eq (hM : GoodMaps M) (hdr : Nat) {s t : Str} {l m : List Nat} (hs : Val M s l) (ht : Val M t m) {i : Nat} (hi : i ≤ l.length) (hlen : (encodeAll l).length + (encodeAll m).length + 1 < sizeMax) :
    ∃ r, insert M hdr s i t = some r ∧ Val M r (l.take i ++ m ++ l.drop i) ∧ Safe r := by
  have slow := insertSlow_eq hM hdr hs ht hi hlen
  unfold insert
  rw [hs.length hM, ht.length hM]
  simp only [Option.bind_eq_bind, Option.bind_some]
  rw [if_pos hi]
  cases s with
  | info i => exact slow
  | tagged w =>
    cases t with
    | info j => exact slow
    | tagged v =>
      dsimp only
      by_cases hset : setOf w = setOf v ∧ l.length + m.length < charMax (setOf w)
      · rw [if_pos hset]
        clear slow
        obtain ⟨set, ds, h1, rfl, rfl⟩ := hs
        obtain ⟨set', es, h1', rfl, rfl⟩ := ht
        obtain ⟨hset, hlt⟩ := hset
        rw [h1.setOf] at hlt
        have : set = set' := by rw [← h1.setOf, ← h1'.setOf, hset]
        subst this
        rw [chars_length] at *
        rw [chars_length] at *
        rw [tagInsert_word h1 h1' hi (by omega)]
        refine ⟨_, rfl, ⟨set, _, ?_, rfl, by rw [chars_append, chars_append, chars_take, chars_drop]⟩, rfl⟩
        have h2 := (h1.take i).append h1' (by rw [List.length_take]; omega)
        exact h2.append (h1.drop i) (by rw [List.length_append, List.length_take, List.length_drop]; omega)
      · rw [if_neg hset]; exact slow

end
end Verif.Str
