import Verif.StrVal
import Verif.StrSpec
/-!
# Observing strings: characters, bytes, hash, equality
-/
namespace Verif.Str
open Utf8.Spec (Scalar encode encodeAll)

section
variable {M : Maps}

theorem skip_in (hM : GoodMaps M) {s : Str} {l : List Nat} (h : Val M s l) : ∀ (n k : Nat) (e : Cursor), At s l e k → k + n < l.length → ∃ e', skip M s e n = some e' ∧ At s l e' (k + n) := by
  intro n
  induction n with
  | zero => intro k e ha _; exact ⟨e, rfl, ha⟩
  | succ n ih =>
    intro k e ha hk
    obtain ⟨e', h1, h2⟩ := next_in hM h ha (by omega)
    obtain ⟨e'', h3, h4⟩ := ih (k + 1) e' h2 (by omega)
    refine ⟨e'', ?_, by rw [show k + (n + 1) = k + 1 + n by omega]; exact h4⟩
    rw [skip, h1]; exact h3

theorem skip_out (hM : GoodMaps M) {s : Str} {l : List Nat} (h : Val M s l) {g : Nat} (hg : ghost s = some g) :
    ∀ (n k : Nat) (e : Cursor), At s l e k → k < l.length → k + n = l.length → ∃ e', skip M s e n = some e' ∧ Off s e' := by
  intro n
  induction n with
  | zero => intro k e ha h1 h2; omega
  | succ n ih =>
    intro k e ha h1 h2
    rw [skip]
    by_cases hn : n = 0
    · subst hn
      obtain ⟨e', h3, h4⟩ := next_out hM h ha (by omega) hg
      rw [h3]; exact ⟨e', rfl, h4⟩
    · obtain ⟨e', h3, h4⟩ := next_in hM h ha (by omega)
      rw [h3]; exact ih (k + 1) e' h4 (by omega) (by omega)

theorem ghost_internal {s : Str} (h : isBatch s = false) : ghost s = some 0 := by
  cases s with
  | tagged w => rfl
  | info i => cases he : i.enc <;> simp_all [ghost, isBatch]

/-- The enumerator can always be moved up to the end. -/
theorem skip_some (hM : GoodMaps M) {s : Str} {l : List Nat} (h : Val M s l) (hb : isBatch s = false) {n : Nat} (hn : n ≤ l.length) {e : Cursor} (ha : At s l e 0) :
    ∃ e', skip M s e n = some e' ∧ (n < l.length → At s l e' n) := by
  by_cases h0 : n = 0
  · subst h0; exact ⟨e, rfl, fun _ => ha⟩
  · rcases Nat.lt_or_eq_of_le hn with h1 | h1
    · obtain ⟨e', h2, h3⟩ := skip_in hM h n 0 e ha (by omega)
      exact ⟨e', h2, fun _ => by rw [Nat.zero_add] at h3; exact h3⟩
    · obtain ⟨e', h2, -⟩ := skip_out hM h (ghost_internal hb) n 0 e ha (by omega) (by omega)
      exact ⟨e', h2, fun _ => by omega⟩

theorem copyLoop_eq (hM : GoodMaps M) {s : Str} {l : List Nat} (h : Val M s l) (hb : isBatch s = false) :
    ∀ (n k : Nat) (e : Cursor), At s l e k → k + n ≤ l.length → copyLoop M s e (l.getD k 0) n = some (encodeAll ((l.drop k).take n)) := by
  have hs := h.scalar hM
  have hlt := h.lt.1
  intro n
  induction n with
  | zero => intro k e _ _; simp [copyLoop, encodeAll]
  | succ n ih =>
    intro k e ha hk
    have hkl : k < l.length := by omega
    have e1 : (l.drop k).take (n + 1) = l[k] :: (l.drop (k + 1)).take n := by rw [List.drop_eq_getElem_cons hkl, List.take_succ_cons]
    have hc := Utf8.copyChar_eq (hs _ (List.getElem_mem hkl))
    rw [copyLoop, if_pos ⟨getD_ne_zero hs hkl, by rw [ha.index]; omega⟩, e1, Utf8.encodeAll_cons, getD_of_lt hkl, hc]
    by_cases hn : k + 1 < l.length
    · obtain ⟨e', h3, h4⟩ := next_in hM h ha hn
      rw [h3]
      simp only [Option.bind_eq_bind, Option.bind_some]
      rw [ih (k + 1) e' h4 (by omega)]
      rfl
    · obtain ⟨e', h3, h4⟩ := next_out hM h ha (by omega) (ghost_internal hb)
      have : n = 0 := by omega
      subst this
      rw [h3]
      simp [copyLoop, encodeAll]

theorem copyFrom_eq (hM : GoodMaps M) {s : Str} {l : List Nat} (h : Val M s l) (hb : isBatch s = false) {off n : Nat} (hn : off + n ≤ l.length) :
    copyFrom M s off n = some (encodeAll ((l.drop off).take n)) := by
  obtain ⟨e, h1, h2⟩ := head_at hM h
  obtain ⟨e', h3, h4⟩ := skip_some hM h hb (n := off) (by omega) h2
  rw [copyFrom, h1]
  simp only [Option.bind_eq_bind, Option.bind_some]
  rw [h3]
  simp only [Option.bind_some]
  rcases Nat.lt_or_eq_of_le (show off ≤ l.length by omega) with ho | ho
  · rw [current_at hM h (h4 ho) (.inl ho)]
    simp only [Option.bind_some]
    exact copyLoop_eq hM h hb n off e' (h4 ho) hn
  · have : n = 0 := by omega
    subst this
    have : enCurrent s e' = some e'.cur := by rw [enCurrent, hb]; rfl
    rw [this]
    simp [copyLoop, encodeAll]

theorem all_ascii {l : List Nat} (h : ∀ c ∈ l, Scalar c) (hl : (encodeAll l).length ≤ l.length) : ∀ c ∈ l, c < 128 := by
  induction l with
  | nil => simp
  | cons c l ih =>
    have h1 := Utf8.length_le_encodeAll (l := l) fun c hc => h c (by simp [hc])
    have hc := h c (by simp)
    have h2 := Utf8.charSize_pos hc
    rw [Utf8.encodeAll_cons, List.length_append, Utf8.size_eq hc, List.length_cons] at hl
    intro d hd
    rcases List.mem_cons.1 hd with rfl | hd
    · have h3 : Utf8.charSize d ≤ 1 := by omega
      unfold Utf8.charSize at h3
      revert h3
      (repeat' split) <;> omega
    · exact ih (fun c hc => h c (by simp [hc])) (by omega) d hd

theorem take_encodeAll {l : List Nat} (h : ∀ c ∈ l, c < 128) (off n : Nat) : ((l.drop off).take n) = encodeAll ((l.drop off).take n) :=
  (encodeAll_ascii fun c hc => h c (List.mem_of_mem_drop (List.mem_of_mem_take hc))).symm

theorem copyCharacters_eq (hM : GoodMaps M) {s : Str} {l : List Nat} (h : Val M s l) {off n : Nat} (hn : off + n ≤ l.length) :
    copyCharacters M s off n = some (encodeAll ((l.drop off).take n)) := by
  unfold copyCharacters
  rw [h.length hM]
  simp only [Option.bind_eq_bind, Option.bind_some]
  rw [if_pos hn]
  cases s with
  | tagged w => exact copyFrom_eq hM h rfl hn
  | info i =>
    cases he : i.enc <;> simp only [he]
    · have h := val_ascii he h
      obtain ⟨x, rest, hb, -⟩ := h.bytes
      rw [hb, List.drop_append_of_le_length (by omega), strncpy_eq (fun b hb => by have := h.chars b (List.mem_of_mem_drop hb); omega) (by rw [List.length_drop]; omega),
        ← take_encodeAll fun c hc => (h.chars c hc).2]
    · have hb : isBatch (.info i) = false := by simp [isBatch, he]
      obtain ⟨e, h1, h2⟩ := head_at hM h
      obtain ⟨e', h3, h4⟩ := skip_some hM h hb (n := off) (by omega) h2
      rw [h1]
      simp only [Option.bind_some]
      rw [h3, h.size hM]
      simp only [Option.bind_some]
      have hr := val_utf8 he h
      have hle := Utf8.length_le_encodeAll hr.chars
      split
      · rename_i hz
        rw [sub64, if_pos (by omega)] at hz
        have ha := all_ascii hr.chars (by omega)
        obtain ⟨rest, hb⟩ := hr.bytes
        rw [encodeAll_ascii ha] at hb
        rw [hb, List.drop_append_of_le_length (by omega), strncpy_eq (fun b hb => by have := (hr.chars b (List.mem_of_mem_drop hb)).1; omega) (by rw [List.length_drop]; omega),
          ← take_encodeAll ha]
      · exact copyFrom_eq hM h hb hn

theorem copyCharacters_none (hM : GoodMaps M) {s : Str} {l : List Nat} (h : Val M s l) {off n : Nat} (hn : ¬ off + n ≤ l.length) : copyCharacters M s off n = none := by
  unfold copyCharacters
  rw [h.length hM]
  simp only [Option.bind_eq_bind, Option.bind_some]
  rw [if_neg hn]

theorem charAt_eq (hM : GoodMaps M) {s : Str} {l : List Nat} (h : Val M s l) (k : Nat) : charAt M s k = l[k]? := by
  unfold charAt
  rw [h.length hM]
  simp only [Option.bind_eq_bind, Option.bind_some]
  by_cases hk : k < l.length
  · rw [if_pos hk, List.getElem?_eq_getElem hk, ← getD_of_lt hk]
    cases s with
    | tagged w =>
      obtain ⟨set, ds, h1, rfl, rfl⟩ := h
      simp only [tagChar_word hM h1]
    | info i =>
      cases he : i.enc <;> simp only [he]
      · have hr := val_ascii he h
        have := read_ascii hr hk h.lt.1
        have hlt := h.lt.1
        rw [Info.read, if_neg (by omega)] at this
        rw [this]
        simp only [Option.bind_some, ofChar_ascii hr hk]; rfl
      · have hb : isBatch (.info i) = false := by simp [isBatch, he]
        obtain ⟨e, h1, h2⟩ := head_at hM h
        obtain ⟨e', h3, h4⟩ := skip_some hM h hb (n := k) (by omega) h2
        rw [h1]
        simp only [Option.bind_some]
        rw [h3]
        exact current_at hM h (h4 hk) (.inl hk)
  · rw [if_neg hk, List.getElem?_eq_none (by omega)]

/-! ## Hash -/

theorem hashLoop_eq (hM : GoodMaps M) {s : Str} {l : List Nat} (h : Val M s l) {g : Nat} (hg : ghost s = some g) :
    ∀ (n k : Nat) (e : Cursor) (x : UInt32), At s l e k → k < l.length → k + n = l.length → hashLoop M s e (l.getD k 0) x n = some ((encodeAll (l.drop k)).foldl hashByte x) := by
  have hs := h.scalar hM
  have hlt := h.lt.1
  intro n
  induction n with
  | zero => intro k e x ha h1 h2; omega
  | succ n ih =>
    intro k e x ha hkl hk
    rw [hashLoop, if_pos ⟨getD_ne_zero hs hkl, by rw [ha.index]; omega⟩, List.drop_eq_getElem_cons hkl, Utf8.encodeAll_cons, getD_of_lt hkl, List.foldl_append,
      Utf8.copyChar_eq (hs _ (List.getElem_mem hkl))]
    by_cases hn : k + 1 < l.length
    · obtain ⟨e', h3, h4⟩ := next_in hM h ha hn
      rw [h3]
      simp only [Option.bind_eq_bind, Option.bind_some]
      exact ih (k + 1) e' _ h4 hn (by omega)
    · obtain ⟨e', h3, h4⟩ := next_out hM h ha (by omega) hg
      have : n = 0 := by omega
      subst this
      rw [h3]
      simp only [Option.bind_eq_bind, Option.bind_some]
      rw [hashLoop, if_neg fun hx => hx.2 h4.1, List.drop_of_length_le (by omega)]
      rfl

theorem signed_eq {b : Nat} (h : b < 256) : UInt32.ofNat (ofChar b) = Spec.signed b := by
  have : ∀ b, b < 256 → UInt32.ofNat (ofChar b) = Spec.signed b := by set_option maxRecDepth 4000 in decide
  exact this b h

theorem foldl_hash {bs : List Nat} (h : ∀ b ∈ bs, b < 256) (x : UInt32) :
    bs.foldl hashByte x = bs.foldl Spec.mix x := by
  induction bs generalizing x with
  | nil => rfl
  | cons b bs ih =>
    have e : hashByte x b = Spec.mix x b := by unfold hashByte Spec.mix; rw [signed_eq (h b (by simp))]
    rw [List.foldl_cons, List.foldl_cons, ih (fun b hb => h b (by simp [hb])), e]

theorem encodeAll_lt {l : List Nat} (h : ∀ c ∈ l, Scalar c) : ∀ b ∈ encodeAll l, b < 256 := by
  intro b hb
  obtain ⟨c, hc, hb⟩ := List.mem_flatMap.1 hb
  exact (Utf8.encode_pos (h c hc) b hb).2

theorem getHash_eq (hM : GoodMaps M) {s : Str} {l : List Nat} (h : Val M s l) (hg : (ghost s).isSome ∨ l = []) : getHash M s = some (Spec.oneAtATime (encodeAll l)) := by
  have hs := h.scalar hM
  obtain ⟨e, h1, h2⟩ := head_at hM h
  rw [getHash, h1]
  simp only [Option.bind_eq_bind, Option.bind_some]
  by_cases hl : l = []
  · subst hl
    rw [current_at hM h h2 (.inr rfl), h.length hM]
    simp only [Option.bind_some]
    rw [List.getD_nil]
    simp [hashLoop]
    rfl
  · have hl : 0 < l.length := List.length_pos_iff.2 hl
    have hg : (ghost s).isSome := hg.resolve_right (by intro e; rw [e] at hl; simp at hl)
    obtain ⟨g, hg⟩ := Option.isSome_iff_exists.1 hg
    rw [current_at hM h h2 (.inl hl), h.length hM]
    simp only [Option.bind_some]
    rw [hashLoop_eq hM h hg _ 0 e 0 h2 hl (by omega), List.drop_zero, foldl_hash (encodeAll_lt hs)]
    rfl

end
end Verif.Str
