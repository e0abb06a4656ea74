import Verif.Str
import Verif.StrTagProps
/-!
# What a string stands for, and its enumerator
-/
namespace Verif.Str
open Utf8.Spec (Scalar encode encodeAll)

/-- An ASCII string, not tagged, with the characters `l`.  Only a buffer marked unsafe may go on after them with something else than NUL; its size has then been given. -/
structure AsciiRep (i : Info) (l : List Nat) : Prop where
  chars : ∀ c ∈ l, 0 < c ∧ c < 128
  bytes : ∃ x rest, i.bytes = l ++ x :: rest ∧ (i.unsafeBuf = false ∨ l = [] → x = 0)
  size : i.size = some l.length ∨ i.size = none ∧ i.unsafeBuf = false
  len : i.len = some l.length ∨ i.len = none

/-- A UTF-8 string, not tagged, with the characters `l`. -/
structure Utf8Rep (i : Info) (l : List Nat) : Prop where
  chars : ∀ c ∈ l, Scalar c
  bytes : ∃ rest, i.bytes = encodeAll l ++ 0 :: rest
  safe : i.unsafeBuf = false
  size : i.size = some (encodeAll l).length ∨ i.size = none
  len : i.len = some l.length ∨ i.len = none

/-- The string has the characters `l` (none of them 0). -/
def Val (M : Maps) : Str → List Nat → Prop
  | .tagged w, l => ∃ set ds, Digits set ds ∧ w = word set ds ∧ l = chars M set ds
  | .info i, l => i.bytes.length < sizeMax ∧ match i.enc with
    | .ascii => AsciiRep i l
    | .utf8 => Utf8Rep i l

/-- What the enumerator returns at the end: 0, but the byte before the characters for an ASCII string. -/
def ghost : Str → Option Nat
  | .tagged _ => some 0
  | .info i => match i.enc with
    | .ascii => i.pre.map ofChar
    | .utf8 => some 0

theorem encode_ascii {c : Nat} (h : c < 128) : encode c = [c] := by
  unfold encode; rw [if_pos h]

theorem encodeAll_ascii {l : List Nat} (h : ∀ c ∈ l, c < 128) : encodeAll l = l := by
  induction l with
  | nil => rfl
  | cons c l ih => rw [Utf8.encodeAll_cons, encode_ascii (h c (by simp)), ih fun c hc => h c (by simp [hc])]; rfl

theorem encodeAll_nz {l : List Nat} (h : ∀ c ∈ l, Scalar c) : ∀ b ∈ encodeAll l, b ≠ 0 := by
  intro b hb
  obtain ⟨c, hc, hb⟩ := List.mem_flatMap.1 hb
  have := (Utf8.encode_pos (h c hc) b hb).1
  omega

theorem strlen_eq {l rest : List Nat} (h : ∀ b ∈ l, b ≠ 0) : strlen (l ++ 0 :: rest) = some l.length := by
  rw [strlen, if_pos (by simp), List.takeWhile_append_of_pos (by simpa using h), List.takeWhile_cons_of_neg (by simp)]
  simp

theorem takeWhile_eq {l : List Nat} (h : ∀ b ∈ l, b ≠ 0) : l.takeWhile (· ≠ 0) = l := by
  induction l with
  | nil => rfl
  | cons c l ih => rw [List.takeWhile_cons_of_pos (by simpa using h c (by simp)), ih fun c hc => h c (by simp [hc])]

theorem strncpy_eq {l rest : List Nat} (h : ∀ b ∈ l, b ≠ 0) {n : Nat} (hn : n ≤ l.length) : strncpy (l ++ rest) n = some (l.take n) := by
  have h1 : (l ++ rest).take n = l.take n := by rw [List.take_append_of_le_length hn]
  have h2 : (l.take n).takeWhile (· ≠ 0) = l.take n := takeWhile_eq fun b hb => h b (List.mem_of_mem_take hb)
  rw [strncpy, h1, h2, List.length_take, Nat.min_eq_left hn]
  simp

section
variable {M : Maps}

theorem AsciiRep.scalar {i : Info} {l : List Nat} (h : AsciiRep i l) : ∀ c ∈ l, Scalar c := fun c hc => by
  have := h.chars c hc
  exact ⟨by omega, by omega, by omega⟩

theorem AsciiRep.enc {i : Info} {l : List Nat} (h : AsciiRep i l) : encodeAll l = l := encodeAll_ascii fun c hc => (h.chars c hc).2

theorem Val.scalar (hM : GoodMaps M) {s : Str} {l : List Nat} (h : Val M s l) : ∀ c ∈ l, Scalar c := by
  cases s with
  | tagged w => obtain ⟨set, ds, h1, rfl, rfl⟩ := h; exact hM.chars_scalar h1
  | info i =>
    obtain ⟨-, h⟩ := h
    cases he : i.enc <;> rw [he] at h
    · exact AsciiRep.scalar h
    · exact Utf8Rep.chars h

theorem Val.size (hM : GoodMaps M) {s : Str} {l : List Nat} (h : Val M s l) : getSize M s = some (encodeAll l).length := by
  cases s with
  | tagged w => obtain ⟨set, ds, h1, rfl, rfl⟩ := h; exact tagSize_word hM h1
  | info i =>
    obtain ⟨-, h⟩ := h
    cases he : i.enc <;> rw [he] at h <;> dsimp only at h <;> simp only [getSize]
    · rw [h.enc]
      rcases h.size with e | ⟨e, e'⟩ <;> rw [e] <;> dsimp only
      obtain ⟨x, rest, hb, hx⟩ := h.bytes
      rw [hb, hx (.inl e'), strlen_eq fun b hb => by have := h.chars b hb; omega]
    · rcases h.size with e | e <;> rw [e] <;> dsimp only
      obtain ⟨rest, hb⟩ := h.bytes
      rw [hb, strlen_eq (encodeAll_nz h.chars)]

theorem Val.length (hM : GoodMaps M) {s : Str} {l : List Nat} (h : Val M s l) : getLength M s = some l.length := by
  cases s with
  | tagged w => obtain ⟨set, ds, h1, rfl, rfl⟩ := h; simp only [getLength, tagLength_word h1, chars_length]
  | info i =>
    have hs := h.size hM
    obtain ⟨-, h⟩ := h
    cases he : i.enc <;> rw [he] at h <;> dsimp only at h <;> simp only [getLength]
    · rcases h.len with e | e <;> rw [e] <;> dsimp only
      rw [he]; dsimp only
      rw [hs, h.enc]
    · rcases h.len with e | e <;> rw [e] <;> dsimp only
      rw [he]; dsimp only
      obtain ⟨rest, hb⟩ := h.bytes
      rw [hb, Utf8.length_eq h.chars]

theorem Val.lt {s : Str} {l : List Nat} (h : Val M s l) : l.length < sizeMax ∧ (∀ i, s = .info i → (encodeAll l).length < i.bytes.length) := by
  cases s with
  | tagged w =>
    obtain ⟨set, ds, h1, rfl, rfl⟩ := h
    have := h1.len; have := bits_max h1.set_pos h1.set_le
    refine ⟨by rw [chars_length, sizeMax]; omega, by simp⟩
  | info i =>
    obtain ⟨hl, h⟩ := h
    cases he : i.enc <;> rw [he] at h <;> dsimp only at h
    · obtain ⟨x, rest, hb, hx⟩ := h.bytes
      rw [hb] at hl
      simp only [List.length_append, List.length_cons] at hl
      refine ⟨by omega, ?_⟩
      intro i hi; cases hi
      rw [h.enc, hb]; simp only [List.length_append, List.length_cons]; omega
    · obtain ⟨rest, hb⟩ := h.bytes
      have := Utf8.length_le_encodeAll h.chars
      rw [hb] at hl
      simp only [List.length_append, List.length_cons] at hl
      refine ⟨by omega, ?_⟩
      intro i hi; cases hi
      rw [hb]; simp only [List.length_append, List.length_cons]; omega

/-- A string has only one value. -/
theorem encodeAll_inj {l m : List Nat} (hl : ∀ c ∈ l, Scalar c) (hm : ∀ c ∈ m, Scalar c) {r r' : List Nat} (h : encodeAll l ++ 0 :: r = encodeAll m ++ 0 :: r') : l = m := by
  induction l generalizing m with
  | nil =>
    cases m with
    | nil => rfl
    | cons d m =>
      exfalso
      have h1 := Utf8.getChar_encode (hm d (by simp)) (encodeAll m ++ 0 :: r')
      rw [Utf8.encodeAll_cons, List.append_assoc] at h
      rw [← h, show encodeAll [] ++ 0 :: r = 0 :: r from rfl, Utf8.getChar_nul] at h1
      have := (hm d (by simp)).1
      simp only [Option.some.injEq, Prod.mk.injEq] at h1; omega
  | cons c l ih =>
    have h1 := Utf8.getChar_encode (hl c (by simp)) (encodeAll l ++ 0 :: r)
    cases m with
    | nil =>
      exfalso
      rw [Utf8.encodeAll_cons, List.append_assoc] at h
      rw [h, show encodeAll [] ++ 0 :: r' = 0 :: r' from rfl, Utf8.getChar_nul] at h1
      have := (hl c (by simp)).1
      simp only [Option.some.injEq, Prod.mk.injEq] at h1; omega
    | cons d m =>
      have h2 := Utf8.getChar_encode (hm d (by simp)) (encodeAll m ++ 0 :: r')
      rw [Utf8.encodeAll_cons, List.append_assoc, Utf8.encodeAll_cons, List.append_assoc] at h
      rw [h, h2] at h1
      simp only [Option.some.injEq, Prod.mk.injEq] at h1
      obtain ⟨rfl, -⟩ := h1
      rw [ih (fun c hc => hl c (by simp [hc])) (fun c hc => hm c (by simp [hc])) (List.append_cancel_left h)]

theorem encodeAll_inj' {l m : List Nat} (hl : ∀ c ∈ l, Scalar c) (hm : ∀ c ∈ m, Scalar c) (h : encodeAll l = encodeAll m) : l = m :=
  encodeAll_inj hl hm (r := []) (r' := []) (by rw [h])

/-! ## The enumerator -/

/-- The enumerator is at the character `k` (or the string is empty and it is at its head). -/
def At (s : Str) (l : List Nat) (e : Cursor) (k : Nat) : Prop := match s with
  | .tagged _ => e.index = k ∧ e.cur = l.getD k 0
  | .info i => match i.enc with
    | .ascii => e.index = k ∧ e.count = l.length
    | .utf8 => e.index = k ∧ e.cur = l.getD k 0 ∧ (k < l.length → e.pos = if e.back then (encodeAll (l.take k)).length else (encodeAll (l.take (k + 1))).length)

/-- The enumerator has gone off an end. -/
def Off (s : Str) (e : Cursor) : Prop := e.index = sizeMax ∧ if isBatch s then e.count = 0 else e.cur = 0

theorem At.index {s : Str} {l : List Nat} {e : Cursor} {k : Nat} (h : At s l e k) : e.index = k := by
  cases s with
  | tagged w => exact h.1
  | info i =>
    simp only [At] at h
    cases he : i.enc <;> rw [he] at h
    · exact h.1
    · exact h.1

theorem getD_of_lt {l : List Nat} {k : Nat} (h : k < l.length) : l.getD k 0 = l[k] := by
  rw [List.getD_eq_getElem?_getD, List.getElem?_eq_getElem h]; rfl

theorem getD_ne_zero {l : List Nat} (hl : ∀ c ∈ l, Scalar c) {k : Nat} (h : k < l.length) : l.getD k 0 ≠ 0 := by
  rw [getD_of_lt h]
  have := (hl _ (List.getElem_mem h)).1
  omega

theorem read_ascii {i : Info} {l : List Nat} (h : AsciiRep i l) {k : Nat} (hk : k < l.length) (hl : l.length < sizeMax) : i.read k = some (l.getD k 0) := by
  obtain ⟨x, rest, hb, -⟩ := h.bytes
  rw [Info.read, if_neg (by omega), hb, List.getElem?_append_left hk, List.getElem?_eq_getElem hk, getD_of_lt hk]

theorem ofChar_ascii {i : Info} {l : List Nat} (h : AsciiRep i l) {k : Nat} (hk : k < l.length) : ofChar (l.getD k 0) = l.getD k 0 := by
  have := (h.chars _ (List.getElem_mem hk)).2
  rw [ofChar, getD_of_lt hk, if_pos this]

theorem batchRead_ascii {i : Info} {l : List Nat} (h : AsciiRep i l) {k : Nat} (hk : k < l.length) (hl : l.length < sizeMax) : batchRead (.info i) k = some (l.getD k 0) := by
  simp only [batchRead, read_ascii h hk hl, Option.bind_eq_bind, Option.bind_some, ofChar_ascii h hk]; rfl

/-- The character at a position of a UTF-8 string. -/
theorem utf8_at {i : Info} {l : List Nat} (h : Utf8Rep i l) {k : Nat} (hk : k < l.length) :
    Utf8.getChar (i.bytes.drop (encodeAll (l.take k)).length) = some (l.getD k 0, (encode (l.getD k 0)).length) ∧
      (encodeAll (l.take (k + 1))).length = (encodeAll (l.take k)).length + (encode (l.getD k 0)).length := by
  obtain ⟨rest, hb⟩ := h.bytes
  have e : l = l.take k ++ l[k] :: l.drop (k + 1) := by rw [← List.drop_eq_getElem_cons hk, List.take_append_drop]
  have e1 : encodeAll l = encodeAll (l.take k) ++ (encode l[k] ++ encodeAll (l.drop (k + 1))) := by
    conv => lhs; rw [e]
    rw [Utf8.encodeAll_append, Utf8.encodeAll_cons]
  have hs := h.chars _ (List.getElem_mem hk)
  rw [getD_of_lt hk]
  constructor
  · rw [hb, e1, List.append_assoc, List.drop_left, List.append_assoc, Utf8.getChar_encode hs, Utf8.size_eq hs]
  · rw [List.take_succ_eq_append_getElem hk, Utf8.encodeAll_append, List.length_append, Utf8.encodeAll_cons]
    simp [encodeAll]

theorem utf8_prev {i : Info} {l : List Nat} (h : Utf8Rep i l) {k : Nat} (hk : k < l.length) :
    Utf8.previous i.bytes (dec (encodeAll (l.take (k + 1))).length) = some (encodeAll (l.take k)).length := by
  obtain ⟨rest, hb⟩ := h.bytes
  have e : l = l.take k ++ l[k] :: l.drop (k + 1) := by rw [← List.drop_eq_getElem_cons hk, List.take_append_drop]
  have e1 : encodeAll l = encodeAll (l.take k) ++ (encode l[k] ++ encodeAll (l.drop (k + 1))) := by
    conv => lhs; rw [e]
    rw [Utf8.encodeAll_append, Utf8.encodeAll_cons]
  have hs := h.chars _ (List.getElem_mem hk)
  have hp := Utf8.charSize_pos hs
  rw [← Utf8.size_eq hs] at hp
  rw [(utf8_at h hk).2, getD_of_lt hk, dec, if_neg (by omega), hb, e1, List.append_assoc, List.append_assoc, Utf8.previous_encode hs]

theorem at_ascii {i : Info} (he : i.enc = .ascii) {l : List Nat} {e : Cursor} {k : Nat} : At (.info i) l e k ↔ e.index = k ∧ e.count = l.length := by
  simp only [At, he]

theorem at_utf8 {i : Info} (he : i.enc = .utf8) {l : List Nat} {e : Cursor} {k : Nat} : At (.info i) l e k ↔
    e.index = k ∧ e.cur = l.getD k 0 ∧ (k < l.length → e.pos = if e.back then (encodeAll (l.take k)).length else (encodeAll (l.take (k + 1))).length) := by
  simp only [At, he]

theorem val_ascii {i : Info} (he : i.enc = .ascii) {l : List Nat} (h : Val M (.info i) l) : AsciiRep i l := by
  have := h.2; rw [he] at this; exact this

theorem val_utf8 {i : Info} (he : i.enc = .utf8) {l : List Nat} (h : Val M (.info i) l) : Utf8Rep i l := by
  have := h.2; rw [he] at this; exact this

theorem head_at (hM : GoodMaps M) {s : Str} {l : List Nat} (h : Val M s l) : ∃ e, enHead M s = some (l.getD 0 0, e) ∧ At s l e 0 := by
  have hn := h.length hM
  have hlt := h.lt.1
  cases s with
  | tagged w =>
    obtain ⟨set, ds, h1, rfl, rfl⟩ := h
    simp only [enHead, tagChar_word hM h1, Option.bind_eq_bind, Option.bind_some]
    exact ⟨_, rfl, rfl, rfl⟩
  | info i =>
    cases he : i.enc <;> simp only [enHead, he]
    · have h := val_ascii he h
      rw [hn]
      simp only [Option.bind_eq_bind, Option.bind_some]
      have hr : ∃ b, i.read 0 = some b ∧ ofChar b = l.getD 0 0 := by
        by_cases hl : l = []
        · obtain ⟨x, rest, hb, hx⟩ := h.bytes
          subst hl
          refine ⟨0, ?_, rfl⟩
          rw [Info.read, if_neg (by decide), hb, hx (.inr rfl)]; rfl
        · have hl : 0 < l.length := List.length_pos_iff.2 hl
          exact ⟨_, read_ascii h hl hlt, ofChar_ascii h hl⟩
      obtain ⟨b, h1, h2⟩ := hr
      rw [h1]
      simp only [Option.bind_some, h2]
      exact ⟨_, rfl, (at_ascii he).2 ⟨rfl, rfl⟩⟩
    · have h := val_utf8 he h
      cases l with
      | nil =>
        obtain ⟨rest, hb⟩ := h.bytes
        rw [hb, show encodeAll [] ++ 0 :: rest = 0 :: rest from rfl, Utf8.getChar_nul]
        simp only [Option.bind_eq_bind, Option.bind_some]
        exact ⟨_, rfl, (at_utf8 he).2 ⟨rfl, rfl, by simp⟩⟩
      | cons c l =>
        have := utf8_at h (k := 0) (by simp)
        rw [List.take_zero, show (encodeAll []).length = 0 from rfl, List.drop_zero] at this
        rw [this.1]
        simp only [Option.bind_eq_bind, Option.bind_some]
        refine ⟨_, rfl, (at_utf8 he).2 ⟨rfl, rfl, fun _ => ?_⟩⟩
        rw [this.2, Nat.zero_add]; rfl

theorem tail_at (hM : GoodMaps M) {s : Str} {l : List Nat} (h : Val M s l) (hl : l ≠ []) : ∃ e, enTail M s = some (l.getD (l.length - 1) 0, e) ∧ At s l e (l.length - 1) := by
  have hn := h.length hM
  have hz := h.size hM
  have hlt := h.lt.1
  have hl' : 0 < l.length := List.length_pos_iff.2 hl
  have hd : dec l.length = l.length - 1 := by rw [dec, if_neg (by omega)]
  cases s with
  | tagged w =>
    simp only [getLength, Option.some.injEq] at hn
    simp only [enTail]
    rw [hn, hd]
    obtain ⟨set, ds, h1, rfl, rfl⟩ := h
    simp only [tagChar_word hM h1, Option.bind_eq_bind, Option.bind_some]
    exact ⟨_, rfl, rfl, rfl⟩
  | info i =>
    cases he : i.enc <;> simp only [enTail, he]
    · have h := val_ascii he h
      rw [hn]
      simp only [Option.bind_eq_bind, Option.bind_some]
      rw [hd, read_ascii h (by omega) hlt]
      simp only [Option.bind_some]
      rw [ofChar_ascii h (by omega)]
      exact ⟨_, rfl, (at_ascii he).2 ⟨rfl, rfl⟩⟩
    · have h := val_utf8 he h
      rw [hn, hz]
      simp only [Option.bind_eq_bind, Option.bind_some]
      have hp := utf8_prev h (k := l.length - 1) (by omega)
      have e1 : l.take (l.length - 1 + 1) = l := by rw [Nat.sub_add_cancel hl', List.take_length]
      rw [e1] at hp
      rw [hp]
      simp only [Option.bind_some]
      rw [(utf8_at h (by omega)).1, hd]
      exact ⟨_, rfl, (at_utf8 he).2 ⟨rfl, rfl, fun _ => rfl⟩⟩

theorem current_at (hM : GoodMaps M) {s : Str} {l : List Nat} (h : Val M s l) {e : Cursor} {k : Nat} (ha : At s l e k) (hk : k < l.length ∨ l = []) : enCurrent s e = some (l.getD k 0) := by
  have hlt := h.lt.1
  cases s with
  | tagged w => simp only [enCurrent, isBatch, ha.2]; rfl
  | info i =>
    cases he : i.enc <;> simp only [enCurrent, isBatch, he]
    · have h := val_ascii he h
      obtain ⟨h1, h2⟩ := (at_ascii he).1 ha
      rcases hk with hk | rfl
      · simp only [decide_true, if_true]
        rw [if_pos (by omega), h1, batchRead_ascii h hk hlt]
      · simp only [List.length_nil] at h2
        simp [h2]
    · simp [((at_utf8 he).1 ha).2.1]

theorem inc_eq {k : Nat} (h : k < sizeMax) : inc k = k + 1 := by
  rw [sizeMax] at h; rw [inc]; omega

theorem forward_eq {i : Info} {l : List Nat} (h : Utf8Rep i l) {e : Cursor} {k : Nat} (hk : k < l.length) (hp : e.pos = (encodeAll (l.take k)).length) :
    utf8Forward i e = some { e with index := inc e.index, cur := l.getD k 0, pos := (encodeAll (l.take (k + 1))).length } := by
  have := utf8_at h hk
  rw [utf8Forward, hp, this.1, this.2]
  rfl

theorem back_eq {i : Info} {l : List Nat} (h : Utf8Rep i l) {e : Cursor} {k : Nat} (hk : k < l.length) (hp : e.pos = (encodeAll (l.take (k + 1))).length) :
    utf8Back i e = some { e with index := dec e.index, cur := l.getD k 0, pos := (encodeAll (l.take k)).length } := by
  rw [utf8Back, hp, utf8_prev h hk]
  simp only [Option.bind_eq_bind, Option.bind_some]
  rw [(utf8_at h hk).1]
  rfl

theorem next_in (hM : GoodMaps M) {s : Str} {l : List Nat} (h : Val M s l) {e : Cursor} {k : Nat} (ha : At s l e k) (hk : k + 1 < l.length) :
    ∃ e', enNext M s e = some (l.getD (k + 1) 0, e') ∧ At s l e' (k + 1) := by
  have hlt := h.lt.1
  have hn := h.length hM
  have hi := inc_eq (k := k) (by omega)
  obtain ⟨index, cur, pos, back, count⟩ := e
  cases s with
  | tagged w =>
    simp only [getLength, Option.some.injEq] at hn
    simp only [enNext, isBatch, enActNext, Bool.false_eq_true, if_false]
    rw [show index = _ from ha.1, hi, hn, if_neg (by omega)]
    obtain ⟨set, ds, h1, rfl, rfl⟩ := h
    simp only [tagChar_word hM h1, Option.bind_eq_bind, Option.bind_some]
    exact ⟨_, rfl, rfl, rfl⟩
  | info i =>
    cases he : i.enc <;> simp only [enNext, isBatch, he]
    · have h := val_ascii he h
      obtain ⟨h1, h2⟩ := (at_ascii he).1 ha
      dsimp only at h1 h2 ⊢
      subst h1 h2
      simp only [decide_true, if_true]
      rw [if_neg (by omega), hi, if_pos hk, batchRead_ascii h hk hlt]
      exact ⟨_, rfl, (at_ascii he).2 ⟨rfl, rfl⟩⟩
    · have h := val_utf8 he h
      obtain ⟨h1, h2, h3⟩ := (at_utf8 he).1 ha
      dsimp only at h1 h2 h3 ⊢
      subst h1
      have h3 := h3 (by omega)
      rw [if_neg (by simp)]
      simp only [enActNext, he]
      rw [hn]
      simp only [Option.bind_eq_bind, Option.bind_some]
      rw [hi, if_neg (by omega)]
      cases hb : back
      · rw [hb] at h3
        simp only [Bool.false_eq_true, if_false] at h3 ⊢
        rw [forward_eq h hk h3]
        simp only [Option.bind_some]
        exact ⟨_, rfl, (at_utf8 he).2 ⟨by dsimp only; rw [hi], rfl, fun _ => by simp [hb]⟩⟩
      · rw [hb] at h3
        simp only [if_true] at h3 ⊢
        rw [forward_eq h (e := { index := _, cur := cur, pos := pos, count := count, back := false }) (k := index) (by omega) h3]
        simp only [Option.bind_some]
        rw [forward_eq h (k := index + 1) hk rfl]
        simp only [Option.bind_some]
        refine ⟨_, rfl, (at_utf8 he).2 ⟨?_, rfl, fun _ => by simp⟩⟩
        dsimp only
        rw [hi, dec, if_neg (by omega), Nat.add_sub_cancel, hi]

/-- What the enumerator of a string gives on leaving it. -/
theorem next_out (hM : GoodMaps M) {s : Str} {l : List Nat} (h : Val M s l) {e : Cursor} {k : Nat} (ha : At s l e k) (hk : k + 1 = l.length) {g : Nat} (hg : ghost s = some g) :
    ∃ e', enNext M s e = some (g, e') ∧ Off s e' := by
  have hlt := h.lt.1
  have hn := h.length hM
  have hi := inc_eq (k := k) (by omega)
  obtain ⟨index, cur, pos, back, count⟩ := e
  cases s with
  | tagged w =>
    simp only [getLength, Option.some.injEq] at hn
    simp only [ghost, Option.some.injEq] at hg
    simp only [enNext, isBatch, enActNext, Bool.false_eq_true, if_false]
    rw [show index = _ from ha.1, hi, hn, if_pos (by omega), hg]
    exact ⟨_, rfl, rfl, by simp [isBatch, ← hg]⟩
  | info i =>
    cases he : i.enc <;> simp only [enNext, isBatch, he] <;> simp only [ghost, he] at hg
    · obtain ⟨h1, h2⟩ := (at_ascii he).1 ha
      dsimp only at h1 h2 ⊢
      subst h1 h2
      simp only [decide_true, if_true]
      rw [if_neg (by omega), hi, if_neg (by omega)]
      simp only [enActNext, he, Info.read, if_true]
      obtain ⟨p, hp, rfl⟩ := Option.map_eq_some_iff.1 hg
      rw [hp]
      exact ⟨_, rfl, rfl, by simp [isBatch, he]⟩
    · obtain ⟨h1, h2, h3⟩ := (at_utf8 he).1 ha
      dsimp only at h1 h2 h3 ⊢
      subst h1
      rw [if_neg (by simp)]
      simp only [enActNext, he]
      rw [hn]
      simp only [Option.bind_eq_bind, Option.bind_some]
      rw [hi, if_pos (by omega)]
      simp only [Option.some.injEq] at hg
      subst hg
      exact ⟨_, rfl, rfl, by simp [isBatch, he]⟩

/-- From the head of an empty string. -/
theorem next_empty (hM : GoodMaps M) {s : Str} (h : Val M s []) {e : Cursor} (ha : At s [] e 0) :
    ∃ e', enNext M s e = some (0, e') ∧ (if isBatch s then e' = e else Off s e') := by
  have hn := h.length hM
  cases s with
  | tagged w =>
    simp only [getLength, Option.some.injEq] at hn
    simp only [enNext, isBatch, enActNext, Bool.false_eq_true, if_false]
    rw [hn, if_pos (by simp)]
    exact ⟨_, rfl, by simp [isBatch, Off]⟩
  | info i =>
    cases he : i.enc <;> simp only [enNext, isBatch, he]
    · obtain ⟨h1, h2⟩ := (at_ascii he).1 ha
      simp only [List.length_nil] at h2
      simp [h2]
    · simp only [enActNext, he]
      rw [hn]
      simp [Off, isBatch, he]

/-- Once off, it stays off. -/
theorem next_off_batch {s : Str} {e : Cursor} (hb : isBatch s = true) (h : Off s e) : enNext M s e = some (0, e) := by
  have := h.2; rw [hb] at this; simp only [if_true] at this
  rw [enNext, hb, if_pos rfl, if_pos this]

theorem prev_in (hM : GoodMaps M) {s : Str} {l : List Nat} (h : Val M s l) {e : Cursor} {k : Nat} (ha : At s l e (k + 1)) (hk : k + 1 < l.length) :
    ∃ e', enPrev M s e = some (l.getD k 0, e') ∧ At s l e' k := by
  have hlt := h.lt.1
  have hn := h.length hM
  have hd : dec (k + 1) = k := by rw [dec, if_neg (by omega)]; rfl
  have hi := inc_eq (k := k) (by omega)
  obtain ⟨index, cur, pos, back, count⟩ := e
  cases s with
  | tagged w =>
    simp only [enPrev, isBatch, enActPrev, Bool.false_eq_true, if_false]
    rw [show index = _ from ha.1, if_neg (by omega)]
    obtain ⟨set, ds, h1, rfl, rfl⟩ := h
    simp only [tagChar_word hM h1, Option.bind_eq_bind, Option.bind_some]
    exact ⟨_, rfl, rfl, rfl⟩
  | info i =>
    cases he : i.enc <;> simp only [enPrev, isBatch, he]
    · have h := val_ascii he h
      obtain ⟨h1, h2⟩ := (at_ascii he).1 ha
      dsimp only at h1 h2 ⊢
      subst h1 h2
      simp only [decide_true, if_true]
      rw [if_neg (by omega), if_pos (by omega), Nat.add_sub_cancel, batchRead_ascii h (by omega) hlt]
      exact ⟨_, rfl, (at_ascii he).2 ⟨rfl, rfl⟩⟩
    · have h := val_utf8 he h
      obtain ⟨h1, h2, h3⟩ := (at_utf8 he).1 ha
      dsimp only at h1 h2 h3 ⊢
      subst h1
      have h3 := h3 hk
      rw [if_neg (by simp)]
      simp only [enActPrev, he]
      rw [if_neg (by omega)]
      cases hb : back
      · rw [hb] at h3
        simp only [Bool.not_false, if_true, Bool.false_eq_true, if_false] at h3 ⊢
        rw [back_eq h (e := { index := _, cur := cur, pos := pos, count := count, back := true }) (k := k + 1) hk h3]
        simp only [Option.bind_eq_bind, Option.bind_some]
        rw [back_eq h (k := k) (by omega) rfl]
        simp only [Option.bind_some]
        refine ⟨_, rfl, (at_utf8 he).2 ⟨?_, rfl, fun _ => by simp⟩⟩
        dsimp only
        rw [hd, hi, hd]
      · rw [hb] at h3
        simp only [if_true, Bool.not_true, Bool.false_eq_true, if_false] at h3 ⊢
        rw [back_eq h (k := k) (by omega) h3]
        simp only [Option.bind_eq_bind, Option.bind_some]
        exact ⟨_, rfl, (at_utf8 he).2 ⟨by dsimp only; rw [hd], rfl, fun _ => by simp [hb]⟩⟩

theorem prev_out (hM : GoodMaps M) {s : Str} {l : List Nat} (h : Val M s l) {e : Cursor} (ha : At s l e 0) (hl : l ≠ []) {g : Nat} (hg : ghost s = some g) :
    ∃ e', enPrev M s e = some (g, e') ∧ Off s e' := by
  have hl' : 0 < l.length := List.length_pos_iff.2 hl
  obtain ⟨index, cur, pos, back, count⟩ := e
  cases s with
  | tagged w =>
    simp only [ghost, Option.some.injEq] at hg
    simp only [enPrev, isBatch, enActPrev, Bool.false_eq_true, if_false]
    rw [show index = _ from ha.1, if_pos rfl, hg]
    exact ⟨_, rfl, rfl, by simp [isBatch, ← hg]⟩
  | info i =>
    cases he : i.enc <;> simp only [enPrev, isBatch, he] <;> simp only [ghost, he] at hg
    · obtain ⟨h1, h2⟩ := (at_ascii he).1 ha
      dsimp only at h1 h2 ⊢
      subst h1 h2
      simp only [decide_true, if_true]
      rw [if_neg (by omega), if_neg (by omega)]
      simp only [enActPrev, he, Info.read, if_true]
      obtain ⟨p, hp, rfl⟩ := Option.map_eq_some_iff.1 hg
      rw [hp]
      exact ⟨_, rfl, rfl, by simp [isBatch, he]⟩
    · obtain ⟨h1, h2, h3⟩ := (at_utf8 he).1 ha
      dsimp only at h1 h2 h3 ⊢
      subst h1
      rw [if_neg (by simp)]
      simp only [enActPrev, he]
      rw [if_pos True.intro]
      simp only [Option.some.injEq] at hg
      subst hg
      exact ⟨_, rfl, rfl, by simp [isBatch, he]⟩

theorem prev_off_batch {s : Str} {e : Cursor} (hb : isBatch s = true) (h : Off s e) : enPrev M s e = some (0, e) := by
  have := h.2; rw [hb] at this; simp only [if_true] at this
  rw [enPrev, hb, if_pos rfl, if_pos this]

end
end Verif.Str
