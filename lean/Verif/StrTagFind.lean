import Verif.StrTagOps
import Verif.StrSpec
/-!
# Searching in tagged words, and creating them
-/
namespace Verif.Str
open Spec

theorem prefix_iff_take {es xs : List Nat} : es <+: xs ↔ xs.take es.length = es := by
  rw [List.prefix_iff_eq_take]; exact eq_comm

theorem pack_eq_iff {set : Nat} {xs ys : List Nat} (h : Digits set xs) (h' : Digits set ys) : pack (bits set) xs = pack (bits set) ys ↔ xs = ys :=
  ⟨pack_inj h.both h'.both, fun e => by rw [e]⟩

theorem mul_pow_inj {x y k : Nat} : x * 2 ^ k = y * 2 ^ k ↔ x = y :=
  ⟨fun h => Nat.eq_of_mul_eq_mul_right (Nat.two_pow_pos k) h, fun h => by rw [h]⟩

/-! ## Search -/

theorem tagFindLoop_spec {set : Nat} {ds es : List Nat} (h : Digits set ds) (h' : Digits set es) {i : Nat} :
    ∀ (f t : Nat), ∃ r, tagFindLoop (bits set) ds.length (pack (bits set) es * 2 ^ (bits set * i)) ((2 ^ (bits set * es.length) - 1) * 2 ^ (bits set * i)) (pack (bits set) (ds.drop t)) (i + t) f = some r ∧
      match r with
      | some j => i + t ≤ j ∧ j < i + t + f ∧ j < ds.length ∧ es <+: ds.drop j ∧ ∀ k, i + t ≤ k → k < j → ¬ es <+: ds.drop k
      | none => ∀ k, i + t ≤ k → k < i + t + f → k < ds.length → ¬ es <+: ds.drop k := by
  intro f
  induction f with
  | zero => intro t; exact ⟨none, rfl, fun k h1 h2 => by omega⟩
  | succ f ih =>
    intro t
    rw [tagFindLoop]
    by_cases hi : i + t < ds.length
    · rw [if_pos hi]
      have e : pack (bits set) (ds.drop t) &&& ((2 ^ (bits set * es.length) - 1) * 2 ^ (bits set * i)) = pack (bits set) es * 2 ^ (bits set * i) ↔ es <+: ds.drop (i + t) := by
        rw [pick (h.drop t), mul_pow_inj, List.drop_drop, pack_eq_iff ((h.drop _).take _) h', prefix_iff_take, Nat.add_comm t i]
      by_cases hp : es <+: ds.drop (i + t)
      · rw [if_pos (e.2 hp)]
        exact ⟨_, rfl, by omega, by omega, hi, hp, fun k h1 h2 => by omega⟩
      · rw [if_neg (fun x => hp (e.1 x))]
        have hb := bits_max h.set_pos h.set_le
        rw [shr_some (by omega)]
        simp only [Option.bind_eq_bind, Option.bind_some]
        have hd := pack_drop (h.drop t).lt 1
        rw [Nat.mul_one, List.drop_drop] at hd
        rw [hd]
        obtain ⟨r, hr, hs⟩ := ih (t + 1)
        refine ⟨r, hr, ?_⟩
        cases r with
        | some j =>
          obtain ⟨a, b, c, d, e'⟩ := hs
          refine ⟨by omega, by omega, c, d, fun k h1 h2 => ?_⟩
          by_cases hk : k = i + t
          · rw [hk]; exact hp
          · exact e' k (by omega) h2
        | none =>
          intro k h1 h2 h3
          by_cases hk : k = i + t
          · rw [hk]; exact hp
          · exact hs k (by omega) (by omega) h3
    · rw [if_neg hi]
      exact ⟨none, rfl, fun k h1 h2 h3 => by omega⟩

/-- The search for tagged strings of one set finds the first occurrence, unless it starts at 0, the string has the largest possible length and its only occurrence is at the very end. -/
theorem tagFind_word {set : Nat} {ds es : List Nat} (h : Digits set ds) (h' : Digits set es) (hne : es ≠ []) {i : Nat} (hi : i + es.length ≤ ds.length) :
    ∃ r, tagFind (word set ds) ds.length i (word set es) es.length = some r ∧
      (IsFirst ds es i r ∧ ¬ (i = 0 ∧ ds.length = charMax set ∧ r = some (ds.length - es.length)) ∨
        r = none ∧ i = 0 ∧ ds.length = charMax set ∧ IsFirst ds es 0 (some (ds.length - es.length))) := by
  have h1 := h.set_pos; have h3 := h.set_le; have hm := h.len
  have hl : 0 < es.length := List.length_pos_iff.2 hne
  have hb := mul_le_max h1 h3 (n := es.length + i) (by omega)
  rw [Nat.mul_add] at hb
  rw [tagFind, h.setOf, h.shift, h'.shift]
  have hsub : pack (bits set) es * 2 ^ (bits set * i) < 2 ^ 60 := by
    have := pack_lt h'.lt
    calc _ < 2 ^ (bits set * es.length) * 2 ^ (bits set * i) := Nat.mul_lt_mul_of_pos_right this (Nat.two_pow_pos _)
      _ = 2 ^ (bits set * es.length + bits set * i) := by rw [← Nat.pow_add]
      _ ≤ 2 ^ 60 := Nat.pow_le_pow_right (by omega) hb
  rw [shl_some (by omega) (by omega)]
  have m := mask_some (pos_mul h1 h3 hl) (a := bits set * i) (by omega)
  simp only [Option.bind_eq_bind, Option.bind_eq_some_iff] at m
  obtain ⟨x, hx, hy⟩ := m
  simp only [Option.bind_eq_bind, Option.bind_some]
  rw [Nat.mul_comm es.length, hx]
  simp only [Option.bind_some]
  rw [hy]
  simp only [Option.bind_some]
  have es' : sub64 (charMax set) es.length = charMax set - es.length := by rw [sub64, if_pos (by omega)]
  rw [es']
  obtain ⟨r, hr, hs⟩ := tagFindLoop_spec h h' (i := i) (charMax set - es.length) 0
  rw [List.drop_zero, Nat.add_zero] at hr
  refine ⟨r, hr, ?_⟩
  cases r with
  | some j =>
    obtain ⟨a, b, c, d, e⟩ := hs
    refine .inl ⟨⟨by omega, d, fun k h1 h2 => e k (by omega) h2⟩, fun ⟨e1, e2, e3⟩ => ?_⟩
    injection e3 with e3
    omega
  | none =>
    have key : ∀ k, i ≤ k → es <+: ds.drop k → i = 0 ∧ ds.length = charMax set ∧ k = ds.length - es.length := by
      intro k hk hp
      have hpl := hp.length_le
      rw [List.length_drop] at hpl
      by_cases hc : k < i + 0 + (charMax set - es.length)
      · exact absurd hp (hs k (by omega) hc (by omega))
      · omega
    by_cases hc : ∃ k, i ≤ k ∧ es <+: ds.drop k
    · obtain ⟨k, hk, hp⟩ := hc
      obtain ⟨a, b, c⟩ := key k hk hp
      refine .inr ⟨rfl, a, b, by omega, by rw [← c]; exact hp, fun k' h1 h2 hp' => ?_⟩
      have := key k' (by omega) hp'
      omega
    · exact .inl ⟨fun k hk hp => hc ⟨k, hk, hp⟩, fun e => by simp at e⟩

theorem tagMask {set : Nat} {es : List Nat} (h : Digits set es) (hne : es ≠ []) :
    (do shl (← lowMask (tagLength (word set es) * bits set)) 2) = some ((2 ^ (bits set * es.length) - 1) * 2 ^ 2) := by
  have hl : 0 < es.length := List.length_pos_iff.2 hne
  rw [tagLength_word h, Nat.mul_comm, lowMask_some (pos_mul h.set_pos h.set_le hl) (by have := h.mul_le; omega)]
  simp only [Option.bind_eq_bind, Option.bind_some]
  refine shl_some (by omega) ?_
  have h2 : 2 ^ (bits set * es.length) ≤ 2 ^ 60 := Nat.pow_le_pow_right (by omega) h.mul_le
  omega

theorem word_and {set : Nat} {ds : List Nat} (h : Digits set ds) (k : Nat) :
    word set ds &&& ((2 ^ (bits set * k) - 1) * 2 ^ 2) = pack (bits set) (ds.take k) * 2 ^ 2 := by
  rw [and_mask, ← Nat.shiftRight_eq_div_pow, h.shift, pack_take h.lt]

theorem tagPrefix_word {set : Nat} {ds es : List Nat} (h : Digits set ds) (h' : Digits set es) (hne : es ≠ []) :
    tagPrefix (word set ds) (word set es) = some (decide (es <+: ds)) := by
  have m := tagMask h' hne
  simp only [Option.bind_eq_bind, Option.bind_eq_some_iff] at m
  obtain ⟨x, hx, hy⟩ := m
  rw [tagPrefix, h.setOf, hx]
  simp only [Option.bind_eq_bind, Option.bind_some]
  rw [hy]
  simp only [Option.bind_some]
  have e : word set ds &&& ((2 ^ (bits set * es.length) - 1) * 2 ^ 2) = word set es &&& ((2 ^ (bits set * es.length) - 1) * 2 ^ 2) ↔ es <+: ds := by
    rw [word_and h, word_and h', mul_pow_inj, List.take_length, pack_eq_iff (h.take _) h', prefix_iff_take]
  simp only [e]; rfl

theorem tagSuffix_word {set : Nat} {ds es : List Nat} (h : Digits set ds) (h' : Digits set es) (hne : es ≠ []) (hl : es.length ≤ ds.length) :
    tagSuffix (word set ds) (word set es) = some (decide (es <:+ ds)) := by
  have m := tagMask h' hne
  simp only [Option.bind_eq_bind, Option.bind_eq_some_iff] at m
  obtain ⟨x, hx, hy⟩ := m
  rw [tagSuffix, h.setOf, hx]
  simp only [Option.bind_eq_bind, Option.bind_some]
  rw [hy]
  simp only [Option.bind_some]
  have hb := mul_le_max h.set_pos h.set_le (n := ds.length - es.length) (by have := h.len; omega)
  have es' : sub64 (tagLength (word set ds)) (tagLength (word set es)) = ds.length - es.length := by
    rw [tagLength_word h, tagLength_word h', sub64, if_pos hl]
  rw [es', Nat.mul_comm (ds.length - es.length), Nat.mod_eq_of_lt (by omega), shr_some (by omega)]
  simp only [Option.bind_some]
  have e : word set ds / 2 ^ (bits set * (ds.length - es.length)) &&& ((2 ^ (bits set * es.length) - 1) * 2 ^ 2) = word set es &&& ((2 ^ (bits set * es.length) - 1) * 2 ^ 2) ↔ es <:+ ds := by
    rw [word_and h', and_mask, Nat.div_div_eq_div_mul, Nat.mul_comm (2 ^ (bits set * (ds.length - es.length))), ← Nat.div_div_eq_div_mul, ← Nat.shiftRight_eq_div_pow _ 2, h.shift, pack_drop h.lt, pack_take (h.drop _).lt, mul_pow_inj,
      List.take_length, List.take_of_length_le (by rw [List.length_drop]; omega), pack_eq_iff (h.drop _) h', List.suffix_iff_eq_drop]
    exact eq_comm
  simp only [e]; rfl

/-- A suffix longer than the string: the shift is out of range. -/
theorem tagSuffix_long {set : Nat} {ds es : List Nat} (h : Digits set ds) (h' : Digits set es) (hl : ds.length < es.length) :
    tagSuffix (word set ds) (word set es) = none := by
  have hne : es ≠ [] := fun e => by rw [e] at hl; simp at hl
  have m := tagMask h' hne
  simp only [Option.bind_eq_bind, Option.bind_eq_some_iff] at m
  obtain ⟨x, hx, hy⟩ := m
  rw [tagSuffix, h.setOf, hx]
  simp only [Option.bind_eq_bind, Option.bind_some]
  rw [hy]
  simp only [Option.bind_some]
  have hlen := h'.len
  have hmax := bits_max h.set_pos h.set_le
  have es' : sub64 (tagLength (word set ds)) (tagLength (word set es)) = 2 ^ 64 - (es.length - ds.length) := by
    rw [tagLength_word h, tagLength_word h', sub64, if_neg (by omega), Nat.mod_eq_of_lt (by omega)]
  rw [es', shr, if_neg]
  · rfl
  · have hb : bits set = 5 ∨ bits set = 6 ∨ bits set = 7 := by omega
    obtain ⟨f, hf, h1, h2⟩ : ∃ f, f = es.length - ds.length ∧ 1 ≤ f ∧ f ≤ 12 := ⟨_, rfl, by omega, by omega⟩
    rw [← hf]
    rcases hb with e | e | e <;> rw [e]
    · rw [show (2 ^ 64 - f) * 5 = (2 ^ 64 - 5 * f) + 2 ^ 64 * 4 by omega, Nat.add_mul_mod_self_left, Nat.mod_eq_of_lt (by omega)]; omega
    · rw [show (2 ^ 64 - f) * 6 = (2 ^ 64 - 6 * f) + 2 ^ 64 * 5 by omega, Nat.add_mul_mod_self_left, Nat.mod_eq_of_lt (by omega)]; omega
    · rw [show (2 ^ 64 - f) * 7 = (2 ^ 64 - 7 * f) + 2 ^ 64 * 6 by omega, Nat.add_mul_mod_self_left, Nat.mod_eq_of_lt (by omega)]; omega

/-! ## Creation -/

theorem findFrom_spec {map : List Nat} {c : Nat} : ∀ (n i : Nat), i + n = map.length → ∃ r, findFrom map c i n = some r ∧
    match r with
    | some j => j < map.length ∧ map.getD j 0 = c
    | none => ∀ j, i ≤ j → map[j]? ≠ some c := by
  intro n
  induction n with
  | zero => intro i hi; exact ⟨none, rfl, fun j hj e => by rw [List.getElem?_eq_none (by omega)] at e; simp at e⟩
  | succ n ih =>
    intro i hi
    have hl : i < map.length := by omega
    rw [findFrom, List.getElem?_eq_getElem hl]
    simp only [Option.bind_eq_bind, Option.bind_some]
    by_cases hc : map[i] = c
    · rw [if_pos hc]; exact ⟨_, rfl, hl, by simp [List.getD_eq_getElem?_getD, hl, hc]⟩
    · rw [if_neg hc]
      obtain ⟨r, hr, hs⟩ := ih (i + 1) (by omega)
      refine ⟨r, hr, ?_⟩
      cases r with
      | some j => exact hs
      | none =>
        intro j hj e
        by_cases hji : j = i
        · rw [hji, List.getElem?_eq_getElem hl] at e; exact hc (by simpa using e)
        · exact hs j (by omega) e

theorem charInMap_spec {M : Maps} (hM : GoodMaps M) {set : Nat} (h1 : 1 ≤ set) (h3 : set ≤ 3) (c : Nat) :
    ∃ r, charInMap c (M set).2 (mapSize set) = some r ∧
      match r with
      | some d => d < mapSize set ∧ (M set).2.getD d 0 = c
      | none => c ∉ (M set).2 := by
  obtain ⟨r, hr, hs⟩ := findFrom_spec (map := (M set).2) (c := c) (mapSize set) 0 (by rw [hM.len h1 h3]; omega)
  refine ⟨r, hr, ?_⟩
  cases r with
  | some d => exact ⟨by rw [← hM.len h1 h3]; exact hs.1, hs.2⟩
  | none =>
    intro hc
    obtain ⟨j, hj, e⟩ := List.mem_iff_getElem.1 hc
    exact hs j (by omega) (by rw [List.getElem?_eq_getElem hj, e])

theorem digit_pos {M : Maps} (hM : GoodMaps M) {set d c : Nat} (h1 : 1 ≤ set) (h3 : set ≤ 3) (e : (M set).2.getD d 0 = c) (hc : c ≠ 0) : 0 < d := by
  rcases Nat.eq_zero_or_pos d with rfl | hd
  · rw [List.getD_eq_getElem?_getD, hM.zero h1 h3] at e
    exact absurd e.symm hc
  · exact hd

theorem place_word {set : Nat} {ds : List Nat} {d : Nat} (h : Digits set ds) (hd : 0 < d ∧ d < mapSize set) (hl : ds.length < charMax set) :
    ∃ x, place d (bits set * ds.length) = some x ∧ word set ds ||| x = word set (ds ++ [d]) ∧ Digits set (ds ++ [d]) := by
  have hd' : Digits set [d] := ⟨h.set_pos, h.set_le, by simp; omega, by simpa using hd⟩
  have happ := h.append hd' (by simp; omega)
  have hp := happ.pack_lt
  rw [pack_append] at hp
  have e : pack (bits set) [d] = d := by simp [pack]
  rw [e] at hp
  have hb := h.mul_le
  refine ⟨2 ^ 2 * (2 ^ (bits set * ds.length) * pack (bits set) [d]), ?_, or_word h, happ⟩
  rw [place, shl_some (by omega) (by rw [Nat.mul_comm]; omega)]
  simp only [Option.bind_eq_bind, Option.bind_some]
  rw [Nat.mul_comm d, shl2 (by omega), e]

theorem packAscii_spec {M : Maps} (hM : GoodMaps M) {set : Nat} {bytes : List Nat} :
    ∀ (l ds : List Nat) (i : Nat), Digits set ds → i = ds.length → (∃ rest, bytes.drop i = l ++ rest) → (∀ c ∈ l, 0 < c ∧ c < 128) → i + l.length ≤ charMax set →
      ∃ r, packAscii (M set).2 set bytes i (word set ds) l.length = some r ∧
        match r with
        | some w => ∃ es, w = word set (ds ++ es) ∧ Digits set (ds ++ es) ∧ chars M set es = l
        | none => ∃ c ∈ l, c ∉ (M set).2 := by
  intro l
  induction l with
  | nil => intro ds i h _ _ _ _; exact ⟨_, rfl, [], by simp, by simpa using h, rfl⟩
  | cons c l ih =>
    intro ds i h hi ⟨rest, hb⟩ hc hl
    simp only [List.length_cons] at hl
    rw [List.length_cons, packAscii]
    have hc1 := hc c (by simp)
    have hget : bytes[i]? = some c := by
      have := congrArg (·[0]?) hb
      simpa [List.getElem?_drop] using this
    rw [hget]
    simp only [Option.bind_eq_bind, Option.bind_some]
    rw [show ofChar c = c from if_pos hc1.2]
    obtain ⟨r, hr, hs⟩ := charInMap_spec hM h.set_pos h.set_le c
    rw [hr]
    simp only [Option.bind_some]
    cases r with
    | none => exact ⟨none, rfl, c, by simp, hs⟩
    | some d =>
      obtain ⟨x, hx, hw, hd⟩ := place_word h ⟨digit_pos hM h.set_pos h.set_le hs.2 (by omega), hs.1⟩ (by omega)
      rw [hi]
      dsimp only
      rw [hx]
      simp only [Option.bind_some]
      rw [hw]
      obtain ⟨r, hr, hs'⟩ := ih (ds ++ [d]) (i + 1) hd (by simp; omega) ⟨rest, by
        have := congrArg (List.drop 1) hb
        simpa [List.drop_drop] using this⟩ (fun c hc' => hc c (by simp [hc'])) (by omega)
      rw [hi] at hr
      refine ⟨r, hr, ?_⟩
      cases r with
      | none => obtain ⟨c', h1, h2⟩ := hs'; exact ⟨c', by simp [h1], h2⟩
      | some w =>
        obtain ⟨es, e1, e2, e3⟩ := hs'
        refine ⟨d :: es, by simpa using e1, by simpa using e2, ?_⟩
        have : (M set).2.getD d 0 = c := hs.2
        simp only [chars, List.map_cons, this] at e3 ⊢
        rw [e3]

theorem packUtf8_spec {M : Maps} (hM : GoodMaps M) {set : Nat} {bytes : List Nat} {length : Nat} :
    ∀ (l ds : List Nat) (loop fuel : Nat), Digits set ds → (∃ rest, bytes.drop loop = Utf8.Spec.encodeAll l ++ rest) → (∀ c ∈ l, Utf8.Spec.Scalar c) →
      length = loop + (Utf8.Spec.encodeAll l).length → l.length ≤ fuel →
      ∃ r, packUtf8 (M set).2 set bytes length loop ds.length (word set ds) fuel = some r ∧
        match r with
        | some w => ∃ es, w = word set (ds ++ es) ∧ Digits set (ds ++ es) ∧ chars M set es = l
        | none => (∃ c ∈ l, c ∉ (M set).2) ∨ charMax set < ds.length + l.length := by
  intro l
  induction l with
  | nil =>
    intro ds loop fuel h _ _ hl _
    simp [Utf8.Spec.encodeAll] at hl
    subst hl
    refine ⟨some (word set ds), ?_, [], by simp, by simpa using h, rfl⟩
    cases fuel <;> simp [packUtf8]
  | cons c l ih =>
    intro ds loop fuel h ⟨rest, hb⟩ hc hl hf
    obtain ⟨fuel, rfl⟩ : ∃ k, fuel = k + 1 := ⟨fuel - 1, by simp at hf; omega⟩
    have hc1 := hc c (by simp)
    have hpos := Utf8.charSize_pos hc1
    have hsz := Utf8.size_eq hc1
    rw [Utf8.encodeAll_cons] at hb hl
    rw [List.length_append] at hl
    rw [List.append_assoc] at hb
    rw [packUtf8, if_pos (by omega), hb, Utf8.getChar_encode hc1]
    simp only [Option.bind_eq_bind, Option.bind_some]
    have hmax := bits_max h.set_pos h.set_le
    by_cases hcount : ds.length < (64 - 2) / bits set
    · rw [if_pos hcount]
      obtain ⟨r, hr, hs⟩ := charInMap_spec hM h.set_pos h.set_le c
      rw [hr]
      simp only [Option.bind_some]
      cases r with
      | none => exact ⟨none, rfl, .inl ⟨c, by simp, hs⟩⟩
      | some d =>
        obtain ⟨x, hx, hw, hd⟩ := place_word h ⟨digit_pos hM h.set_pos h.set_le hs.2 (by have := hc1.1; omega), hs.1⟩ (by omega)
        dsimp only
        rw [hx]
        simp only [Option.bind_some]
        rw [hw]
        obtain ⟨r, hr, hs'⟩ := ih (ds ++ [d]) (loop + Utf8.charSize c) fuel hd ⟨rest, by
          rw [← List.drop_drop, hb, ← hsz, List.drop_left]⟩ (fun c hc' => hc c (by simp [hc'])) (by omega) (by simp at hf; omega)
        rw [List.length_append, List.length_singleton] at hr
        refine ⟨r, hr, ?_⟩
        cases r with
        | none =>
          rcases hs' with ⟨c', h1, h2⟩ | h1
          · exact .inl ⟨c', by simp [h1], h2⟩
          · refine .inr ?_
            simp at h1 ⊢; omega
        | some w =>
          obtain ⟨es, e1, e2, e3⟩ := hs'
          refine ⟨d :: es, by simpa using e1, by simpa using e2, ?_⟩
          have : (M set).2.getD d 0 = c := hs.2
          simp only [chars, List.map_cons, this] at e3 ⊢
          rw [e3]
    · rw [if_neg hcount]
      refine ⟨none, rfl, .inr ?_⟩
      simp; omega

/-- `l` as bytes of this encoding. -/
def bytesOf : Enc → List Nat → List Nat
  | .ascii, l => l
  | .utf8, l => Utf8.Spec.encodeAll l

/-- The characters of this encoding. -/
def CharOk : Enc → Nat → Prop
  | .ascii, c => 0 < c ∧ c < 128
  | .utf8, c => Utf8.Spec.Scalar c

/-- `l` can be a tagged string of this set. -/
def Fits (M : Maps) (set : Nat) (l : List Nat) : Prop := l.length ≤ charMax set ∧ ∀ c ∈ l, c ∈ (M set).2

theorem createTagged_spec {M : Maps} (hM : GoodMaps M) {e : Enc} {l rest : List Nat} (hc : ∀ c ∈ l, CharOk e c) : ∀ n, n ≤ 3 →
    ∃ r, createTagged M (bytesOf e l ++ rest) (bytesOf e l).length e n = some r ∧
      match r with
      | some w => ∃ set ds, set ≤ n ∧ w = word set ds ∧ Digits set ds ∧ chars M set ds = l ∧ ∀ set', set < set' → set' ≤ n → ¬ Fits M set' l
      | none => ∀ set, 1 ≤ set → set ≤ n → ¬ Fits M set l := by
  intro n
  induction n with
  | zero => intro _; exact ⟨none, rfl, fun set h1 h2 => by omega⟩
  | succ n ih =>
    intro hn
    obtain ⟨r, hr, hs⟩ := ih (by omega)
    have lift : ¬ Fits M (n + 1) l → ∃ r', createTagged M (bytesOf e l ++ rest) (bytesOf e l).length e n = some r' ∧
      match r' with
      | some w => ∃ set ds, set ≤ n + 1 ∧ w = word set ds ∧ Digits set ds ∧ chars M set ds = l ∧ ∀ set', set < set' → set' ≤ n + 1 → ¬ Fits M set' l
      | none => ∀ set, 1 ≤ set → set ≤ n + 1 → ¬ Fits M set l := by
      intro hnf
      refine ⟨r, hr, ?_⟩
      cases r with
      | some w => 
        obtain ⟨set, ds, h1, h2, h3, h4, h5⟩ := hs
        refine ⟨set, ds, by omega, h2, h3, h4, fun set' g1 g2 => ?_⟩
        by_cases hx : set' = n + 1
        · rw [hx]; exact hnf
        · exact h5 set' g1 (by omega)
      | none =>
        intro set h1 h2
        by_cases hx : set = n + 1
        · rw [hx]; exact hnf
        · exact hs set h1 (by omega)
    rw [createTagged]
    by_cases hl : (bytesOf e l).length ≤ charMax (n + 1) * (if e = .utf8 then 4 else 1)
    · rw [if_pos hl]
      cases e with
      | ascii =>
        simp only [createFromSet, bytesOf]
        simp only [bytesOf] at hl
        obtain ⟨r', hr', hs'⟩ := packAscii_spec hM (set := n + 1) (bytes := l ++ rest) l [] 0 (.nil (by omega) (by omega)) rfl ⟨rest, rfl⟩ hc (by simpa using hl)
        rw [word_nil] at hr'
        rw [hr']
        simp only [Option.bind_eq_bind, Option.bind_some]
        cases r' with
        | some w => obtain ⟨es, e1, e2, e3⟩ := hs'; exact ⟨_, rfl, n + 1, es, by omega, by simpa using e1, by simpa using e2, e3, fun set' g1 g2 => by omega⟩
        | none =>
          refine lift fun hf => ?_
          obtain ⟨c, h1, h2⟩ := hs'
          exact h2 (hf.2 c h1)
      | utf8 =>
        simp only [createFromSet, bytesOf]
        obtain ⟨r', hr', hs'⟩ := packUtf8_spec hM (set := n + 1) (bytes := Utf8.Spec.encodeAll l ++ rest) (length := (Utf8.Spec.encodeAll l).length) l [] 0 (Utf8.Spec.encodeAll l).length (.nil (by omega) (by omega)) ⟨rest, rfl⟩ hc
          (by simp) (Utf8.length_le_encodeAll hc)
        rw [word_nil] at hr'
        simp only [List.length_nil] at hr'
        rw [hr']
        simp only [Option.bind_eq_bind, Option.bind_some]
        cases r' with
        | some w => obtain ⟨es, e1, e2, e3⟩ := hs'; exact ⟨_, rfl, n + 1, es, by omega, by simpa using e1, by simpa using e2, e3, fun set' g1 g2 => by omega⟩
        | none =>
          refine lift fun hf => ?_
          rcases hs' with ⟨c, h1, h2⟩ | h1
          · exact h2 (hf.2 c h1)
          · have := hf.1; simp at h1; omega
    · rw [if_neg hl]
      refine lift fun hf => hl ?_
      cases e with
      | ascii => simpa [bytesOf] using hf.1
      | utf8 =>
        simp only [bytesOf, if_true]
        have : ∀ l : List Nat, (∀ c ∈ l, Utf8.Spec.Scalar c) → (Utf8.Spec.encodeAll l).length ≤ l.length * 4 := by
          intro l hl
          induction l with
          | nil => simp [Utf8.Spec.encodeAll]
          | cons c l ih =>
            have h1 := ih fun c hc => hl c (by simp [hc])
            have h2 := Utf8.size_eq (hl c (by simp))
            have h3 : Utf8.charSize c ≤ 4 := by unfold Utf8.charSize; (repeat' split) <;> omega
            rw [Utf8.encodeAll_cons, List.length_append, List.length_cons]; omega
        have h1 := this l hc
        have h2 := hf.1
        omega

end Verif.Str
