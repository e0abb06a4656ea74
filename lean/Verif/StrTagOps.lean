import Verif.StrTagLemmas
/-!
# The operations on tagged words, in terms of their digits
-/
namespace Verif.Str

/-! ## Length -/

theorem mask_ne {w m : Nat} (n a : Nat) (h : m = (2 ^ n - 1) * 2 ^ a) : (w &&& m ≠ 0) ↔ w / 2 ^ a % 2 ^ n ≠ 0 := by
  rw [h, and_mask]
  have := Nat.two_pow_pos a
  constructor
  · intro h e; rw [e] at h; simp at h
  · intro h e; rcases Nat.mul_eq_zero.1 e with e | e
    · exact h e
    · omega

theorem length127_eq {w n : Nat} (hn : n ≤ 8) (hu : w < 2 ^ (2 + 7 * n)) (hl : n = 0 ∨ 2 ^ (2 + 7 * (n - 1)) ≤ w) : length127 w = n := by
  have m1 := mask_ne (w := w) (m := 0x3ffffffc0000000) 28 30 (by decide)
  have m2 := mask_ne (w := w) (m := 0x3fff00000000000) 14 44 (by decide)
  have m3 := mask_ne (w := w) (m := 0x3f8000000000000) 7 51 (by decide)
  have m4 := mask_ne (w := w) (m := 0xfe000000000) 7 37 (by decide)
  have m5 := mask_ne (w := w) (m := 0x3ffffffc) 28 2 (by decide)
  have m6 := mask_ne (w := w) (m := 0x3fff0000) 14 16 (by decide)
  have m7 := mask_ne (w := w) (m := 0x3f800000) 7 23 (by decide)
  have m8 := mask_ne (w := w) (m := 0xfe00) 7 9 (by decide)
  simp only [length127, m1, m2, m3, m4, m5, m6, m7, m8]
  have : n = 0 ∨ n = 1 ∨ n = 2 ∨ n = 3 ∨ n = 4 ∨ n = 5 ∨ n = 6 ∨ n = 7 ∨ n = 8 := by omega
  rcases this with rfl | rfl | rfl | rfl | rfl | rfl | rfl | rfl | rfl <;> simp only [Nat.reduceMul, Nat.reduceAdd, Nat.reduceSub, Nat.reducePow] at hu hl ⊢ <;>
    (repeat' split) <;> omega

theorem length63_eq {w n : Nat} (hn : n ≤ 10) (hu : w < 2 ^ (2 + 6 * n)) (hl : n = 0 ∨ 2 ^ (2 + 6 * (n - 1)) ≤ w) : length63 w = n := by
  have m1 := mask_ne (w := w) (m := 0x3fffffff00000000) 30 32 (by decide)
  have m2 := mask_ne (w := w) (m := 0x3ffc000000000000) 12 50 (by decide)
  have m3 := mask_ne (w := w) (m := 0x3f00000000000000) 6 56 (by decide)
  have m4 := mask_ne (w := w) (m := 0x3ffc000000000) 12 38 (by decide)
  have m5 := mask_ne (w := w) (m := 0x3f00000000000) 6 44 (by decide)
  have m6 := mask_ne (w := w) (m := 0xfffffffc) 30 2 (by decide)
  have m7 := mask_ne (w := w) (m := 0xfff00000) 12 20 (by decide)
  have m8 := mask_ne (w := w) (m := 0xfc000000) 6 26 (by decide)
  have m9 := mask_ne (w := w) (m := 0xfff00) 12 8 (by decide)
  have m10 := mask_ne (w := w) (m := 0xfc000) 6 14 (by decide)
  simp only [length63, m1, m2, m3, m4, m5, m6, m7, m8, m9, m10]
  have : n = 0 ∨ n = 1 ∨ n = 2 ∨ n = 3 ∨ n = 4 ∨ n = 5 ∨ n = 6 ∨ n = 7 ∨ n = 8 ∨ n = 9 ∨ n = 10 := by omega
  rcases this with rfl | rfl | rfl | rfl | rfl | rfl | rfl | rfl | rfl | rfl | rfl <;> simp only [Nat.reduceMul, Nat.reduceAdd, Nat.reduceSub, Nat.reducePow] at hu hl ⊢ <;>
    (repeat' split) <;> omega

set_option maxHeartbeats 1000000 in
theorem length31_eq {w n : Nat} (hn : n ≤ 12) (hu : w < 2 ^ (2 + 5 * n)) (hl : n = 0 ∨ 2 ^ (2 + 5 * (n - 1)) ≤ w) : length31 w = n := by
  have m1 := mask_ne (w := w) (m := 0x3fffffff00000000) 30 32 (by decide)
  have m2 := mask_ne (w := w) (m := 0x3fff800000000000) 15 47 (by decide)
  have m3 := mask_ne (w := w) (m := 0x3ff0000000000000) 10 52 (by decide)
  have m4 := mask_ne (w := w) (m := 0x3e00000000000000) 5 57 (by decide)
  have m5 := mask_ne (w := w) (m := 0x7fff00000000) 15 32 (by decide)
  have m6 := mask_ne (w := w) (m := 0x7fe000000000) 10 37 (by decide)
  have m7 := mask_ne (w := w) (m := 0x7c0000000000) 5 42 (by decide)
  have m8 := mask_ne (w := w) (m := 0xfffffffc) 30 2 (by decide)
  have m9 := mask_ne (w := w) (m := 0xfffe0000) 15 17 (by decide)
  have m10 := mask_ne (w := w) (m := 0xffc00000) 10 22 (by decide)
  have m11 := mask_ne (w := w) (m := 0xf8000000) 5 27 (by decide)
  have m12 := mask_ne (w := w) (m := 0x1fffc) 15 2 (by decide)
  have m13 := mask_ne (w := w) (m := 0x1ff80) 10 7 (by decide)
  have m14 := mask_ne (w := w) (m := 0x1f000) 5 12 (by decide)
  simp only [length31, m1, m2, m3, m4, m5, m6, m7, m8, m9, m10, m11, m12, m13, m14]
  have : n = 0 ∨ n = 1 ∨ n = 2 ∨ n = 3 ∨ n = 4 ∨ n = 5 ∨ n = 6 ∨ n = 7 ∨ n = 8 ∨ n = 9 ∨ n = 10 ∨ n = 11 ∨ n = 12 := by omega
  rcases this with rfl | rfl | rfl | rfl | rfl | rfl | rfl | rfl | rfl | rfl | rfl | rfl | rfl <;> simp only [Nat.reduceMul, Nat.reduceAdd, Nat.reduceSub, Nat.reducePow] at hu hl ⊢ <;>
    (repeat' split) <;> omega

theorem tagLength_word {set : Nat} {ds : List Nat} (h : Digits set ds) : tagLength (word set ds) = ds.length := by
  have hu := pack_lt h.lt
  have hs := h.set_le
  have hp := h.set_pos
  have hu' : word set ds < 2 ^ (2 + bits set * ds.length) := by rw [word, Nat.pow_add]; omega
  have hl : ds.length = 0 ∨ 2 ^ (2 + bits set * (ds.length - 1)) ≤ word set ds := by
    by_cases hd : ds = []
    · exact .inl (by simp [hd])
    · have := pack_ge (b := bits set) (fun d hd => (h.digit d hd).1) hd
      exact .inr (by rw [word, Nat.pow_add]; omega)
  have hm := h.len
  have : set = 1 ∨ set = 2 ∨ set = 3 := by omega
  rw [tagLength, h.setOf]
  rcases this with rfl | rfl | rfl
  · exact length127_eq hm hu' hl
  · exact length63_eq hm hu' hl
  · exact length31_eq hm hu' hl

/-! ## Maps -/

/-- What the library relies on for a registered map: it has as many entries as its set, starts with 0, has no entry twice, holds Unicode characters, and only ASCII ones if it is registered as ASCII. -/
structure GoodMaps (M : Maps) : Prop where
  len : ∀ {set}, 1 ≤ set → set ≤ 3 → (M set).2.length = mapSize set
  zero : ∀ {set}, 1 ≤ set → set ≤ 3 → (M set).2[0]? = some 0
  nodup : ∀ {set}, 1 ≤ set → set ≤ 3 → (M set).2.Nodup
  scalar : ∀ {set}, 1 ≤ set → set ≤ 3 → ∀ c ∈ (M set).2, c ≠ 0 → Utf8.Spec.Scalar c
  ascii : ∀ {set}, 1 ≤ set → set ≤ 3 → (M set).1 = .ascii → ∀ c ∈ (M set).2, c < 128

/-- The characters of digits. -/
def chars (M : Maps) (set : Nat) (ds : List Nat) : List Nat := ds.map fun d => (M set).2.getD d 0

theorem chars_length (M : Maps) (set : Nat) (ds : List Nat) : (chars M set ds).length = ds.length := by simp [chars]

theorem chars_append (M : Maps) (set : Nat) (ds es : List Nat) : chars M set (ds ++ es) = chars M set ds ++ chars M set es := by simp [chars]

theorem chars_take (M : Maps) (set : Nat) (ds : List Nat) (n : Nat) : chars M set (ds.take n) = (chars M set ds).take n := by simp [chars, List.map_take]

theorem chars_drop (M : Maps) (set : Nat) (ds : List Nat) (n : Nat) : chars M set (ds.drop n) = (chars M set ds).drop n := by simp [chars, List.map_drop]

theorem GoodMaps.get {M : Maps} (hM : GoodMaps M) {set d : Nat} (h1 : 1 ≤ set) (h3 : set ≤ 3) (hd : d < mapSize set) : (M set).2[d]? = some ((M set).2.getD d 0) := by
  have := hM.len h1 h3
  rw [List.getD_eq_getElem?_getD, List.getElem?_eq_getElem (by omega)]
  rfl

theorem GoodMaps.get_inj {M : Maps} (hM : GoodMaps M) {set d e : Nat} (h1 : 1 ≤ set) (h3 : set ≤ 3) (hd : d < mapSize set) (he : e < mapSize set)
    (h : (M set).2.getD d 0 = (M set).2.getD e 0) : d = e := by
  have hl := hM.len h1 h3
  have hn := hM.nodup h1 h3
  have g1 := hM.get h1 h3 hd
  have g2 := hM.get h1 h3 he
  rw [h, ← g2] at g1
  exact (List.getElem?_inj (by omega) hn).1 g1

theorem GoodMaps.char {M : Maps} (hM : GoodMaps M) {set d : Nat} (h1 : 1 ≤ set) (h3 : set ≤ 3) (h0 : 0 < d) (hd : d < mapSize set) :
    Utf8.Spec.Scalar ((M set).2.getD d 0) := by
  have g1 := hM.get h1 h3 hd
  have hz := hM.zero h1 h3
  refine hM.scalar h1 h3 _ (List.mem_of_getElem? g1) fun e => ?_
  have hz' : (M set).2.getD 0 0 = 0 := by rw [List.getD_eq_getElem?_getD, hz]; rfl
  have := hM.get_inj h1 h3 hd (by have : 0 < mapSize set := by omega
                                  exact this) (e.trans hz'.symm)
  omega

theorem GoodMaps.chars_scalar {M : Maps} (hM : GoodMaps M) {set : Nat} {ds : List Nat} (h : Digits set ds) : ∀ c ∈ chars M set ds, Utf8.Spec.Scalar c := by
  intro c hc
  obtain ⟨d, hd, rfl⟩ := List.mem_map.1 hc
  exact hM.char h.set_pos h.set_le (h.digit d hd).1 (h.digit d hd).2

theorem GoodMaps.chars_ascii {M : Maps} (hM : GoodMaps M) {set : Nat} {ds : List Nat} (h : Digits set ds) (he : (M set).1 = .ascii) : ∀ c ∈ chars M set ds, c < 128 := by
  intro c hc
  obtain ⟨d, hd, rfl⟩ := List.mem_map.1 hc
  exact hM.ascii h.set_pos h.set_le he _ (List.mem_of_getElem? (hM.get h.set_pos h.set_le (h.digit d hd).2))

theorem GoodMaps.chars_inj {M : Maps} (hM : GoodMaps M) {set : Nat} {ds es : List Nat} (h : Digits set ds) (h' : Digits set es) (e : chars M set ds = chars M set es) : ds = es := by
  have hl : ds.length = es.length := by rw [← chars_length M set ds, e, chars_length]
  refine List.ext_getElem hl fun i h1 h2 => ?_
  have := congrArg (·[i]?) e
  simp only [chars, List.getElem?_map, List.getElem?_eq_getElem h1, List.getElem?_eq_getElem h2, Option.map_some, Option.some.injEq] at this
  exact hM.get_inj h.set_pos h.set_le (h.digit _ (List.getElem_mem h1)).2 (h'.digit _ (List.getElem_mem h2)).2 this

theorem digit_lt {set : Nat} {ds : List Nat} (h : Digits set ds) (i : Nat) : ds.getD i 0 < mapSize set := by
  rw [List.getD_eq_getElem?_getD]
  by_cases hi : i < ds.length
  · rw [List.getElem?_eq_getElem hi]; exact (h.digit _ (List.getElem_mem hi)).2
  · rw [List.getElem?_eq_none (by omega)]
    have : set = 1 ∨ set = 2 ∨ set = 3 := by have := h.set_pos; have := h.set_le; omega
    rcases this with rfl | rfl | rfl <;> decide

theorem char_at {M : Maps} (hM : GoodMaps M) {set : Nat} {ds : List Nat} (h : Digits set ds) (i : Nat) :
    (M set).2[ds.getD i 0]? = some ((chars M set ds).getD i 0) := by
  rw [hM.get h.set_pos h.set_le (digit_lt h i)]
  congr 1
  by_cases hi : i < ds.length
  · simp [List.getD_eq_getElem?_getD, chars, hi]
  · rw [List.getD_eq_getElem?_getD (l := ds), List.getElem?_eq_none (by omega), List.getD_eq_getElem?_getD (l := chars M set ds),
      List.getElem?_eq_none (by rw [chars_length]; omega), List.getD_eq_getElem?_getD]
    show (M set).2[0]?.getD 0 = 0
    rw [hM.zero h.set_pos h.set_le]; rfl

/-! ## Characters and size -/

theorem tagChar_word {M : Maps} (hM : GoodMaps M) {set : Nat} {ds : List Nat} (h : Digits set ds) (i : Nat) :
    tagChar M (word set ds) i = some ((chars M set ds).getD i 0) := by
  rw [tagChar, h.setOf]
  by_cases hi : i < charMax set
  · rw [if_pos hi]
    have hb := bits_max h.set_pos h.set_le
    have : bits set * i ≤ 60 := Nat.le_trans (Nat.mul_le_mul_left _ (by omega)) hb.1
    rw [shr_some (by omega)]
    simp only [Option.bind_eq_bind, Option.bind_some]
    rw [shr_some (by omega)]
    simp only [Option.bind_some]
    rw [mapSize_eq h.set_pos h.set_le, and_low, Nat.div_div_eq_div_mul, Nat.mul_comm, ← Nat.div_div_eq_div_mul]
    rw [← Nat.shiftRight_eq_div_pow _ 2, h.shift, pack_get h.lt, char_at hM h]
  · rw [if_neg hi, List.getD_eq_getElem?_getD, List.getElem?_eq_none (by rw [chars_length]; have := h.len; omega)]
    rfl

theorem tagSizeLoop_word {M : Maps} (hM : GoodMaps M) {set : Nat} {ds : List Nat} (h : Digits set ds) :
    ∀ n i size : Nat, i + n = charMax set →
      tagSizeLoop (M set).2 set (pack (bits set) ds) i size n = some (size + (Utf8.Spec.encodeAll ((chars M set ds).drop i)).length) := by
  intro n
  induction n with
  | zero =>
    intro i size hi
    rw [tagSizeLoop, List.drop_of_length_le (by rw [chars_length]; have := h.len; omega)]
    simp [Utf8.Spec.encodeAll]
  | succ n ih =>
    intro i size hi
    have hb := bits_max h.set_pos h.set_le
    have : bits set * i ≤ 60 := Nat.le_trans (Nat.mul_le_mul_left _ (by omega)) hb.1
    rw [tagSizeLoop, shr_some (by omega)]
    simp only [Option.bind_eq_bind, Option.bind_some]
    rw [mapSize_eq h.set_pos h.set_le, and_low, pack_get h.lt, char_at hM h]
    simp only [Option.bind_some]
    rw [ih _ _ (by omega)]
    by_cases hl : i < (chars M set ds).length
    · rw [List.drop_eq_getElem_cons hl, Utf8.encodeAll_cons, List.length_append]
      have hs := Utf8.size_eq (hM.chars_scalar h _ (List.getElem_mem hl))
      rw [hs, List.getD_eq_getElem?_getD, List.getElem?_eq_getElem hl, Option.getD_some]
      congr 1; omega
    · rw [List.getD_eq_getElem?_getD, List.getElem?_eq_none (by omega), List.drop_of_length_le (by omega), List.drop_of_length_le (by omega)]
      simp [Utf8.charSize]

theorem tagSize_word {M : Maps} (hM : GoodMaps M) {set : Nat} {ds : List Nat} (h : Digits set ds) :
    tagSize M (word set ds) = some (Utf8.Spec.encodeAll (chars M set ds)).length := by
  rw [tagSize, h.setOf, h.shift, tagSizeLoop_word hM h _ _ _ (by omega)]
  simp

/-! ## Substring, removal, insertion -/

theorem mul_le_max {set n : Nat} (h1 : 1 ≤ set) (h3 : set ≤ 3) (hn : n ≤ charMax set) : bits set * n ≤ 60 :=
  Nat.le_trans (Nat.mul_le_mul_left _ hn) (bits_max h1 h3).1

theorem mask_some {k a : Nat} (h0 : 0 < k) (h : k + a ≤ 60) : (do shl (← lowMask k) a) = some ((2 ^ k - 1) * 2 ^ a) := by
  rw [lowMask_some h0 (by omega)]
  simp only [Option.bind_eq_bind, Option.bind_some]
  refine shl_some (by omega) ?_
  have h1 : (2 ^ k - 1) * 2 ^ a ≤ 2 ^ k * 2 ^ a := Nat.mul_le_mul_right _ (Nat.sub_le _ _)
  rw [← Nat.pow_add] at h1
  have h2 : 2 ^ (k + a) ≤ 2 ^ 60 := Nat.pow_le_pow_right (by omega) h
  omega

theorem shl2 {x : Nat} (h : x < 2 ^ 60) : shl x 2 = some (2 ^ 2 * x) := by
  rw [shl_some (by omega) (by omega), Nat.mul_comm]

theorem pos_mul {set n : Nat} (h1 : 1 ≤ set) (h3 : set ≤ 3) (hn : 0 < n) : 0 < bits set * n :=
  Nat.mul_pos (by have := bits_max h1 h3; omega) hn

/-- A mask picks digits. -/
theorem pick {set : Nat} {ds : List Nat} (h : Digits set ds) (off len : Nat) :
    pack (bits set) ds &&& ((2 ^ (bits set * len) - 1) * 2 ^ (bits set * off)) = pack (bits set) ((ds.drop off).take len) * 2 ^ (bits set * off) := by
  rw [and_mask, pack_drop h.lt, pack_take (h.drop off).lt]

theorem tagSub_word {set : Nat} {ds : List Nat} (h : Digits set ds) {off len : Nat} (hb : off + len ≤ ds.length) :
    tagSub (word set ds) off len = some (word set ((ds.drop off).take len)) := by
  have h1 := h.set_pos; have h3 := h.set_le; have hm := h.len
  rw [tagSub, h.setOf]
  by_cases hl : len = 0
  · subst hl; simp [word_nil]
  · rw [if_pos hl]
    have e := mul_le_max h1 h3 (n := off + len) (by omega)
    rw [Nat.mul_add] at e
    have m := mask_some (pos_mul h1 h3 (n := len) (by omega)) (a := bits set * off) (by omega)
    simp only [Option.bind_eq_bind] at m ⊢
    rw [Nat.mul_comm len, Nat.mul_comm off]
    simp only [Option.bind_eq_some_iff] at m
    obtain ⟨x, hx, hy⟩ := m
    rw [hx]
    simp only [Option.bind_some]
    rw [hy]
    simp only [Option.bind_some]
    rw [h.shift, pick h, shr_some (by omega)]
    simp only [Option.bind_some]
    rw [Nat.mul_div_cancel _ (Nat.two_pow_pos _), shl2 ((h.drop off).take len).pack_lt]
    simp only [Option.bind_some]
    rw [Nat.or_comm, or_set ((h.drop off).take len)]; rfl

theorem or_set_head {set : Nat} {xs : List Nat} (h : Digits set xs) : set ||| 2 ^ 2 * pack (bits set) xs = word set xs := or_set h

theorem tagHead_eq {set : Nat} {ds : List Nat} (h : Digits set ds) {i : Nat} (hi : i ≤ ds.length) :
    tagHead (bits set) (pack (bits set) ds) i = some (2 ^ 2 * pack (bits set) (ds.take i)) := by
  have h1 := h.set_pos; have h3 := h.set_le; have hm := h.len
  by_cases h0 : i = 0
  · subst h0; simp [tagHead, pack]
  · rw [tagHead, if_pos h0, Nat.mul_comm, lowMask_some (pos_mul h1 h3 (by omega)) (by have := mul_le_max h1 h3 (n := i) (by omega); omega)]
    simp only [Option.bind_eq_bind, Option.bind_some]
    rw [and_low, pack_take h.lt, shl2 (h.take i).pack_lt]

theorem tagWithout_word {set : Nat} {ds : List Nat} (h : Digits set ds) {off len : Nat} (hb : off + len < ds.length) :
    tagWithout (word set ds) ds.length off len = some (word set (ds.take off ++ ds.drop (off + len))) := by
  have h1 := h.set_pos; have h3 := h.set_le; have hm := h.len
  rw [tagWithout, h.setOf, h.shift]
  have hd := tagHead_eq h (i := off) (by omega)
  have es : sub64 ds.length (len + off) = ds.length - (off + len) := by rw [sub64, if_pos (by omega)]; omega
  have e := mul_le_max h1 h3 (n := (ds.length - (off + len)) + (off + len)) (by omega)
  rw [Nat.mul_add] at e
  have m := mask_some (pos_mul h1 h3 (n := ds.length - (off + len)) (by omega)) (a := bits set * (off + len)) (by omega)
  simp only [Option.bind_eq_bind] at m ⊢
  rw [hd]
  simp only [Option.bind_some]
  rw [es, Nat.mul_comm (ds.length - (off + len)), Nat.add_comm len, Nat.mul_comm (off + len), Nat.mul_comm len]
  simp only [Option.bind_eq_some_iff] at m
  obtain ⟨x, hx, hy⟩ := m
  rw [hx]
  simp only [Option.bind_some]
  rw [hy]
  simp only [Option.bind_some]
  rw [pick h]
  have hmul := Nat.mul_add (bits set) off len
  rw [shr_some (by omega)]
  simp only [Option.bind_some]
  have ht : (ds.drop (off + len)).take (ds.length - (off + len)) = ds.drop (off + len) := List.take_of_length_le (by rw [List.length_drop]; omega)
  rw [ht, hmul, Nat.pow_add, ← Nat.mul_assoc, Nat.mul_div_cancel _ (Nat.two_pow_pos _)]
  have hlen : (ds.take off).length = off := by rw [List.length_take]; omega
  have hd2 : Digits set (ds.take off ++ ds.drop (off + len)) := (h.take off).append (h.drop _) (by rw [hlen, List.length_drop]; omega)
  have hp := hd2.pack_lt
  rw [pack_append, hlen, Nat.mul_comm (2 ^ (bits set * off))] at hp
  rw [shl2 (by omega)]
  simp only [Option.bind_some]
  rw [or_set (h.take off), Nat.mul_comm (pack _ _) (2 ^ _)]
  have := or_word (h.take off) (ys := ds.drop (off + len))
  rw [hlen] at this
  rw [this]; rfl

theorem tagInsert_word {set : Nat} {ds es : List Nat} (h : Digits set ds) (h' : Digits set es) {i : Nat} (hi : i ≤ ds.length) (hl : ds.length + es.length ≤ charMax set) :
    tagInsert (word set ds) ds.length i (word set es) es.length = some (word set (ds.take i ++ es ++ ds.drop i)) := by
  have h1 := h.set_pos; have h3 := h.set_le; have hm := h.len
  rw [tagInsert, h.setOf, h.shift, h'.shift]
  have hd := tagHead_eq h (i := i) (by omega)
  have hlen : (ds.take i).length = i := by rw [List.length_take]; omega
  have d1 : Digits set (ds.take i ++ es) := (h.take i).append h' (by rw [hlen]; omega)
  have d2 : Digits set (ds.take i ++ es ++ ds.drop i) := d1.append (h.drop i) (by rw [List.length_append, hlen, List.length_drop]; omega)
  have p1 := d1.pack_lt
  rw [pack_append, hlen] at p1
  have p2 := d2.pack_lt
  rw [pack_append, List.length_append, hlen] at p2
  have b1 := mul_le_max h1 h3 (n := i) (by omega)
  have b2 := mul_le_max h1 h3 (n := es.length) (by omega)
  simp only [Option.bind_eq_bind]
  rw [hd]
  simp only [Option.bind_some]
  rw [Nat.mul_comm i, shl_some (by omega) (by rw [Nat.mul_comm]; omega)]
  simp only [Option.bind_some]
  rw [Nat.mul_comm (pack _ es), shl2 (by omega)]
  simp only [Option.bind_some]
  have o1 := or_word (h.take i) (ys := es)
  rw [hlen] at o1
  have o2 := or_word d1 (ys := ds.drop i)
  rw [List.length_append, hlen] at o2
  by_cases hin : i < ds.length
  · rw [tagTail, if_pos hin]
    have e := mul_le_max h1 h3 (n := (ds.length - i) + i) (by omega)
    rw [Nat.mul_add] at e
    have m := mask_some (pos_mul h1 h3 (n := ds.length - i) (by omega)) (a := bits set * i) (by omega)
    simp only [Option.bind_eq_bind, Option.bind_eq_some_iff] at m
    obtain ⟨x, hx, hy⟩ := m
    rw [Nat.mul_comm (ds.length - i), hx]
    simp only [Option.bind_eq_bind, Option.bind_some]
    rw [Nat.mul_comm i, hy]
    simp only [Option.bind_some]
    have ht : (ds.drop i).take (ds.length - i) = ds.drop i := List.take_of_length_le (by rw [List.length_drop]; omega)
    rw [pick h, ht, Nat.mul_comm es.length]
    have hx2 : pack (bits set) (ds.drop i) * 2 ^ (bits set * i) * 2 ^ (bits set * es.length) = 2 ^ (bits set * (i + es.length)) * pack (bits set) (ds.drop i) := by
      rw [Nat.mul_assoc, ← Nat.pow_add, ← Nat.mul_add, Nat.mul_comm]
    rw [shl_some (by omega) (by rw [hx2]; omega)]
    simp only [Option.bind_some]
    rw [hx2, shl2 (by omega)]
    simp only [Option.bind_some]
    rw [or_set (h.take i), o1, o2]; rfl
  · rw [tagTail, if_neg hin]
    simp only [Option.bind_some, Nat.or_zero]
    rw [or_set (h.take i), o1, List.drop_of_length_le (by omega), List.append_nil]; rfl

end Verif.Str
