import Verif.Utf8
import Verif.Utf8Spec
/-!
# C52: the UTF-8 functions
-/
namespace Verif.Utf8
open Spec

set_option maxRecDepth 4000 in
theorem cont_byte : ∀ x, x < 256 → ((x ||| 0x80) &&& 0xbf) % 256 = 0x80 + x % 64 := by decide

theorem cont_eq (c : Nat) : cont c = 0x80 + c % 64 := by
  have h1 : ((c ||| 0x80) &&& 0xbf) % 256 = (((c % 256) ||| 0x80) &&& 0xbf) % 256 := by
    apply Nat.eq_of_testBit_eq
    intro i
    simp only [show (256 : Nat) = 2 ^ 8 from rfl, Nat.testBit_mod_two_pow, Nat.testBit_and, Nat.testBit_or]
    by_cases hi : i < 8 <;> simp [hi]
  rw [cont, h1, cont_byte _ (Nat.mod_lt _ (by omega))]
  omega

theorem first_1 {c : Nat} (h : c < 0x80) : first c 1 = c := by
  simp [first, mark]; omega

theorem first_2 {c : Nat} (h : c < 0x20) : first c 2 = 0xc0 + c := by
  revert h; revert c; decide

theorem first_3 {c : Nat} (h : c < 0x10) : first c 3 = 0xe0 + c := by
  revert h; revert c; decide

theorem first_4 {c : Nat} (h : c < 0x8) : first c 4 = 0xf0 + c := by
  revert h; revert c; decide

theorem shr6 (c : Nat) : c >>> 6 = c / 64 := by rw [Nat.shiftRight_eq_div_pow]

theorem copyChar_eq {c : Nat} (h : Scalar c) : copyChar c = encode c := by
  obtain ⟨h0, h1, h2⟩ := h
  unfold copyChar charSize encode
  rw [if_neg (by omega)]
  by_cases c1 : c < 0x80
  · simp only [if_pos c1]; rw [first_1 c1]
  · simp only [if_neg c1]
    by_cases c2 : c < 0x800
    · simp only [if_pos c2, shr6, cont_eq]; rw [first_2 (by omega)]
    · simp only [if_neg c2]
      by_cases c3 : c < 0x10000
      · simp only [if_pos c3, shr6, cont_eq]; rw [first_3 (by omega)]
        simp [Nat.div_div_eq_div_mul]
      · simp only [if_neg c3, shr6, cont_eq]; rw [first_4 (by omega)]
        simp [Nat.div_div_eq_div_mul]

theorem size_eq {c : Nat} (h : Scalar c) : (encode c).length = charSize c := by
  obtain ⟨h0, h1, h2⟩ := h
  unfold encode charSize
  rw [if_neg (show c ≠ 0 by omega)]
  split
  · rfl
  · split
    · rfl
    · split <;> rfl

theorem shl6 (c : Nat) : c <<< 6 = c * 64 := by rw [Nat.shiftLeft_eq]

theorem valid_of {c : Nat} (ok : c ≤ 0x10ffff ∧ (c < 0xd800 ∨ c > 0xdfff)) : valid c = true := by
  simpa [valid] using ok

section
attribute [local irreducible] sub32 valid

theorem getChar_of {bs rest : List Nat} {b n s last c : Nat} (h : bs.head? = some b) (ht : trailing b = n) (hs : sumBytes 0 n bs = some (s, last :: rest))
    (hc : sub32 (s + last) (offset n) = c) (ok : c ≤ 0x10ffff ∧ (c < 0xd800 ∨ c > 0xdfff)) : getChar bs = some (c, n + 1) := by
  subst ht
  unfold getChar
  rw [h]
  simp only [Option.bind_eq_bind, Option.bind_some]
  rw [hs]
  rw [Option.bind_some, show (s, last :: rest).snd.head? = some last from rfl, Option.bind_some, show (s, last :: rest).fst = s from rfl, hc, if_pos (valid_of ok)]

end

theorem offset_1 : offset 1 = 0x3080 := rfl
theorem offset_2 : offset 2 = 0xe2080 := rfl
theorem offset_3 : offset 3 = 0x03c82080 := rfl

theorem sum_0 (a : Nat) (r : List Nat) : sumBytes 0 0 (a :: r) = some (0, a :: r) := rfl
theorem sum_1 (a b : Nat) (r : List Nat) : sumBytes 0 1 (a :: b :: r) = some (a * 64 % 2 ^ 32, b :: r) := by
  simp only [sumBytes, shl6, Nat.zero_add]
theorem sum_2 (a b c : Nat) (r : List Nat) : sumBytes 0 2 (a :: b :: c :: r) = some ((a * 64 % 2 ^ 32 + b) * 64 % 2 ^ 32, c :: r) := by
  simp only [sumBytes, shl6, Nat.zero_add]
theorem sum_3 (a b c d : Nat) (r : List Nat) : sumBytes 0 3 (a :: b :: c :: d :: r) = some (((a * 64 % 2 ^ 32 + b) * 64 % 2 ^ 32 + c) * 64 % 2 ^ 32, d :: r) := by
  simp only [sumBytes, shl6, Nat.zero_add]

theorem getChar_encode {c : Nat} (h : Scalar c) (rest : List Nat) : getChar (encode c ++ rest) = some (c, charSize c) := by
  obtain ⟨h0, h1, h2⟩ := h
  unfold encode charSize
  rw [if_neg (show c ≠ 0 by omega)]
  by_cases c1 : c < 0x80
  · rw [if_pos c1, if_pos c1]
    refine getChar_of rfl (n := 0) ?_ (sum_0 _ _) ?_ (by omega)
    · unfold trailing; rw [if_pos (by omega)]
    · show (0 + c + 2 ^ 32 - 0) % 2 ^ 32 = c
      omega
  · rw [if_neg c1, if_neg c1]
    by_cases c2 : c < 0x800
    · rw [if_pos c2, if_pos c2]
      refine getChar_of rfl (n := 1) ?_ (sum_1 _ _ _) ?_ (by omega)
      · unfold trailing; rw [if_neg (by omega), if_pos (by omega)]
      · rw [offset_1, sub32]; omega
    · rw [if_neg c2, if_neg c2]
      by_cases c3 : c < 0x10000
      · rw [if_pos c3, if_pos c3]
        refine getChar_of rfl (n := 2) ?_ (sum_2 _ _ _ _) ?_ (by omega)
        · unfold trailing; rw [if_neg (by omega), if_neg (by omega), if_pos (by omega)]
        · rw [offset_2, sub32]; omega
      · rw [if_neg c3, if_neg c3]
        refine getChar_of rfl (n := 3) ?_ (sum_3 _ _ _ _ _) ?_ (by omega)
        · unfold trailing; rw [if_neg (by omega), if_neg (by omega), if_neg (by omega), if_pos (by omega)]
        · rw [offset_3, sub32]; omega

theorem getChar_nul (rest : List Nat) : getChar (0 :: rest) = some (0, 1) := by
  exact getChar_of rfl (n := 0) rfl (sum_0 _ _) rfl (by omega)

theorem encode_ne_nil (c : Nat) : encode c ≠ [] := by
  unfold encode; split
  · simp
  · split
    · simp
    · split <;> simp

theorem encode_pos {c : Nat} (h : Scalar c) : ∀ b ∈ encode c, 0 < b ∧ b < 256 := by
  obtain ⟨h0, h1, h2⟩ := h
  unfold encode
  split
  · simp; omega
  · split
    · simp; omega
    · split
      · simp; omega
      · simp; omega

theorem encodeAll_cons (c : Nat) (l : List Nat) : encodeAll (c :: l) = encode c ++ encodeAll l := by simp [encodeAll]

theorem encodeAll_append (l m : List Nat) : encodeAll (l ++ m) = encodeAll l ++ encodeAll m := by simp [encodeAll]

theorem charSize_pos {c : Nat} (h : Scalar c) : 0 < charSize c := by
  rw [← size_eq h]; exact List.length_pos_iff.2 (encode_ne_nil c)

theorem length_le_encodeAll {l : List Nat} (h : ∀ c ∈ l, Scalar c) : l.length ≤ (encodeAll l).length := by
  induction l with
  | nil => simp
  | cons c l ih =>
    have := ih fun c hc => h c (by simp [hc])
    have h1 := charSize_pos (h c (by simp))
    rw [← size_eq (h c (by simp))] at h1
    rw [encodeAll_cons, List.length_append, List.length_cons]; omega

theorem lengthLoop_eq {l : List Nat} (h : ∀ c ∈ l, Scalar c) (rest : List Nat) :
    ∀ (n fuel : Nat), l.length < fuel → lengthLoop (encodeAll l ++ 0 :: rest) n fuel = some (n + l.length) := by
  induction l with
  | nil =>
    intro n fuel hf
    obtain ⟨fuel, rfl⟩ : ∃ k, fuel = k + 1 := ⟨fuel - 1, by simp at hf; omega⟩
    simp [lengthLoop, encodeAll, getChar_nul]
  | cons c l ih =>
    intro n fuel hf
    obtain ⟨fuel, rfl⟩ : ∃ k, fuel = k + 1 := ⟨fuel - 1, by simp at hf; omega⟩
    have hc := h c (by simp)
    rw [lengthLoop, encodeAll_cons, List.append_assoc, getChar_encode hc]
    simp only [Option.bind_eq_bind, Option.bind_some]
    rw [if_neg (by have := hc.1; omega), ← size_eq hc, List.drop_left, ih (fun c hc => h c (by simp [hc])) _ _ (by simp at hf; omega)]
    simp; omega

theorem length_eq {l : List Nat} (h : ∀ c ∈ l, Scalar c) (rest : List Nat) : length (encodeAll l ++ 0 :: rest) = some l.length := by
  have := length_le_encodeAll h
  rw [length, lengthLoop_eq h rest _ _ (by simp; omega)]
  simp

set_option maxRecDepth 4000 in
theorem isCont : ∀ x, x < 256 → (x &&& 0xc0 = 0x80 ↔ 0x80 ≤ x ∧ x < 0xc0) := by decide

theorem previous_step {bs : List Nat} {i b : Nat} (h : bs[i + 1]? = some b) (hb : 0x80 ≤ b ∧ b < 0xc0) : previous bs (i + 1) = previous bs i := by
  simp [previous, h, (isCont b (by omega)).2 hb]

theorem previous_stop {bs : List Nat} {i b : Nat} (h : bs[i]? = some b) (hb : b < 0x80 ∨ 0xc0 ≤ b ∧ b < 256) : previous bs i = some i := by
  cases i with
  | zero => rfl
  | succ i =>
    have : ¬ b &&& 0xc0 = 0x80 := fun hx => by have := (isCont b (by omega)).1 hx; omega
    simp [previous, h, this]

/-- From the last byte of a character back to its first. -/
theorem previous_encode {c : Nat} (h : Scalar c) (pre rest : List Nat) :
    previous (pre ++ (encode c ++ rest)) (pre.length + (encode c).length - 1) = some pre.length := by
  obtain ⟨h0, h1, h2⟩ := h
  have get : ∀ (bs : List Nat) (k : Nat), (pre ++ bs)[pre.length + k]? = bs[k]? := fun bs k => by
    rw [List.getElem?_append_right (by omega), Nat.add_sub_cancel_left]
  unfold encode
  by_cases c1 : c < 0x80
  · simp only [if_pos c1]
    exact previous_stop (i := pre.length) (b := c) ((get ([c] ++ rest) 0).trans rfl) (by omega)
  · simp only [if_neg c1]
    by_cases c2 : c < 0x800
    · simp only [if_pos c2]
      have g0 := get ([0xc0 + c / 64, 0x80 + c % 64] ++ rest) 0
      have g1 := get ([0xc0 + c / 64, 0x80 + c % 64] ++ rest) 1
      show previous _ (pre.length + 1) = _
      rw [previous_step (b := 0x80 + c % 64) (g1.trans rfl) (by omega), previous_stop (i := pre.length) (b := 0xc0 + c / 64) (g0.trans rfl) (by omega)]
    · simp only [if_neg c2]
      by_cases c3 : c < 0x10000
      · simp only [if_pos c3]
        have g0 := get ([0xe0 + c / 4096, 0x80 + c / 64 % 64, 0x80 + c % 64] ++ rest) 0
        have g1 := get ([0xe0 + c / 4096, 0x80 + c / 64 % 64, 0x80 + c % 64] ++ rest) 1
        have g2 := get ([0xe0 + c / 4096, 0x80 + c / 64 % 64, 0x80 + c % 64] ++ rest) 2
        show previous _ (pre.length + 1 + 1) = _
        rw [previous_step (b := 0x80 + c % 64) (g2.trans rfl) (by omega), previous_step (b := 0x80 + c / 64 % 64) (g1.trans rfl) (by omega),
          previous_stop (i := pre.length) (b := 0xe0 + c / 4096) (g0.trans rfl) (by omega)]
      · simp only [if_neg c3]
        have g0 := get ([0xf0 + c / 262144, 0x80 + c / 4096 % 64, 0x80 + c / 64 % 64, 0x80 + c % 64] ++ rest) 0
        have g1 := get ([0xf0 + c / 262144, 0x80 + c / 4096 % 64, 0x80 + c / 64 % 64, 0x80 + c % 64] ++ rest) 1
        have g2 := get ([0xf0 + c / 262144, 0x80 + c / 4096 % 64, 0x80 + c / 64 % 64, 0x80 + c % 64] ++ rest) 2
        have g3 := get ([0xf0 + c / 262144, 0x80 + c / 4096 % 64, 0x80 + c / 64 % 64, 0x80 + c % 64] ++ rest) 3
        show previous _ (pre.length + 1 + 1 + 1) = _
        rw [previous_step (b := 0x80 + c % 64) (g3.trans rfl) (by omega), previous_step (b := 0x80 + c / 64 % 64) (g2.trans rfl) (by omega),
          previous_step (b := 0x80 + c / 4096 % 64) (g1.trans rfl) (by omega), previous_stop (i := pre.length) (b := 0xf0 + c / 262144) (g0.trans rfl) (by omega)]

/-- **C52.**  For every text `l` of Unicode characters other than NUL, and every character `c`:
the bytes written for a character are its UTF-8 encoding, as many as `CCCharSize` says, and none of them is 0;
reading them gives the character and its size, whatever follows;
the length of the encoded text, followed by a NUL, is the number of its characters;
and from the last byte of a character one gets back to its first byte. -/
theorem C52_utf8 {l : List Nat} (hl : ∀ c ∈ l, Scalar c) {c : Nat} (hc : Scalar c) (rest : List Nat) :
    copyChar c = encode c ∧ (copyChar c).length = charSize c ∧ (∀ b ∈ copyChar c, 0 < b ∧ b < 256) ∧
    getChar (copyChar c ++ rest) = some (c, (copyChar c).length) ∧
    length (l.flatMap copyChar ++ 0 :: rest) = some l.length ∧
    previous (l.flatMap copyChar ++ (copyChar c ++ rest)) ((l.flatMap copyChar).length + (copyChar c).length - 1) = some (l.flatMap copyChar).length := by
  have e : l.flatMap copyChar = encodeAll l := by
    rw [encodeAll, List.flatMap_def, List.flatMap_def]
    congr 1
    exact List.map_congr_left fun c hc => copyChar_eq (hl c hc)
  rw [e, copyChar_eq hc, size_eq hc]
  refine ⟨rfl, rfl, encode_pos hc, getChar_encode hc rest, length_eq hl rest, ?_⟩
  rw [← size_eq hc]
  exact previous_encode hc _ rest

/-- "é€𝄞": two, three and four bytes. -/
example : (∀ c ∈ [0xe9, 0x20ac, 0x1d11e], Scalar c) ∧ [0xe9, 0x20ac, 0x1d11e].flatMap copyChar = [0xc3, 0xa9, 0xe2, 0x82, 0xac, 0xf0, 0x9d, 0x84, 0x9e] := by decide

/-- The reader does not insist on the shortest form: the text `C1 81`, which is not UTF-8, is read as the letter A. -/
theorem C52_overlong_refuted : ∃ b, b ≠ encode 0x41 ∧ getChar b = some (0x41, b.length) := ⟨[0xc1, 0x81], by decide, by decide⟩

#print axioms C52_utf8
#print axioms C52_overlong_refuted
end Verif.Utf8
