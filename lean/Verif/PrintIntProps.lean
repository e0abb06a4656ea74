import Verif.PrintInt
/-!
# C119: a printed integer is the integer that is stored
-/
namespace Verif.PrintInt

namespace Spec

/-- The stored bytes, least significant first. -/
def significance (host : Host) (e : Endian) (bytes : List Nat) : List Nat :=
  match host, e with
  | .little, .native | .little, .little | .big, .little => bytes
  | .big, .native | .big, .big | .little, .big => bytes.reverse

/-- The integer stored: unsigned, or in two's complement. -/
def value (host : Host) (e : Endian) (sign : Bool) (bytes : List Nat) : Int :=
  let v := leNat (significance host e bytes)
  if sign = true ∧ 2 ^ (8 * bytes.length) ≤ 2 * v then (v : Int) - 2 ^ (8 * bytes.length) else v

/-- Reading a decimal integer. -/
def readDecimal : List Char → Int
  | '-' :: ds => - (Nat.ofDigitChars 10 ds 0 : Int)
  | ds => (Nat.ofDigitChars 10 ds 0 : Int)

/-- The value of a hexadecimal digit. -/
def hexValue (c : Char) : Nat := if '0' ≤ c ∧ c ≤ '9' then c.toNat - '0'.toNat else c.toNat - 'a'.toNat + 10

/-- Reading hexadecimal digits. -/
def readHex (ds : List Char) : Nat := ds.foldl (fun n c => 16 * n + hexValue c) 0

end Spec
open Spec

/-! ## Reading and filling -/

theorem fill_ok {f : Nat → Option Nat} {bs : List Nat} (h : ∀ i, (hi : i < bs.length) → f i = some bs[i]) :
    ∀ (left loop : Nat) (mem : List Nat), left + loop = bs.length → bs.length ≤ mem.length → mem.take loop = bs.take loop →
      fill f left loop mem = some (bs ++ mem.drop bs.length) := by
  intro left
  induction left with
  | zero =>
    intro loop mem h1 h2 h3
    rw [fill]
    have : loop = bs.length := by omega
    subst this
    rw [List.take_length] at h3
    rw [← h3, List.length_take, Nat.min_eq_left h2, List.take_append_drop]
  | succ left ih =>
    intro loop mem h1 h2 h3
    have hl : loop < bs.length := by omega
    rw [fill, h loop hl]
    simp only []
    rw [ih (loop + 1) _ (by omega) (by simpa using h2) ?_, List.drop_set_of_lt (by omega)]
    have e1 : (mem.set loop bs[loop]).take (loop + 1) = mem.take loop ++ [bs[loop]] := by
      rw [List.set_eq_take_append_cons_drop, if_pos (by omega)]
      rw [List.take_append, List.length_take, Nat.min_eq_left (by omega), List.take_take, Nat.min_eq_right (by omega), show loop + 1 - loop = 1 by omega]
      rfl
    rw [e1, h3, List.take_append_getElem]

/-- Reading in the order of increasing significance, and the reverse. -/
theorem byteAt_up (data : List Nat) (loop : Nat) (h : loop < 2 ^ 64) : byteAt data (1, 0) loop = data[loop]? := by
  rw [byteAt]; simp only []; congr 1; omega

theorem byteAt_down (data : List Nat) (size loop : Nat) (hs : 1 ≤ size) (hl : loop < size) (h : size < 2 ^ 64) :
    byteAt data (2 ^ 64 - 1, (size + (2 ^ 64 - 1)) % 2 ^ 64) loop = data[size - 1 - loop]? := by
  rw [byteAt]; simp only []; congr 1; omega

theorem up_ok (data : List Nat) (size : Nat) (hd : size ≤ data.length) (h : size < 2 ^ 64) :
    ∀ i, (hi : i < (data.take size).length) → byteAt data (1, 0) i = some (data.take size)[i] := by
  intro i hi
  rw [List.length_take, Nat.min_eq_left hd] at hi
  rw [byteAt_up _ _ (by omega), List.getElem_take, List.getElem?_eq_getElem (by omega)]

theorem down_ok (data : List Nat) (size : Nat) (hd : size ≤ data.length) (h : size < 2 ^ 64) :
    ∀ i, (hi : i < (data.take size).reverse.length) → byteAt data (2 ^ 64 - 1, (size + (2 ^ 64 - 1)) % 2 ^ 64) i = some (data.take size).reverse[i] := by
  intro i hi
  rw [List.length_reverse, List.length_take, Nat.min_eq_left hd] at hi
  rw [byteAt_down _ _ _ (by omega) (by omega) h]
  rw [List.getElem_reverse, List.getElem_take]
  simp only [List.length_take, Nat.min_eq_left hd]
  rw [List.getElem?_eq_getElem (by omega)]

/-- On a little endian machine the bytes are read in the order of increasing significance. -/
theorem little_read (e : Endian) (data : List Nat) (size : Nat) (hd : size ≤ data.length) (h : size < 2 ^ 64) :
    ∀ i, (hi : i < (significance .little e (data.take size)).length) →
      byteAt data (layout .little e size) i = some (significance .little e (data.take size))[i] := by
  cases e
  · exact up_ok data size hd h
  · exact down_ok data size hd h
  · exact up_ok data size hd h

theorem sig_length (host : Host) (e : Endian) (bs : List Nat) : (significance host e bs).length = bs.length := by
  cases host <;> cases e <;> simp [significance]

theorem sig_lt (host : Host) (e : Endian) {bs : List Nat} (h : ∀ b ∈ bs, b < 256) : ∀ b ∈ significance host e bs, b < 256 := by
  cases host <;> cases e <;> simpa [significance] using h

theorem leNat_append (a b : List Nat) : leNat (a ++ b) = leNat a + 256 ^ a.length * leNat b := by
  induction a with
  | nil => simp [leNat]
  | cons x xs ih =>
    simp only [List.cons_append, leNat, ih, List.length_cons]
    rw [Nat.pow_succ, Nat.mul_add, Nat.mul_right_comm]
    omega

theorem leNat_lt {bs : List Nat} (h : ∀ b ∈ bs, b < 256) : leNat bs < 256 ^ bs.length := by
  induction bs with
  | nil => simp [leNat]
  | cons x xs ih =>
    have h1 := h x (by simp)
    have h2 := ih (fun b hb => h b (by simp [hb]))
    simp only [leNat, List.length_cons, Nat.pow_succ]
    omega

theorem leNat_zeros (k : Nat) : leNat (List.replicate k 0) = 0 := by
  induction k with
  | zero => rfl
  | succ k ih => simp [List.replicate_succ, leNat, ih]

theorem leNat_ones (k : Nat) : leNat (List.replicate k 255) + 1 = 256 ^ k := by
  induction k with
  | zero => rfl
  | succ k ih => simp only [List.replicate_succ, leNat, Nat.pow_succ]; omega

/-- The top byte decides the sign. -/
theorem top_bit {bs : List Nat} (h : ∀ b ∈ bs, b < 256) (hn : 1 ≤ bs.length) (top : Nat) (ht : bs[bs.length - 1]? = some top) :
    (top / 128 ≠ 0 ↔ 256 ^ bs.length ≤ 2 * leNat bs) := by
  have hne : bs ≠ [] := by intro e; rw [e] at hn; simp at hn
  have hcat := List.dropLast_concat_getLast hne
  have htop : bs.getLast hne = top := by
    have := List.getLast?_eq_getElem? (l := bs)
    rw [ht, List.getLast?_eq_some_getLast hne] at this
    exact Option.some.inj this
  have hl : bs.length = bs.dropLast.length + 1 := by simp; omega
  have h1 := leNat_lt (bs := bs.dropLast) (fun b hb => h b (List.dropLast_subset _ hb))
  have e : leNat bs = leNat bs.dropLast + 256 ^ bs.dropLast.length * top := by
    rw [← htop]
    conv => lhs; rw [← hcat]
    rw [leNat_append]; simp [leNat]
  have htl : top < 256 := by rw [← htop]; exact h _ (List.getLast_mem hne)
  rw [hl, Nat.pow_succ, e]
  generalize 256 ^ bs.dropLast.length = q at *
  generalize leNat bs.dropLast = r at *
  constructor
  · intro ht0
    have : 128 ≤ top := by omega
    have := Nat.mul_le_mul_left q this
    omega
  · intro hle
    intro ht0
    have : top ≤ 127 := by omega
    have := Nat.mul_le_mul_left q this
    omega

theorem pow_256 (n : Nat) : 256 ^ n = 2 ^ (8 * n) := by
  rw [Nat.pow_mul]

/-- The word filled with the bytes and the sign is the value. -/
theorem word_unsigned {bs : List Nat} (h8 : bs.length ≤ 8) :
    leNat (bs ++ (List.replicate 8 0).drop bs.length) = leNat bs := by
  rw [leNat_append, List.drop_replicate, leNat_zeros]; simp

theorem word_signed {bs : List Nat} (h : ∀ b ∈ bs, b < 256) (h8 : bs.length ≤ 8) (hn : 1 ≤ bs.length) :
    toSigned (leNat (bs ++ (List.replicate 8 (if 256 ^ bs.length ≤ 2 * leNat bs then 255 else 0)).drop bs.length)) =
      if 256 ^ bs.length ≤ 2 * leNat bs then (leNat bs : Int) - 2 ^ (8 * bs.length) else leNat bs := by
  have hlt := leNat_lt h
  have hz := leNat_zeros (8 - bs.length)
  have ho := leNat_ones (8 - bs.length)
  rw [List.drop_replicate, leNat_append]
  generalize hL : bs.length = n at *
  generalize leNat bs = v at *
  rcases (show n = 1 ∨ n = 2 ∨ n = 3 ∨ n = 4 ∨ n = 5 ∨ n = 6 ∨ n = 7 ∨ n = 8 by omega) with rfl | rfl | rfl | rfl | rfl | rfl | rfl | rfl <;>
  · split
    · simp only [toSigned]
      simp only [Nat.reduceSub, Nat.reducePow, Nat.reduceMul] at *
      rw [if_neg (by omega)]
      omega
    · simp only [toSigned]
      simp only [Nat.reduceSub, Nat.reducePow, Nat.reduceMul] at *
      rw [hz, if_pos (by omega)]
      rfl

theorem dec_read (v : Int) : readDecimal (decimal v) = v := by
  rw [decimal]
  split
  · rw [readDecimal, Nat.ofDigitChars_ten_toDigits]; omega
  · have h : ∀ ds, ds = Nat.toDigits 10 v.natAbs → readDecimal ds = (Nat.ofDigitChars 10 ds 0 : Int) := by
      intro ds hds
      unfold readDecimal
      split
      · rename_i t
        exfalso
        have := Nat.isDigit_of_mem_toDigits (b := 10) (n := v.natAbs) (c := '-') (by decide) (by decide) (by rw [← hds]; simp)
        exact absurd this (by decide)
      · rfl
    rw [h _ rfl, Nat.ofDigitChars_ten_toDigits]; omega

/-! ## The text of up to 8 bytes -/

/-- **C119.** On a little endian machine an integer of up to 8 bytes is printed as the decimal text of the integer that is stored, whatever its byte
order and sign; the text reads back as that integer. A signed integer must have a byte. -/
theorem C119_little_partial (e : Endian) (sign : Bool) (size : Nat) (data : List Nat) (hd : size ≤ data.length) (hb : ∀ b ∈ data, b < 256)
    (h8 : size ≤ 8) (h1 : sign = true → 1 ≤ size) :
    printInt .little e sign size data = some (decimal (value .little e sign (data.take size))) ∧
    readDecimal (decimal (value .little e sign (data.take size))) = value .little e sign (data.take size) := by
  refine ⟨?_, dec_read _⟩
  have hl : (data.take size).length = size := by rw [List.length_take]; omega
  have hsl : (significance .little e (data.take size)).length = size := by rw [sig_length, hl]
  have hbs : ∀ b ∈ significance .little e (data.take size), b < 256 := sig_lt _ _ (fun b h => hb b (List.mem_of_mem_take h))
  have hr := little_read e data size hd (by omega)
  rw [printInt, value, hl]
  generalize significance .little e (data.take size) = bs at *
  cases sign with
  | false =>
    rw [if_neg (by simp), if_pos h8, fill_ok hr size 0 _ (by omega) (by simp; omega) (by simp)]
    simp only [wordValue]
    rw [word_unsigned (by omega), if_neg (by simp)]
  | true =>
    have h1 := h1 rfl
    have e1 : (size + (2 ^ 64 - 1)) % 2 ^ 64 = size - 1 := by omega
    rw [if_pos rfl, if_pos h8, e1, hr (size - 1) (by omega)]
    simp only []
    have ht := top_bit hbs (by omega) (bs[size - 1]'(by omega)) (by
      rw [show bs.length - 1 = size - 1 by omega]; exact List.getElem?_eq_getElem _)
    rw [fill_ok hr size 0 _ (by omega) (by simp; omega) (by simp)]
    have hw := word_signed hbs (by omega) (by omega)
    simp only [wordValue]
    simp only [ht]
    rw [hw, hsl, pow_256]
    simp

/-- **C119.** On a big endian machine it is so for integers of exactly 8 bytes. -/
theorem C119_big_partial (e : Endian) (sign : Bool) (data : List Nat) (hd : 8 ≤ data.length) (hb : ∀ b ∈ data, b < 256) :
    printInt .big e sign 8 data = some (decimal (value .big e sign (data.take 8))) := by
  have hl : (data.take 8).length = 8 := by rw [List.length_take]; omega
  have hr : ∀ i, (hi : i < ((significance .big e (data.take 8)).reverse).length) →
      byteAt data (layout .big e 8) i = some ((significance .big e (data.take 8)).reverse)[i] := by
    have hu := up_ok data 8 hd (by omega)
    have hdn := down_ok data 8 hd (by omega)
    cases e <;> simp only [significance, List.reverse_reverse]
    · exact hu
    · exact hu
    · exact hdn
  have hsl : (significance .big e (data.take 8)).length = 8 := by rw [sig_length, hl]
  have hbs : ∀ b ∈ significance .big e (data.take 8), b < 256 := sig_lt _ _ (fun b h => hb b (List.mem_of_mem_take h))
  rw [printInt, value, hl]
  generalize significance .big e (data.take 8) = bs at *
  have hlt := leNat_lt hbs
  rw [hsl] at hlt
  have hf : ∀ c, fill (byteAt data (layout .big e 8)) 8 0 (List.replicate 8 c) = some bs.reverse := by
    intro c
    rw [fill_ok hr 8 0 _ (by simp; omega) (by simp; omega) (by simp)]
    rw [List.length_reverse, hsl]; simp
  cases sign with
  | false =>
    rw [if_neg (by simp), if_pos (by omega), hf]
    simp [wordValue]
  | true =>
    rw [if_pos rfl, if_pos (by omega), show (8 + (2 ^ 64 - 1)) % 2 ^ 64 = 7 from rfl, hr 7 (by simp; omega)]
    simp only []
    rw [hf]
    simp only [wordValue, List.reverse_reverse, toSigned]
    congr 2
    by_cases hv : leNat bs < 2 ^ 63
    · rw [if_pos hv, if_neg (by omega)]
    · rw [if_neg hv, if_pos ⟨trivial, by omega⟩]

/-- **C119, refuted on big endian machines.** An integer of fewer than 8 bytes with a stored value of 1 is not printed as 1, whatever its size, byte
order and sign: the bytes are put at the wrong end of the word. -/
theorem C119_big_refuted : ∀ size ∈ [1, 2, 3, 4, 5, 6, 7], ∀ e ∈ [Endian.native, .big, .little], ∀ sign ∈ [true, false],
    let data := match e with | .little => 1 :: List.replicate (size - 1) 0 | _ => List.replicate (size - 1) 0 ++ [1]
    value .big e sign data = 1 ∧
    ∃ v : Int, v ≠ 1 ∧ printInt .big e sign size data = some (decimal v) := by
  intro size hs e he sign hsg
  refine ⟨?_, (256 : Int) ^ (8 - size), ?_, ?_⟩
  · revert size e sign; decide
  · revert size; decide
  · revert size e sign; decide +kernel

/-- **C119, refuted for no bytes.** A signed integer of size 0 has no sign: a byte that is not one of its bytes is read. An unsigned one is 0. -/
theorem C119_empty_refuted (host : Host) (e : Endian) :
    printInt host e true 0 [] = none ∧ ∀ data, printInt host e false 0 data = some ['0'] := by
  cases host <;> cases e <;> exact ⟨rfl, fun _ => rfl⟩

/-! ## More than 8 bytes -/

theorem hexLoop_ok {f : Nat → Option Nat} {bs : List Nat} (h : ∀ i, (hi : i < bs.length) → f i = some bs[i]) :
    ∀ (left loop : Nat), left + loop = bs.length → hexLoop f left loop = some ((bs.drop loop).flatMap hexByte) := by
  intro left
  induction left with
  | zero =>
    intro loop h1
    rw [hexLoop, List.drop_of_length_le (by omega)]; rfl
  | succ left ih =>
    intro loop h1
    rw [hexLoop, h loop (by omega)]
    simp only []
    rw [ih (loop + 1) (by omega), List.drop_eq_getElem_cons (show loop < bs.length by omega)]
    rfl

theorem hexValue_digit (n : Nat) (h : n < 16) : hexValue (hexDigit n) = n := by
  revert n; decide

theorem readHex_bytes (bs : List Nat) (h : ∀ b ∈ bs, b < 256) (n : Nat) :
    (bs.flatMap hexByte).foldl (fun n c => 16 * n + hexValue c) n = n * 256 ^ bs.length + leNat bs.reverse := by
  induction bs generalizing n with
  | nil => simp [leNat]
  | cons b bs ih =>
    have hb := h b (by simp)
    rw [List.flatMap_cons, List.foldl_append, ih (fun x hx => h x (by simp [hx]))]
    simp only [hexByte, List.foldl_cons, List.foldl_nil]
    rw [hexValue_digit _ (by omega), hexValue_digit _ (by omega)]
    have e1 : 16 * (16 * n + b / 16) + b % 16 = 256 * n + b := by omega
    rw [e1, List.reverse_cons, leNat_append, List.length_reverse, List.length_cons, Nat.pow_succ, Nat.add_mul]
    simp only [leNat, Nat.mul_zero, Nat.add_zero]
    rw [Nat.mul_comm 256 n, Nat.mul_assoc, Nat.mul_comm 256 (256 ^ _), Nat.mul_comm b]
    omega

theorem readHex_bytes' (bs : List Nat) (h : ∀ b ∈ bs, b < 256) : readHex (bs.flatMap hexByte) = leNat bs.reverse := by
  rw [readHex, readHex_bytes bs h]; simp

theorem hex_length (bs : List Nat) : (bs.flatMap hexByte).length = 2 * bs.length := by
  induction bs with
  | nil => rfl
  | cons b bs ih => rw [List.flatMap_cons, List.length_append, ih]; simp [hexByte]; omega

theorem wide_text (host : Host) (e : Endian) (sign : Bool) (size : Nat) (data : List Nat) (hd : size ≤ data.length)
    (h8 : 8 < size) (hs : size < 2 ^ 64) :
    printInt host e sign size data = some ('0' :: 'x' :: ((significance host e (data.take size)).reverse).flatMap hexByte) := by
  have hl : (data.take size).length = size := by rw [List.length_take]; omega
  have hr : ∀ i, (hi : i < ((significance host e (data.take size)).reverse).length) →
      byteAt data (printLayout host e size) i = some ((significance host e (data.take size)).reverse)[i] := by
    have hu := up_ok data size hd hs
    have hdn := down_ok data size hd hs
    cases host <;> cases e <;> simp only [significance, List.reverse_reverse] <;> first | exact hu | exact hdn
  have hsl : (significance host e (data.take size)).length = size := by rw [sig_length, hl]
  have e1 : printInt host e sign size data = printHex host e size data := by
    rw [printInt, if_neg (show ¬ size ≤ 8 by omega), if_neg (show ¬ size ≤ 8 by omega)]; simp
  rw [e1, printHex, hexLoop_ok hr size 0 (by simp; omega)]
  simp

/-- **C119.** An integer of more than 8 bytes is printed on every machine as `0x` and two hexadecimal digits per byte, which read back as the stored
bytes taken as an unsigned integer. -/
theorem C119_wide (host : Host) (e : Endian) (sign : Bool) (size : Nat) (data : List Nat) (hd : size ≤ data.length) (hb : ∀ b ∈ data, b < 256)
    (h8 : 8 < size) (hs : size < 2 ^ 64) :
    ∃ ds, printInt host e sign size data = some ('0' :: 'x' :: ds) ∧ ds.length = 2 * size ∧
      (readHex ds : Int) = value host e false (data.take size) := by
  have hsl : (significance host e (data.take size)).length = size := by rw [sig_length, List.length_take]; omega
  have hbs : ∀ b ∈ significance host e (data.take size), b < 256 := sig_lt _ _ (fun b h => hb b (List.mem_of_mem_take h))
  refine ⟨_, wide_text host e sign size data hd h8 hs, ?_, ?_⟩
  · rw [hex_length, List.length_reverse, hsl]
  · rw [readHex_bytes' _ (fun b h => hbs b (List.mem_reverse.1 h)), List.reverse_reverse, value]
    simp

/-! ## Concrete cases -/

/-- 16 bit -2 stored in either order. -/
example : printInt .little .big true 2 [255, 254, 7] = some ['-', '2'] ∧ printInt .little .native true 2 [254, 255] = some ['-', '2'] ∧
    printInt .little .little false 3 [1, 2, 3] = some ['1', '9', '7', '1', '2', '1'] := by decide +kernel

/-- The hypotheses are met. -/
example : value .little .big true [255, 254] = -2 :=by decide
example : printInt .little .big true 2 [255, 254, 7] = some (decimal (-2)) :=
  (C119_little_partial .big true 2 [255, 254, 7] (by decide) (by decide) (by decide) (by decide)).1

/-- 9 bytes. -/
example : printInt .big .little true 9 [0xef, 0xcd, 0, 0, 0, 0, 0, 0, 0x12] =
    some ("0x12000000000000cdef".toList) := by decide +kernel

#print axioms C119_little_partial
#print axioms C119_big_partial
#print axioms C119_big_refuted
#print axioms C119_empty_refuted
#print axioms C119_wide

end Verif.PrintInt
