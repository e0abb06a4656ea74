import Verif.BigIntText
import Verif.BigIntLemmas
/-!
# C29: the text form of big integers
-/
namespace Verif.BigInt
namespace Spec

/-- The value of a hexadecimal digit. -/
def digit : Char → Option Nat
  | '0' => some 0 | '1' => some 1 | '2' => some 2 | '3' => some 3 | '4' => some 4 | '5' => some 5 | '6' => some 6 | '7' => some 7
  | '8' => some 8 | '9' => some 9
  | 'a' => some 10 | 'b' => some 11 | 'c' => some 12 | 'd' => some 13 | 'e' => some 14 | 'f' => some 15
  | 'A' => some 10 | 'B' => some 11 | 'C' => some 12 | 'D' => some 13 | 'E' => some 14 | 'F' => some 15
  | _ => none

/-- Hexadecimal digits only. -/
def IsHex (s : List Char) : Prop := ∀ c ∈ s, (digit c).isSome

/-- The number written by hexadecimal digits. -/
def hexValue (s : List Char) : Nat := s.foldl (fun acc c => acc * 16 + (digit c).getD 0) 0

/-- The text of an integer: an optional minus sign, `0x`, and the digits. -/
def text (negative : Bool) (s : List Char) : List Char := (if negative then ['-'] else []) ++ ['0', 'x'] ++ s

end Spec
open Spec

section
attribute [local irreducible] W

/-! ## Digits -/

theorem digit_bits {c : Char} {d : Nat} (h : digit c = some d) : hexBits c = some d ∧ d < 16 := by
  unfold digit at h
  split at h <;> first | (cases h; decide) | cases h

theorem hexFold (s : List Char) (acc : Nat) :
    s.foldl (fun acc c => acc * 16 + (digit c).getD 0) acc = acc * 16 ^ s.length + hexValue s := by
  unfold hexValue
  induction s generalizing acc with
  | nil => simp
  | cons c s ih =>
    rw [List.foldl_cons, List.foldl_cons, ih, ih (0 * 16 + _), List.length_cons, Nat.pow_succ, Nat.mul_comm (16 ^ s.length) 16, Nat.add_mul, Nat.zero_mul,
      Nat.zero_add, Nat.mul_assoc, Nat.add_assoc]

theorem hexValue_cons (c : Char) (s : List Char) : hexValue (c :: s) = (digit c).getD 0 * 16 ^ s.length + hexValue s := by
  have : hexValue (c :: s) = s.foldl (fun acc c => acc * 16 + (digit c).getD 0) (0 * 16 + (digit c).getD 0) := rfl
  rw [this, hexFold, Nat.zero_mul, Nat.zero_add]

theorem hexValue_append (s t : List Char) : hexValue (s ++ t) = hexValue s * 16 ^ t.length + hexValue t := by
  conv => lhs; unfold hexValue
  rw [List.foldl_append, hexFold]; rfl

theorem isHex_cons {c : Char} {s : List Char} (h : IsHex (c :: s)) : IsHex s := fun x hx => h x (List.mem_cons_of_mem _ hx)

theorem hexValue_lt {s : List Char} (h : IsHex s) : hexValue s < 16 ^ s.length := by
  induction s with
  | nil => decide
  | cons c s ih =>
    rw [hexValue_cons, List.length_cons, Nat.pow_succ]
    have h1 := ih (isHex_cons h)
    obtain ⟨d, hd⟩ := Option.isSome_iff_exists.1 (h c List.mem_cons_self)
    have h2 := (digit_bits hd).2
    rw [hd, Option.getD_some]
    have := Nat.mul_le_mul_right (16 ^ s.length) (show d ≤ 15 by omega)
    omega

theorem W_pow : W = 2 ^ 64 := by unfold W; rfl

theorem pow16 (n : Nat) : 16 ^ n = 2 ^ (n * 4) := by
  rw [show (16 : Nat) = 2 ^ 4 from rfl, ← Nat.pow_mul, Nat.mul_comm]

theorem parseHexLoop_spec (s : List Char) (P : Nat) (h : IsHex s) (hl : s.length ≤ 16) :
    parseHexLoop s (P <<< (s.length * 4)) = P * 16 ^ s.length + hexValue s := by
  induction s generalizing P with
  | nil => simp [parseHexLoop, hexValue]
  | cons c s ih =>
    obtain ⟨d, hd⟩ := Option.isSome_iff_exists.1 (h c List.mem_cons_self)
    obtain ⟨h1, h2⟩ := digit_bits hd
    rw [parseHexLoop, h1]
    simp only [List.length_cons] at hl ⊢
    have hlt : d <<< (s.length * 4) < 2 ^ ((s.length + 1) * 4) := by
      rw [Nat.shiftLeft_eq, show (s.length + 1) * 4 = 4 + s.length * 4 by omega, Nat.pow_add]
      exact Nat.mul_lt_mul_of_pos_right h2 (Nat.two_pow_pos _)
    have hle : 2 ^ ((s.length + 1) * 4) ≤ W := by rw [W_pow]; exact Nat.pow_le_pow_right (by omega) (by omega)
    rw [Nat.mod_eq_of_lt (by omega), ← Nat.shiftLeft_add_eq_or_of_lt hlt]
    have e : P <<< ((s.length + 1) * 4) + d <<< (s.length * 4) = (P * 16 + d) <<< (s.length * 4) := by
      rw [Nat.shiftLeft_eq, Nat.shiftLeft_eq, Nat.shiftLeft_eq, show (s.length + 1) * 4 = 4 + s.length * 4 by omega, Nat.pow_add,
        Nat.add_mul, Nat.mul_assoc]
    rw [e, ih _ (isHex_cons h) (by omega), hexValue_cons, hd, Option.getD_some, Nat.pow_succ, Nat.add_mul, Nat.mul_assoc,
      Nat.mul_comm 16 (16 ^ s.length)]
    omega

theorem parseHex_spec (s : List Char) (h : IsHex s) (hl : s.length ≤ 16) : parseHex s = hexValue s ∧ hexValue s < W := by
  constructor
  · unfold parseHex
    have := parseHexLoop_spec s 0 h hl
    rw [Nat.zero_shiftLeft, Nat.zero_mul, Nat.zero_add] at this
    exact this
  · have h1 := hexValue_lt h
    have h2 : 16 ^ s.length ≤ W := by rw [pow16, W_pow]; exact Nat.pow_le_pow_right (by omega) (by omega)
    omega

/-! ## Components -/

theorem nat_one (x : Nat) : nat [x] = x := by simp [nat]

theorem nat_append_zeros (a : List Nat) (k : Nat) : nat (a ++ List.replicate k 0) = nat a := by
  rw [nat_append, nat_zeros (fun c hc => (List.mem_replicate.1 hc).2), Nat.mul_zero, Nat.add_zero]

/-- The values of the chunks from number `j` on. -/
def chunks (s : List Char) (count j : Nat) : List Nat := (List.range' j (count - j)).map (chunk s)

theorem chunks_step (s : List Char) {count j : Nat} (h : j < count) : chunks s count j = chunk s j :: chunks s count (j + 1) := by
  unfold chunks
  rw [show count - j = (count - (j + 1)) + 1 by omega, List.range'_succ, List.map_cons]

theorem chunks_end (s : List Char) {count j : Nat} (h : count ≤ j) : chunks s count j = [] := by
  unfold chunks; rw [show count - j = 0 by omega]; rfl

theorem pred_pos {i : Nat} (h : 0 < i) (h2 : i < W) : pred i = i - 1 := by
  unfold pred
  rw [show i + (W - 1) = (i - 1) + W by omega, Nat.add_mod_right, Nat.mod_eq_of_lt (by omega)]

theorem fillLoop_spec (s : List Char) (count : Nat) (hw : count < W) (B : List Nat) :
    ∀ fuel j index, count - j ≤ fuel → (j < count → index = count - 1 - j) →
      fillLoop s count fuel j index (List.replicate (count - j) 0 ++ B) = some ((chunks s count j).reverse ++ B) := by
  intro fuel
  induction fuel generalizing B with
  | zero => intro j index hf _; rw [fillLoop, chunks_end s (by omega), show count - j = 0 by omega]; rfl
  | succ fuel ih =>
    intro j index hf hi
    rw [fillLoop]
    by_cases hj : j < count
    · rw [if_pos hj, chunks_step s hj]
      have hi' := hi hj
      have hset : replaceAt (List.replicate (count - j) 0 ++ B) index (chunk s j) =
          some (List.replicate (count - (j + 1)) 0 ++ (chunk s j :: B)) := by
        unfold replaceAt
        rw [if_pos (by simp; omega)]
        congr 1
        rw [show count - j = (count - (j + 1)) + 1 by omega, List.replicate_succ', List.append_assoc,
          List.set_append_right _ _ (by simp; omega)]
        congr 1
        simp [show index - (count - (j + 1)) = 0 by omega]
      rw [hset, Option.bind_eq_bind, Option.bind_some, ih (chunk s j :: B) (j + 1) (pred index) (by omega)]
      · simp
      · intro h2; rw [pred_pos (by omega) (by omega)]; omega
    · rw [if_neg hj, chunks_end s (by omega), show count - j = 0 by omega]; rfl

theorem skipLoop_spec (s : List Char) (count : Nat) (hw : count < W) :
    ∀ fuel j index, count - j ≤ fuel → j ≤ count → (j < count → index = count - 1 - j) →
      ((∀ x ∈ chunks s count j, x = 0) ∧ ∃ i, skipLoop s count fuel j index (List.replicate (count - j) 0) = some ([], count, i, false)) ∨
      (∃ k i, j ≤ k ∧ k < count ∧ chunk s k ≠ 0 ∧ chunks s count j = List.replicate (k - j) 0 ++ chunk s k :: chunks s count (k + 1) ∧
        skipLoop s count fuel j index (List.replicate (count - j) 0) =
          some (List.replicate (count - (k + 1)) 0 ++ [chunk s k], k + 1, i, true) ∧ (k + 1 < count → i = count - 1 - (k + 1))) := by
  intro fuel
  induction fuel with
  | zero =>
    intro j index hf hj _
    left
    rw [chunks_end s (by omega), skipLoop]
    refine ⟨by simp, index, ?_⟩
    rw [show count - j = 0 by omega, show j = count by omega]; rfl
  | succ fuel ih =>
    intro j index hf hjle hi
    rw [skipLoop]
    by_cases hj : j < count
    · have hi' := hi hj
      rw [if_pos hj]
      by_cases hc : chunk s j = 0
      · rw [if_neg (by simpa using hc)]
        have hrem : removeAt (List.replicate (count - j) 0) index = some (List.replicate (count - (j + 1)) 0) := by
          unfold removeAt
          rw [if_pos (by simp; omega)]
          congr 1
          rw [List.eraseIdx_replicate, if_pos (by omega)]
          congr 1
        rw [hrem, Option.bind_eq_bind, Option.bind_some]
        rcases ih (j + 1) (pred index) (by omega) (by omega) (fun h2 => by rw [pred_pos (by omega) (by omega)]; omega) with ⟨h1, h2⟩ | ⟨k, i, h1, h2, h3, h4, h5, h6⟩
        · left
          refine ⟨?_, h2⟩
          rw [chunks_step s hj]
          intro x hx
          rcases List.mem_cons.1 hx with rfl | hx
          · exact hc
          · exact h1 x hx
        · right
          refine ⟨k, i, by omega, h2, h3, ?_, h5, h6⟩
          rw [chunks_step s hj, h4, hc, show k - j = (k - (j + 1)) + 1 by omega, List.replicate_succ, List.cons_append]
      · rw [if_pos hc]
        right
        have hset : replaceAt (List.replicate (count - j) 0) index (chunk s j) = some (List.replicate (count - (j + 1)) 0 ++ [chunk s j]) := by
          unfold replaceAt
          rw [if_pos (by simp; omega)]
          congr 1
          rw [show count - j = (count - (j + 1)) + 1 by omega, List.replicate_succ', List.set_append_right _ _ (by simp; omega)]
          congr 1
          simp [show index - (count - (j + 1)) = 0 by omega]
        rw [hset, Option.bind_eq_bind, Option.bind_some]
        refine ⟨j, pred index, by omega, hj, hc, ?_, rfl, fun h2 => by rw [pred_pos (by omega) (by omega)]; omega⟩
        rw [chunks_step s hj, Nat.sub_self]; rfl
    · rw [if_neg hj]
      left
      rw [chunks_end s (by omega)]
      refine ⟨by simp, index, ?_⟩
      rw [show count - j = 0 by omega, show j = count by omega]; rfl

theorem isHex_sub {s t : List Char} (h : IsHex s) (hs : ∀ c ∈ t, c ∈ s) : IsHex t := fun c hc => h c (hs c hc)

/-- The chunks denote the text. -/
theorem chunks_value (t : List Char) (ht : IsHex t) : ∀ n j, t.length = (j + n) * 16 →
    nat (chunks t (j + n) j).reverse = hexValue (t.drop (j * 16)) ∧ (∀ c ∈ chunks t (j + n) j, c < W) ∧ (chunks t (j + n) j).length = n := by
  intro n
  induction n with
  | zero =>
    intro j hl
    rw [chunks_end t (by omega), List.drop_of_length_le (by omega)]
    exact ⟨rfl, by simp, rfl⟩
  | succ n ih =>
    intro j hl
    rw [chunks_step t (by omega)]
    have e : j + (n + 1) = j + 1 + n := by omega
    obtain ⟨i1, i2, i3⟩ := ih (j + 1) (by omega)
    rw [e]
    have hc := parseHex_spec ((t.drop (j * 16)).take 16) (isHex_sub ht (fun c hc => List.mem_of_mem_drop (List.mem_of_mem_take hc))) (by simp; omega)
    refine ⟨?_, ?_, by simp [i3]⟩
    · rw [List.reverse_cons, nat_append, i1, List.length_reverse, i3, nat_one]
      have e2 : t.drop (j * 16) = (t.drop (j * 16)).take 16 ++ t.drop ((j + 1) * 16) := by
        conv => lhs; rw [← List.take_append_drop 16 (t.drop (j * 16))]
        rw [List.drop_drop, show j * 16 + 16 = (j + 1) * 16 by omega]
      conv => rhs; rw [e2]
      rw [hexValue_append]
      unfold chunk
      rw [hc.1, List.length_drop, hl, show (j + (n + 1)) * 16 - (j + 1) * 16 = n * 16 by omega]
      have : W ^ n = 16 ^ (n * 16) := by
        rw [W_pow, pow16, ← Nat.pow_mul]; congr 1; omega
      rw [this, Nat.mul_comm (16 ^ (n * 16))]; omega
    · intro c hc'
      rcases List.mem_cons.1 hc' with rfl | hc'
      · unfold chunk; rw [hc.1]; exact hc.2
      · exact i2 c hc'

theorem getLast?_append_ne (a : List Nat) {x : Nat} (hx : x ≠ 0) : (a ++ [x]).getLast? ≠ some 0 := by
  simpa using hx

/-- The digits behind `0x`: the denoted number in normal form, and zero is never negative. -/
theorem parseDigits_spec (sign : Bool) (s : List Char) (hs : IsHex s) (hw : s.length < W) :
    ∃ r, parseDigits sign s = some r ∧ Norm r ∧ nat r.comps = hexValue s ∧ (hexValue s ≠ 0 → r.sign = sign) := by
  have hlow : IsHex (s.take (s.length % 16)) := isHex_sub hs (fun c hc => List.mem_of_mem_take hc)
  have hhigh : IsHex (s.drop (s.length % 16)) := isHex_sub hs (fun c hc => List.mem_of_mem_drop hc)
  have hp := parseHex_spec (s.take (s.length % 16)) hlow (by simp; omega)
  have hcount : s.length / 16 < W := by omega
  have htl : (s.drop (s.length % 16)).length = (0 + s.length / 16) * 16 := by simp; omega
  obtain ⟨c1, c2, c3⟩ := chunks_value (s.drop (s.length % 16)) hhigh (s.length / 16) 0 htl
  rw [Nat.zero_add, Nat.zero_mul, List.drop_zero] at c1
  rw [Nat.zero_add] at c2 c3 htl
  have hval : hexValue s = hexValue (s.take (s.length % 16)) * W ^ (s.length / 16) + hexValue (s.drop (s.length % 16)) := by
    conv => lhs; rw [← List.take_append_drop (s.length % 16) s]
    rw [hexValue_append, htl, pow16, W_pow, ← Nat.pow_mul]
    congr 3; omega
  have hf := fun B fuel j i => fillLoop_spec (s.drop (s.length % 16)) (s.length / 16) hcount B fuel j i
  have hk := skipLoop_spec (s.drop (s.length % 16)) (s.length / 16) hcount (s.length / 16) 0 (s.length / 16 - 1) (by omega) (by omega) (by omega)
  unfold parseDigits
  simp only [hp.1]
  generalize s.drop (s.length % 16) = t at *
  generalize hexValue (s.take (s.length % 16)) = v at *
  generalize s.length / 16 = n at *
  by_cases hv : v = 0
  · rw [if_neg (by simpa using hv)]
    rw [hv, Nat.zero_mul, Nat.zero_add] at hval
    rw [Nat.sub_zero] at hk
    rcases hk with ⟨h1, i, h2⟩ | ⟨k, i, h1, h2, h3, h4, h5, h6⟩
    · rw [h2]
      simp only [Option.bind_eq_bind, Option.bind_some]
      have := hf [] n n i (by omega) (by omega)
      rw [Nat.sub_self, List.replicate_zero, List.nil_append, chunks_end t (Nat.le_refl _)] at this
      rw [this]
      have hz : hexValue s = 0 := by
        rw [hval, ← c1, nat_zeros]; intro c hc; exact h1 c (List.mem_reverse.1 hc)
      refine ⟨_, rfl, ⟨⟨by simp, ?_, by simp⟩, fun _ => rfl⟩, ?_, fun h => absurd hz h⟩
      · intro c hc; simp at hc; have := W_pos; omega
      · rw [hz]; rfl
    · rw [h5]
      simp only [Option.bind_eq_bind, Option.bind_some]
      rw [hf [chunk t k] n (k + 1) i (by omega) h6, Option.bind_some]
      have hnat : nat ((chunks t n (k + 1)).reverse ++ [chunk t k]) = hexValue s := by
        rw [hval, ← c1, h4, List.reverse_append, List.reverse_cons, List.reverse_replicate, nat_append_zeros]
      refine ⟨_, rfl, ⟨⟨by simp, ?_, fun _ => getLast?_append_ne _ h3⟩, ?_⟩, hnat, fun _ => rfl⟩
      · intro c hc
        apply c2
        rw [h4]
        simp only [List.mem_append, List.mem_reverse, List.mem_singleton] at hc
        rcases hc with h | h
        · exact List.mem_append_right _ (List.mem_cons_of_mem _ h)
        · rw [h]; exact List.mem_append_right _ List.mem_cons_self
      · intro hz
        exfalso
        have := nat_ge (cs := (chunks t n (k + 1)).reverse ++ [chunk t k]) (i := (chunks t n (k + 1)).length) (c := chunk t k)
          (by rw [List.getElem?_append_right (by simp)]; simp) h3
        have := Nat.pow_pos (n := (chunks t n (k + 1)).length) W_pos
        have e : nat ((chunks t n (k + 1)).reverse ++ [chunk t k]) = 0 := hz
        omega
  · rw [if_pos hv]
    have := hf [v] n 0 (n - 1) (by omega) (by omega)
    rw [Nat.sub_zero] at this
    rw [this, Option.bind_eq_bind, Option.bind_some]
    have hnat : nat ((chunks t n 0).reverse ++ [v]) = hexValue s := by
      rw [nat_append, c1, List.length_reverse, c3, nat_one, hval, Nat.mul_comm]; omega
    refine ⟨_, rfl, ⟨⟨by simp, ?_, fun _ => getLast?_append_ne _ hv⟩, ?_⟩, hnat, fun _ => rfl⟩
    · intro c hc
      simp only [List.mem_append, List.mem_reverse, List.mem_singleton] at hc
      rcases hc with h | h
      · exact c2 c h
      · omega
    · intro hz
      exfalso
      have := nat_ge (cs := (chunks t n 0).reverse ++ [v]) (i := (chunks t n 0).length) (c := v)
        (by rw [List.getElem?_append_right (by simp)]; simp) hv
      have := Nat.pow_pos (n := (chunks t n 0).length) W_pos
      have e : nat ((chunks t n 0).reverse ++ [v]) = 0 := hz
      omega

/-! ## Uniqueness of the normal form -/

theorem nat_inj_len {a b : List Nat} (hl : a.length = b.length) (ha : ∀ c ∈ a, c < W) (hb : ∀ c ∈ b, c < W) (h : nat a = nat b) : a = b := by
  induction a generalizing b with
  | nil => cases b with
    | nil => rfl
    | cons => simp at hl
  | cons x a ih =>
    cases b with
    | nil => simp at hl
    | cons y b =>
      rw [nat_cons, nat_cons] at h
      have hx := ha x List.mem_cons_self
      have hy := hb y List.mem_cons_self
      have e1 : x = y := by
        have := congrArg (· % W) h
        simpa [Nat.add_mul_mod_self_left, Nat.mod_eq_of_lt hx, Nat.mod_eq_of_lt hy] using this
      subst e1
      have e2 : nat a = nat b := Nat.eq_of_mul_eq_mul_left W_pos (by omega)
      rw [ih (by simpa using hl) (fun c hc => ha c (List.mem_cons_of_mem _ hc)) (fun c hc => hb c (List.mem_cons_of_mem _ hc)) e2]

/-- Equal numbers have equal normal components. -/
theorem digits_inj {a b : List Nat} (ha : Digits a) (hb : Digits b) (h : nat a = nat b) : a = b := by
  apply nat_inj_len _ ha.2.1 hb.2.1 h
  apply Classical.byContradiction
  intro hne
  rcases Nat.lt_or_ge a.length b.length with hl | hl
  · have := nat_lt_of_length ha hb hl; omega
  · have := nat_lt_of_length hb ha (by omega); omega

/-- The normal form of an integer is unique. -/
theorem C29_normal_unique (a b : BI) (ha : Norm a) (hb : Norm b) (h : value a = value b) : a = b := by
  have za := ha.2
  have zb := hb.2
  have hs : a.sign = b.sign := by
    unfold value at h
    cases hsa : a.sign <;> cases hsb : b.sign <;> simp [hsa, hsb] at h za zb ⊢
    · omega
    · omega
  have hn : nat a.comps = nat b.comps := by
    unfold value at h
    rw [hs] at h
    cases hsb : b.sign <;> simp [hsb] at h <;> omega
  have hc := digits_inj ha.1 hb.1 hn
  cases a; cases b
  simp only at hs hc
  rw [hs, hc]

/-! ## Parsing -/

/-- Parsing hexadecimal text of any length yields the integer it denotes, in normal form. -/
theorem C29_parse (neg : Bool) (s : List Char) (hs : IsHex s) (hn : s ≠ []) (hw : s.length < W) :
    ∃ r, parse (text neg s) = some r ∧ Norm r ∧ value r = if neg then -(hexValue s : Int) else hexValue s := by
  obtain ⟨r, h1, h2, h3, h4⟩ := parseDigits_spec neg s hs hw
  have hl : 1 ≤ s.length := by
    cases s with
    | nil => exact absurd rfl hn
    | cons => simp
  refine ⟨r, ?_, h2, ?_⟩
  · cases neg
    · show (if _ then _ else _) = _
      simp only [show ¬ ('0' = '-') by decide, if_false, decide_false, List.append_eq, List.nil_append]
      rw [if_pos]
      · exact h1
      · refine ⟨?_, rfl⟩
        simp [text]; omega
    · show (if _ then _ else _) = _
      simp only [if_true, decide_true]
      rw [if_pos]
      · exact h1
      · refine ⟨?_, rfl⟩
        simp; omega
  · unfold value
    rw [h3]
    by_cases hz : hexValue s = 0
    · rw [hz]; simp
    · rw [h4 hz]

/-! ## Printing -/

theorem hexChar_digit {d : Nat} (h : d < 16) : digit (hexChar d) = some d := by
  have : ∀ d, d < 16 → digit (hexChar d) = some d := by decide
  exact this d h

theorem component_digits (v : Nat) : IsHex (component v) := by
  intro c hc
  unfold component at hc
  obtain ⟨j, _, rfl⟩ := List.mem_map.1 hc
  rw [hexChar_digit]; rfl
  exact Nat.lt_of_le_of_lt Nat.and_le_right (by omega)

theorem component_length (v : Nat) : (component v).length = 16 := by simp [component]

theorem component_value {v : Nat} (h : v < W) : hexValue (component v) = v := by
  have key : ∀ k, k ≤ 16 → hexValue ((List.range k).map fun j => hexChar ((v >>> (60 - j * 4)) &&& 0xf)) = v >>> (64 - k * 4) := by
    intro k
    induction k with
    | zero =>
      intro _
      rw [show 64 - 0 * 4 = 64 from rfl, Nat.shiftRight_eq_div_pow, Nat.div_eq_of_lt (by rw [← W_pow]; exact h)]
      rfl
    | succ k ih =>
      intro hk
      rw [List.range_succ, List.map_append, hexValue_append, ih (by omega), List.map_singleton, List.length_singleton, hexValue_cons, List.length_nil,
        hexChar_digit (Nat.lt_of_le_of_lt Nat.and_le_right (by omega)), Option.getD_some]
      have e : (64 - k * 4) = (60 - k * 4) + 4 := by omega
      rw [e, Nat.shiftRight_add, show 64 - (k + 1) * 4 = 60 - k * 4 by omega]
      generalize v >>> (60 - k * 4) = w
      rw [show (0xf : Nat) = 2 ^ 4 - 1 from rfl, Nat.and_two_pow_sub_one_eq_mod, Nat.shiftRight_eq_div_pow]
      simp only [hexValue, List.foldl_nil]
      omega
  have := key 16 (by omega)
  rw [show 64 - 16 * 4 = 0 from rfl, Nat.shiftRight_zero] at this
  exact this

/-- The digits printed for a big integer. -/
theorem print_digits (cs : List Nat) (h : ∀ c ∈ cs, c < W) :
    let t := (List.range cs.length).flatMap fun i => component (cs.getD (cs.length - i - 1) 0)
    IsHex t ∧ hexValue t = nat cs ∧ t.length = cs.length * 16 := by
  induction cs with
  | nil => exact ⟨by simp [IsHex], rfl, rfl⟩
  | cons c cs ih =>
    obtain ⟨i1, i2, i3⟩ := ih (fun x hx => h x (List.mem_cons_of_mem _ hx))
    have e : ((List.range (c :: cs).length).flatMap fun i => component ((c :: cs).getD ((c :: cs).length - i - 1) 0)) =
        ((List.range cs.length).flatMap fun i => component (cs.getD (cs.length - i - 1) 0)) ++ component c := by
      rw [List.length_cons, List.range_succ, List.flatMap_append]
      congr 1
      · rw [List.flatMap_def, List.flatMap_def]
        congr 1
        apply List.map_congr_left
        intro i hi
        rw [List.mem_range] at hi
        congr 1
        rw [show cs.length + 1 - i - 1 = (cs.length - i - 1) + 1 by omega, List.getD_cons_succ]
      · simp
    intro t
    have et : t = _ := e
    rw [et]
    have hc := component_value (h c List.mem_cons_self)
    refine ⟨?_, ?_, ?_⟩
    · intro x hx
      rcases List.mem_append.1 hx with hx | hx
      · exact i1 x hx
      · exact component_digits c x hx
    · rw [hexValue_append, i2, hc, component_length, nat_cons, pow16, W_pow, Nat.mul_comm]; omega
    · rw [List.length_append, i3, component_length, List.length_cons]; omega

/-- The printed text is the sign, `0x` and hexadecimal digits denoting the magnitude, and with its
terminator it fits the allocated buffer. -/
theorem C29_print (b : BI) (h : Digits b.comps) :
    (∃ t, print b = text b.sign t ∧ IsHex t ∧ hexValue t = nat b.comps ∧ t.length = b.comps.length * 16) ∧
    (print b).length + 1 ≤ printBuffer b := by
  obtain ⟨h1, h2, h3⟩ := print_digits b.comps h.2.1
  refine ⟨⟨_, rfl, h1, h2, h3⟩, ?_⟩
  unfold print printBuffer
  rw [List.length_append, h3]
  cases b.sign <;> simp <;> omega

/-- Printing a big integer and parsing the text gives the same big integer back. -/
theorem C29_round_trip (b : BI) (h : Norm b) (hw : b.comps.length * 16 < W) : parse (print b) = some b := by
  obtain ⟨t, h1, h2, h3, h4⟩ := (C29_print b h.1).1
  have h0 : b.comps.length ≠ 0 := fun e => h.1.1 (List.length_eq_zero_iff.1 e)
  obtain ⟨r, e, hr, hv⟩ := C29_parse b.sign t h2 (by intro e; rw [e] at h4; simp at h4; omega) (by omega)
  rw [h1, e]
  congr 1
  apply C29_normal_unique r b hr h
  rw [hv, h3]
  rfl

/-- Two texts of the same integer (other leading zeros, other case) parse to the same big integer. -/
theorem C29_same_number (neg : Bool) (s t : List Char) (hs : IsHex s) (ht : IsHex t) (hs0 : s ≠ []) (ht0 : t ≠ []) (hsw : s.length < W)
    (htw : t.length < W) (h : hexValue s = hexValue t) : parse (text neg s) = parse (text neg t) := by
  obtain ⟨r, e, hr, hv⟩ := C29_parse neg s hs hs0 hsw
  obtain ⟨r', e', hr', hv'⟩ := C29_parse neg t ht ht0 htw
  rw [e, e']
  congr 1
  apply C29_normal_unique r r' hr hr'
  rw [hv, hv', h]

end

/-! ## Examples -/

example : IsHex "00fF1".toList ∧ hexValue "00fF1".toList = 0xff1 := by
  refine ⟨?_, by decide⟩; unfold IsHex; decide
example : parse "-0x123456789abcdef01".toList = some ⟨true, [0x23456789abcdef01, 1]⟩ := by decide
example : parse "-0x00000000000000000".toList = some ⟨false, [0]⟩ := by decide
example : String.ofList (print ⟨true, [0x2a, 1]⟩) = "-0x0000000000000001000000000000002a" := by decide
example : Norm ⟨true, [0x2a, 1]⟩ := ⟨⟨by decide, by decide, by decide⟩, by decide⟩

#print axioms C29_parse
#print axioms C29_print
#print axioms C29_round_trip
#print axioms C29_normal_unique
#print axioms C29_same_number

end Verif.BigInt
