import Verif.Limit
import Verif.LimitSpec
import Verif.ReflectProps
/-!
# C79: validators of maximum and minimum
-/
namespace Verif.Limit

open Verif.VarInt (Endian view forall_byte view_length)
open Verif.Reflect (Ty Mem Env bytes)

theorem digits_lt : ∀ ys : List UInt8, digits ys < 256 ^ ys.length
  | [] => by simp [digits]
  | b :: bs => by
    have := digits_lt bs
    have hb := b.toNat_lt
    simp only [digits, List.length_cons, Nat.pow_succ]
    omega

theorem digits_append : ∀ xs ys : List UInt8, digits (xs ++ ys) = digits xs + 256 ^ xs.length * digits ys
  | [], ys => by simp [digits]
  | x :: xs, ys => by
    simp only [List.cons_append, digits, digits_append xs ys, List.length_cons, Nat.pow_succ, Nat.mul_add]
    rw [Nat.mul_comm (256 ^ xs.length) 256, Nat.mul_assoc]; omega

theorem digits_zero : ∀ n, digits (List.replicate n 0) = 0
  | 0 => rfl
  | n + 1 => by simp [List.replicate_succ, digits, digits_zero n]

theorem digits_ff : ∀ n, digits (List.replicate n 0xff) + 1 = 256 ^ n
  | 0 => rfl
  | n + 1 => by
    have := digits_ff n
    simp only [List.replicate_succ, digits, Nat.pow_succ]
    have h : (0xff : UInt8).toNat = 255 := rfl
    omega

theorem digits_eq_zero : ∀ ys : List UInt8, digits ys = 0 → ys = List.replicate ys.length 0
  | [], _ => rfl
  | b :: bs, h => by
    simp only [digits] at h
    have h1 := digits_eq_zero bs (by omega)
    rw [List.length_cons, List.replicate_succ, ← h1, UInt8.toNat_inj.mp (show b.toNat = (0 : UInt8).toNat from by show _ = 0; omega)]

theorem digits_eq_ff : ∀ ys : List UInt8, digits ys + 1 = 256 ^ ys.length → ys = List.replicate ys.length 0xff
  | [], _ => rfl
  | b :: bs, h => by
    simp only [digits, List.length_cons, Nat.pow_succ] at h
    have hb := b.toNat_lt
    have hl := digits_lt bs
    have h1 := digits_eq_ff bs (by omega)
    rw [List.length_cons, List.replicate_succ, ← h1,
      UInt8.toNat_inj.mp (show b.toNat = (0xff : UInt8).toNat from by show _ = 255; omega)]

/-- The index of a byte counted from the lowest. -/
theorem at_view (e : Endian) (xs : List UInt8) (i : Nat) (hi : i < xs.length) (hw : xs.length < W) :
    at? e xs i = (view e xs)[i]? := by
  unfold at? view
  split
  · rw [Nat.zero_add, Nat.one_mul, Nat.mod_eq_of_lt (by omega)]
  · rw [List.getElem?_reverse hi]
    congr 1
    have h1 : (xs.length + (W - 1)) % W = xs.length - 1 := by
      rw [show xs.length + (W - 1) = xs.length - 1 + W by simp only [W] at *; omega, Nat.add_mod_right, Nat.mod_eq_of_lt (by omega)]
    rw [h1, show xs.length - 1 + (W - 1) * i = xs.length - 1 - i + W * i by
      rw [Nat.sub_mul, Nat.one_mul]
      have : i ≤ W * i := Nat.le_mul_of_pos_left i (by decide)
      omega, Nat.add_mul_mod_self_left, Nat.mod_eq_of_lt (by omega)]

theorem rest_eq (get : Nat → Option UInt8) (fill : UInt8) (ys : List UInt8) (lo : Nat) : ∀ n, lo + n ≤ ys.length →
    (∀ i, i < ys.length → get i = ys[i]?) →
    rest get fill lo n = some (decide ((ys.drop lo).take n = List.replicate n fill))
  | 0, _, _ => by simp [rest]
  | n + 1, h, hg => by
    have hlt : lo + n < ys.length := by omega
    rw [rest, hg _ hlt, List.getElem?_eq_getElem hlt, Option.bind_some]
    have ht : (ys.drop lo).take (n + 1) = (ys.drop lo).take n ++ [ys[lo + n]] := by
      rw [List.take_add_one, List.getElem?_drop, List.getElem?_eq_getElem hlt]; rfl
    have hr : List.replicate (n + 1) fill = List.replicate n fill ++ [fill] := List.replicate_succ'
    rw [ht, hr]
    split
    · rename_i hne
      rw [decide_eq_false]
      intro hc
      have := (List.append_inj' hc rfl).2
      simp only [List.cons.injEq, and_true] at this
      exact hne this
    · rename_i he
      have he : ys[lo + n] = fill := Decidable.not_not.mp he
      rw [rest_eq get fill ys lo n (by omega) hg, he]
      simp only [List.append_cancel_right_eq]

theorem take_digits (ys : List UInt8) (n : Nat) (h : n < ys.length) :
    digits (ys.take (n + 1)) = digits (ys.take n) + 256 ^ n * ys[n].toNat := by
  rw [List.take_add_one, List.getElem?_eq_getElem h, Option.toList_some, digits_append, List.length_take, Nat.min_eq_left (by omega)]
  simp [digits]

theorem compare_eq (a b : Nat → Option UInt8) (less : Bool) (xs ys : List UInt8) : ∀ n, n ≤ xs.length → n ≤ ys.length →
    (∀ i, i < xs.length → a i = xs[i]?) → (∀ i, i < ys.length → b i = ys[i]?) →
    compare a b less n = some (if digits (xs.take n) < digits (ys.take n) then less
      else if digits (ys.take n) < digits (xs.take n) then !less else true)
  | 0, _, _, _, _ => by simp [compare, digits]
  | n + 1, hx, hy, ha, hb => by
    rw [compare, ha n hx, hb n hy, List.getElem?_eq_getElem hx, List.getElem?_eq_getElem hy, Option.bind_some, Option.bind_some,
      take_digits xs n hx, take_digits ys n hy, compare_eq a b less xs ys n (by omega) (by omega) ha hb]
    have h1 := digits_lt (xs.take n)
    have h2 := digits_lt (ys.take n)
    rw [List.length_take, Nat.min_eq_left (by omega)] at h1 h2
    have hlt : xs[n] < ys[n] ↔ xs[n].toNat < ys[n].toNat := Iff.rfl
    have hgt : xs[n] > ys[n] ↔ ys[n].toNat < xs[n].toNat := Iff.rfl
    have hs : ∀ p q u v : Nat, p < 256 ^ n → u < v → p + 256 ^ n * u < q + 256 ^ n * v := by
      intro p q u v hp huv
      have h : 256 ^ n * (u + 1) ≤ 256 ^ n * v := Nat.mul_le_mul_left _ huv
      rw [Nat.mul_add, Nat.mul_one] at h
      omega
    split
    · rename_i h
      rw [if_pos (hs _ _ _ _ h1 (hlt.mp h))]
    · rename_i h
      split
      · rename_i h'
        have := hs _ (digits (xs.take n)) _ _ h2 (hgt.mp h')
        rw [if_neg (by omega), if_pos this]
      · rename_i h'
        have he : xs[n].toNat = ys[n].toNat := by rw [hlt] at h; rw [hgt] at h'; omega
        rw [he]
        congr 1
        simp only [Nat.add_lt_add_iff_right]

theorem split_digits (ys : List UInt8) (lo : Nat) (h : lo ≤ ys.length) :
    digits ys = digits (ys.take lo) + 256 ^ lo * digits (ys.drop lo) := by
  conv => lhs; rw [← List.take_append_drop lo ys]
  rw [digits_append, List.length_take, Nat.min_eq_left h]

theorem rest_zero (ys : List UInt8) (lo : Nat) (h : lo ≤ ys.length) :
    (ys.drop lo = List.replicate (ys.length - lo) 0 → digits ys = digits (ys.take lo)) ∧
    (ys.drop lo ≠ List.replicate (ys.length - lo) 0 → 256 ^ lo ≤ digits ys) := by
  rw [split_digits ys lo h]
  constructor
  · intro he
    rw [he, digits_zero, Nat.mul_zero, Nat.add_zero]
  · intro hne
    have : digits (ys.drop lo) ≠ 0 := fun hz => hne (by
      have := digits_eq_zero _ hz
      rw [List.length_drop] at this
      exact this)
    have := Nat.mul_le_mul_left (256 ^ lo) (Nat.one_le_iff_ne_zero.mpr this)
    omega

theorem rest_ff (ys : List UInt8) (lo : Nat) (h : lo ≤ ys.length) :
    (ys.drop lo = List.replicate (ys.length - lo) 0xff → digits ys + 256 ^ lo = digits (ys.take lo) + 256 ^ ys.length) ∧
    (ys.drop lo ≠ List.replicate (ys.length - lo) 0xff → digits ys + 256 ^ lo < 256 ^ ys.length) := by
  have hp : 256 ^ ys.length = 256 ^ lo * 256 ^ (ys.length - lo) := by rw [← Nat.pow_add]; congr 1; omega
  rw [split_digits ys lo h, hp]
  have hl := digits_lt (ys.drop lo)
  rw [List.length_drop] at hl
  constructor
  · intro he
    rw [← digits_ff (ys.length - lo), ← he, Nat.mul_add]
    omega
  · intro hne
    have : digits (ys.drop lo) + 1 ≠ 256 ^ (ys.length - lo) := fun hz => hne (by
      have := digits_eq_ff _ (by rw [List.length_drop]; exact hz)
      rw [List.length_drop] at this
      exact this)
    have h2 := Nat.mul_le_mul_left (256 ^ lo) (show digits (ys.drop lo) + 2 ≤ 256 ^ (ys.length - lo) by omega)
    have h1 := digits_lt (ys.take lo)
    rw [List.length_take, Nat.min_eq_left h] at h1
    rw [Nat.mul_add] at h2
    omega

/-- The three way answer about two numbers. -/
def answer (less : Bool) (x y : Int) : Bool := if x < y then less else if y < x then !less else true

theorem answer_eq (less : Bool) (x y : Int) : answer less x y = decide (if less then x ≤ y else y ≤ x) := by
  unfold answer
  rcases Int.lt_trichotomy x y with h | h | h
  · rw [if_pos h]; cases less <;> simp <;> omega
  · subst h; cases less <;> simp
  · rw [if_neg (by omega), if_pos h]; cases less <;> simp <;> omega

theorem rest_all (e : Endian) (xs : List UInt8) (fill : UInt8) (lo : Nat) (h : lo ≤ xs.length) (hw : xs.length < W) :
    rest (at? e xs) fill lo (xs.length - lo) =
      some (decide ((view e xs).drop lo = List.replicate ((view e xs).length - lo) fill)) := by
  have hv := view_length e xs
  rw [rest_eq (at? e xs) fill (view e xs) lo (xs.length - lo) (by omega) (fun i hi => at_view e xs i (by omega) hw),
    List.take_of_length_le (by rw [List.length_drop]; omega), hv]

theorem same_zero (less : Bool) (ea eb : Endian) (a b : List UInt8) (ha : a.length < W) (hb : b.length < W) :
    sameSign less 0 (!less) ea eb a b = some (answer less (digits (view ea a)) (digits (view eb b))) := by
  have va := view_length ea a
  have vb := view_length eb b
  have hga : ∀ i, i < (view ea a).length → at? ea a i = (view ea a)[i]? := fun i hi => at_view ea a i (by omega) ha
  have hgb : ∀ i, i < (view eb b).length → at? eb b i = (view eb b)[i]? := fun i hi => at_view eb b i (by omega) hb
  have la := digits_lt (view ea a)
  have lb := digits_lt (view eb b)
  unfold sameSign answer
  split
  · rename_i h
    rw [rest_all ea a 0 _ (by omega) ha, Option.bind_some]
    have hr := rest_zero (view ea a) b.length (by omega)
    split
    · rename_i hd
      rw [compare_eq _ _ less _ _ b.length (by omega) (by omega) hga hgb, ← hr.1 (by simpa using hd),
        List.take_of_length_le (by omega)]
      simp only [Int.ofNat_lt]
    · rename_i hd
      have := hr.2 (by simpa using hd)
      rw [vb] at lb
      rw [if_neg (by omega), if_pos (by omega)]
  · rename_i h
    rw [rest_all eb b 0 _ (by omega) hb, Option.bind_some]
    have hr := rest_zero (view eb b) a.length (by omega)
    split
    · rename_i hd
      rw [compare_eq _ _ less _ _ a.length (by omega) (by omega) hga hgb, ← hr.1 (by simpa using hd),
        List.take_of_length_le (by omega)]
      simp only [Int.ofNat_lt]
    · rename_i hd
      have := hr.2 (by simpa using hd)
      rw [va] at la
      rw [if_pos (by omega), Bool.not_not]

theorem same_ff (less : Bool) (ea eb : Endian) (a b : List UInt8) (ha : a.length < W) (hb : b.length < W) :
    sameSign less 0xff less ea eb a b =
      some (answer less ((digits (view ea a) : Int) - (256 ^ a.length : Nat)) ((digits (view eb b) : Int) - (256 ^ b.length : Nat))) := by
  have va := view_length ea a
  have vb := view_length eb b
  have hga : ∀ i, i < (view ea a).length → at? ea a i = (view ea a)[i]? := fun i hi => at_view ea a i (by omega) ha
  have hgb : ∀ i, i < (view eb b).length → at? eb b i = (view eb b)[i]? := fun i hi => at_view eb b i (by omega) hb
  have la := digits_lt (view ea a)
  have lb := digits_lt (view eb b)
  unfold sameSign answer
  split
  · rename_i h
    rw [rest_all ea a 0xff _ (by omega) ha, Option.bind_some]
    have hr := rest_ff (view ea a) b.length (by omega)
    rw [va] at hr la
    rw [vb] at lb
    split
    · rename_i hd
      rw [compare_eq _ _ less _ _ b.length (by omega) (by omega) hga hgb, List.take_of_length_le (l := view eb b) (by omega)]
      have := hr.1 (by simpa [va] using hd)
      congr 1
      (repeat' split) <;> first | rfl | omega
    · rename_i hd
      have := hr.2 (by simpa [va] using hd)
      rw [if_pos (by omega)]
  · rename_i h
    rw [rest_all eb b 0xff _ (by omega) hb, Option.bind_some]
    have hr := rest_ff (view eb b) a.length (by omega)
    rw [vb] at hr lb
    rw [va] at la
    split
    · rename_i hd
      rw [compare_eq _ _ less _ _ a.length (by omega) (by omega) hga hgb, List.take_of_length_le (l := view ea a) (by omega)]
      have := hr.1 (by simpa [vb] using hd)
      congr 1
      (repeat' split) <;> first | rfl | omega
    · rename_i hd
      have := hr.2 (by simpa [vb] using hd)
      rw [if_neg (by omega), if_pos (by omega)]

theorem top_byte : ∀ x : UInt8, (x &&& 0x80 != 0) = decide (128 ≤ x.toNat) := forall_byte (by decide +kernel)

theorem neg_eq (e : Endian) (sign : Bool) (xs : List UInt8) (h0 : xs ≠ []) (hw : xs.length < W) :
    neg e sign xs = some (decide (sign = true ∧ 128 * 256 ^ (xs.length - 1) ≤ digits (view e xs))) := by
  have hl : 0 < xs.length := List.length_pos_iff.mpr h0
  have hv := view_length e xs
  have h1 : (xs.length + (W - 1)) % W = xs.length - 1 := by
    rw [show xs.length + (W - 1) = xs.length - 1 + W by simp only [W] at *; omega, Nat.add_mod_right, Nat.mod_eq_of_lt (by omega)]
  have hi : xs.length - 1 < (view e xs).length := by omega
  have hd := take_digits (view e xs) (xs.length - 1) hi
  rw [show xs.length - 1 + 1 = xs.length by omega, List.take_of_length_le (by omega)] at hd
  have hlt := digits_lt ((view e xs).take (xs.length - 1))
  rw [List.length_take, Nat.min_eq_left (by omega)] at hlt
  unfold neg
  rw [h1, at_view e xs _ (by omega) hw, List.getElem?_eq_getElem hi, Option.map_some, top_byte, hd]
  generalize digits ((view e xs).take (xs.length - 1)) = r at *
  generalize hP : 256 ^ (xs.length - 1) = P at *
  generalize (view e xs)[xs.length - 1].toNat = t
  have hiff : 128 ≤ t ↔ 128 * P ≤ r + P * t := by
    constructor
    · intro h
      have := Nat.mul_le_mul_left P h
      rw [Nat.mul_comm P 128] at this
      omega
    · intro h
      apply Decidable.byContradiction
      intro hc
      have := Nat.mul_le_mul_left P (show t + 1 ≤ 128 by omega)
      rw [Nat.mul_add, Nat.mul_comm P 128] at this
      omega
  simp only [hiff]
  cases sign <;> simp

theorem number_eq (e : Endian) (sign : Bool) (xs : List UInt8) :
    number e sign xs = if sign = true ∧ 128 * 256 ^ (xs.length - 1) ≤ digits (view e xs) then
      (digits (view e xs) : Int) - (256 ^ xs.length : Nat) else digits (view e xs) := by
  unfold number
  have : (if e = .big then xs.reverse else xs) = view e xs := by cases e <;> rfl
  simp only [this, Int.natCast_pow, Int.cast_ofNat_Int]

/-- **C79.** Data is accepted by the validator of a maximum exactly when the integer is at most the maximum, and by the one of
a minimum when it is at least the minimum: whatever the sizes, the byte orders and the signs of the two are. -/
theorem C79_integers (cmp : List UInt8 → List UInt8 → Bool) (n m : Nat) (ea eb : Endian) (sa sb fa fb : Bool) (a b : List UInt8)
    (ha : a ≠ []) (hb : b ≠ []) (hla : a.length < 2 ^ 64) (hlb : b.length < 2 ^ 64) :
    validate true cmp (.integer n ea sa fa) a (.integer m eb sb fb) b = some (decide (number ea sa a ≤ number eb sb b)) ∧
    validate false cmp (.integer n ea sa fa) a (.integer m eb sb fb) b = some (decide (number eb sb b ≤ number ea sa a)) := by
  have key : ∀ less, integers less ea sa a eb sb b = some (answer less (number ea sa a) (number eb sb b)) := by
    intro less
    have la := digits_lt (view ea a)
    have lb := digits_lt (view eb b)
    rw [view_length] at la lb
    rw [integers, neg_eq ea sa a ha hla, Option.bind_some, neg_eq eb sb b hb hlb, Option.bind_some,
      number_eq ea sa a, number_eq eb sb b]
    by_cases h1 : sa = true ∧ 128 * 256 ^ (a.length - 1) ≤ digits (view ea a) <;>
      by_cases h2 : sb = true ∧ 128 * 256 ^ (b.length - 1) ≤ digits (view eb b) <;>
      simp only [if_pos, h1, h2, decide_true, decide_false, if_true, if_false, Bool.false_eq_true, and_self]
    · exact same_ff less ea eb a b hla hlb
    · unfold answer; rw [if_pos (by omega)]
    · unfold answer; rw [if_neg (by omega), if_pos (by omega)]
    · exact same_zero less ea eb a b hla hlb
  constructor <;> simp only [validate] <;> rw [key, answer_eq] <;> simp

/-- The type of the other byte order makes no difference to floating point numbers whose bytes are swapped too; they are
compared for the sizes of the machine's types only, and no number is compared with one of the other kind. -/
theorem C79_floats (less : Bool) (cmp : List UInt8 → List UInt8 → Bool) (n m : Nat) (a b : List UInt8) :
    (a.length ∈ [4, 8, 16] → b.length ∈ [4, 8, 16] →
      ∀ ea eb, validate less cmp (.float n ea) (if ea = .big then a.reverse else a) (.float m eb) (if eb = .big then b.reverse else b)
        = some (cmp a b)) ∧
    (a.length ∉ [4, 8, 16] ∨ b.length ∉ [4, 8, 16] → ∀ ea eb, validate less cmp (.float n ea) a (.float m eb) b = none) ∧
    (∀ ea eb s f, validate less cmp (.float n ea) a (.integer m eb s f) b = none ∧
      validate less cmp (.integer n ea s f) a (.float m eb) b = none) := by
  refine ⟨fun ha hb ea eb => ?_, fun h ea eb => ?_, fun ea eb s f => ⟨rfl, rfl⟩⟩
  · have h1 : a.length ≤ 0xff := by simp only [List.mem_cons, List.not_mem_nil, or_false] at ha; omega
    have h2 : b.length ≤ 0xff := by simp only [List.mem_cons, List.not_mem_nil, or_false] at hb; omega
    simp only [validate, floats]
    rw [if_pos (by cases ea <;> cases eb <;> simp only [reduceCtorEq, if_true, if_false, List.length_reverse] <;> exact ⟨h1, h2, ha, hb⟩)]
    cases ea <;> cases eb <;> simp [Endian.low]
  · simp only [validate, floats]
    rw [if_neg]
    rintro ⟨_, _, h1, h2⟩
    rcases h with h | h
    · exact h h1
    · exact h h2

open Verif.Reflect (St store check copy) in
/-- Validating with a maximum (`less`) or minimum and the limit as the result for failure clamps: the integer at the address is
the smaller (larger) of what it was and the limit, and nothing else is changed. -/
theorem C79_clamp (less : Bool) (cmp : List UInt8 → List UInt8 → Bool) (env : Env) (v b src a : Nat) (st : St) (n : Nat) (e : Endian)
    (s f : Bool) (hb : env.ty b = some (.integer n e s f)) (h0 : 0 < n) (hn : n < 2 ^ 64)
    (hv : ∀ m x, env.check v b m x =
      (validate less cmp (.integer n e s f) (bytes m x n) (.integer n e s f) (bytes m src n) == some true))
    (hs : env.success v = none) (hf : env.failure v = some (b, src)) (ha : a ≠ 0) (hsrc : src ≠ 0) (k : Nat) :
    ∃ st', check env (k + 2) v b a st = .ok (b, st') ∧
      number e s (bytes st'.mem a n) =
        (if less then min (number e s (bytes st.mem a n)) (number e s (bytes st.mem src n))
          else max (number e s (bytes st.mem a n)) (number e s (bytes st.mem src n))) ∧
      (∀ x, ¬(a ≤ x ∧ x < a + n) → st'.mem x = st.mem x) := by
  have hl : ∀ m x, (bytes m x n).length = n := fun m x => by simp [bytes]
  have hne : ∀ m x, bytes m x n ≠ [] := fun m x h => by
    have := hl m x; rw [h] at this; simp at this; omega
  have hc : env.check v b st.mem a =
      decide (if less then number e s (bytes st.mem a n) ≤ number e s (bytes st.mem src n)
        else number e s (bytes st.mem src n) ≤ number e s (bytes st.mem a n)) := by
    have := C79_integers cmp n n e e s s f f (bytes st.mem a n) (bytes st.mem src n) (hne _ _) (hne _ _)
      (by rw [hl]; exact hn) (by rw [hl]; exact hn)
    rw [hv]
    cases less
    · rw [this.2]; by_cases hh : number e s (bytes st.mem src n) ≤ number e s (bytes st.mem a n) <;> simp [hh]
    · rw [this.1]; by_cases hh : number e s (bytes st.mem a n) ≤ number e s (bytes st.mem src n) <;> simp [hh]
  rw [check, hb]
  dsimp only
  rw [hc]
  by_cases hh : (if less then number e s (bytes st.mem a n) ≤ number e s (bytes st.mem src n)
        else number e s (bytes st.mem src n) ≤ number e s (bytes st.mem a n))
  · rw [if_pos (by simpa using hh), hs]
    refine ⟨st, rfl, ?_, fun _ _ => rfl⟩
    cases less
    · simp only [Bool.false_eq_true, if_false] at hh ⊢; omega
    · simp only [if_true] at hh ⊢; omega
  · rw [if_neg (by simpa using hh), hf]
    dsimp only
    rw [copy, if_neg (by omega), hb]
    refine ⟨_, rfl, ?_, ?_⟩
    · have : bytes (store st.mem a (bytes st.mem src n)) a n = bytes st.mem src n := by
        apply List.ext_getElem (by simp [bytes])
        intro i h1 h2
        have hi : i < n := by simpa [bytes] using h1
        simp only [bytes, store, List.getElem_map, List.getElem_range, List.length_map, List.length_range]
        rw [if_pos (by omega)]
        simp [hi]
      dsimp only
      rw [this]
      cases less
      · simp only [Bool.false_eq_true, if_false] at hh ⊢; omega
      · simp only [if_true] at hh ⊢; omega
    · intro x hx
      simp only [store, hl]
      rw [if_neg hx]

/-! ## Cases that meet the hypotheses -/

example : validate true (fun _ _ => true) (.integer 2 .big true true) [0xff, 0x7f] (.integer 1 .native true true) [0x80] = some true := by
  decide +kernel

example : number .big true [0xff, 0x7f] = -129 ∧ number .native true [0x80] = -128 := by decide

example : validate false (fun _ _ => true) (.integer 2 .big false true) [0xff, 0x7f] (.integer 1 .native true true) [0x80] = some true := by
  decide +kernel

/-- A byte of at most what is at address 32. -/
def limEnv : Env where
  ty t := if t = 1 then some (.integer 1 .native false true) else if t = 0 then some (.validator 1) else none
  check _ _ m x :=
    validate true (fun _ _ => true) (.integer 1 .native false true) (bytes m x 1) (.integer 1 .native false true) (bytes m 32 1) == some true
  success _ := none
  failure _ := some (1, 32)

open Verif.Reflect (check) in
/-- The limit is 10 and the byte at address 8 is 12. -/
example : ∃ st', check limEnv 2 0 1 8 { mem := fun x => if x = 8 then 12 else if x = 32 then 10 else 0, brk := 64, retained := [] } = .ok (1, st') ∧
    number .native false (bytes st'.mem 8 1) = 10 := by
  obtain ⟨st', h1, h2, _⟩ := C79_clamp true (fun _ _ => true) limEnv 0 1 32 8
    { mem := fun x => if x = 8 then 12 else if x = 32 then 10 else 0, brk := 64, retained := [] } 1 .native false true rfl (by omega) (by omega)
    (fun _ _ => rfl) rfl rfl (by omega) (by omega) 0
  exact ⟨st', h1, h2.trans (by decide)⟩

#print axioms C79_integers
#print axioms C79_floats
#print axioms C79_clamp

end Verif.Limit
