import Verif.BigIntFast
import Verif.BigIntProps
/-!
# C30 and C48: fast big integers
-/
namespace Verif.BigIntFast
open Verif.BigInt Verif.BigInt.Spec
namespace Spec

/-- The integer held by a fast big integer. -/
def fval : Fast → Int
  | .tagged bits => getTagged bits
  | .big b => value b

/-- A big integer behind the pointer is in normal form. -/
def Ok : Fast → Prop
  | .tagged _ => True
  | .big b => Norm b

/-- The integers that fit the tagged form (63 bits). -/
def Fits (v : Int) : Prop := -(2 ^ 62) ≤ v ∧ v < 2 ^ 62

instance (v : Int) : Decidable (Fits v) := inferInstanceAs (Decidable (_ ∧ _))

/-- Any `int64_t`. -/
def IsInt64 (v : Int) : Prop := -(2 ^ 63) ≤ v ∧ v < 2 ^ 63

instance (v : Int) : Decidable (IsInt64 v) := inferInstanceAs (Decidable (_ ∧ _))

end Spec
open Spec

theorem taggedMax_eq : taggedMax = 2 ^ 62 - 1 := by decide
theorem taggedMin_eq : taggedMin = -(2 ^ 62) := by decide

theorem inRange_true (v : Int) : inRange v = true := by
  unfold inRange
  rw [taggedMax_eq, taggedMin_eq]
  simp only [Bool.or_eq_true, decide_eq_true_eq]
  omega

theorem tag_bits (x : BitVec 64) : x <<< 1 ||| 1#64 = x + x + 1#64 := by
  have h1 : x <<< 1 = x + x := by
    apply BitVec.eq_of_toNat_eq
    rw [BitVec.toNat_shiftLeft, BitVec.toNat_add, Nat.shiftLeft_eq]; congr 1; omega
  apply BitVec.eq_of_toNat_eq
  rw [BitVec.toNat_or, BitVec.toNat_shiftLeft, Nat.shiftLeft_eq, BitVec.toNat_add, BitVec.toNat_add]
  have hx := x.isLt
  have e1 : (1#64).toNat = 1 := rfl
  rw [e1]
  have h2 : x.toNat * 2 ^ 1 % 2 ^ 64 = ((x.toNat * 2 ^ 1 % 2 ^ 64) / 2) <<< 1 := by
    rw [Nat.shiftLeft_eq]; omega
  rw [h2, ← Nat.shiftLeft_add_eq_or_of_lt (by omega), ← h2]
  omega

/-- A tagged value is read back. -/
theorem getTagged_tag (v : Int) (h : Fits v) : getTagged (BitVec.ofInt 64 v <<< 1 ||| 1#64) = v := by
  unfold getTagged
  rw [BitVec.toInt_sshiftRight, tag_bits, Int.shiftRight_eq_div_pow]
  have h1 := h.1
  have h2 := h.2
  have e : (BitVec.ofInt 64 v + BitVec.ofInt 64 v + 1#64).toInt = 2 * v + 1 := by
    rw [BitVec.toInt_add, BitVec.toInt_add, BitVec.toInt_ofInt]
    have e1 : (1#64).toInt = 1 := by decide
    rw [e1, show v.bmod (2 ^ 64) = v from Int.bmod_eq_of_le (by omega) (by omega)]
    rw [show (v + v).bmod (2 ^ 64) = v + v from Int.bmod_eq_of_le (by omega) (by omega)]
    rw [Int.bmod_eq_of_le (by omega) (by omega)]
    omega
  rw [e]
  omega

theorem taggedValue_fits (asserts : Bool) (v : Int) (h : Fits v) :
    ∃ r, taggedValue asserts v = some r ∧ fval r = v ∧ Ok r := by
  unfold taggedValue
  rw [if_neg]
  · exact ⟨_, rfl, getTagged_tag v h, trivial⟩
  · rw [taggedMax_eq, taggedMin_eq]
    have h1 := h.1
    have h2 := h.2
    simp only [not_and, Classical.not_not]
    intro _; omega

/-- Every tagged word holds a value of 63 bits. -/
theorem getTagged_fits (bits : BitVec 64) : Fits (getTagged bits) := by
  unfold getTagged Fits
  rw [BitVec.toInt_sshiftRight, Int.shiftRight_eq_div_pow]
  have h1 := BitVec.le_toInt bits
  have h2 := BitVec.toInt_lt (x := bits)
  constructor <;> omega

theorem fits_int64 {v : Int} (h : Fits v) : Int64 v := by
  have h1 := h.1
  have h2 := h.2
  constructor <;> omega

/-- **C30 (partial)**: an integer of 63 bits stored in a fast big integer is read back, with or
without assertions. Missing: the other 64-bit integers, on which the property is false. -/
theorem C30_set_int_partial (asserts : Bool) (v : Int) (h : Fits v) :
    ∃ r, setInt asserts v = some r ∧ fval r = v ∧ Ok r ∧ ∃ b, getBig r = some b ∧ Norm b ∧ value b = v := by
  unfold setInt
  rw [inRange_true, if_pos rfl]
  obtain ⟨r, e, hv, hok⟩ := taggedValue_fits asserts v h
  refine ⟨r, e, hv, hok, ?_⟩
  obtain ⟨b, hb, hn, hval⟩ := C28_set_int v (fits_int64 h)
  have : ∃ bits, r = .tagged bits := by
    unfold taggedValue at e
    split at e
    · cases e
    · exact ⟨_, (Option.some.inj e).symm⟩
  obtain ⟨bits, rfl⟩ := this
  refine ⟨b, ?_, hn, hval⟩
  unfold getBig
  have : getTagged bits = v := hv
  simp only [this]; exact hb

/-- Every other 64-bit integer is lost: with assertions the call aborts, without them another integer
is stored. -/
theorem C30_set_int_only (v : Int) (_h : IsInt64 v) (hn : ¬ Fits v) :
    setInt true v = none ∧ ∀ r, setInt false v = some r → fval r ≠ v := by
  unfold setInt
  rw [inRange_true, if_pos rfl, if_pos rfl]
  constructor
  · unfold taggedValue
    rw [if_pos]
    refine ⟨rfl, ?_⟩
    rw [taggedMax_eq, taggedMin_eq]
    intro h; exact hn ⟨by omega, by omega⟩
  · intro r hr hv
    unfold taggedValue at hr
    simp at hr
    rw [← hr] at hv
    apply hn
    rw [← hv]
    exact getTagged_fits _

/-- **C30 is false as stated**: `2^62` is stored as `-2^62`. -/
theorem C30_refuted : ¬ ∀ v, IsInt64 v → ∃ r, setInt false v = some r ∧ fval r = v := by
  intro h
  obtain ⟨r, h1, h2⟩ := h (2 ^ 62) (by decide)
  exact (C30_set_int_only (2 ^ 62) (by decide) (by decide)).2 r h1 h2

theorem C30_refuted_value : setInt false (2 ^ 62) = some (.tagged 0x8000000000000001#64) ∧ getTagged 0x8000000000000001#64 = -(2 ^ 62) := by decide

theorem orderInt_eq (a b : Int) : orderInt a b = order a b := by
  unfold orderInt order
  by_cases h1 : a < b
  · rw [if_pos h1, if_pos h1]
  · rw [if_neg h1, if_neg h1]
    by_cases h2 : a = b
    · rw [if_neg (by omega), if_pos h2]
    · rw [if_pos (by omega), if_neg h2]

theorem order_swap (a b : Int) : (order a b).swap = order b a := by
  unfold order
  by_cases h1 : a < b
  · have h2 : ¬ b < a := by omega
    have h3 : ¬ b = a := by omega
    rw [if_pos h1, if_neg h2, if_neg h3]; rfl
  · rw [if_neg h1]
    by_cases h2 : a = b
    · subst h2; simp
    · have h3 : b < a := by omega
      rw [if_neg h2, if_pos h3]; rfl

/-- Comparison of fast big integers is the order of the integers they hold. -/
theorem C30_compare (a b : Fast) (ha : Ok a) (hb : Ok b) : compareFast a b = some (order (fval a) (fval b)) := by
  cases a with
  | tagged x =>
    cases b with
    | tagged y => simp only [compareFast, orderInt_eq, fval]
    | big b =>
      simp only [compareFast]
      rw [C28_compare_int b _ hb (fits_int64 (getTagged_fits x))]
      simp only [Option.bind_eq_bind, Option.bind_some, order_swap, fval]
  | big a =>
    cases b with
    | tagged y =>
      simp only [compareFast, compareBigFast]
      rw [C28_compare_int a _ ha (fits_int64 (getTagged_fits y))]
      rfl
    | big b =>
      simp only [compareFast, compareBigFast]
      rw [C28_compare a b ha hb]
      rfl

/-- Comparison with a 64-bit integer and with a big integer. -/
theorem C30_compare_int (a : Fast) (v : Int) (ha : Ok a) (hv : Int64 v) : compareInt a v = some (order (fval a) v) := by
  cases a with
  | tagged x => simp only [compareInt, orderInt_eq, fval]
  | big a => exact C28_compare_int a v ha hv

theorem C30_compare_big (a : Fast) (b : BI) (ha : Ok a) (hb : Norm b) : compareBig a b = some (order (fval a) (value b)) := by
  unfold compareBig
  cases a with
  | tagged x =>
    simp only [compareBigFast]
    rw [C28_compare_int b _ hb (fits_int64 (getTagged_fits x))]
    simp only [Option.bind_eq_bind, Option.bind_some, order_swap, fval]
  | big a =>
    simp only [compareBigFast, Option.bind_eq_bind, Option.bind_some]
    rw [C28_compare b a hb ha, order_swap]; rfl

theorem value_single (b : BI) (c : Nat) (h : b.comps = [c]) : value b = signed b c := by
  unfold value signed; rw [h]; simp [nat]

/-- **C30 (partial)**: storing a big integer: exact if its value has 63 bits, or needs 64 bits or more
(and can be copied). Missing: the values of 64 bits with a magnitude below `2^63` that do not fit. -/
theorem C30_set_big_partial (asserts : Bool) (b : BI) (hb : Norm b) (hc : CopyRight b.comps)
    (h : Fits (value b) ∨ 2 ^ 63 ≤ nat b.comps) : ∃ r, setBig asserts b = some r ∧ fval r = value b ∧ Ok r := by
  have hlarge : ∃ r, ((BigInt.setBig b).bind fun x => some (Fast.big x)) = some r ∧ fval r = value b ∧ Ok r := by
    rw [C28_copy_iff, if_pos hc]; exact ⟨_, rfl, rfl, hb⟩
  unfold setBig
  split
  · rename_i c hbc
    by_cases hlt : c < 2 ^ 63
    · have hn : nat b.comps = c := by rw [hbc]; simp [nat]
      have hf : Fits (value b) := h.resolve_right (by omega)
      rw [value_single b c hbc] at hf ⊢
      rw [if_pos ⟨hlt, inRange_true _⟩]
      exact taggedValue_fits asserts _ hf
    · rw [if_neg (fun hh => hlt hh.1)]
      exact hlarge
  · exact hlarge

/-! ## C48: arithmetic of fast big integers -/

/-- **C48 (partial)**: adding a 64-bit integer to a tagged value: exact when the sum has 63 bits or
overflows 64 bits. Missing: the sums in between (`C48_add_int_only`). -/
theorem C48_add_int_partial (asserts : Bool) (bits : BitVec 64) (v : Int) (hv : Int64 v)
    (h : Fits (getTagged bits + v) ∨ ¬ IsInt64 (getTagged bits + v)) :
    ∃ r, addInt asserts (.tagged bits) v = some r ∧ fval r = getTagged bits + v ∧ Ok r := by
  have hi := getTagged_fits bits
  unfold addInt
  simp only
  generalize getTagged bits = i at *
  have h1 := hi.1
  have h2 := hi.2
  have h3 := hv.1
  have h4 := hv.2
  rcases h with hf | ho
  · have h5 := hf.1
    have h6 := hf.2
    rw [if_neg (by omega), inRange_true, if_pos rfl]
    exact taggedValue_fits asserts _ hf
  · have ho' : i + v < -(2 ^ 63) ∨ 2 ^ 63 ≤ i + v := by
      unfold IsInt64 at ho; omega
    rw [if_pos (by omega)]
    obtain ⟨b, e, hn, hval⟩ := C28_set_int i (fits_int64 hi)
    rw [e]
    simp only [Option.bind_eq_bind, Option.bind_some]
    have hs : b.sign = decide (i < 0) := by
      unfold BigInt.setInt at e
      rw [absInt_spec (fits_int64 hi)] at e
      rw [← Option.some.inj e]
    obtain ⟨r, e2, hv2, hd, hn2⟩ := C28_add_int_partial b v hn hv (Or.inl (by rw [hs]; apply decide_eq_decide.2; omega))
    rw [e2]
    refine ⟨_, rfl, ?_, hn2 (fun h0 => ?_)⟩
    · show value r = _
      rw [hv2, hval]
    · rw [hval] at h0; omega

/-- The sums of 64 bits that do not fit are lost. -/
theorem C48_add_int_only (bits : BitVec 64) (v : Int) (hi : IsInt64 (getTagged bits + v)) (hn : ¬ Fits (getTagged bits + v)) :
    addInt true (.tagged bits) v = none ∧ ∀ r, addInt false (.tagged bits) v = some r → fval r ≠ getTagged bits + v := by
  have h := C30_set_int_only _ hi hn
  unfold setInt at h
  rw [inRange_true, if_pos rfl, if_pos rfl] at h
  have hf := getTagged_fits bits
  unfold addInt
  simp only
  generalize getTagged bits = i at *
  have h1 := hi.1
  have h2 := hi.2
  rw [if_neg (by omega), inRange_true, if_pos rfl]
  exact ⟨h.1, by rw [if_neg (by omega)]; exact h.2⟩

/-- **C48 (partial)**: subtracting a 64-bit integer from a tagged value. -/
theorem C48_sub_int_partial (asserts : Bool) (bits : BitVec 64) (v : Int) (hv : Int64 v)
    (h : Fits (getTagged bits - v) ∨ ¬ IsInt64 (getTagged bits - v)) :
    ∃ r, subInt asserts (.tagged bits) v = some r ∧ fval r = getTagged bits - v ∧ Ok r := by
  have hi := getTagged_fits bits
  unfold subInt
  simp only
  generalize getTagged bits = i at *
  have h1 := hi.1
  have h2 := hi.2
  have h3 := hv.1
  have h4 := hv.2
  rcases h with hf | ho
  · have h5 := hf.1
    have h6 := hf.2
    rw [if_neg (by omega), inRange_true, if_pos rfl]
    exact taggedValue_fits asserts _ hf
  · have ho' : i - v < -(2 ^ 63) ∨ 2 ^ 63 ≤ i - v := by
      unfold IsInt64 at ho; omega
    rw [if_pos (by omega)]
    obtain ⟨b, e, hn, hval⟩ := C28_set_int i (fits_int64 hi)
    rw [e]
    simp only [Option.bind_eq_bind, Option.bind_some]
    have hs : b.sign = decide (i < 0) := by
      unfold BigInt.setInt at e
      rw [absInt_spec (fits_int64 hi)] at e
      rw [← Option.some.inj e]
    obtain ⟨r, e2, hv2, hd, hn2⟩ := C28_sub_int_partial b v hn hv (Or.inl (by
      rw [hs]; intro e; have := decide_eq_decide.1 e; omega))
    rw [e2]
    refine ⟨_, rfl, ?_, hn2 (fun h0 => ?_)⟩
    · show value r = _
      rw [hv2, hval]
    · rw [hval] at h0; omega

/-- **C48 (partial)**: adding a big integer of 64 bits or more and of the same sign to a tagged value is
exact. Missing: opposite signs, where the magnitude subtraction of C28 is used. -/
theorem C48_add_big_partial (asserts : Bool) (bits : BitVec 64) (b : BI) (hb : Norm b) (hl : 2 ^ 63 ≤ nat b.comps)
    (h : (getTagged bits < 0 ↔ b.sign = true)) :
    ∃ r, addBig asserts (.tagged bits) b = some r ∧ fval r = getTagged bits + value b ∧ Ok r := by
  have key : ∃ r, addLarge (getTagged bits) b = some r ∧ fval r = getTagged bits + value b ∧ Ok r := by
    obtain ⟨x, e, hn, hval⟩ := C28_set_int (getTagged bits) (fits_int64 (getTagged_fits bits))
    have hs : x.sign = decide (getTagged bits < 0) := by
      unfold BigInt.setInt at e
      rw [absInt_spec (fits_int64 (getTagged_fits bits))] at e
      rw [← Option.some.inj e]
    obtain ⟨r, e2, hv2, hd, hn2⟩ := C28_add_partial x b hn hb (Or.inl (by
      rw [hs, show b.sign = decide (b.sign = true) by simp]; exact decide_eq_decide.2 h))
    unfold addLarge
    simp only [e, e2, Option.bind_eq_bind, Option.bind_some]
    refine ⟨_, rfl, ?_, hn2 (fun h0 => ?_)⟩
    · show value r = _
      rw [hv2, hval]
    · rw [hval] at h0
      rw [hs, decide_eq_false_iff_not]
      intro hneg
      have hb' := h.1 hneg
      unfold value at h0
      rw [hb'] at h0
      simp at h0; omega
  unfold addBig
  simp only
  split
  · rename_i c hc
    have : nat b.comps = c := by rw [hc]; simp [nat]
    rw [if_neg (by omega)]
    exact key
  · exact key

/-- **C48 (partial)**: subtracting a big integer of 64 bits or more and of the opposite sign. -/
theorem C48_sub_big_partial (asserts : Bool) (bits : BitVec 64) (b : BI) (hb : Norm b) (hl : 2 ^ 63 ≤ nat b.comps)
    (h : ¬ (getTagged bits < 0 ↔ b.sign = true)) :
    ∃ r, subBig asserts (.tagged bits) b = some r ∧ fval r = getTagged bits - value b ∧ Ok r := by
  have key : ∃ r, subLarge (getTagged bits) b = some r ∧ fval r = getTagged bits - value b ∧ Ok r := by
    obtain ⟨x, e, hn, hval⟩ := C28_set_int (getTagged bits) (fits_int64 (getTagged_fits bits))
    have hs : x.sign = decide (getTagged bits < 0) := by
      unfold BigInt.setInt at e
      rw [absInt_spec (fits_int64 (getTagged_fits bits))] at e
      rw [← Option.some.inj e]
    obtain ⟨r, e2, hv2, hd, hn2⟩ := C28_sub_partial x b hn hb (Or.inl (by
      rw [hs, show b.sign = decide (b.sign = true) by simp]; exact fun hh => h (decide_eq_decide.1 hh)))
    unfold subLarge
    simp only [e, e2, Option.bind_eq_bind, Option.bind_some]
    refine ⟨_, rfl, ?_, hn2 (fun h0 => ?_)⟩
    · show value r = _
      rw [hv2, hval]
    · rw [hval] at h0
      rw [hs, decide_eq_false_iff_not]
      intro hneg
      have hb' : b.sign = false := by
        cases hbs : b.sign
        · rfl
        · exact absurd (by simp [hneg, hbs]) h
      unfold value at h0
      rw [hb'] at h0
      simp at h0; omega
  unfold subBig
  simp only
  split
  · rename_i c hc
    have : nat b.comps = c := by rw [hc]; simp [nat]
    rw [if_neg (by omega)]
    exact key
  · exact key

/-- **C48 (partial)**: adding and subtracting a big integer with a magnitude below `2^63` to a tagged value. -/
theorem C48_small_big_partial (asserts : Bool) (bits : BitVec 64) (b : BI) (c : Nat) (hc : b.comps = [c]) (hl : c < 2 ^ 63) :
    ((Fits (getTagged bits + value b) ∨ ¬ IsInt64 (getTagged bits + value b)) →
      ∃ r, addBig asserts (.tagged bits) b = some r ∧ fval r = getTagged bits + value b ∧ Ok r) ∧
    ((Fits (getTagged bits - value b) ∨ ¬ IsInt64 (getTagged bits - value b)) →
      ∃ r, subBig asserts (.tagged bits) b = some r ∧ fval r = getTagged bits - value b ∧ Ok r) := by
  have h64 : Int64 (signed b c) := by unfold signed; split <;> constructor <;> omega
  rw [value_single b c hc]
  constructor
  · intro h
    unfold addBig
    simp only [hc]
    rw [if_pos hl]
    exact C48_add_int_partial asserts bits _ h64 h
  · intro h
    unfold subBig
    simp only [hc]
    rw [if_pos hl]
    exact C48_sub_int_partial asserts bits _ h64 h

/-- **C48 is false as stated**: adding a tagged fast integer doubles the first operand, and
subtracting one gives zero, whatever the second operand is. -/
theorem C48_add_fast_refuted (asserts : Bool) (a b : BitVec 64) (h : Fits (getTagged a + getTagged a)) :
    (∃ r, addFast asserts (.tagged a) (.tagged b) = some r ∧ fval r = 2 * getTagged a) ∧
    (∃ r, subFast asserts (.tagged a) (.tagged b) = some r ∧ fval r = 0) := by
  constructor
  · obtain ⟨r, e, hv, _⟩ := C48_add_int_partial asserts a (getTagged a) (fits_int64 (getTagged_fits a)) (Or.inl h)
    exact ⟨r, e, by rw [hv]; omega⟩
  · obtain ⟨r, e, hv, _⟩ := C48_sub_int_partial asserts a (getTagged a) (fits_int64 (getTagged_fits a))
      (Or.inl (by rw [Int.sub_self]; decide))
    exact ⟨r, e, by rw [hv]; omega⟩

theorem C48_refuted : ¬ ∀ a b : Fast, Ok a → Ok b → Fits (fval a + fval b) → ∃ r, addFast true a b = some r ∧ fval r = fval a + fval b := by
  intro h
  have ha : getTagged 5#64 = 2 := by decide
  have hb : getTagged 7#64 = 3 := by decide
  obtain ⟨r, e, hv⟩ := h (.tagged 5#64) (.tagged 7#64) trivial trivial (by show Fits (getTagged 5#64 + getTagged 7#64); rw [ha, hb]; decide)
  obtain ⟨⟨r', e', hv'⟩, _⟩ := C48_add_fast_refuted true 5#64 7#64 (by rw [ha]; decide)
  rw [e'] at e
  rw [← Option.some.inj e, hv'] at hv
  have : fval (.tagged 5#64) + fval (.tagged 7#64) = 5 := by show getTagged 5#64 + getTagged 7#64 = 5; rw [ha, hb]; rfl
  rw [this, ha] at hv
  omega

/-! ## Examples -/

example : Fits (2 ^ 62 - 1) ∧ Fits (-(2 ^ 62)) ∧ ¬ Fits (2 ^ 62) := by decide
example : ∃ r, addInt true (.tagged 5#64) 40 = some r ∧ fval r = 42 := by
  have ha : getTagged 5#64 = 2 := by decide
  obtain ⟨r, e, hv, _⟩ := C48_add_int_partial true 5#64 40 (by decide) (Or.inl (by rw [ha]; decide))
  exact ⟨r, e, by rw [hv, ha]; rfl⟩
/-- Overflow of 64 bits: the sum is stored as a big integer. -/
example : ¬ IsInt64 (getTagged 0x7fffffffffffffff#64 + (2 ^ 63 - 1)) := by
  have : getTagged 0x7fffffffffffffff#64 = 2 ^ 62 - 1 := by decide
  rw [this]; decide
example : Norm ⟨true, [1, 1]⟩ ∧ 2 ^ 63 ≤ nat [1, 1] := ⟨⟨⟨by decide, by decide, by decide⟩, by decide⟩, by decide⟩

#print axioms C30_set_int_partial
#print axioms C30_set_int_only
#print axioms C30_refuted
#print axioms C30_compare
#print axioms C30_compare_int
#print axioms C30_compare_big
#print axioms C30_set_big_partial
#print axioms C48_add_int_partial
#print axioms C48_sub_int_partial
#print axioms C48_add_big_partial
#print axioms C48_sub_big_partial
#print axioms C48_small_big_partial
#print axioms C48_add_fast_refuted
#print axioms C48_refuted

end Verif.BigIntFast
