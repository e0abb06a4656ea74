import Verif.BigIntStr
import Verif.BigIntTextProps
import Verif.BigIntFastProps
/-!
# C115: big integers and their text
-/
namespace Verif.BigIntFast
open Verif.BigInt Verif.BigInt.Spec Verif.BigIntFast.Spec
namespace Spec

/-- The text of a number: an optional minus sign, `0x` and at least one hexadecimal digit. The length of
a text is a `size_t`. -/
structure Text (t : List Char) (n : Int) : Prop where
  shape : ∃ neg s, t = text neg s ∧ IsHex s ∧ s ≠ [] ∧ s.length < W ∧ n = if neg then -(hexValue s : Int) else hexValue s

end Spec
open Spec

theorem parse_text {t : List Char} {n : Int} (h : Text t n) : ∃ b, parse t = some b ∧ Norm b ∧ value b = n := by
  obtain ⟨neg, s, rfl, h1, h2, h3, rfl⟩ := h.shape
  exact C29_parse neg s h1 h2 h3

theorem parse_norm {t : List Char} {n : Int} (h : Text t n) {b : BI} (hb : Norm b) (hv : value b = n) : parse t = some b := by
  obtain ⟨b', e, hn, hv'⟩ := parse_text h
  rw [e, C29_normal_unique b' b hn hb (by rw [hv, hv'])]

/-- **C115**, comparison with a text. -/
theorem C115_compare (a : BI) (t : List Char) (n : Int) (ha : Norm a) (h : Text t n) :
    BigInt.compareString a t = some (order (value a) n) := by
  obtain ⟨b, e, hn, hv⟩ := parse_text h
  rw [BigInt.compareString, BigInt.setString, e]
  show some (BigInt.compareBig a b) = _
  rw [C28_compare a b ha hn, hv]

/-- **C115**, comparison of a fast big integer with a text. -/
theorem C115_fast_compare (a : Fast) (t : List Char) (n : Int) (ha : Ok a) (h : Text t n) :
    compareString a t = some (order (fval a) n) := by
  cases a with
  | big a => exact C115_compare a t n ha h
  | tagged x =>
    obtain ⟨b, e, hn, hv⟩ := parse_text h
    have := C30_compare_big (.tagged x) b trivial hn
    rw [compareBig, compareBigFast, hv] at this
    rw [compareString, BigInt.setString, e]
    exact this

/-- **C115**: adding or subtracting a text is adding or subtracting the number it names, whatever big
integer holds that number. -/
theorem C115_operand_exact (a : BI) (t : List Char) (b : BI) (hb : Norm b) (h : Text t (value b)) :
    BigInt.addString a t = BigInt.addBig a b ∧ BigInt.subString a t = BigInt.subBig a b := by
  have e := parse_norm h hb rfl
  constructor
  · rw [BigInt.addString, BigInt.setString, e]; rfl
  · rw [BigInt.subString, BigInt.setString, e]; rfl

/-- **C115**: the same for fast big integers. -/
theorem C115_fast_operand_exact (asserts : Bool) (a : Fast) (t : List Char) (b : BI) (hb : Norm b) (h : Text t (value b)) :
    addString asserts a t = addBig asserts a b ∧ subString asserts a t = subBig asserts a b := by
  have e := parse_norm h hb rfl
  cases a with
  | tagged x =>
    constructor
    · rw [addString, BigInt.setString, e]; rfl
    · rw [subString, BigInt.setString, e]; rfl
  | big a =>
    obtain ⟨h1, h2⟩ := C115_operand_exact a t b hb h
    constructor
    · rw [addString, h1]; rfl
    · rw [subString, h2]; rfl

/-- **C115 (partial)**: a text with the sign of the integer is added exactly, one with the other sign is
subtracted exactly. Missing: the operations that subtract magnitudes, which are right only on the
operands of `C28_add_partial` and `C28_sub_partial` (see `C115_operand_exact`). -/
theorem C115_add_partial (a : BI) (t : List Char) (n : Int) (ha : Norm a) (h : Text t n) :
    ((a.sign = true ↔ n < 0) → ∃ r, BigInt.addString a t = some r ∧ value r = value a + n ∧ Norm r) ∧
    (¬ (a.sign = true ↔ n < 0) → ∃ r, BigInt.subString a t = some r ∧ value r = value a - n ∧ Digits r.comps ∧
      ((value a - n = 0 → a.sign = false) → Norm r)) := by
  obtain ⟨b, e, hn, hv⟩ := parse_text h
  obtain ⟨e1, e2⟩ := C115_operand_exact a t b hn (by rw [hv]; exact h)
  have hs : b.sign = true ↔ n < 0 := by
    have h2 := hn.2
    rw [← hv]; unfold value
    cases hb : b.sign <;> rw [hb] at h2 <;> simp at h2 ⊢ <;> omega
  constructor
  · intro hh
    have hab : a.sign = b.sign := by rw [Bool.eq_iff_iff, hh, hs]
    obtain ⟨r, er, hr, hd, hnr⟩ := C28_add_partial a b ha hn (Or.inl hab)
    refine ⟨r, by rw [e1, er], by rw [hr, hv], hnr fun hz => ?_⟩
    have h2 := ha.2
    have h3 := hn.2
    unfold value at hz
    rw [← hab] at hz h3
    cases hsa : a.sign
    · rfl
    · rw [hsa] at hz h2
      simp at hz h2
      omega
  · intro hh
    have hab : a.sign ≠ b.sign := fun e => hh (by rw [e, hs])
    obtain ⟨r, er, hr, hd, hnr⟩ := C28_sub_partial a b ha hn (Or.inl hab)
    exact ⟨r, by rw [e2, er], by rw [hr, hv], hd, by rw [hv] at hnr; exact hnr⟩

/-- **C115 (partial)**: a tagged integer and a text of a small number. Missing: the sums which fit
`int64_t` and not the 63 bits of the tagged form (`C48_add_int_only`). -/
theorem C115_fast_small_partial (asserts : Bool) (bits : BitVec 64) (t : List Char) (n : Int) (h : Text t n) (h64 : Int64 n) :
    ((Fits (getTagged bits + n) ∨ ¬ IsInt64 (getTagged bits + n)) →
      ∃ r, addString asserts (.tagged bits) t = some r ∧ fval r = getTagged bits + n ∧ Ok r) ∧
    ((Fits (getTagged bits - n) ∨ ¬ IsInt64 (getTagged bits - n)) →
      ∃ r, subString asserts (.tagged bits) t = some r ∧ fval r = getTagged bits - n ∧ Ok r) := by
  obtain ⟨b, e, hn, hv⟩ := C28_set_int n h64
  have hb : ∃ c, b.comps = [c] ∧ c < 2 ^ 63 := by
    unfold BigInt.setInt at e
    rw [absInt_spec h64] at e
    have := Option.some.inj e
    rw [← this]
    refine ⟨_, rfl, ?_⟩
    have h1 := h64.1
    have h2 := h64.2
    omega
  obtain ⟨c, hc, hl⟩ := hb
  obtain ⟨e1, e2⟩ := C115_fast_operand_exact asserts (.tagged bits) t b hn (by rw [hv]; exact h)
  have := C48_small_big_partial asserts bits b c hc hl
  rw [hv] at this
  rw [e1, e2]
  exact this

/-- **C115**: setting from a text stores the number. Any text of any number is kept as a big integer, also
where the number fits the tagged form. -/
theorem C115_set (t : List Char) (n : Int) (h : Text t n) : ∃ b, setString t = some (.big b) ∧ Norm b ∧ value b = n := by
  obtain ⟨b, e, hn, hv⟩ := parse_text h
  exact ⟨b, by rw [setString, BigInt.setString, e]; rfl, hn, hv⟩

theorem tagged_print (b : BI) (h : Norm b) : Text (print b) (value b) ∨ W ≤ b.comps.length * 16 := by
  by_cases hw : b.comps.length * 16 < W
  · left
    obtain ⟨t, h1, h2, h3, h4⟩ := (C29_print b h.1).1
    have h0 : b.comps.length ≠ 0 := fun e => h.1.1 (List.length_eq_zero_iff.1 e)
    refine ⟨b.sign, t, h1, h2, ?_, by omega, ?_⟩
    · intro e; rw [e] at h4; simp at h4; omega
    · rw [h3]; rfl
  · right; omega

/-- The number of components is a `size_t` small enough for the text. -/
def Short : Fast → Prop
  | .tagged _ => True
  | .big b => b.comps.length * 16 < W

/-- **C115**: the text of a fast big integer names its number, so setting any integer from it gives the
same number. -/
theorem C115_get (a : Fast) (ha : Ok a) (hs : Short a) : ∃ t, getString a = some t ∧ Text t (fval a) ∧
    ∃ b, setString t = some (.big b) ∧ Norm b ∧ value b = fval a := by
  have key : ∃ t, getString a = some t ∧ Text t (fval a) := by
    cases a with
    | tagged x =>
      obtain ⟨b, e, hn, hv⟩ := C28_set_int (getTagged x) (fits_int64 (getTagged_fits x))
      refine ⟨print b, by rw [getString, getBig, e]; rfl, ?_⟩
      rcases tagged_print b hn with h | h
      · rw [hv] at h; exact h
      · exfalso
        have : b.comps.length = 1 := by
          unfold BigInt.setInt at e
          rw [absInt_spec (fits_int64 (getTagged_fits x))] at e
          rw [← Option.some.inj e]; rfl
        rw [this] at h
        exact absurd h (by decide)
    | big b =>
      refine ⟨print b, rfl, ?_⟩
      rcases tagged_print b ha with h | h
      · exact h
      · exact absurd hs (by show ¬ b.comps.length * 16 < W; omega)
  obtain ⟨t, e, h⟩ := key
  exact ⟨t, e, h, C115_set t (fval a) h⟩

/-- **C115**: two fast big integers hold the same number exactly when comparing one with the text of the
other says so, whatever form they have. -/
theorem C115_text_equal (a b : Fast) (ha : Ok a) (hb : Ok b) (hs : Short b) :
    ∃ t, getString b = some t ∧ (compareString a t = some .eq ↔ fval a = fval b) := by
  obtain ⟨t, e, h, _⟩ := C115_get b hb hs
  refine ⟨t, e, ?_⟩
  rw [C115_fast_compare a t _ ha h]
  unfold order
  constructor
  · intro hh
    have := Option.some.inj hh
    split at this
    · cases this
    · split at this
      · assumption
      · cases this
  · intro hh
    rw [if_neg (by omega), if_pos hh]

/-- **C115**: the sign is that of the number. -/
theorem C115_sign (a : Fast) (ha : Ok a) : getSign a = true ↔ fval a < 0 := by
  cases a with
  | tagged x => simp [getSign, fval]
  | big b =>
    have h2 := ha.2
    simp only [getSign, fval, value]
    cases hb : b.sign <;> rw [hb] at h2 <;> simp at h2 ⊢ <;> omega

/-- **C115**: a copy is the same number in the same form; copying fails exactly where the copying of big
integers does (`C28_copy_iff`). -/
theorem C115_copy_exact (a : Fast) : copy a = match a with
    | .tagged bits => some (.tagged bits)
    | .big b => if CopyRight b.comps then some (.big b) else none := by
  cases a with
  | tagged x => rfl
  | big b =>
    simp only [copy]
    rw [C28_copy_iff]
    split <;> rfl

/-- **C115**: a text without `0x` and a digit is refused by every operation. -/
theorem C115_refuse (asserts : Bool) (a : BI) (f : Fast) (t : List Char)
    (h : ∀ neg c s, t ≠ text neg (c :: s)) :
    BigInt.compareString a t = none ∧ BigInt.addString a t = none ∧ BigInt.subString a t = none ∧
    setString t = none ∧ compareString f t = none ∧ addString asserts f t = none ∧ subString asserts f t = none := by
  have key : parse t = none := by
    cases t with
    | nil => rfl
    | cons c cs =>
      simp only [parse]
      rw [if_neg]
      rintro ⟨hl, ht⟩
      by_cases hc : c = '-'
      · rw [if_pos hc] at hl ht
        match cs, hl, ht with
        | x :: y :: z :: r, _, ht =>
          simp at ht
          exact h true z r (by rw [hc, ht.1, ht.2]; rfl)
      · rw [if_neg hc] at hl ht
        match cs, hl, ht with
        | y :: z :: r, _, ht =>
          simp at ht
          exact h false z r (by rw [ht.1, ht.2]; rfl)
  have k : BigInt.setString t = none := key
  refine ⟨?_, ?_, ?_, ?_, ?_, ?_, ?_⟩
  · rw [BigInt.compareString, k]; rfl
  · rw [BigInt.addString, k]; rfl
  · rw [BigInt.subString, k]; rfl
  · rw [setString, k]; rfl
  · cases f <;> simp only [compareString, BigInt.compareString, k] <;> rfl
  · cases f <;> simp only [addString, BigInt.addString, k] <;> rfl
  · cases f <;> simp only [subString, BigInt.subString, k] <;> rfl

/-- A number that fits the tagged form, set from its text, is no longer tagged: the fast form is lost,
while `CCBigIntFastSetInt` keeps it. -/
theorem C115_tagged_refuted : ¬ ∀ (t : List Char) (n : Int), Text t n → Fits n → ∃ bits, setString t = some (.tagged bits) := by
  intro h
  have ht : Text ['0', 'x', '1'] 1 := ⟨false, ['1'], rfl, by unfold IsHex; decide, by decide, by decide, by decide⟩
  obtain ⟨bits, e⟩ := h _ _ ht (by decide)
  obtain ⟨b, e', _⟩ := C115_set _ _ ht
  rw [e'] at e
  cases e

/-! ## Examples -/

example : Text ['-', '0', 'x', '2', 'A'] (-42) := ⟨true, ['2', 'A'], rfl, by unfold IsHex; decide, by decide, by decide, by decide⟩
example : BigInt.addString ⟨false, [W - 1]⟩ ['0', 'x', '2'] = some ⟨false, [1, 1]⟩ := by decide
example : compareString (.tagged 5#64) ['0', 'x', '3'] = some .lt := by decide
example : ∃ r, addString true (.tagged 5#64) ['0', 'x', '2', '8'] = some r ∧ fval r = 42 := by
  have ht : Text ['0', 'x', '2', '8'] 40 := ⟨false, ['2', '8'], rfl, by unfold IsHex; decide, by decide, by decide, by decide⟩
  have ha : getTagged 5#64 = 2 := by decide
  obtain ⟨r, e, hv, _⟩ := (C115_fast_small_partial true 5#64 _ 40 ht (by decide)).1 (Or.inl (by rw [ha]; decide))
  exact ⟨r, e, by rw [hv, ha]; rfl⟩
example : ∀ neg c s, (['4', '2'] : List Char) ≠ text neg (c :: s) := by
  intro neg c s h
  cases neg <;> cases h
example : Short (.big ⟨true, [1, 2]⟩) ∧ Ok (.big ⟨true, [1, 2]⟩) := ⟨by show 2 * 16 < W; decide, ⟨by decide, by decide, by decide⟩, by decide⟩

#print axioms C115_compare
#print axioms C115_fast_compare
#print axioms C115_operand_exact
#print axioms C115_fast_operand_exact
#print axioms C115_add_partial
#print axioms C115_fast_small_partial
#print axioms C115_set
#print axioms C115_get
#print axioms C115_text_equal
#print axioms C115_sign
#print axioms C115_copy_exact
#print axioms C115_refuse
#print axioms C115_tagged_refuted

end Verif.BigIntFast
