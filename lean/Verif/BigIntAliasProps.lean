import Verif.BigIntAlias
import Verif.BigIntFastProps
/-!
# C116: big integers combined with themselves
-/
namespace Verif.BigInt
open Verif.BigInt.Spec

section
attribute [local irreducible] W

theorem addSelfLoop_spec (cs pre : List Nat) (carry : Nat) :
    (fun r : List Nat × Nat => if r.2 ≠ 0 then r.1 ++ [r.2] else r.1) (addSelfLoop cs.length pre.length (pre ++ cs) carry) =
      pre ++ addLoop cs cs carry := by
  induction cs generalizing pre carry with
  | nil =>
    simp only [List.length_nil, addSelfLoop, addLoop, addTail, List.append_nil]
    split <;> simp_all
  | cons c cs ih =>
    have hi : (pre ++ c :: cs)[pre.length]? = some c := by simp
    rw [List.length_cons, addSelfLoop, hi]
    simp only
    rw [show (pre ++ c :: cs).set pre.length ((c + c + carry) % W) = (pre ++ [(c + c + carry) % W]) ++ cs by simp,
      show pre.length + 1 = (pre ++ [(c + c + carry) % W]).length by simp]
    refine (ih (pre ++ [(c + c + carry) % W]) _).trans ?_
    rw [addLoop, if_pos (Or.inr (by simp))]
    simp

theorem addSelf_eq (a : BI) : addSelf a = applyAdd a a.comps := by
  have := addSelfLoop_spec a.comps [] 0
  simp only [List.length_nil, List.nil_append] at this
  unfold addSelf applyAdd
  simp only
  rw [this]

theorem subSelfLoop_spec (cs pre : List Nat) (h : ∀ c ∈ cs, c < W) :
    subSelfLoop cs.length pre.length (pre ++ cs) 0 0 = (pre ++ List.replicate cs.length 0, 0, 0) := by
  induction cs generalizing pre with
  | nil => simp [subSelfLoop]
  | cons c cs ih =>
    have hc := h c List.mem_cons_self
    have hi : (pre ++ c :: cs)[pre.length]? = some c := by simp
    rw [List.length_cons, subSelfLoop, hi]
    simp only
    have hs : (c + 0) % W = c := by rw [Nat.add_zero, Nat.mod_eq_of_lt hc]
    have hz : (c + (W - c)) % W = 0 := by
      rw [show c + (W - c) = W by omega, Nat.mod_self]
    rw [hs, hz, if_neg (by simp), if_neg (by simp)]
    rw [show (pre ++ c :: cs).set pre.length 0 = (pre ++ [0]) ++ cs by simp, show pre.length + 1 = (pre ++ [0]).length by simp]
    rw [ih _ fun x hx => h x (List.mem_cons_of_mem _ hx)]
    simp [List.replicate_succ]

/-- **C116**: adding an integer to itself doubles it. -/
theorem C116_double (a : BI) (ha : Norm a) : value (addSelf a) = 2 * value a ∧ Norm (addSelf a) := by
  rw [addSelf_eq]
  obtain ⟨h1, h2⟩ := add_digits ha.1 ha.1
  refine ⟨?_, h2, ?_⟩
  · unfold value applyAdd; simp only; rw [h1]; split <;> omega
  · unfold applyAdd; simp only; rw [h1]; intro e; exact ha.2 (by omega)

/-- **C116**: the integer subtracted from itself leaves a single zero component and its own sign. -/
theorem C116_cancel_exact (a : BI) (ha : Norm a) : subSelf a = some ⟨a.sign, [0]⟩ := by
  have h := subSelfLoop_spec a.comps [] ha.1.2.1
  simp only [List.length_nil, List.nil_append] at h
  have h0 : 0 < a.comps.length := by
    rcases Nat.eq_zero_or_pos a.comps.length with h | h
    · exact absurd (List.length_eq_zero_iff.1 h) ha.1.1
    · exact h
  unfold subSelf
  simp only
  rw [h]
  simp only
  rw [removeLoop_spec _ 0 (by simpa using h0)]
  obtain ⟨n, hn⟩ : ∃ n, a.comps.length = n + 1 := ⟨a.comps.length - 1, by omega⟩
  rw [hn]
  simp [fixSign, List.replicate_succ]

/-- **C116 (partial)**: the difference is zero, and an ordinary zero when the integer is not negative.
Missing: a negative integer leaves a negative zero (`C116_zero_refuted`). -/
theorem C116_cancel_partial (a : BI) (ha : Norm a) : ∃ r, subSelf a = some r ∧ value r = 0 ∧ (Norm r ↔ 0 ≤ value a) := by
  refine ⟨_, C116_cancel_exact a ha, by unfold value; simp [nat], ?_⟩
  have h2 := ha.2
  constructor
  · intro h
    have := h.2 (by simp [nat])
    simp only at this
    unfold value
    rw [this]
    simp
  · intro h
    refine ⟨⟨by simp, by intro c hc; simp at hc; rw [hc]; exact W_pos, by simp⟩, fun _ => ?_⟩
    cases hs : a.sign
    · rfl
    · unfold value at h
      rw [hs] at h h2
      simp at h h2
      omega

/-- **C116**: an integer is equal to itself. -/
theorem C116_compare (a : BI) (ha : Norm a) : compareSelf a = compareBig a a := by
  rw [C28_compare a a ha ha]
  unfold order compareSelf
  simp

end

/-- **C116**: assigning an integer to itself leaves it without components: a number survives only if it is
zero, and the result is never in normal form. -/
theorem C116_assign_exact (a : BI) : (setSelf a).comps = [] ∧ ¬ Norm (setSelf a) ∧ (value (setSelf a) = value a ↔ value a = 0) := by
  refine ⟨rfl, fun h => h.1.1 rfl, ?_⟩
  have : value (setSelf a) = 0 := by unfold value setSelf; simp [nat]
  rw [this]
  exact ⟨fun h => h.symm, fun h => h.symm⟩

theorem C116_assign_refuted : ¬ ∀ a : BI, Norm a → value (setSelf a) = value a := by
  intro h
  have := h ⟨false, [5]⟩ ⟨⟨by decide, by decide, by decide⟩, by decide⟩
  exact absurd this (by decide)

/-- A negative integer minus itself compares as less than zero. -/
theorem C116_zero_refuted : ¬ ∀ a : BI, Norm a → ∃ r, subSelf a = some r ∧ compareInt r 0 = some .eq := by
  intro h
  obtain ⟨r, e, hr⟩ := h ⟨true, [5]⟩ ⟨⟨by decide, by decide, by decide⟩, by decide⟩
  rw [C116_cancel_exact ⟨true, [5]⟩ ⟨⟨by decide, by decide, by decide⟩, by decide⟩] at e
  rw [← Option.some.inj e] at hr
  exact absurd hr (by decide)

end Verif.BigInt

namespace Verif.BigIntFast
open Verif.BigInt Verif.BigInt.Spec Verif.BigIntFast.Spec

/-- **C116 (partial)**: a fast big integer is doubled by adding it to itself. Missing: tagged integers
whose double does not fit the tagged form (63 bits), where the property fails (`C48_add_int_only`). -/
theorem C116_fast_double_partial (asserts : Bool) (a : Fast) (ha : Ok a)
    (h : ∀ bits, a = .tagged bits → Fits (2 * getTagged bits)) :
    ∃ r, addSelf asserts a = some r ∧ fval r = 2 * fval a ∧ Ok r := by
  cases a with
  | tagged x =>
    have := h x rfl
    obtain ⟨r, e, hv, hok⟩ := C48_add_int_partial asserts x (getTagged x) (fits_int64 (getTagged_fits x))
      (Or.inl (by rw [← Int.two_mul]; exact this))
    exact ⟨r, e, by rw [hv, ← Int.two_mul]; rfl, hok⟩
  | big b =>
    obtain ⟨h1, h2⟩ := C116_double b ha
    exact ⟨_, rfl, h1, h2⟩

/-- **C116**: a fast big integer minus itself holds zero. -/
theorem C116_fast_cancel (asserts : Bool) (a : Fast) (ha : Ok a) : ∃ r, subSelf asserts a = some r ∧ fval r = 0 := by
  cases a with
  | tagged x =>
    obtain ⟨r, e, hv, _⟩ := C48_sub_int_partial asserts x (getTagged x) (fits_int64 (getTagged_fits x))
      (Or.inl (by rw [Int.sub_self]; decide))
    exact ⟨r, e, by rw [hv]; omega⟩
  | big b =>
    refine ⟨.big ⟨b.sign, [0]⟩, ?_, ?_⟩
    · rw [subSelf, C116_cancel_exact b ha]; rfl
    · show value _ = 0
      unfold value; simp [nat]

/-- **C116**: a fast big integer assigned to itself is unchanged if it is tagged, becomes tagged if its
number fits `int64_t` and the tagged form, and is emptied if it has two or more components or one of
`2^63` or more. -/
theorem C116_fast_assign_exact (asserts : Bool) (a : Fast) :
    (∀ bits, a = .tagged bits → setSelf asserts a = some a) ∧
    (∀ b, a = .big b → Norm b → Fits (value b) → ∃ bits, setSelf asserts a = some (.tagged bits) ∧ getTagged bits = value b) ∧
    (∀ b, a = .big b → Norm b → 2 ^ 63 ≤ nat b.comps → setSelf asserts a = some (.big ⟨b.sign, []⟩)) := by
  refine ⟨?_, ?_, ?_⟩
  · rintro bits rfl; rfl
  · rintro b rfl hn hf
    have hlen : b.comps.length = 1 := by
      apply Classical.byContradiction
      intro hl
      have h0 : b.comps.length ≠ 0 := fun e => hn.1.1 (List.length_eq_zero_iff.1 e)
      have hg := digits_ge hn.1 (by omega)
      have hp : W ^ 1 ≤ W ^ (b.comps.length - 1) := Nat.pow_le_pow_right W_pos (by omega)
      have hW : W ^ 1 = 2 ^ 64 := by decide
      have h1 := hf.1
      have h2 := hf.2
      unfold value at h1 h2
      cases hs : b.sign <;> simp [hs] at h1 h2 <;> omega
    match hc : b.comps, hlen with
    | [c], _ =>
      have hv := value_single b c hc
      have h1 := hf.1
      have h2 := hf.2
      have hlt : c < 2 ^ 63 := by
        rw [hv] at h1 h2
        unfold signed at h1 h2
        cases hs : b.sign <;> simp [hs] at h1 h2 <;> omega
      rw [setSelf, hc]
      simp only
      rw [if_pos ⟨hlt, inRange_true _⟩]
      rw [hv] at hf ⊢
      obtain ⟨r, e, hr, hok⟩ := taggedValue_fits asserts _ hf
      have hx := e
      unfold taggedValue at hx
      split at hx
      · cases hx
      · have he := Option.some.inj hx
        refine ⟨_, by rw [e, ← he], ?_⟩
        rw [← he] at hr
        exact hr
  · rintro b rfl hn hl
    rw [setSelf]
    split
    · rename_i c hc
      rw [if_neg]
      · rfl
      · rintro ⟨h, _⟩
        rw [hc] at hl
        simp [nat] at hl
        omega
    · rfl

theorem C116_fast_assign_refuted : ¬ ∀ a : Fast, Ok a → ∃ r, setSelf true a = some r ∧ fval r = fval a := by
  intro h
  have hn : Norm ⟨false, [0, 1]⟩ := ⟨⟨by decide, by decide, by decide⟩, by decide⟩
  obtain ⟨r, e, hv⟩ := h (.big ⟨false, [0, 1]⟩) hn
  rw [(C116_fast_assign_exact true (.big ⟨false, [0, 1]⟩)).2.2 _ rfl hn (by decide)] at e
  rw [← Option.some.inj e] at hv
  exact absurd hv (by decide)

/-! ## Examples -/

example : BigInt.addSelf ⟨true, [2 ^ 63, 1]⟩ = ⟨true, [0, 3]⟩ := by decide
example : BigInt.subSelf ⟨true, [7, 1, 9]⟩ = some ⟨true, [0]⟩ := by decide
example : Norm ⟨true, [7, 1, 9]⟩ := ⟨⟨by decide, by decide, by decide⟩, by decide⟩
example : ∀ bits, Fast.tagged 5#64 = .tagged bits → Fits (2 * getTagged bits) := by
  rintro bits h
  cases h
  have : getTagged 5#64 = 2 := by decide
  rw [this]; decide

#print axioms C116_double
#print axioms C116_cancel_exact
#print axioms C116_cancel_partial
#print axioms C116_compare
#print axioms C116_assign_exact
#print axioms C116_assign_refuted
#print axioms C116_zero_refuted
#print axioms C116_fast_double_partial
#print axioms C116_fast_cancel
#print axioms C116_fast_assign_exact
#print axioms C116_fast_assign_refuted

end Verif.BigIntFast
