import Verif.TypeKeys
import Verif.BigIntFastProps
import Verif.StrProps
/-!
# C91: keys that compare equal hash equal
-/
namespace Verif.TypeKeys
open Verif.BigInt Verif.BigInt.Spec Verif.BigIntFast Verif.BigIntFast.Spec

theorem compareDigits_eq (a b : List Nat) (hl : a.length = b.length) (h : compareDigits a b = .eq) : a = b := by
  induction a generalizing b with
  | nil => cases b with
    | nil => rfl
    | cons => simp at hl
  | cons x a ih => cases b with
    | nil => simp at hl
    | cons y b =>
      rw [compareDigits] at h
      by_cases hxy : x = y
      · rw [if_neg (by simpa using hxy)] at h
        rw [hxy, ih b (by simpa using hl) h]
      · rw [if_pos hxy] at h
        split at h <;> simp at h

theorem compareBig_eq (a b : BI) (h : BigInt.compareBig a b = .eq) : a = b := by
  unfold BigInt.compareBig at h
  by_cases hs : a.sign = b.sign
  · rw [if_neg (by simpa using hs)] at h
    have hc : compareComponents a.comps b.comps = .eq := by
      revert h
      cases a.sign <;> cases compareComponents a.comps b.comps <;> simp
    unfold compareComponents at hc
    split at hc
    · next hl =>
      have := compareDigits_eq _ _ (by simpa using hl) hc
      cases a; cases b
      simp only [List.reverse_inj] at this hs ⊢
      subst this hs
      rfl
    · split at hc <;> simp at hc
  · rw [if_pos hs] at h
    split at h <;> simp at h

theorem sshiftRight_63 (v : BitVec 64) : v.sshiftRight 63 = if v.msb then BitVec.allOnes 64 else 0#64 := by
  apply BitVec.eq_of_getLsbD_eq
  intro i hi
  rw [BitVec.getLsbD_sshiftRight]
  have h1 : (if 63 + i < 64 then v.getLsbD (63 + i) else v.msb) = v.msb := by
    split
    · next h =>
      have : i = 0 := by omega
      subst this
      rw [BitVec.msb_eq_getLsbD_last]
    · rfl
  rw [h1]
  have h2 : decide (64 ≤ i) = false := by simp; omega
  rw [h2]
  cases v.msb
  · simp
  · simp only [Bool.not_false, Bool.true_and, if_true, BitVec.getLsbD_allOnes, decide_eq_true hi]

theorem absBits_eq (v : BitVec 64) : absBits v = if v.msb then -v else v := by
  unfold absBits
  rw [sshiftRight_63]
  cases v.msb
  · simp
  · simp only [if_true]
    rw [BitVec.xor_allOnes, BitVec.neg_eq_not_add]
    have : BitVec.allOnes 64 = -1#64 := by decide
    rw [this, BitVec.sub_neg]

theorem absBits_natAbs (v : BitVec 64) : absBits v = BitVec.ofNat 64 v.toInt.natAbs := by
  rw [absBits_eq]
  apply BitVec.eq_of_toNat_eq
  rw [BitVec.toNat_ofNat]
  have hlt := v.isLt
  rw [BitVec.toInt_eq_msb_cond]
  cases hm : v.msb
  · simp
    omega
  · have hge : 2 ^ 63 ≤ v.toNat := by
      have := BitVec.msb_eq_decide v
      rw [hm] at this
      simpa using this.symm
    simp only [if_true, BitVec.toNat_neg]
    omega

/-- The integer a tagged word stands for hashes as the big integer with the same number. -/
theorem tagged_hash (bits : BitVec 64) : hashFast (.tagged bits) = hashBig ⟨decide (getTagged bits < 0), [(getTagged bits).natAbs]⟩ ∧
    hashFastLow (.tagged bits) = hashLow ⟨decide (getTagged bits < 0), [(getTagged bits).natAbs]⟩ := by
  constructor
  · rw [hashFast, absBits_natAbs, hashBig, getTagged]
    simp
  · rw [hashFastLow, absBits_natAbs, hashLow, getTagged]
    simp

theorem setInt_some {v : Int} {b : BI} (h : BigInt.setInt v = some b) : b = ⟨decide (v < 0), [v.natAbs]⟩ := by
  unfold BigInt.setInt absInt at h
  split at h
  · simp at h
  · simpa using h.symm

/-- **C91, big integers**: the comparator says equal for exactly the same numbers, and these have the same hash, with either hasher. -/
theorem C91_big_int (a b : BI) (ha : Norm a) (hb : Norm b) :
    (compareBigKeys a b = .equal ↔ value a = value b) ∧ (value a = value b → hashBig a = hashBig b ∧ hashLow a = hashLow b ∧ (hashLow a).isSome) := by
  have hc := C28_compare a b ha hb
  have key : compareBigKeys a b = .equal ↔ value a = value b := by
    unfold compareBigKeys
    rw [hc]
    unfold order
    split
    · simp [Result.ofOrdering]; omega
    · split
      · simp [Result.ofOrdering]; assumption
      · simp [Result.ofOrdering]; assumption
  refine ⟨key, fun h => ?_⟩
  have he : a = b := compareBig_eq a b (by
    rw [hc, h]; simp [order])
  subst he
  refine ⟨rfl, rfl, ?_⟩
  obtain ⟨⟨h1, -⟩, -⟩ := ha
  unfold hashLow
  cases hcomps : a.comps with
  | nil => exact absurd hcomps h1
  | cons => simp

/-- **C91, big integers in any state**: if the comparator says equal then the hashes are the same, also for numbers that are not in normal form. -/
theorem C91_big_int_any (a b : BI) (h : compareBigKeys a b = .equal) : hashBig a = hashBig b ∧ hashLow a = hashLow b := by
  have : BigInt.compareBig a b = .eq := by
    revert h
    unfold compareBigKeys
    cases BigInt.compareBig a b <;> simp [Result.ofOrdering]
  rw [compareBig_eq a b this]
  exact ⟨rfl, rfl⟩

theorem ofOrdering_equal {o : Option Ordering} (h : o.map Result.ofOrdering = some .equal) : o = some .eq := by
  cases o with
  | none => simp at h
  | some x => cases x <;> simp [Result.ofOrdering] at h ⊢

/-- **C91, fast big integers in any state**: if the comparator says equal then the hashes are the same, whether the numbers are tagged or not. -/
theorem C91_fast_any (a b : Fast) (h : compareFastKeys a b = some .equal) : hashFast a = hashFast b ∧ hashFastLow a = hashFastLow b := by
  have h := ofOrdering_equal h
  cases a with
  | tagged x => cases b with
    | tagged y =>
      have hv : getTagged x = getTagged y := by
        simp only [compareFast, orderInt, Option.some.injEq] at h
        split at h
        · simp at h
        · split at h
          · simp at h
          · omega
      rw [(tagged_hash x).1, (tagged_hash x).2, (tagged_hash y).1, (tagged_hash y).2, hv]
      exact ⟨rfl, rfl⟩
    | big b =>
      simp only [compareFast, BigInt.compareInt, Option.bind_eq_bind, Option.bind_eq_some_iff] at h
      obtain ⟨r, ⟨c, hc, hr⟩, hs⟩ := h
      have hr : BigInt.compareBig b c = .eq := by
        have := Option.some.inj hr
        rw [this]
        revert hs
        cases r <;> simp
      rw [(tagged_hash x).1, (tagged_hash x).2, ← setInt_some hc, ← compareBig_eq _ _ hr]
      exact ⟨rfl, rfl⟩
  | big a => cases b with
    | tagged y =>
      simp only [compareFast, compareBigFast, BigInt.compareInt, Option.bind_eq_bind, Option.bind_eq_some_iff] at h
      obtain ⟨c, hc, hr⟩ := h
      have hr := compareBig_eq _ _ (Option.some.inj hr)
      rw [(tagged_hash y).1, (tagged_hash y).2, ← setInt_some hc, hr]
      exact ⟨rfl, rfl⟩
    | big b =>
      simp only [compareFast, compareBigFast] at h
      have hr := compareBig_eq _ _ (Option.some.inj h)
      rw [hr]
      exact ⟨rfl, rfl⟩

/-- **C91, fast big integers**: the comparator says equal for exactly the same numbers, and these have the same hash, tagged or not. -/
theorem C91_fast (a b : Fast) (ha : Ok a) (hb : Ok b) :
    (compareFastKeys a b = some .equal ↔ fval a = fval b) ∧ (fval a = fval b → hashFast a = hashFast b ∧ hashFastLow a = hashFastLow b) := by
  have hc := C30_compare a b ha hb
  have key : compareFastKeys a b = some .equal ↔ fval a = fval b := by
    unfold compareFastKeys
    rw [hc]
    unfold order
    split
    · simp [Result.ofOrdering]; omega
    · split
      · simp [Result.ofOrdering]; assumption
      · simp [Result.ofOrdering]; assumption
  exact ⟨key, fun h => C91_fast_any a b (key.2 h)⟩

/-- **C91, a big integer and a fast one** of the same number have the same hash. -/
theorem C91_big_fast (a : BI) (b : Fast) (ha : Norm a) (hb : Ok b) (h : value a = fval b) : hashBig a = hashFast b ∧ hashLow a = hashFastLow b :=
  (C91_fast (.big a) b ha hb).2 h

/-- **C91, strings**: strings with the same characters have the same hash, however they are represented, and strings the comparator says are equal have the same characters.
Missing: the comparator does not say equal for all strings with the same characters (`C54_equal_exact` says for which), and `Safe` excludes strings whose terminator is not known to be readable. -/
theorem C91_string_partial {M : Str.Maps} (hM : Str.GoodMaps M) {s t : Str.Str} {l m : List Nat} (hs : Str.Val M s l) (ht : Str.Val M t m) (rs : Str.Safe s) (rt : Str.Safe t)
    {same : Bool} (hsame : same = true → s = t) :
    (l = m → ∃ h, hashString M s = some h ∧ hashString M t = some h) ∧ (compareStringKeys M same s t = some .equal → l = m) ∧
      (compareStringKeys M same s t = some .equal ∨ compareStringKeys M same s t = some .invalid) := by
  have h1 := (Str.C54_observe hM hs).2 (.inl rs)
  have h2 := (Str.C54_observe hM ht).2 (.inl rt)
  have h3 := Str.C54_equal_exact hM hs ht rs rt hsame
  refine ⟨?_, ?_, ?_⟩
  · rintro rfl
    unfold hashString
    rw [h1, h2]
    exact ⟨_, rfl, rfl⟩
  · unfold compareStringKeys
    rw [h3]
    simp only [Option.map_some, Option.some.injEq]
    split
    · next h => intro _; exact (of_decide_eq_true h).1
    · simp
  · unfold compareStringKeys
    rw [h3]
    simp only [Option.map_some, Option.some.injEq]
    split
    · exact .inl rfl
    · exact .inr rfl

/-- **C91 refuted for strings**: two empty strings, for which the comparator says that they are equal or not, depending on their order. -/
theorem C91_string_refuted : ∃ s t, Str.Val Str.defaultMaps s [] ∧ Str.Val Str.defaultMaps t [] ∧ Str.Safe s ∧ Str.Safe t ∧
    compareStringKeys Str.defaultMaps false s t = some .invalid ∧ compareStringKeys Str.defaultMaps false t s = some .equal := by
  obtain ⟨s, t, h1, h2, h3, h4, h5, h6⟩ := Str.C54_equal_refuted
  refine ⟨s, t, h1, h2, h3, h4, ?_, ?_⟩
  · unfold compareStringKeys
    rw [h5]
    rfl
  · unfold compareStringKeys
    rw [h6]
    rfl

/-- **C91, order**: comparing the other way round gives the other order. -/
theorem C91_flip (a b : Fast) (ha : Ok a) (hb : Ok b) : compareFastKeys b a = (compareFastKeys a b).map flipOrder := by
  unfold compareFastKeys
  rw [C30_compare a b ha hb, C30_compare b a hb ha]
  unfold order
  simp only [Option.map_some]
  by_cases h1 : fval a < fval b
  · rw [if_pos h1, if_neg (by omega), if_neg (by omega)]
    rfl
  · rw [if_neg h1]
    by_cases h2 : fval a = fval b
    · rw [if_pos h2, if_neg (by omega), if_pos h2.symm]
      rfl
    · rw [if_neg h2, if_pos (by omega)]
      rfl

/-- Non-vacuity: minus five, tagged, as a big integer, and as a fast integer that is not tagged. -/
example : ∃ bits, taggedValue true (-5) = some (.tagged bits) ∧ Norm ⟨true, [5]⟩ ∧ fval (.tagged bits) = value ⟨true, [5]⟩ ∧
    hashFast (.tagged bits) = 0x8000000000000005#64 ∧ hashBig ⟨true, [5]⟩ = 0x8000000000000005#64 ∧
    compareFastKeys (.tagged bits) (.big ⟨true, [5]⟩) = some .equal := by
  refine ⟨_, rfl, ⟨⟨by decide, by decide, by decide⟩, by decide⟩, ?_, ?_, ?_, ?_⟩ <;> decide +kernel
example : Norm ⟨false, [1, 2, 3]⟩ ∧ hashBig ⟨false, [1, 2, 4]⟩ = 7#64 ∧ hashLow ⟨true, [1, 2, 4]⟩ = some 0x8000000000000001#64 :=
  ⟨⟨⟨by decide, by decide, by decide⟩, by decide⟩, by decide +kernel, by decide +kernel⟩
/-- A tagged string and a constant with the same characters. -/
example : ∃ s t, Str.Val Str.defaultMaps s [104, 105] ∧ Str.Val Str.defaultMaps t [104, 105] ∧ Str.Safe s ∧ Str.Safe t ∧ s ≠ t ∧
    ∃ h, hashString Str.defaultMaps s = some h ∧ hashString Str.defaultMaps t = some h := by
  have hc : ∀ c ∈ [104, 105], Str.CharOk .ascii c := by simp only [Str.CharOk]; decide
  have h1 := Str.C54_constant (M := Str.defaultMaps) (e := .ascii) (l := [104, 105]) hc (by decide)
  obtain ⟨t, h2, h3, h4⟩ := Str.C54_create Str.goodMaps_default (e := .ascii) (l := [104, 105]) hc .copy none [] (by decide)
  have h4 := h4 (.inl rfl)
  refine ⟨_, t, h1.1, h3, h1.2, h4, ?_, (C91_string_partial Str.goodMaps_default h1.1 h3 h1.2 h4 (same := false) (by simp)).1 rfl⟩
  rintro rfl
  revert h2
  decide +kernel

#print axioms C91_big_int
#print axioms C91_big_int_any
#print axioms C91_fast
#print axioms C91_fast_any
#print axioms C91_big_fast
#print axioms C91_string_partial
#print axioms C91_string_refuted
#print axioms C91_flip

end Verif.TypeKeys
