import Verif.FastArrayChoice
import Verif.ImplChoiceProps
/-!
# C153: when a collection is kept as a fast array
-/
namespace Verif.FastArrayChoice
open Verif.ImplChoice Verif.ImplChoice.Spec

theorem common_le (hint x : Hint) : common hint x ≤ 30 := by
  have := List.countP_le_length (p := fun i => hint.getLsbD i && x.getLsbD i) (l := List.range 30)
  simpa [common] using this

theorem weigh_range (hint fast moderate slow : Hint) :
    intMin < weigh hint fast moderate slow ∧ weigh hint fast moderate slow ≤ intMax := by
  have a := common_le hint fast
  have b := common_le hint moderate
  have c := common_le hint slow
  rw [weigh]
  rcases size_cases hint with h | h | h | h <;> rw [h] <;> simp only [intMin, intMax] <;> omega

theorem fast_array_weight (hint : Hint) : weigh hint fastArrayFast fastArrayModerate fastArraySlow =
    weigh hint arrayFast 0 arraySlow + 99 * sizeFactor hint * (hint.getLsbD 3).toNat := by
  rw [array_weight, weigh, bits_common hint fastArrayFast [0, 2, 4, 5, 6, 8, 9] (by decide),
    bits_common hint fastArrayModerate [3] (by decide), bits_common hint fastArraySlow [1, 2, 6, 10, 11, 12] (by decide)]
  simp only [List.map_cons, List.map_nil, List.sum_cons, List.sum_nil]
  rcases size_cases hint with h | h | h | h <;> rw [h] <;> omega

theorem registered_mem {l : List Nat} {calls : List Call} {k : Nat} (h : k ∈ calls.foldl edit l) :
    k ∈ l ∨ ∃ m, Call.register (some k) m ∈ calls := by
  induction calls generalizing l with
  | nil => exact Or.inl h
  | cons c cs ih =>
    rcases ih h with h | ⟨m, h⟩
    · rcases c with ⟨_ | i, _ | _⟩ | ⟨_ | i⟩ <;> simp only [edit] at h
      · exact Or.inl h
      · exact Or.inl h
      · exact Or.inl h
      · rcases List.mem_cons.1 h with rfl | h
        · exact Or.inr ⟨true, by simp⟩
        · exact Or.inl h
      · exact Or.inl h
      · exact Or.inl (List.mem_of_mem_erase h)
    · exact Or.inr ⟨m, List.mem_cons_of_mem _ h⟩

/-- **C153, only if asked for**: a table that is neither among those registered at program start nor ever registered by the program is
never chosen, whatever else is registered or deregistered and whatever the hint.  So a collection becomes a fast array only if the program
names it. -/
theorem C153_explicit (env : Nat → Interface) (calls : List Call) (valid : Valid calls) (hint : Hint) (w : Nat → Int)
    (answers : Answers env hint (registered .collection calls) w) (k : Nat) (other : 2 ≤ k)
    (never : ∀ m, Call.register (some k) m ∉ calls) :
    ∃ r, run .collection calls = some r ∧ create .collection env r hint ≠ some k := by
  obtain ⟨r, e, h, -⟩ := C106_choice .collection env calls valid hint w answers
  refine ⟨r, e, fun hk => ?_⟩
  obtain ⟨⟨-, n, o, hl, -⟩, -⟩ := (h k).1 hk
  have hm : k ∈ registered .collection calls := by rw [hl]; simp
  rcases registered_mem hm with hs | ⟨m, hm⟩
  · have : k < 2 := by simpa [start, builtinTables] using hs
    omega
  · exact never m hm

/-- **C153, registered**: once the program has registered the fast array, the array is never chosen again.  A collection is kept as a
linked list exactly if heavy inserting (bit 2), heavy prepending (bit 10) or heavy inserting at places (bit 12) is among the hints and not
both size bits are set; otherwise it is a fast array.  Heavy deleting (bit 3), which alone gave a list before, no longer does.  If there was
no memory for the registration, the choice is the one of `C107_builtin`. -/
theorem C153_registered (env : Nat → Interface) (provided : Provided .collection env) (k : Nat) (other : 2 ≤ k)
    (table : env k = fastArrayTable) (hint : Hint) :
    (∃ r, run .collection [.register (some k) true] = some r ∧ create .collection env r hint =
      if (hint.getLsbD 2 || hint.getLsbD 10 || hint.getLsbD 12) && !(hint.getLsbD 30 && hint.getLsbD 31) then some 1 else some k) ∧
    (∃ r, run .collection [.register (some k) false] = some r ∧ create .collection env r hint =
      if (hint.getLsbD 2 || hint.getLsbD 3 || hint.getLsbD 10 || hint.getLsbD 12) && !(hint.getLsbD 30 && hint.getLsbD 31)
      then some 1 else some 0) := by
  constructor
  · have e0 : env 0 = arrayTable := provided 0 _ rfl
    have e1 : env 1 = listTable := provided 1 _ rfl
    have k0 : k ≠ 0 := by omega
    have k1 : k ≠ 1 := by omega
    obtain ⟨r, ns, ret, e, -, g⟩ := good_run .collection (calls := [.register (some k) true]) (by intro m h; simp at h)
    refine ⟨r, e, ?_⟩
    have hl : registered .collection [.register (some k) true] = [k, 0, 1] := rfl
    rw [hl] at g
    have ha : Answers env hint [k, 0, 1] (fun i => if i = 0 then weigh hint arrayFast 0 arraySlow else
        if i = 1 then weigh hint listFast listModerate listSlow else weigh hint fastArrayFast fastArrayModerate fastArraySlow) := by
      intro i hi
      simp only [List.mem_cons, List.not_mem_nil, or_false] at hi
      rcases hi with rfl | rfl | rfl
      · simp only [k0, k1, if_false]
        exact ⟨by rw [table]; exact weight_eq .., Int.le_of_lt (weigh_range ..).1, (weigh_range ..).2⟩
      · exact ⟨by rw [e0]; exact weight_eq .., Int.le_of_lt (weigh_range ..).1, (weigh_range ..).2⟩
      · exact ⟨by rw [e1]; exact weight_eq .., Int.le_of_lt (weigh_range ..).1, (weigh_range ..).2⟩
    rw [create_eq g ha]
    have hsk : (!(need .collection hint) || (env k).ordered) = true := by rw [table]; simp [fastArrayTable]
    have hs0 : (!(need .collection hint) || (env 0).ordered) = true := by rw [e0]; simp [arrayTable]
    have hs1 : (!(need .collection hint) || (env 1).ordered) = true := by rw [e1]; simp [listTable]
    simp only [pick, hsk, hs0, hs1, k0, k1, if_true, and_true, show (1 : Nat) = 0 ↔ False by simp, if_false]
    rw [if_pos (weigh_range ..).1]
    have no : ¬ weigh hint arrayFast 0 arraySlow > weigh hint fastArrayFast fastArrayModerate fastArraySlow := by
      rw [fast_array_weight]
      rcases size_cases hint with h | h | h | h <;> rw [h] <;> omega
    rw [if_neg no]
    have key : weigh hint listFast listModerate listSlow > weigh hint fastArrayFast fastArrayModerate fastArraySlow ↔
        ((hint.getLsbD 2 || hint.getLsbD 10 || hint.getLsbD 12) && !(hint.getLsbD 30 && hint.getLsbD 31)) = true := by
      rw [fast_array_weight, array_weight, list_weight, sizeFactor]
      have q0 := Bool.toNat_le (hint.getLsbD 0)
      have q6 := Bool.toNat_le (hint.getLsbD 6)
      generalize hint.getLsbD 0 = x0 at *
      generalize hint.getLsbD 6 = x6 at *
      cases hint.getLsbD 2 <;> cases hint.getLsbD 3 <;> cases hint.getLsbD 10 <;> cases hint.getLsbD 12 <;>
        cases hint.getLsbD 30 <;> cases hint.getLsbD 31 <;>
        simp only [Bool.toNat_true, Bool.toNat_false, Bool.or_false, Bool.or_true, Bool.and_true, Bool.and_false,
          Bool.not_true, Bool.not_false, Bool.false_eq_true, iff_true, iff_false] <;> omega
    by_cases h : ((hint.getLsbD 2 || hint.getLsbD 10 || hint.getLsbD 12) && !(hint.getLsbD 30 && hint.getLsbD 31)) = true
    · rw [if_pos (key.2 h), if_pos h]
    · rw [if_neg (mt key.1 h), if_neg h]
  · exact ⟨init .collection, rfl, (C107_builtin env hint).1 provided⟩

/-! ### The hypotheses can be met -/

/-- The tables of the library, the fast array at address 2. -/
def exampleEnv : Nat → Interface
  | 0 => arrayTable
  | 1 => listTable
  | _ => fastArrayTable

example : Provided .collection exampleEnv := by
  intro i t h
  rw [builtinTables] at h
  rcases i with _ | _ | i
  · rw [List.getElem?_cons_zero] at h
    injection h
  · rw [List.getElem?_cons_succ, List.getElem?_cons_zero] at h
    injection h
  · simp at h

example : exampleEnv 2 = fastArrayTable := rfl

/-- Heavy deleting gives a list before and a fast array after the registration; heavy prepending gives a list. -/
example : create .collection exampleEnv (init .collection) heavyDeleting = some 1 ∧
    (do create .collection exampleEnv (← run .collection [.register (some 2) true]) heavyDeleting) = some 2 ∧
    (do create .collection exampleEnv (← run .collection [.register (some 2) true]) heavyPrepending) = some 1 := by decide +kernel

example : Valid [.deregister (some 1), .register (some 1) true] ∧ (∀ m, Call.register (some 2) m ∉ [Call.deregister (some 1), .register (some 1) true]) ∧
    Answers exampleEnv heavyDeleting (registered .collection [.deregister (some 1), .register (some 1) true])
      (fun i => if i = 0 then -1000 else -10) := by
  refine ⟨by intro m h; simp at h, by intro m h; simp at h, ?_⟩
  intro i hi
  simp [registered, edit, start, builtinTables, List.range, List.range.loop] at hi
  rcases hi with rfl | rfl <;> decide +kernel

#print axioms C153_explicit
#print axioms C153_registered

end Verif.FastArrayChoice
