import Verif.RangeCheck
/-!
# C151: which ranges the assertions let through
-/
namespace Verif.RangeCheck

/-- A range is within something of the given size; a range of nothing is. -/
def Inside (size : Nat) (r : Int × Nat) : Prop := r.2 = 0 ∨ 0 ≤ r.1 ∧ r.1 + r.2 ≤ size

/-- The call is stopped, or stays within. -/
def Safe (size : Nat) (c : Call) : Prop := ∀ rs, touches size c = some rs → ∀ r ∈ rs, Inside size r

/-- The arguments are values of their types. -/
def Typed : Call → Prop
  | .arrayReplace i n | .arrayRemove i n | .substring i n => i < W ∧ n < W
  | .arrayCopy i j n => i < W ∧ j < W ∧ n < W
  | .data o n => -2 ^ 63 ≤ o ∧ o < 2 ^ 63 ∧ n < W
  | .dataCopy s d n => -2 ^ 63 ≤ s ∧ s < 2 ^ 63 ∧ -2 ^ 63 ≤ d ∧ d < 2 ^ 63 ∧ n < W

/-- No offset is negative, and no sum of an offset and a length leaves the type; a replacement is within the array (its length is not asserted). -/
def Plain (size : Nat) : Call → Prop
  | .arrayReplace i n => i + n ≤ size
  | .arrayRemove i n => i + n ≤ W
  | .arrayCopy i j n => i + n ≤ W ∧ j + n ≤ W
  | .substring o n => o + n < W
  | .data o n => 0 ≤ o ∧ o + n < W
  | .dataCopy s d n => 0 ≤ s ∧ s + n < W ∧ 0 ≤ d ∧ d + n < W

theorem toSize_pos {z : Int} (h : 0 ≤ z) (h' : z < 2 ^ 63) : (toSize z : Int) = z := by unfold toSize W; omega
theorem toSize_neg {z : Int} (h : z < 0) (h' : -2 ^ 63 ≤ z) : (toSize z : Int) = z + W := by unfold toSize W; omega

theorem dataCheck_iff {size n : Nat} {o : Int} (hs : size < 2 ^ 63) (h1 : -2 ^ 63 ≤ o) (h2 : o < 2 ^ 63) (hn : n < W) :
    dataCheck size o n = true ↔ (0 ≤ o ∧ o + n ≤ size) ∨ (0 ≤ o ∧ (W : Int) ≤ o + n ∧ o + n ≤ W + size) ∨ (o < 0 ∧ 0 ≤ o + n ∧ o + n ≤ size) := by
  unfold dataCheck
  rw [decide_eq_true_eq]
  unfold W at *
  rcases Int.lt_or_le o 0 with h | h
  · have := toSize_neg h h1
    unfold W at this
    omega
  · have := toSize_pos h h2
    omega

theorem stringCheck_iff {size o n : Nat} (hs : size < 2 ^ 63) (ho : o < W) (hn : n < W) : stringCheck size o n = true ↔ o + n ≤ size ∨ (W ≤ o + n ∧ o + n ≤ W + size) := by
  unfold stringCheck
  rw [decide_eq_true_eq]
  unfold W at *
  omega

theorem arrayCheck_iff {size i n : Nat} (hs : size < 2 ^ 63) (hi : i < W) (hn : n < W) : arrayCheck size i n = true ↔ (0 < i + n ∧ i + n ≤ size) ∨ (W < i + n ∧ i + n ≤ W + size) := by
  unfold arrayCheck
  rw [decide_eq_true_eq]
  unfold W at *
  omega

/-- **C151 (partial).** A call whose offsets are not negative and whose sums do not wrap is stopped by an assertion, or stays within the array, string or data.  Missing: the calls of the following theorem. -/
theorem C151_plain_partial (size : Nat) (hs : size < 2 ^ 63) (c : Call) (t : Typed c) (p : Plain size c) : Safe size c := by
  intro rs h r hr
  cases c with
  | arrayReplace i n =>
    simp only [touches] at h
    split at h
    · cases h
      simp only [List.mem_cons, List.not_mem_nil, or_false] at hr
      subst hr
      simp only [Plain, Inside] at *
      omega
    · cases h
  | arrayCopy i j n =>
    simp only [touches, arrayCheck_iff hs t.1 t.2.2, arrayCheck_iff hs t.2.1 t.2.2] at h
    split at h
    · rename_i q
      cases h
      simp only [List.mem_cons, List.not_mem_nil, or_false] at hr
      simp only [Plain, W] at *
      rcases hr with rfl | rfl <;> simp only [Inside] <;> omega
    · cases h
  | arrayRemove i n =>
    simp only [touches, arrayCheck_iff hs t.1 t.2] at h
    split at h
    · rename_i q
      cases h
      simp only [List.mem_cons, List.not_mem_nil, or_false] at hr
      simp only [Plain, W, Typed] at *
      rcases hr with rfl | rfl <;> simp only [Inside] <;> omega
    · cases h
  | substring o n =>
    simp only [touches, stringCheck_iff hs t.1 t.2] at h
    split at h
    · rename_i q
      cases h
      simp only [List.mem_cons, List.not_mem_nil, or_false] at hr
      subst hr
      simp only [Plain, Inside, W] at *
      omega
    · cases h
  | data o n =>
    simp only [touches, dataCheck_iff hs t.1 t.2.1 t.2.2] at h
    split at h
    · rename_i q
      cases h
      simp only [List.mem_cons, List.not_mem_nil, or_false] at hr
      subst hr
      simp only [Plain, Inside, W] at *
      omega
    · cases h
  | dataCopy s d n =>
    simp only [touches, dataCheck_iff hs t.1 t.2.1 t.2.2.2.2, dataCheck_iff hs t.2.2.1 t.2.2.2.1 t.2.2.2.2] at h
    split at h
    · rename_i q
      cases h
      simp only [List.mem_cons, List.not_mem_nil, or_false] at hr
      simp only [Plain, W] at *
      rcases hr with rfl | rfl <;> simp only [Inside] <;> omega
    · cases h

/-- **C151, the calls within are let through.** -/
theorem C151_accepted (size : Nat) (hs : size < 2 ^ 63) :
    (∀ i n, 0 < n → i + n ≤ size → touches size (.arrayReplace i n) = some [((i : Int), n)]) ∧
    (∀ i j n, 0 < n → i + n ≤ size → j + n ≤ size → touches size (.arrayCopy i j n) = some [((i : Int), n), ((j : Int), n)]) ∧
    (∀ i n, 0 < n → i + n ≤ size → touches size (.arrayRemove i n) = some [((i : Int), size - (i + n)), (((i + n : Nat) : Int), size - (i + n))] ∧ countAfter size n = size - n) ∧
    (∀ o n, o + n ≤ size → touches size (.substring o n) = some [((o : Int), n)]) ∧
    (∀ o n : Nat, o + n ≤ size → touches size (.data o n) = some [((o : Int), n)]) ∧
    (∀ s d n : Nat, s + n ≤ size → d + n ≤ size → touches size (.dataCopy s d n) = some [((s : Int), n), ((d : Int), n)]) := by
  refine ⟨fun i n h1 h2 => ?_, fun i j n h1 h2 h3 => ?_, fun i n h1 h2 => ⟨?_, ?_⟩, fun o n h => ?_, fun o n h => ?_, fun s d n h h' => ?_⟩
  · simp only [touches]; rw [if_pos ⟨by omega, by omega⟩]
  · simp only [touches]
    rw [if_pos ⟨(arrayCheck_iff hs (by unfold W; omega) (by unfold W; omega)).mpr (Or.inl ⟨by omega, h2⟩), (arrayCheck_iff hs (by unfold W; omega) (by unfold W; omega)).mpr (Or.inl ⟨by omega, h3⟩), by omega⟩]
  · simp only [touches]
    rw [if_pos ((arrayCheck_iff hs (by unfold W; omega) (by unfold W; omega)).mpr (Or.inl ⟨by omega, h2⟩))]
    have e1 : (i + n) % W = i + n := Nat.mod_eq_of_lt (by unfold W; omega)
    have e2 : (size + W - (i + n)) % W = size - (i + n) := by unfold W; omega
    rw [e1, e2]
  · unfold countAfter W; omega
  · simp only [touches]
    rw [if_pos ((stringCheck_iff hs (by unfold W; omega) (by unfold W; omega)).mpr (Or.inl h))]
  · simp only [touches]
    rw [if_pos ((dataCheck_iff hs (by omega) (by omega) (by unfold W; omega)).mpr (Or.inl ⟨by omega, by omega⟩))]
  · simp only [touches]
    rw [if_pos ⟨(dataCheck_iff hs (by omega) (by omega) (by unfold W; omega)).mpr (Or.inl ⟨by omega, by omega⟩), (dataCheck_iff hs (by omega) (by omega) (by unfold W; omega)).mpr (Or.inl ⟨by omega, by omega⟩)⟩]

/-- **C151, refuted: exactly the calls on data that go outside.** A negative offset is let through if the range ends within the data; the call then touches what lies in front of the data.  So is an offset so great that
the sum wraps. -/
theorem C151_data_refuted (size : Nat) (hs : size < 2 ^ 63) (o : Int) (n : Nat) (t : Typed (.data o n)) :
    ¬ Safe size (.data o n) ↔ (o < 0 ∧ 0 ≤ o + n ∧ o + n ≤ size) ∨ (0 ≤ o ∧ (W : Int) ≤ o + n ∧ o + n ≤ W + size) := by
  have iff := dataCheck_iff hs t.1 t.2.1 t.2.2
  obtain ⟨t1, t2, t3⟩ := t
  simp only [Safe, touches]
  by_cases q : dataCheck size o n = true
  · rw [if_pos q]
    have q' := iff.mp q
    simp only [Option.some.injEq, forall_eq', List.mem_cons, List.not_mem_nil, or_false, forall_eq, Inside]
    unfold W at *
    omega
  · rw [if_neg q]
    rw [iff] at q
    simp only [reduceCtorEq, false_implies, implies_true, not_true_eq_false, false_iff]
    unfold W at *
    omega

/-- **C151, refuted: exactly the substrings that go outside.** -/
theorem C151_string_refuted (size : Nat) (hs : size < 2 ^ 63) (o n : Nat) (t : Typed (.substring o n)) : ¬ Safe size (.substring o n) ↔ W ≤ o + n ∧ o + n ≤ W + size := by
  have iff := stringCheck_iff hs t.1 t.2
  have t1 := t.1
  have t2 := t.2
  simp only [Safe, touches]
  by_cases q : stringCheck size o n = true
  · rw [if_pos q]
    have q' := iff.mp q
    simp only [Option.some.injEq, forall_eq', List.mem_cons, List.not_mem_nil, or_false, forall_eq, Inside]
    unfold W at *
    omega
  · rw [if_neg q]
    rw [iff] at q
    simp
    omega

/-- **C151, refuted: exactly the replacements that go outside.** -/
theorem C151_replace_refuted (size i n : Nat) : ¬ Safe size (.arrayReplace i n) ↔ i < size ∧ size < i + n := by
  simp only [Safe, touches]
  by_cases q : i < size ∧ n ≠ 0
  · rw [if_pos q]
    simp only [Option.some.injEq, forall_eq', List.mem_cons, List.not_mem_nil, or_false, forall_eq, Inside]
    omega
  · rw [if_neg q]
    simp
    omega

/-- **C151, refuted: exactly the removals that are let through though they end outside.** All but those of which nothing is left to move touch what is outside, and those of more elements than there are make the array longer. -/
theorem C151_remove_refuted (size : Nat) (hs : size < 2 ^ 63) (i n : Nat) (t : Typed (.arrayRemove i n)) :
    (touches size (.arrayRemove i n) ≠ none ∧ size < i + n ↔ W < i + n ∧ i + n ≤ W + size) ∧
    (W < i + n → i + n < W + size → ¬ Safe size (.arrayRemove i n)) ∧
    (W < i + n → i + n ≤ W + size → size < n → size < countAfter size n) := by
  have iff := arrayCheck_iff hs t.1 t.2
  obtain ⟨t1, t2⟩ := t
  have key : touches size (.arrayRemove i n) ≠ none ↔ arrayCheck size i n = true := by
    simp only [touches]; split <;> simp_all
  rw [key, iff]
  refine ⟨by unfold W at *; omega, fun h1 h2 s => ?_, fun h1 h2 h3 => ?_⟩
  · have q : touches size (.arrayRemove i n) = some [((i : Int), (size + W - (i + n) % W) % W), (((i + n) % W : Nat), (size + W - (i + n) % W) % W)] := by
      simp only [touches]
      rw [if_pos (iff.mpr (Or.inr ⟨h1, by omega⟩))]
    have := s _ q _ (List.mem_cons_self ..)
    unfold Inside W at *
    dsimp only at this
    omega
  · unfold countAfter
    unfold W at *
    omega

/-- Bytes in front of the data are read: 8 bytes from offset -4 of 16 bytes. -/
example : touches 16 (.data (-4) 8) = some [(-4, 8)] ∧ Typed (.data (-4) 8) ∧ ¬ Safe 16 (.data (-4) 8) := by
  have t : Typed (.data (-4) 8) := by simp [Typed, W]
  exact ⟨by decide, t, (C151_data_refuted 16 (by omega) (-4) 8 t).mpr (Or.inl (by omega))⟩
example : touches 3 (.substring 1 (W - 1)) = some [(1, W - 1)] := by decide
example : countAfter 10 (W - 4) = 14 ∧ touches 10 (.arrayRemove 5 (W - 4)) = some [(5, 9), (1, 9)] := by decide
/-- The hypotheses of the partial theorem are met. -/
example : Typed (.dataCopy 2 5 4) ∧ Plain 16 (.dataCopy 2 5 4) := by simp [Typed, Plain, W]
example : touches 16 (.dataCopy 2 13 4) = none := by decide

#print axioms C151_plain_partial
#print axioms C151_accepted
#print axioms C151_data_refuted
#print axioms C151_string_refuted
#print axioms C151_replace_refuted
#print axioms C151_remove_refuted

end Verif.RangeCheck
