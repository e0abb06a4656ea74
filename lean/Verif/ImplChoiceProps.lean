import Verif.ImplChoiceLemmas
/-!
# C106, C107: the implementation a collection or dictionary gets
-/
namespace Verif.ImplChoice
open Spec
open Verif.LinkedList.Spec (IsChain)

/-- **C106, registering**: however tables are registered and deregistered, memory running out at any time, no call goes wrong; the linked
list holds one node per registration in force, the one made last first; and every node that has not been freed is in the list or is
one of the library's own. -/
theorem C106_registry (kind : Kind) (calls : List Call) (valid : Valid calls) :
    ∃ r ns, run kind calls = some r ∧ IsChain r.heap ns ∧ r.list = ns.head? ∧ ns.map r.data = registered kind calls ∧
      ∀ n, r.heap.live n = true → n ∈ ns ∨ n < (builtinTables kind).length := by
  obtain ⟨r, ns, ret, e, hb, g⟩ := good_run kind valid
  refine ⟨r, ns, e, ?_, g.list, g.data, ?_⟩
  · cases ns with
    | nil => intro a x b h; simp at h
    | cons x ns => exact (g.ok.consists.chains (x :: ns) (by simp [LinkedList.Spec.add])).2
  · intro n hn
    have := (g.ok.live n).1 hn
    rw [LinkedList.flatten_add] at this
    rcases List.mem_append.1 this with h | h
    · exact Or.inl h
    · right
      obtain ⟨c, hc, hnc⟩ := List.mem_flatten.1 h
      obtain ⟨m, hm, rfl⟩ := List.mem_map.1 hc
      simp at hnc; subst hnc
      have := g.static n hm
      rw [hb] at this
      cases kind <;> simpa [init, builtinTables] using this

/-- **C106, the choice**: after any history, a collection or dictionary created with any hint gets the best table registered, and creating
one stops (the assertion that there is a table) exactly if no registered table that suits the hint answers with more than the
smallest `int`. -/
theorem C106_choice (kind : Kind) (env : Nat → Interface) (calls : List Call) (valid : Valid calls) (hint : Hint) (w : Nat → Int)
    (answers : Answers env hint (registered kind calls) w) :
    ∃ r, run kind calls = some r ∧
      (∀ i, create kind env r hint = some i ↔ Best kind env hint w (registered kind calls) i ∧ intMin < w i) ∧
      (create kind env r hint = none ↔ ∀ i ∈ registered kind calls, Suits kind env hint i → w i = intMin) := by
  obtain ⟨r, ns, ret, e, -, g⟩ := good_run kind valid
  refine ⟨r, e, ?_⟩
  rw [create_eq g answers]
  generalize registered kind calls = l at *
  rcases pick_spec (fun i => !(need kind hint) || (env i).ordered) w l intMin none with ⟨e, h⟩ | ⟨i, newer, older, e, hl, h1, h2, h3, h4⟩
  · rw [e]
    have hall : ∀ i ∈ l, Suits kind env hint i → w i = intMin := fun i hi hs => by
      have h1 := h i hi ((suits_iff kind env hint i).1 hs)
      have h2 := (answers i hi).2.1
      omega
    refine ⟨fun i => ⟨fun h => by simp at h, ?_⟩, ⟨fun _ => hall, fun _ => rfl⟩⟩
    rintro ⟨⟨hs, n, o, hl, -⟩, hw⟩
    have := hall i (by rw [hl]; simp) hs
    omega
  · rw [e]
    have hs := (suits_iff kind env hint i).2 h1
    have hb : Best kind env hint w l i :=
      ⟨hs, newer, older, hl, fun j hj hsj => h3 j hj ((suits_iff kind env hint j).1 hsj),
        fun j hj hsj => h4 j hj ((suits_iff kind env hint j).1 hsj)⟩
    refine ⟨fun j => ⟨?_, ?_⟩, ⟨fun h => by simp at h, ?_⟩⟩
    · intro h; cases h; exact ⟨hb, h2⟩
    · rintro ⟨hj, -⟩; rw [best_unique hb hj]
    · intro h
      have := h i (by rw [hl]; simp) hs
      omega

/-- **C106, the weight**: calculating the weight of a hint never overflows; each hint that was asked for and is listed as fast counts ten
for it, as moderate one against it and as slow a hundred against it, all scaled by the size asked for; and the result never exceeds
`CCCollectionHintWeightMax`, which is reached. -/
theorem C106_weight (hint fast moderate slow : Hint) :
    weightCreate hint fast moderate slow = some (weigh hint fast moderate slow) ∧ weigh hint fast moderate slow ≤ weightMax ∧
      ∃ hint fast moderate slow, weightCreate hint fast moderate slow = some weightMax :=
  ⟨weight_eq .., weigh_le .., 0xbfffffff#32, BitVec.allOnes 32, 0, 0, by rw [weight_eq]; decide⟩

/-- **C106, going first**: a registered table that suits the hint and answers with more than `CCCollectionHintWeightMax` is preferred to
every table of the library: whatever is created does not use one of those. -/
theorem C106_above (kind : Kind) (env : Nat → Interface) (provided : Provided kind env) (calls : List Call) (valid : Valid calls)
    (hint : Hint) (w : Nat → Int) (answers : Answers env hint (registered kind calls) w)
    (i : Nat) (hi : i ∈ registered kind calls) (suits : Suits kind env hint i) (above : weightMax < w i) :
    ∃ r j, run kind calls = some r ∧ create kind env r hint = some j ∧ j ∈ registered kind calls ∧ w i ≤ w j ∧
      (builtinTables kind).length ≤ j := by
  obtain ⟨r, e, hc, hn⟩ := C106_choice kind env calls valid hint w answers
  cases hcr : create kind env r hint with
  | none =>
    have := hn.1 hcr i hi suits
    rw [this] at above; simp [weightMax, intMin] at above
  | some j =>
    obtain ⟨⟨sj, newer, older, hl, h1, h2⟩, -⟩ := (hc j).1 hcr
    have hle : w i ≤ w j := by
      rw [hl] at hi
      rcases List.mem_append.1 hi with h | h
      · have := h1 i h suits; omega
      · rcases List.mem_cons.1 h with rfl | h
        · omega
        · exact h2 i h suits
    have hj : j ∈ registered kind calls := by rw [hl]; simp
    refine ⟨r, j, e, hcr, hj, hle, ?_⟩
    rcases Nat.lt_or_ge j (builtinTables kind).length with h | h
    · exfalso
      have hw := (answers j hj).1
      have hp := provided j _ (List.getElem?_eq_getElem h)
      have hmax : ∀ t ∈ builtinTables kind, ∀ x, t.weight hint = some x → x ≤ weightMax := by
        intro t ht x hx
        cases kind with
        | collection =>
          simp [builtinTables] at ht
          rcases ht with rfl | rfl
          · have : some (weigh hint arrayFast 0 arraySlow) = some x := by rw [← weight_eq]; exact hx
            cases this; exact weigh_le ..
          · have : some (weigh hint listFast listModerate listSlow) = some x := by rw [← weight_eq]; exact hx
            cases this; exact weigh_le ..
        | dictionary =>
          simp [builtinTables] at ht
          subst ht
          have : some (weigh hint hashMapFast heavyEnumerating 0) = some x := by rw [← weight_eq]; exact hx
          cases this; exact weigh_le ..
      have := hmax _ (List.getElem_mem h) (w j) (by rw [← hp]; exact hw)
      omega
    · exact h

/-! ### C107: the tables of the library -/

theorem bits_common (hint x : Hint) (l : List Nat) (h : (List.range 30).filter (fun i => x.getLsbD i) = l) :
    common hint x = (l.map fun i => (hint.getLsbD i).toNat).sum := by
  rw [common, ← h]
  induction List.range 30 with
  | nil => rfl
  | cons i l ih =>
    rw [List.countP_cons, ih]
    cases hx : x.getLsbD i <;> cases hh : hint.getLsbD i <;> simp [List.filter_cons, hx, hh, Nat.add_comm]

theorem array_weight (hint : Hint) : weigh hint arrayFast 0 arraySlow = sizeFactor hint *
    (10 * ((hint.getLsbD 0).toNat + (hint.getLsbD 4).toNat + (hint.getLsbD 5).toNat + (hint.getLsbD 8).toNat + (hint.getLsbD 9).toNat)
      - 90 * ((hint.getLsbD 2).toNat + (hint.getLsbD 6).toNat)
      - 100 * ((hint.getLsbD 1).toNat + (hint.getLsbD 3).toNat + (hint.getLsbD 10).toNat + (hint.getLsbD 11).toNat + (hint.getLsbD 12).toNat)) := by
  rw [weigh, bits_common hint arrayFast [0, 2, 4, 5, 6, 8, 9] (by decide), bits_common hint 0 [] (by decide),
    bits_common hint arraySlow [1, 2, 3, 6, 10, 11, 12] (by decide)]
  congr 1
  simp only [List.map_cons, List.map_nil, List.sum_cons, List.sum_nil]
  omega

theorem list_weight (hint : Hint) : weigh hint listFast listModerate listSlow = sizeFactor hint *
    (10 * ((hint.getLsbD 4).toNat + (hint.getLsbD 5).toNat + (hint.getLsbD 8).toNat + (hint.getLsbD 9).toNat + (hint.getLsbD 10).toNat)
      + 9 * (hint.getLsbD 2).toNat - 91 * (hint.getLsbD 6).toNat
      - ((hint.getLsbD 0).toNat + (hint.getLsbD 3).toNat + (hint.getLsbD 12).toNat)
      - 100 * ((hint.getLsbD 1).toNat + (hint.getLsbD 11).toNat)) := by
  rw [weigh, bits_common hint listFast [2, 4, 5, 6, 8, 9, 10] (by decide), bits_common hint listModerate [0, 2, 3, 6, 12] (by decide),
    bits_common hint listSlow [1, 6, 11] (by decide)]
  congr 1
  simp only [List.map_cons, List.map_nil, List.sum_cons, List.sum_nil]
  omega

/-- **C107, array or list**: with only the library's tables registered a collection is kept as a linked list exactly if heavy inserting
(bit 2), heavy deleting (bit 3), heavy prepending (bit 10) or heavy inserting at places (bit 12) is among the hints and not both size bits
are set; otherwise it is kept as an array.  A dictionary is kept as a hash map. -/
theorem C107_builtin (env : Nat → Interface) (hint : Hint) :
    (Provided .collection env → create .collection env (init .collection) hint =
      if (hint.getLsbD 2 || hint.getLsbD 3 || hint.getLsbD 10 || hint.getLsbD 12) && !(hint.getLsbD 30 && hint.getLsbD 31)
      then some 1 else some 0) ∧
    (Provided .dictionary env → create .dictionary env (init .dictionary) hint = some 0) := by
  constructor
  · intro p
    have e0 : env 0 = arrayTable := p 0 _ rfl
    have e1 : env 1 = listTable := p 1 _ rfl
    have ha : Answers env hint (start .collection) (fun i => if i = 0 then weigh hint arrayFast 0 arraySlow else weigh hint listFast listModerate listSlow) := by
      intro i hi
      simp [start, builtinTables, List.range, List.range.loop] at hi
      have b1 := array_weight hint
      have b2 := list_weight hint
      rcases hi with rfl | rfl
      · refine ⟨by rw [e0]; exact weight_eq .., ?_⟩
        simp only [if_true]
        rw [b1]
        rcases size_cases hint with h | h | h | h <;> rw [h] <;> simp only [intMin, intMax] <;>
          generalize hint.getLsbD 0 = x0 <;> generalize hint.getLsbD 1 = x1 <;> generalize hint.getLsbD 2 = x2 <;>
          generalize hint.getLsbD 3 = x3 <;> generalize hint.getLsbD 4 = x4 <;> generalize hint.getLsbD 5 = x5 <;>
          generalize hint.getLsbD 6 = x6 <;> generalize hint.getLsbD 8 = x8 <;> generalize hint.getLsbD 9 = x9 <;>
          generalize hint.getLsbD 10 = x10 <;> generalize hint.getLsbD 11 = x11 <;> generalize hint.getLsbD 12 = x12 <;>
          have := Bool.toNat_le x0 <;> have := Bool.toNat_le x1 <;> have := Bool.toNat_le x2 <;> have := Bool.toNat_le x3 <;>
          have := Bool.toNat_le x4 <;> have := Bool.toNat_le x5 <;> have := Bool.toNat_le x6 <;> have := Bool.toNat_le x8 <;>
          have := Bool.toNat_le x9 <;> have := Bool.toNat_le x10 <;> have := Bool.toNat_le x11 <;> have := Bool.toNat_le x12 <;> omega
      · refine ⟨by rw [e1]; exact weight_eq .., ?_⟩
        simp only [show (1 : Nat) = 0 ↔ False by simp, if_false]
        rw [b2]
        rcases size_cases hint with h | h | h | h <;> rw [h] <;> simp only [intMin, intMax] <;>
          generalize hint.getLsbD 0 = x0 <;> generalize hint.getLsbD 1 = x1 <;> generalize hint.getLsbD 2 = x2 <;>
          generalize hint.getLsbD 3 = x3 <;> generalize hint.getLsbD 4 = x4 <;> generalize hint.getLsbD 5 = x5 <;>
          generalize hint.getLsbD 6 = x6 <;> generalize hint.getLsbD 8 = x8 <;> generalize hint.getLsbD 9 = x9 <;>
          generalize hint.getLsbD 10 = x10 <;> generalize hint.getLsbD 11 = x11 <;> generalize hint.getLsbD 12 = x12 <;>
          have := Bool.toNat_le x0 <;> have := Bool.toNat_le x1 <;> have := Bool.toNat_le x2 <;> have := Bool.toNat_le x3 <;>
          have := Bool.toNat_le x4 <;> have := Bool.toNat_le x5 <;> have := Bool.toNat_le x6 <;> have := Bool.toNat_le x8 <;>
          have := Bool.toNat_le x9 <;> have := Bool.toNat_le x10 <;> have := Bool.toNat_le x11 <;> have := Bool.toNat_le x12 <;> omega
    have h0 := (ha 0 (by decide)).2.1
    rw [create_eq (good_init .collection) ha]
    simp only [if_true] at h0
    have hlo : intMin < weigh hint arrayFast 0 arraySlow := by
      have b1 := array_weight hint
      rw [b1]
      rcases size_cases hint with h | h | h | h <;> rw [h] <;> simp only [intMin] <;>
          generalize hint.getLsbD 0 = x0 <;> generalize hint.getLsbD 1 = x1 <;> generalize hint.getLsbD 2 = x2 <;>
          generalize hint.getLsbD 3 = x3 <;> generalize hint.getLsbD 4 = x4 <;> generalize hint.getLsbD 5 = x5 <;>
          generalize hint.getLsbD 6 = x6 <;> generalize hint.getLsbD 8 = x8 <;> generalize hint.getLsbD 9 = x9 <;>
          generalize hint.getLsbD 10 = x10 <;> generalize hint.getLsbD 11 = x11 <;> generalize hint.getLsbD 12 = x12 <;>
          have := Bool.toNat_le x0 <;> have := Bool.toNat_le x1 <;> have := Bool.toNat_le x2 <;> have := Bool.toNat_le x3 <;>
          have := Bool.toNat_le x4 <;> have := Bool.toNat_le x5 <;> have := Bool.toNat_le x6 <;> have := Bool.toNat_le x8 <;>
          have := Bool.toNat_le x9 <;> have := Bool.toNat_le x10 <;> have := Bool.toNat_le x11 <;> have := Bool.toNat_le x12 <;> omega
    have hs0 : (!(need .collection hint) || (env 0).ordered) = true := by rw [e0]; simp [arrayTable]
    have hs1 : (!(need .collection hint) || (env 1).ordered) = true := by rw [e1]; simp [listTable]
    rw [show start .collection = [0, 1] from rfl]
    simp only [pick, hs0, hs1, if_true, and_true, show (1 : Nat) = 0 ↔ False by simp, if_false]
    rw [if_pos hlo]
    have key : weigh hint listFast listModerate listSlow > weigh hint arrayFast 0 arraySlow ↔
        ((hint.getLsbD 2 || hint.getLsbD 3 || hint.getLsbD 10 || hint.getLsbD 12) && !(hint.getLsbD 30 && hint.getLsbD 31)) = true := by
      rw [array_weight, list_weight, sizeFactor]
      have q0 := Bool.toNat_le (hint.getLsbD 0)
      have q6 := Bool.toNat_le (hint.getLsbD 6)
      generalize hint.getLsbD 0 = x0 at *
      generalize hint.getLsbD 6 = x6 at *
      cases hint.getLsbD 2 <;> cases hint.getLsbD 3 <;> cases hint.getLsbD 10 <;> cases hint.getLsbD 12 <;>
        cases hint.getLsbD 30 <;> cases hint.getLsbD 31 <;>
        simp only [Bool.toNat_true, Bool.toNat_false, Bool.or_false, Bool.or_true, Bool.and_true, Bool.and_false,
          Bool.not_true, Bool.not_false, Bool.false_eq_true, iff_true, iff_false] <;> omega
    by_cases h : ((hint.getLsbD 2 || hint.getLsbD 3 || hint.getLsbD 10 || hint.getLsbD 12) && !(hint.getLsbD 30 && hint.getLsbD 31)) = true
    · rw [if_pos (key.2 h), if_pos h]
    · rw [if_neg (mt key.1 h), if_neg h]
  · intro p
    have e0 : env 0 = hashMapTable := p 0 _ rfl
    have hw : ∃ x, hashMapTable.weight hint = some x ∧ intMin < x ∧ x ≤ intMax := by
      refine ⟨_, weight_eq .., ?_, ?_⟩
      · rw [weigh]
        have h1 := common_le hint heavyEnumerating
        have h2 : common hint 0 = 0 := by simp [common]
        rw [h2]
        rcases size_cases hint with h | h | h | h <;> rw [h] <;> simp only [intMin] <;> omega
      · have := weigh_le hint hashMapFast heavyEnumerating 0
        simp only [weightMax] at this; simp only [intMax]; omega
    obtain ⟨x, hx, h1, h2⟩ := hw
    rw [create_eq (good_init .dictionary) (w := fun _ => x)]
    · rw [show start .dictionary = [0] from rfl]
      simp [pick, need, h1]
    · intro i hi
      simp [start, builtinTables] at hi; subst hi
      exact ⟨by rw [e0]; exact hx, Int.le_of_lt h1, h2⟩

/-- **C107, what a fast hint does**: a hint (one of the 30 that are not sizes) that a table lists as fast, and neither as moderate nor as slow,
speaks for the table: asking for it too adds ten, scaled by the size, to the weight.  This is part of the claim: `C107_fast_refuted` has the
case missing. -/
theorem C107_fast_partial (hint fast moderate slow : Hint) (b : Nat) (hb : b < 30) (new : hint.getLsbD b = false)
    (isFast : fast.getLsbD b = true) (notModerate : moderate.getLsbD b = false) (notSlow : slow.getLsbD b = false) :
    ∃ x, weightCreate hint fast moderate slow = some x ∧
      weightCreate (hint ||| 1#32 <<< b) fast moderate slow = some (x + 10 * sizeFactor hint) := by
  have hbit : ∀ i, (hint ||| 1#32 <<< b).getLsbD i = (hint.getLsbD i || decide (i = b)) := by
    intro i
    rw [BitVec.getLsbD_or, BitVec.getLsbD_shiftLeft, BitVec.getLsbD_one]
    by_cases h : i = b
    · subst h; simp; omega
    · by_cases h2 : i < b
      · simp [h, h2]
      · have : ¬ i - b = 0 := by omega
        simp [h, this]
  have hsame : ∀ x : Hint, x.getLsbD b = false → common (hint ||| 1#32 <<< b) x = common hint x := by
    intro x hx
    rw [common, common]
    apply List.countP_congr
    intro i _
    rw [hbit]
    by_cases h : i = b
    · subst h; simp [hx]
    · simp [h]
  have hmore : common (hint ||| 1#32 <<< b) fast = common hint fast + 1 := by
    rw [common, common]
    have hr : List.range 30 = List.range' 0 b ++ b :: List.range' (b + 1) (29 - b) := by
      have h1 := List.range'_append_1 (s := 0) (m := b) (n := 30 - b)
      rw [show b + (30 - b) = 30 by omega] at h1
      rw [List.range_eq_range', ← h1, Nat.zero_add, show 30 - b = (29 - b) + 1 by omega, List.range'_succ]
    rw [hr, List.countP_append, List.countP_append, List.countP_cons, List.countP_cons]
    have e1 : (List.range' 0 b).countP (fun i => (hint ||| 1#32 <<< b).getLsbD i && fast.getLsbD i) =
        (List.range' 0 b).countP (fun i => hint.getLsbD i && fast.getLsbD i) := by
      apply List.countP_congr
      intro i hi
      have := List.mem_range'_1.1 hi
      rw [hbit]; simp [show i ≠ b by omega]
    have e2 : (List.range' (b + 1) (29 - b)).countP (fun i => (hint ||| 1#32 <<< b).getLsbD i && fast.getLsbD i) =
        (List.range' (b + 1) (29 - b)).countP (fun i => hint.getLsbD i && fast.getLsbD i) := by
      apply List.countP_congr
      intro i hi
      have := List.mem_range'_1.1 hi
      rw [hbit]; simp [show i ≠ b by omega]
    rw [e1, e2, hbit]
    simp [new, isFast]; omega
  have hsz : sizeFactor (hint ||| 1#32 <<< b) = sizeFactor hint := by
    rw [sizeFactor, sizeFactor, hbit, hbit]
    simp [show ¬ 31 = b by omega, show ¬ 30 = b by omega]
  refine ⟨_, weight_eq .., ?_⟩
  rw [weight_eq, weigh, weigh, hsz, hmore, hsame _ notModerate, hsame _ notSlow]
  congr 1
  rcases size_cases hint with h | h | h | h <;> rw [h] <;> omega

/-- **C107, refuted**: the array lists heavy inserting (and keeping an order) as fast, yet asking for it counts against the array, because
the constant for heavy inserting at places, listed as slow, contains the bits of heavy inserting and of keeping an order.  The list's
constants overlap in the same way. -/
theorem C107_fast_refuted :
    (arrayFast.getLsbD 2 = true ∧ arrayTable.weight 0 = some 0 ∧ arrayTable.weight heavyInserting = some (-900)) ∧
    (arrayFast.getLsbD 6 = true ∧ arrayTable.weight ordered = some (-900)) ∧
    (listFast.getLsbD 6 = true ∧ listTable.weight ordered = some (-910)) := by decide

/-! ### The hypotheses can be met -/

/-- A registered table with a great weight. -/
def exampleEnv : Nat → Interface
  | 0 => arrayTable
  | 1 => listTable
  | _ => ⟨fun _ => some 30001, false⟩

example : Provided .collection exampleEnv := by
  intro i t h
  rw [builtinTables] at h
  rcases i with _ | _ | i
  · rw [List.getElem?_cons_zero] at h
    injection h
  · rw [List.getElem?_cons_succ, List.getElem?_cons_zero] at h
    injection h
  · simp at h

example : Valid [.register (some 7) true, .deregister (some 0), .register (some 8) false, .deregister none] := by
  intro m h; simp at h

/-- Registered, a table of great weight is used, unless an order is asked for, which it cannot keep; deregistered, it is not. -/
example : (do create .collection exampleEnv (← run .collection [.register (some 7) true]) heavyDeleting) = some 7 ∧
    (do create .collection exampleEnv (← run .collection [.register (some 7) true]) (heavyDeleting ||| ordered)) = some 1 ∧
    (do create .collection exampleEnv (← run .collection [.register (some 7) true, .deregister (some 7)]) 0) = some 0 ∧
    (do create .collection exampleEnv (← run .collection [.deregister (some 0), .register (some 0) true, .deregister (some 1)]) 0) = some 0 ∧
    (do create .collection exampleEnv (← run .collection [.deregister (some 0), .deregister (some 1)]) 0) = none := by decide +kernel

example : Answers exampleEnv heavyDeleting (registered .collection [.register (some 7) true])
    (fun i => if i = 7 then 30001 else if i = 0 then -1000 else -10) := by
  intro i hi
  simp [registered, edit, start, builtinTables, List.range, List.range.loop] at hi
  rcases hi with rfl | rfl | rfl <;> decide +kernel

#print axioms C106_registry
#print axioms C106_choice
#print axioms C106_weight
#print axioms C106_above
#print axioms C107_builtin
#print axioms C107_fast_partial
#print axioms C107_fast_refuted

end Verif.ImplChoice
