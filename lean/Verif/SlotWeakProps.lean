import Verif.SlotWeak
/-!
# C141: the memory orders of the large elements of the index map
-/
namespace Verif.SlotWeak

theorem upd_same {α : Type} (f : Nat → α) (i : Nat) (a : α) : upd f i a i = a := by simp [upd]
theorem upd_ne {α : Type} (f : Nat → α) {i j : Nat} (a : α) (h : j ≠ i) : upd f i a j = f j := by simp [upd, h]

/-- Every reading of the bytes of an element happens after the writing of them. -/
def ReadsOk (z : W) : Prop := ∀ r ∈ z.reads, r.1 ∈ r.2

structure Inv (z : W) : Prop where
  slot : ∀ e, z.slot = some e → e ∈ z.carries
  new : ∀ (i e e' : Nat), z.pc i = .matched e e' → e' ∈ z.knows i
  ok : ReadsOk z

theorem got_mem {z : W} (I : Inv z) {e : Nat} (h : z.slot = some e) (i : Nat) : e ∈ got z i true := List.mem_append_right _ (I.slot e h)

theorem new_upd {z : W} (I : Inv z) {pc : Nat → PC} {kn : Nat → List Nat} (hp : ∀ i e e', pc i = .matched e e' → z.pc i = .matched e e' ∨ e' ∈ kn i)
    (hk : ∀ i x, x ∈ z.knows i → x ∈ kn i) : ∀ (i e e' : Nat), pc i = .matched e e' → e' ∈ kn i := by
  intro i e e' h
  rcases hp i e e' h with h | h
  · exact hk i e' (I.new i e e' h)
  · exact h

theorem grow {z : W} {i : Nat} {k : List Nat} (hk : ∀ x ∈ z.knows i, x ∈ k) : ∀ j x, x ∈ z.knows j → x ∈ upd z.knows i k j := by
  intro j x h
  by_cases c : j = i
  · subst c; rw [upd_same]; exact hk x h
  · rw [upd_ne _ _ c]; exact h

theorem ok_snoc {l : List (Nat × List Nat)} (h : ∀ r ∈ l, r.1 ∈ r.2) {e : Nat} {k : List Nat} (he : e ∈ k) : ∀ r ∈ l ++ [(e, k)], r.1 ∈ r.2 := by
  intro r hr
  rcases List.mem_append.mp hr with h' | h'
  · exact h r h'
  · rw [List.mem_singleton.mp h']; exact he

theorem pc_plain {z : W} {i : Nat} {p : PC} {kn : Nat → List Nat} (hp : ∀ e e', p ≠ .matched e e') : ∀ j e e', upd z.pc i p j = .matched e e' → z.pc j = .matched e e' ∨ e' ∈ kn j := by
  intro j e e' h
  by_cases c : j = i
  · subst c; rw [upd_same] at h; exact absurd h (hp e e')
  · rw [upd_ne _ _ c] at h; exact .inl h

theorem Inv.step {o : Orders} (ho : o.appendRel = true ∧ o.setRel = true ∧ o.casRel = true ∧ o.getAcq = true ∧ o.setAcq = true ∧ o.casAcq = true) {z z' : W} (I : Inv z) (s : Step o z z') : Inv z' := by
  obtain ⟨o1, o2, o3, o4, o5, o6⟩ := ho
  have gl : ∀ (i : Nat) (b : Bool), ∀ x ∈ z.knows i, x ∈ got z i b := fun i b x h => List.mem_append_left _ h
  cases s with
  | enter i h => exact ⟨I.slot, new_upd I (pc_plain nofun) (grow fun x h => List.mem_append_left _ h), I.ok⟩
  | leave i h => exact ⟨I.slot, new_upd I (pc_plain nofun) (fun _ _ h => h), I.ok⟩
  | append i h hs =>
    refine ⟨?_, new_upd I (fun _ _ _ h => .inl h) (grow fun x h => List.mem_append_left _ h), I.ok⟩
    intro e he
    obtain rfl := Option.some.inj he
    show _ ∈ put z _ o.appendRel
    rw [o1, put]
    simp
  | set i h hs =>
    refine ⟨?_, new_upd I (fun _ _ _ h => .inl h) (grow fun x h => List.mem_append_left _ (gl i _ x h)), ok_snoc I.ok (List.mem_append_left _ (o5 ▸ got_mem I hs i))⟩
    intro e he
    obtain rfl := Option.some.inj he
    show _ ∈ put z _ o.setRel
    rw [o2, put]
    simp
  | @compare e i h hs =>
    refine ⟨I.slot, new_upd I ?_ (grow fun x h => List.mem_append_left _ (gl i _ x h)), ok_snoc I.ok (List.mem_append_left _ (o6 ▸ got_mem I hs i))⟩
    intro j a b hj
    dsimp only at hj ⊢
    by_cases c : j = i
    · subst c
      rw [upd_same] at hj
      injection hj with _ hb
      refine .inr ?_
      rw [upd_same, hb]
      simp
    · rw [upd_ne _ _ c] at hj
      exact .inl hj
  | differ i h hs => exact ⟨I.slot, new_upd I (fun _ _ _ h => .inl h) (grow fun x h => List.mem_append_left _ (gl i _ x h)), ok_snoc I.ok (List.mem_append_left _ (o6 ▸ got_mem I hs i))⟩
  | @swap e e' i h hs =>
    refine ⟨?_, new_upd I (pc_plain nofun) (fun _ _ h => h), I.ok⟩
    intro x hx
    obtain rfl := Option.some.inj hx
    show _ ∈ put z _ o.casRel
    rw [o3, put]
    exact List.mem_append_right _ (I.new i e _ h)
  | @again e e' f i m h hs hf =>
    refine ⟨I.slot, new_upd I ?_ (grow (gl i _)), ok_snoc I.ok (o6 ▸ got_mem I hs i)⟩
    intro j a b hj
    dsimp only at hj ⊢
    by_cases c : j = i
    · subst c
      rw [upd_same] at hj
      refine .inr ?_
      rw [upd_same]
      cases m with
      | true =>
        injection hj with _ hb
        exact gl j _ b (hb ▸ I.new j e e' h)
      | false => simp at hj
    · rw [upd_ne _ _ c] at hj
      exact .inl hj
  | get i h hs => exact ⟨I.slot, new_upd I (fun _ _ _ h => .inl h) (grow (gl i _)), ok_snoc I.ok (o4 ▸ got_mem I hs i)⟩

/-- Thread 0 has put element 0 into the place and is not finished. -/
def start (o : Orders) : W := ⟨some 0, if o.appendRel then [0] else [], [], upd (fun _ => .idle) 0 .inside, upd (upd (fun _ => []) 0 []) 0 [0], 1, []⟩

theorem start_reach (o : Orders) : Reach o (start o) := by
  have r := (Reach.init (o := o)).step (.enter 0 rfl)
  have r := r.step (.append 0 rfl rfl)
  have e : ∀ z z' : W, z = z' → Reach o z → Reach o z' := fun z z' e r => e ▸ r
  refine e _ _ ?_ r
  rcases o with ⟨_ | _, _, _ | _, _, _, _, _, _⟩ <;> rfl

/-- Thread 1 gets the element thread 0 appended. -/
theorem by_get (o : Orders) : ∃ z, Reach o z ∧ z.reads = [(0, if o.getAcq then (if o.appendRel then [0] else []) else [])] := by
  have r := (start_reach o).step (.get 1 rfl rfl)
  refine ⟨_, r, ?_⟩
  rcases o with ⟨_ | _, _ | _, _ | _, _ | _, _ | _, _ | _, _ | _, _ | _⟩ <;> rfl

/-- Thread 1 replaces it, and has the old one returned; thread 2 gets the new one. -/
theorem by_set (o : Orders) : ∃ z, Reach o z ∧ (0, if o.setAcq then (if o.appendRel then [0, 1] else [1]) else [1]) ∈ z.reads ∧
    ∃ k, (1, k) ∈ z.reads ∧ (1 ∈ k → o.setRel = true) := by
  have r := (start_reach o).step (.enter 1 rfl)
  have r := r.step (.set 1 rfl rfl)
  have r := r.step (.get 2 rfl rfl)
  refine ⟨_, r, ?_, if o.getAcq then (if o.appendRel then [0] else []) ++ (if o.setRel then [1] else []) else [], ?_, ?_⟩
  all_goals rcases o with ⟨_ | _, _ | _, _ | _, _ | _, _ | _, _ | _, _ | _, _ | _⟩ <;> decide

/-- Thread 1 replaces it exactly; thread 2 gets the new one. -/
theorem by_cas (o : Orders) : ∃ z, Reach o z ∧ (0, if o.casAcq then (if o.appendRel then [0, 1] else [1]) else [1]) ∈ z.reads ∧
    ∃ k, (1, k) ∈ z.reads ∧ (1 ∈ k → o.casRel = true) := by
  have r := (start_reach o).step (.enter 1 rfl)
  have r := r.step (.compare 1 rfl rfl)
  have r := r.step (.swap 1 rfl rfl)
  have r := r.step (.get 2 rfl rfl)
  refine ⟨_, r, ?_, if o.getAcq then (if o.appendRel then [0] else []) ++ (if o.casRel then (if o.casAcq && o.appendRel then [0, 1] else [1]) else []) else [], ?_, ?_⟩
  all_goals rcases o with ⟨_ | _, _ | _, _ | _, _ | _, _ | _, _ | _, _ | _, _ | _⟩ <;> decide

theorem mem_got {z : W} {i : Nat} {a : Bool} {e : Nat} (h : e ∈ got z i a) : e ∈ z.knows i ∨ e ∈ z.carries := by
  rw [got] at h
  rcases List.mem_append.mp h with h | h
  · exact .inl h
  · split at h
    · exact .inr h
    · simp at h

theorem mem_put {z : W} {k : List Nat} {a : Bool} {e : Nat} (h : e ∈ put z k a) : e ∈ z.carries ∨ e ∈ k := by
  rw [put] at h
  rcases List.mem_append.mp h with h | h
  · exact .inl h
  · split at h
    · exact .inr h
    · simp at h

/-- The numbers tell the elements apart: those of all elements written, known of or in the place are below the next. -/
theorem C141_numbers {o : Orders} {z : W} (r : Reach o z) : (∀ i, ∀ e ∈ z.knows i, e < z.events) ∧ (∀ e ∈ z.carries, e < z.events) ∧ (∀ e ∈ z.ptrC, e < z.events) ∧ (∀ e, z.slot = some e → e < z.events) ∧
    ∀ i e f, z.pc i = .matched e f → e < z.events ∧ f < z.events := by
  induction r with
  | init => exact ⟨fun i e h => by simp [SlotWeak.init] at h, fun e h => by simp [SlotWeak.init] at h, fun e h => by simp [SlotWeak.init] at h, fun e h => by simp [SlotWeak.init] at h, fun i e f h => by simp [SlotWeak.init] at h⟩
  | @step z z' _ s ih =>
    obtain ⟨h1, h2, h3, h4, h5⟩ := ih
    have g : ∀ i a e, e ∈ got z i a → e < z.events := fun i a e h => (mem_got h).elim (h1 i e) (h2 e)
    cases s with
    | enter i hi =>
      refine ⟨fun j e h => ?_, h2, h3, h4, fun j e f h => ?_⟩ <;> dsimp only [upd] at h ⊢ <;> split at h
      · rcases List.mem_append.mp h with h | h
        · exact h1 i e h
        · split at h
          · exact h3 e h
          · simp at h
      · exact h1 j e h
      · cases h
      · exact h5 j e f h
    | leave i hi =>
      refine ⟨h1, h2, fun e h => ?_, h4, fun j e f h => ?_⟩
      · rcases List.mem_append.mp h with h | h
        · exact h3 e h
        · split at h
          · exact h1 i e h
          · simp at h
      · dsimp only [upd] at h
        split at h
        · cases h
        · exact h5 j e f h
    | append i hi hs =>
      refine ⟨fun j e h => ?_, fun e h => ?_, fun e h => Nat.lt_succ_of_lt (h3 e h), fun e h => ?_, fun j e f h => ?_⟩
      · dsimp only [upd] at h ⊢
        split at h
        · rcases List.mem_append.mp h with h | h
          · exact Nat.lt_succ_of_lt (h1 i e h)
          · rw [List.mem_singleton.mp h]; exact Nat.lt_succ_self _
        · exact Nat.lt_succ_of_lt (h1 j e h)
      · rcases mem_put h with h | h
        · exact Nat.lt_succ_of_lt (h2 e h)
        · rcases List.mem_append.mp h with h | h
          · exact Nat.lt_succ_of_lt (h1 i e h)
          · rw [List.mem_singleton.mp h]; exact Nat.lt_succ_self _
      · cases h; exact Nat.lt_succ_self _
      · exact ⟨Nat.lt_succ_of_lt (h5 j e f h).1, Nat.lt_succ_of_lt (h5 j e f h).2⟩
    | @set e0 i hi hs =>
      refine ⟨fun j e h => ?_, fun e h => ?_, fun e h => Nat.lt_succ_of_lt (h3 e h), fun e h => ?_, fun j e f h => ?_⟩
      · dsimp only [upd] at h ⊢
        split at h
        · rcases List.mem_append.mp h with h | h
          · exact Nat.lt_succ_of_lt (g _ _ _ h)
          · rw [List.mem_singleton.mp h]; exact Nat.lt_succ_self _
        · exact Nat.lt_succ_of_lt (h1 j e h)
      · rcases mem_put h with h | h
        · exact Nat.lt_succ_of_lt (h2 e h)
        · rcases List.mem_append.mp h with h | h
          · exact Nat.lt_succ_of_lt (h1 i e h)
          · rw [List.mem_singleton.mp h]; exact Nat.lt_succ_self _
      · cases h; exact Nat.lt_succ_self _
      · exact ⟨Nat.lt_succ_of_lt (h5 j e f h).1, Nat.lt_succ_of_lt (h5 j e f h).2⟩
    | @compare e0 i hi hs =>
      refine ⟨fun j e h => ?_, fun e h => Nat.lt_succ_of_lt (h2 e h), fun e h => Nat.lt_succ_of_lt (h3 e h), fun e h => Nat.lt_succ_of_lt (h4 e h), fun j e f h => ?_⟩ <;> dsimp only [upd] at h ⊢ <;> split at h
      · rcases List.mem_append.mp h with h | h
        · exact Nat.lt_succ_of_lt (g _ _ _ h)
        · rw [List.mem_singleton.mp h]; exact Nat.lt_succ_self _
      · exact Nat.lt_succ_of_lt (h1 j e h)
      · cases h; exact ⟨Nat.lt_succ_of_lt (h4 _ hs), Nat.lt_succ_self _⟩
      · exact ⟨Nat.lt_succ_of_lt (h5 j e f h).1, Nat.lt_succ_of_lt (h5 j e f h).2⟩
    | @differ e0 i hi hs =>
      refine ⟨fun j e h => ?_, fun e h => Nat.lt_succ_of_lt (h2 e h), fun e h => Nat.lt_succ_of_lt (h3 e h), fun e h => Nat.lt_succ_of_lt (h4 e h), fun j e f h => ⟨Nat.lt_succ_of_lt (h5 j e f h).1, Nat.lt_succ_of_lt (h5 j e f h).2⟩⟩
      dsimp only [upd] at h ⊢
      split at h
      · rcases List.mem_append.mp h with h | h
        · exact Nat.lt_succ_of_lt (g _ _ _ h)
        · rw [List.mem_singleton.mp h]; exact Nat.lt_succ_self _
      · exact Nat.lt_succ_of_lt (h1 j e h)
    | @swap e0 f0 i hi hs =>
      refine ⟨h1, fun e h => (mem_put h).elim (h2 e) (h1 i e), h3, fun e h => ?_, fun j e f h => ?_⟩
      · cases h; exact (h5 i _ _ hi).2
      · dsimp only [upd] at h
        split at h
        · cases h
        · exact h5 j e f h
    | @again e0 f0 g0 i m hi hs hne =>
      refine ⟨fun j e h => ?_, h2, h3, h4, fun j e f h => ?_⟩ <;> dsimp only [upd] at h ⊢ <;> split at h
      · exact g _ _ _ h
      · exact h1 j e h
      · cases m
        · cases h
        · cases h; exact ⟨h4 _ hs, (h5 i _ _ hi).2⟩
      · exact h5 j e f h
    | @get e0 i hi hs =>
      refine ⟨fun j e h => ?_, h2, h3, h4, h5⟩
      dsimp only [upd] at h ⊢
      split at h
      · exact g _ _ _ h
      · exact h1 j e h

/-- C141: in every execution each reading of the bytes of an element (by a get, by a replace that returns the old element, or by the comparison of an exact replace) happens after the writing of them, exactly if the append, the replace and the exact replace store the address with a release and the three
load it with an acquire; the orders of `modify` do not matter. -/
theorem C141_elements (o : Orders) : (∀ z, Reach o z → ReadsOk z) ↔ (o.appendRel = true ∧ o.setRel = true ∧ o.casRel = true ∧ o.getAcq = true ∧ o.setAcq = true ∧ o.casAcq = true) := by
  constructor
  · intro H
    obtain ⟨z1, r1, h1⟩ := by_get o
    have g1 := H z1 r1 _ (by rw [h1]; exact List.mem_singleton_self _)
    obtain ⟨z2, r2, h2, k2, h2', i2⟩ := by_set o
    have g2 := H z2 r2 _ h2
    have g2' := i2 (H z2 r2 _ h2')
    obtain ⟨z3, r3, h3, k3, h3', i3⟩ := by_cas o
    have g3 := H z3 r3 _ h3
    have g3' := i3 (H z3 r3 _ h3')
    clear H h1 h2 h3 r1 r2 r3 h2' h3' i2 i3
    rcases o with ⟨_ | _, _ | _, _ | _, _ | _, _ | _, _ | _, _ | _, _ | _⟩ <;> simp_all
  · intro ho z r
    have I : Inv z := by
      induction r with
      | init => exact ⟨fun e h => by simp [SlotWeak.init] at h, fun i e e' h => by simp [SlotWeak.init] at h, fun r h => by simp [SlotWeak.init] at h⟩
      | step _ s ih => exact ih.step ho s
    exact I.ok

/-- C141, for the orders of the file: not so. -/
theorem C141_code_refuted : ∃ z, Reach code z ∧ ¬ ReadsOk z := by
  obtain ⟨z, r, h⟩ := by_get code
  exact ⟨z, r, fun H => by have := H (0, []) (by rw [h]; exact List.mem_singleton_self _); simp at this⟩

/-- C141, on hardware and with compilers that order a read through an address after the load of the address: still not so, an element put there by an exact replace may be read before it is written. -/
theorem C141_dependent_refuted : ∃ z, Reach dependent z ∧ ¬ ReadsOk z := by
  obtain ⟨z, r, -, k, h, hk⟩ := by_cas dependent
  exact ⟨z, r, fun H => by have := hk (H (1, k) h); simp [dependent, code] at this⟩

/-- C141: with a release there it would be. -/
theorem C141_repaired (z : W) (r : Reach { dependent with casRel := true } z) : ReadsOk z := (C141_elements _).mpr ⟨rfl, rfl, rfl, rfl, rfl, rfl⟩ z r

/-- A reading that the repaired orders allow. -/
example : ∃ z, Reach { dependent with casRel := true } z ∧ z.reads = [(0, [0])] := by_get { dependent with casRel := true }

#print axioms Verif.SlotWeak.C141_elements
#print axioms Verif.SlotWeak.C141_code_refuted
#print axioms Verif.SlotWeak.C141_dependent_refuted
#print axioms Verif.SlotWeak.C141_repaired

end Verif.SlotWeak
#print axioms Verif.SlotWeak.C141_numbers
