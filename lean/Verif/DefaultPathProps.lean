import Verif.DefaultPath
/-!
# C69: the default path
-/
namespace Verif.DefaultPath

theorem run_append (s : State) (a b : List Nat) : run s (a ++ b) = run (run s a) b := by
  simp [run]

/-- What holds after every step: the components are set once the path is published, and for every thread about to publish,
to clear the flag, or done. -/
def Inv (s : State) : Prop :=
  (s.init = true → s.comps.isSome) ∧
  ∀ pc ∈ s.threads, pc = .store ∨ pc = .clear ∨ pc = .done → s.comps.isSome

theorem step_inv (s : State) (i : Nat) (h : Inv s) : Inv (step s i) := by
  unfold step
  split
  · exact h
  · rename_i pc hpc
    obtain ⟨h1, h2⟩ := h
    have hm : pc ∈ s.threads := List.mem_of_getElem? hpc
    have hsome : s.comps.isSome → (act s pc).1.comps.isSome := by
      intro h; cases pc <;> first | exact h | rfl
    have hinit : (act s pc).1.init = true → (act s pc).1.comps.isSome := by
      intro h
      cases pc <;> first
        | exact h1 h
        | rfl
        | exact h2 _ hm (by simp)
    refine ⟨hinit, ?_⟩
    intro q hq hc
    rcases List.mem_or_eq_of_mem_set hq with hq | rfl
    · exact hsome (h2 q hq hc)
    · cases pc with
      | load =>
        simp only [act] at hc
        by_cases hi : s.init = true
        · exact h1 hi
        · rw [if_neg hi] at hc; rcases hc with h | h | h <;> cases h
      | spin =>
        simp only [act] at hc
        split at hc <;> (rcases hc with h | h | h <;> cases h)
      | check =>
        simp only [act] at hc
        cases hcs : s.comps with
        | none => rw [hcs] at hc; rcases hc with h | h | h <;> cases h
        | some x => show s.comps.isSome; rw [hcs]; rfl
      | make => rfl
      | store => exact h2 _ hm (by simp)
      | clear => exact h2 _ hm (by simp)
      | done => exact h2 _ hm (by simp)

theorem run_inv (n : Nat) (is : List Nat) : Inv (run (start n) is) := by
  have key : ∀ (is : List Nat) (s : State), Inv s → Inv (run s is) := by
    intro is
    induction is with
    | nil => intro s h; exact h
    | cons i is ih => intro s h; exact ih _ (step_inv s i h)
  refine key is _ ⟨(fun h => by cases h), ?_⟩
  intro pc hpc h
  rw [List.eq_of_mem_replicate hpc] at h
  rcases h with h | h | h <;> cases h

/-- **C69, never without components.**  However many threads call it, in whatever order their steps come: once a call has
returned, the default path has components. -/
theorem C69_returned_has_components (n : Nat) (is : List Nat) (h : Pc.done ∈ (run (start n) is).threads) :
    (run (start n) is).comps.isSome :=
  (run_inv n is).2 _ h (by simp)

/-- The hypothesis: a single thread returns. -/
example : Pc.done ∈ (run (start 1) [0, 0, 0, 0, 0, 0, 0]).threads := by decide +kernel

theorem step_at (s : State) (a b : List Pc) (pc : Pc) (h : s.threads = a ++ pc :: b) :
    step s a.length = { (act s pc).1 with threads := a ++ (act s pc).2 :: b } := by
  unfold step
  rw [h]
  simp

/-- **C69, no thread waits for another.**  From any state, a thread in the spin loop is behind it after at most two steps
of its own, whoever is behind the loop already. -/
theorem C69_loop_does_not_wait (s : State) (i : Nat) (h : s.threads[i]? = some .spin) :
    (step s i).threads[i]? = some .check ∨ (step (step s i) i).threads[i]? = some .check := by
  have hlt : i < s.threads.length := (List.getElem?_eq_some_iff.1 h).1
  by_cases hf : s.flag = true
  · left
    unfold step; rw [h]; simp [act, hf, hlt]
  · right
    have h1 : step s i = { s with flag := true, threads := s.threads.set i .spin } := by
      unfold step; rw [h]; simp [act, hf]
    rw [h1]; unfold step; simp [act, hlt]

/-- Its hypothesis. -/
example : (run (start 2) [0, 0, 0, 1]).threads[1]? = some .spin ∧ (run (start 2) [0, 0, 0, 1]).threads[0]? = some .check := by
  decide +kernel

/-- All threads get behind the loop and find no components. -/
theorem reach_make (n k : Nat) (hk : k ≤ n) :
    ∃ is, run (start n) is = ⟨false, decide (0 < k), none, 0, List.replicate k .make ++ List.replicate (n - k) .load⟩ := by
  induction k with
  | zero => exact ⟨[], by simp [run, start]⟩
  | succ k ih =>
    obtain ⟨is, h⟩ := ih (by omega)
    have hsplit : List.replicate (n - k) Pc.load = .load :: List.replicate (n - (k + 1)) .load := by
      rw [← List.replicate_succ]; congr 1; omega
    have hlen : (List.replicate k Pc.make).length = k := by simp
    rw [hsplit] at h
    have fin : List.replicate k Pc.make ++ .make :: List.replicate (n - (k + 1)) Pc.load =
        List.replicate (k + 1) Pc.make ++ List.replicate (n - (k + 1)) Pc.load := by
      rw [List.replicate_succ', List.append_assoc]; rfl
    have s1 := step_at (run (start n) is) (List.replicate k .make) (List.replicate (n - (k + 1)) .load) .load
      (by rw [h])
    rw [h, hlen] at s1
    have s2 := step_at ⟨false, decide (0 < k), none, 0, List.replicate k .make ++ Pc.spin :: List.replicate (n - (k + 1)) .load⟩
      (List.replicate k .make) (List.replicate (n - (k + 1)) .load) .spin rfl
    have s3 := step_at ⟨false, true, none, 0, List.replicate k .make ++ Pc.spin :: List.replicate (n - (k + 1)) .load⟩
      (List.replicate k .make) (List.replicate (n - (k + 1)) .load) .spin rfl
    have s4 := step_at ⟨false, true, none, 0, List.replicate k .make ++ Pc.check :: List.replicate (n - (k + 1)) .load⟩
      (List.replicate k .make) (List.replicate (n - (k + 1)) .load) .check rfl
    rw [hlen] at s2 s3 s4
    simp only [act, Bool.false_eq_true, if_false, Bool.not_true, Option.isNone_none, if_true] at s1 s2 s3 s4
    rw [fin] at s4
    by_cases h0 : 0 < k
    · refine ⟨is ++ [k, k, k], ?_⟩
      rw [run_append, h]
      show step (step (step _ k) k) k = _
      simp only [h0, decide_true, Bool.not_true, Bool.false_eq_true, if_false] at s1 s2 ⊢
      rw [s1, s2, s4]
      simp
    · refine ⟨is ++ [k, k, k, k], ?_⟩
      rw [run_append, h]
      show step (step (step (step _ k) k) k) k = _
      simp only [h0, decide_false, Bool.not_false, if_true] at s1 s2 ⊢
      rw [s1, s2, s3, s4]
      simp

theorem reach_made (n k : Nat) (hk : k ≤ n) :
    ∃ is s, run (start n) is = s ∧ s.made = k ∧ s.threads = List.replicate k .store ++ List.replicate (n - k) .make := by
  induction k with
  | zero =>
    obtain ⟨is, h⟩ := reach_make n n (Nat.le_refl n)
    exact ⟨is, _, h, rfl, by simp⟩
  | succ k ih =>
    obtain ⟨is, s, h, hm, ht⟩ := ih (by omega)
    have hsplit : List.replicate (n - k) Pc.make = .make :: List.replicate (n - (k + 1)) .make := by
      rw [← List.replicate_succ]; congr 1; omega
    have hs := step_at s (List.replicate k .store) (List.replicate (n - (k + 1)) .make) .make (by rw [ht, hsplit])
    rw [List.length_replicate] at hs
    refine ⟨is ++ [k], step s k, by rw [run_append, h]; rfl, by rw [hs]; simp [act, hm], ?_⟩
    rw [hs]
    show List.replicate k Pc.store ++ .store :: List.replicate (n - (k + 1)) Pc.make = _
    rw [List.replicate_succ', List.append_assoc]; rfl

/-- **C69, not once.**  For every number of threads there is a schedule in which all of them are between the lock and the
unlock at the same time, and one in which each of them makes components of its own and replaces those before. -/
theorem C69_once_refuted (n : Nat) :
    (∃ is, ∀ pc ∈ (run (start n) is).threads, pc = .make) ∧ (∃ is, (run (start n) is).made = n) := by
  refine ⟨?_, ?_⟩
  · obtain ⟨is, h⟩ := reach_make n n (Nat.le_refl n)
    refine ⟨is, ?_⟩
    rw [h]
    intro pc hpc
    simp only [Nat.sub_self, List.replicate_zero, List.append_nil] at hpc
    exact List.eq_of_mem_replicate hpc
  · obtain ⟨is, s, h, hm, _⟩ := reach_made n n (Nat.le_refl n)
    exact ⟨is, by rw [h]; exact hm⟩

/-- **C69, a single thread.**  A thread on its own makes components once, and has returned after seven steps. -/
theorem C69_single_thread (k : Nat) :
    (run (start 1) (List.replicate (7 + k) 0)) = ⟨true, false, some 0, 1, [.done]⟩ := by
  rw [← List.replicate_append_replicate, run_append]
  have h1 : run (start 1) (List.replicate 7 0) = ⟨true, false, some 0, 1, [.done]⟩ := by decide +kernel
  rw [h1]
  induction k with
  | zero => rfl
  | succ k ih => rw [List.replicate_succ]; exact ih

#print axioms C69_returned_has_components
#print axioms C69_loop_does_not_wait
#print axioms C69_once_refuted
#print axioms C69_single_thread

end Verif.DefaultPath
