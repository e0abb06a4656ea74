import Verif.TaskWeak
import Verif.Conc
/-!
# C133: what a task did is known to who waits for it
-/
namespace Verif.TaskWeak
open Verif.Conc

/-- The run a thread is in. -/
def PC.run? : PC → Option Nat
  | .before r _ | .after r => some r
  | _ => none

/-- Is the thread in a run? -/
def busy (t : Thr) : Nat := match t.pc.run? with
  | some _ => 1
  | none => 0

/-- What holds of a thread. -/
def ThrOk (o : Orders) (msgs : List Msg) (t : Thr) : Prop := match t.pc with
  | .idle => True
  | .before _ past => o.beginAcq = true → o.endRel = true → ∀ x ∈ past, x ∈ t.knows
  | .after r => r ∈ t.knows
  | .result j => ∃ m, msgs[j]? = some m ∧ m.completed = true ∧ (o.lookAcq = true → o.endRel = true → ∀ x ∈ m.ended, x ∈ t.knows)

/-- What holds of a record. -/
def EvOk (o : Orders) : Ev → Prop
  | .call _ past knows => o.beginAcq = true → o.endRel = true → ∀ x ∈ past, x ∈ knows
  | .read begun knows => o.lookAcq = true → o.endRel = true → ∀ r, r < begun → r ∈ knows

structure Inv (o : Orders) (y : Sys) : Prop where
  top : ∃ m, y.msgs.getLast? = some m ∧ m.execs = sumBy busy y.thrs ∧ ∀ r, r < m.begun → r ∈ m.ended ∨ ∃ (i : Nat) (t : Thr), y.thrs[i]? = some t ∧ t.pc.run? = some r
  done : ∀ m ∈ y.msgs, m.completed = true → ∀ r, r < m.begun → r ∈ m.ended
  carries : o.endRel = true → ∀ m ∈ y.msgs, ∀ x ∈ m.ended, x ∈ m.carries
  thr : ∀ t ∈ y.thrs, ThrOk o y.msgs t
  log : ∀ e ∈ y.log, EvOk o e

theorem ThrOk.append {o : Orders} {msgs : List Msg} {t : Thr} (h : ThrOk o msgs t) (l : List Msg) : ThrOk o (msgs ++ l) t := by
  obtain ⟨pc, last, k⟩ := t
  cases pc with
  | result j =>
    obtain ⟨m, hm, h⟩ := h
    exact ⟨m, by rw [List.getElem?_append_left (List.getElem?_eq_some_iff.1 hm).1]; exact hm, h⟩
  | _ => exact h

theorem lt_of {α : Type} {l : List α} {i : Nat} {a : α} (h : l[i]? = some a) : i < l.length := (List.getElem?_eq_some_iff.1 h).1

theorem Inv.step {o : Orders} {y y' : Sys} (I : Inv o y) (s : Step o y y') : Inv o y' := by
  obtain ⟨m₀, hm₀, hex, hrun⟩ := I.top
  have mem₀ : m₀ ∈ y.msgs := List.mem_of_getLast? hm₀
  have keep : ∀ {i : Nat} {t t' : Thr}, y.thrs[i]? = some t → t.pc.run? = t'.pc.run? →
      sumBy busy (y.thrs.set i t') = sumBy busy y.thrs ∧ ∀ r, (∃ (j : Nat) (u : Thr), y.thrs[j]? = some u ∧ u.pc.run? = some r) → ∃ (j : Nat) (u : Thr), (y.thrs.set i t')[j]? = some u ∧ u.pc.run? = some r := by
    intro i t t' ht hr
    have h1 := sumBy_set busy ht t'
    have h2 : busy t = busy t' := by rw [busy, busy, hr]
    refine ⟨by omega, ?_⟩
    rintro r ⟨j, u, hj, hu⟩
    by_cases e : i = j
    · subst e
      refine ⟨i, t', List.getElem?_set_self (lt_of ht), ?_⟩
      rw [ht] at hj
      rw [← hr, Option.some.inj hj, hu]
    · exact ⟨j, u, by rw [List.getElem?_set_ne e]; exact hj, hu⟩
  have thrs : ∀ {i : Nat} {t' : Thr} (l : List Msg), ThrOk o (y.msgs ++ l) t' → ∀ t ∈ y.thrs.set i t', ThrOk o (y.msgs ++ l) t := by
    intro i t' l h t ht
    rcases List.mem_or_eq_of_mem_set ht with ht | rfl
    · exact (I.thr t ht).append l
    · exact h
  have thrs0 : ∀ {i : Nat} {t' : Thr}, ThrOk o y.msgs t' → ∀ t ∈ y.thrs.set i t', ThrOk o y.msgs t := by
    intro i t' h t ht
    have := thrs (i := i) [] (by simpa using h) t ht
    simpa using this
  cases s with
  | @begin i l k m ht hm =>
    rw [hm₀] at hm
    obtain rfl := Option.some.inj hm
    refine ⟨⟨_, List.getLast?_concat, ?_, ?_⟩, ?_, ?_, ?_, I.log⟩
    · have := sumBy_set busy ht ⟨.before m₀.begun m₀.ended, y.msgs.length, if o.beginAcq then k ++ m₀.carries else k⟩
      simp only [busy, PC.run?] at this
      simp only [hex]
      omega
    · intro r hr
      by_cases e : r = m₀.begun
      · exact Or.inr ⟨i, _, List.getElem?_set_self (lt_of ht), by rw [e]; rfl⟩
      · rcases hrun r (by simp only [] at hr; omega) with h | ⟨j, u, hj, hu⟩
        · exact Or.inl h
        · refine Or.inr ⟨j, u, ?_, hu⟩
          rw [List.getElem?_set_ne]
          · exact hj
          · rintro rfl
            rw [ht] at hj
            obtain rfl := Option.some.inj hj
            cases hu
    · intro m hm hc
      rcases List.mem_append.1 hm with hm | hm
      · exact I.done m hm hc
      · obtain rfl := List.mem_singleton.1 hm
        cases hc
    · intro hr m hm
      rcases List.mem_append.1 hm with hm | hm
      · exact I.carries hr m hm
      · obtain rfl := List.mem_singleton.1 hm
        exact I.carries hr m₀ mem₀
    · refine thrs _ ?_
      intro ha hr x hx
      simp only [ha, if_true]
      exact List.mem_append_right _ (I.carries hr m₀ mem₀ x hx)
  | @call i l r k past ht =>
    obtain ⟨h1, h2⟩ := keep (t' := ⟨.after r, l, k ++ [r]⟩) ht rfl
    refine ⟨⟨m₀, hm₀, by rw [h1]; exact hex, fun x hx => (hrun x hx).imp id (h2 x)⟩, I.done, I.carries, thrs0 ?_, ?_⟩
    · exact List.mem_append_right _ (List.mem_singleton_self _)
    · intro e he
      rcases List.mem_append.1 he with he | he
      · exact I.log e he
      · obtain rfl := List.mem_singleton.1 he
        exact I.thr _ (List.mem_of_getElem? ht)
  | @finish i l r k m ht hm =>
    rw [hm₀] at hm
    obtain rfl := Option.some.inj hm
    have hb : busy ⟨.after r, l, k⟩ = 1 := rfl
    have others : ∀ x, x < m₀.begun → x ∈ m₀.ended ++ [r] ∨ ∃ (j : Nat) (u : Thr), j ≠ i ∧ y.thrs[j]? = some u ∧ u.pc.run? = some x := by
      intro x hx
      rcases hrun x hx with h | ⟨j, u, hj, hu⟩
      · exact Or.inl (List.mem_append_left _ h)
      · by_cases e : j = i
        · subst e
          rw [ht] at hj
          obtain rfl := Option.some.inj hj
          obtain rfl := Option.some.inj hu
          exact Or.inl (List.mem_append_right _ (List.mem_singleton_self _))
        · exact Or.inr ⟨j, u, e, hj, hu⟩
    refine ⟨⟨_, List.getLast?_concat, ?_, ?_⟩, ?_, ?_, thrs _ trivial, I.log⟩
    · have := sumBy_set busy ht ⟨.idle, y.msgs.length, k⟩
      have hi : busy ⟨.idle, y.msgs.length, k⟩ = 0 := rfl
      simp only [hex]
      omega
    · intro x hx
      refine (others x hx).imp id ?_
      rintro ⟨j, u, hj, hu, hr⟩
      exact ⟨j, u, by rw [List.getElem?_set_ne (Ne.symm hj)]; exact hu, hr⟩
    · intro m hm hc
      rcases List.mem_append.1 hm with hm | hm
      · exact I.done m hm hc
      · obtain rfl := List.mem_singleton.1 hm
        intro x hx
        have he : m₀.execs = 1 := by simpa using hc
        rcases others x hx with h | ⟨j, u, hj, hu, hr⟩
        · exact h
        · have := add_le_sumBy busy ht hu (Ne.symm hj)
          have hbu : busy u = 1 := by rw [busy, hr]
          omega
    · intro hr m hm
      rcases List.mem_append.1 hm with hm | hm
      · exact I.carries hr m hm
      · obtain rfl := List.mem_singleton.1 hm
        intro x hx
        simp only [hr, if_true]
        rcases List.mem_append.1 hx with hx | hx
        · exact List.mem_append_left _ (I.carries hr m₀ mem₀ x hx)
        · obtain rfl := List.mem_singleton.1 hx
          exact List.mem_append_right _ (I.thr _ (List.mem_of_getElem? ht))
  | @notYet i l j k m ht hj hm hc =>
    obtain ⟨h1, h2⟩ := keep (t' := ⟨.idle, j, if o.lookAcq then k ++ m.carries else k⟩) ht rfl
    exact ⟨⟨m₀, hm₀, by rw [h1]; exact hex, fun x hx => (hrun x hx).imp id (h2 x)⟩, I.done, I.carries, thrs0 trivial, I.log⟩
  | @result i l j k m ht hj hm hc =>
    obtain ⟨h1, h2⟩ := keep (t' := ⟨.result j, j, if o.lookAcq then k ++ m.carries else k⟩) ht rfl
    refine ⟨⟨m₀, hm₀, by rw [h1]; exact hex, fun x hx => (hrun x hx).imp id (h2 x)⟩, I.done, I.carries, thrs0 ⟨m, hm, hc, fun ha hr x hx => ?_⟩, I.log⟩
    simp only [ha, if_true]
    exact List.mem_append_right _ (I.carries hr m (List.mem_of_getElem? hm) x hx)
  | @read i l j k m ht hm =>
    obtain ⟨h1, h2⟩ := keep (t' := ⟨.idle, l, k⟩) ht rfl
    refine ⟨⟨m₀, hm₀, by rw [h1]; exact hex, fun x hx => (hrun x hx).imp id (h2 x)⟩, I.done, I.carries, thrs0 trivial, ?_⟩
    intro e he
    rcases List.mem_append.1 he with he | he
    · exact I.log e he
    · obtain rfl := List.mem_singleton.1 he
      obtain ⟨m', hm', hc, hk⟩ := I.thr _ (List.mem_of_getElem? ht)
      rw [hm] at hm'
      obtain rfl := Option.some.inj hm'
      exact fun ha hr x hx => hk ha hr x (I.done m (List.mem_of_getElem? hm) hc x hx)

theorem inv {o : Orders} {n : Nat} {y : Sys} (h : Reach o n y) : Inv o y := by
  induction h with
  | init =>
    refine ⟨⟨_, rfl, ?_, fun r hr => absurd hr (Nat.not_lt_zero _)⟩, ?_, ?_, ?_, ?_⟩
    · simp [init, sumBy_replicate, busy, PC.run?]
    · intro m hm hc
      obtain rfl := List.mem_singleton.1 hm
      cases hc
    · intro _ m hm x hx
      obtain rfl := List.mem_singleton.1 hm
      cases hx
    · intro t ht
      obtain rfl := List.eq_of_mem_replicate ht
      exact trivial
    · intro e he
      cases he
  | step _ s ih => exact ih.step s

/-- **C133.** With the memory orders of the code, for any number of threads and in every execution: when the function of a task is called, all runs of the task that had ended when this run began are known to have happened before. -/
theorem C133_runs (n : Nat) (y : Sys) (h : Reach code n y) (r : Nat) (past knows : List Nat) (he : Ev.call r past knows ∈ y.log) : ∀ x ∈ past, x ∈ knows :=
  (inv h).log _ he rfl rfl

/-- **C133, what holds and what it takes.** For two threads or more: whoever reads the output after `CCTaskGetResult` knows all runs that had been begun when the task was completed, in every execution, exactly if the exchange that ends a run is a release and
the load of `CCTaskIsFinished` is an acquire. -/
theorem C133_result_partial (o : Orders) (n : Nat) (hn : 2 ≤ n) :
    (∀ y, Reach o n y → ∀ begun knows, Ev.read begun knows ∈ y.log → ∀ r, r < begun → r ∈ knows) ↔ o.endRel = true ∧ o.lookAcq = true := by
  constructor
  · intro h
    apply Classical.byContradiction
    intro hno
    obtain ⟨n, rfl⟩ : ∃ m, n = m + 2 := ⟨n - 2, by omega⟩
    have R := Reach.init (o := o) (n := n + 2)
    have R := R.step (.begin (i := 0) rfl rfl)
    have R := R.step (.call (i := 0) rfl)
    have R := R.step (.finish (i := 0) rfl rfl)
    have R := R.step (.result (i := 1) (l := 0) (j := 2) rfl (by decide) rfl rfl)
    have R := R.step (.read (i := 1) (j := 2) rfl rfl)
    have := h _ R _ _ (List.mem_append_right _ (List.mem_singleton_self _)) 0 Nat.zero_lt_one
    cases hr : o.endRel with
    | false => simp [hr] at this
    | true =>
      cases ha : o.lookAcq with
      | false => simp [ha] at this
      | true => exact hno ⟨hr, ha⟩
  · rintro ⟨hr, ha⟩ y h b k he
    exact (inv h).log _ he ha hr

/-- **C133 refuted for the code**: the load of `CCTaskIsFinished` is relaxed (150).  One thread runs the task, another one gets its result: nothing orders the reading of the output after the function that wrote it. -/
theorem C133_result_refuted : ∃ y, Reach code 2 y ∧ Ev.read 1 [] ∈ y.log := by
  have R := Reach.init (o := code) (n := 2)
  have R := R.step (.begin (i := 0) rfl rfl)
  have R := R.step (.call (i := 0) rfl)
  have R := R.step (.finish (i := 0) rfl rfl)
  have R := R.step (.result (i := 1) (l := 0) (j := 2) rfl (by decide) rfl rfl)
  have R := R.step (.read (i := 1) (j := 2) rfl rfl)
  exact ⟨_, R, by simp [init, code]⟩

/-- Two threads run a task one after the other: the second run knows the first. -/
example : ∃ y, Reach code 2 y ∧ Ev.call 1 [0] [0] ∈ y.log := by
  have R := Reach.init (o := code) (n := 2)
  have R := R.step (.begin (i := 0) rfl rfl)
  have R := R.step (.call (i := 0) rfl)
  have R := R.step (.finish (i := 0) rfl rfl)
  have R := R.step (.begin (i := 1) rfl rfl)
  have R := R.step (.call (i := 1) rfl)
  exact ⟨_, R, by simp [init, code]⟩

/-! ## The default task queue -/

structure QInv (rel acq : Bool) (y : QSys) : Prop where
  init : rel = true → ∀ c, y.init = some c → c = true
  created : ∀ k, (⟨.created, k⟩ : QThr) ∈ y.thrs → k = true
  back : rel = true → acq = true → ∀ k, (⟨.back, k⟩ : QThr) ∈ y.thrs → k = true

theorem qinv {rel acq : Bool} {n : Nat} {y : QSys} (h : QReach rel acq n y) : QInv rel acq y := by
  induction h with
  | init =>
    refine ⟨?_, ?_, ?_⟩
    · intro _ c h; cases h
    · intro k h; cases List.eq_of_mem_replicate h
    · intro _ _ k h; cases List.eq_of_mem_replicate h
  | step _ s I =>
    have key : ∀ {l : List QThr} {i : Nat} {t u : QThr}, u ∈ l.set i t → u ∈ l ∨ u = t := fun h => List.mem_or_eq_of_mem_set h
    cases s with
    | @first i k ht hl =>
      refine ⟨I.init, fun k hk => ?_, fun hr ha k hk => ?_⟩
      · rcases key hk with hk | hk
        · exact I.created k hk
        · cases hk
      · rcases key hk with hk | hk
        · exact I.back hr ha k hk
        · cases hk
    | @create i k ht =>
      refine ⟨I.init, fun k hk => ?_, fun hr ha k hk => ?_⟩
      · rcases key hk with hk | hk
        · exact I.created k hk
        · cases hk; rfl
      · rcases key hk with hk | hk
        · exact I.back hr ha k hk
        · cases hk
    | @store i k ht =>
      have hk₀ : k = true := I.created k (List.mem_of_getElem? ht)
      refine ⟨fun hr c hc => ?_, fun k hk => ?_, fun hr ha k hk => ?_⟩
      · rw [← Option.some.inj hc, hr, hk₀]; rfl
      · rcases key hk with hk | hk
        · exact I.created k hk
        · cases hk
      · rcases key hk with hk | hk
        · exact I.back hr ha k hk
        · cases hk; exact hk₀
    | @see i k c ht hl hc =>
      refine ⟨I.init, fun k hk => ?_, fun hr ha k hk => ?_⟩
      · rcases key hk with hk | hk
        · exact I.created k hk
        · cases hk
      · rcases key hk with hk | hk
        · exact I.back hr ha k hk
        · cases hk; rw [ha, I.init hr c hc]; simp
    | @again i k ht =>
      refine ⟨I.init, fun k hk => ?_, fun hr ha k hk => ?_⟩
      · rcases key hk with hk | hk
        · exact I.created k hk
        · cases hk
      · rcases key hk with hk | hk
        · exact I.back hr ha k hk
        · cases hk

/-- **C133, what holds and what it takes.** For two threads or more: every thread that `CCTaskQueueDefault` has returned to knows the creation of the queue, in every execution, exactly if the store of `Init` is a release and its load an acquire. -/
theorem C133_default_queue_partial (rel acq : Bool) (n : Nat) (hn : 2 ≤ n) :
    (∀ y, QReach rel acq n y → ∀ (i : Nat) (k : Bool), y.thrs[i]? = some ⟨.back, k⟩ → k = true) ↔ rel = true ∧ acq = true := by
  constructor
  · intro h
    obtain ⟨n, rfl⟩ : ∃ m, n = m + 2 := ⟨n - 2, by omega⟩
    have R := QReach.init (rel := rel) (acq := acq) (n := n + 2)
    have R := R.step (.first (i := 0) rfl rfl)
    have R := R.step (.create (i := 0) rfl)
    have R := R.step (.store (i := 0) rfl)
    have R := R.step (.see (i := 1) rfl rfl rfl)
    have := h _ R 1 _ rfl
    cases rel <;> cases acq <;> simp at this ⊢
  · rintro ⟨hr, ha⟩ y h i k hi
    exact (qinv h).back hr ha k (List.mem_of_getElem? hi)

/-- **C133 refuted for the code**: the load of `Init` is relaxed (78).  A thread gets the default queue, and nothing orders its reading of `tasks` after the creation by another thread. -/
theorem C133_default_queue_refuted : ∃ y, QReach true false 2 y ∧ y.thrs[1]? = some ⟨.back, false⟩ := by
  have R := QReach.init (rel := true) (acq := false) (n := 2)
  have R := R.step (.first (i := 0) rfl rfl)
  have R := R.step (.create (i := 0) rfl)
  have R := R.step (.store (i := 0) rfl)
  have R := R.step (.see (i := 1) rfl rfl rfl)
  exact ⟨_, R, rfl⟩

#print axioms C133_runs
#print axioms C133_result_partial
#print axioms C133_result_refuted
#print axioms C133_default_queue_partial
#print axioms C133_default_queue_refuted
end Verif.TaskWeak
