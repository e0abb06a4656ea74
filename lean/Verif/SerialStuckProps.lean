import Verif.SerialStuck
/-!
# C142: a serial task queue goes on handing out tasks
-/
namespace Verif.SerialStuck

theorem run_append (s : St) (a b : List Op) : run s (a ++ b) = (run s a).bind fun s => run s b := by
  induction a generalizing s with
  | nil => rfl
  | cons o os ih =>
    simp only [List.cons_append, run]
    cases step s o with
    | none => rfl
    | some s' => simpa using ih s'

theorem upd_same {α : Type} (f : Nat → α) (a : Nat) (b : α) : upd f a b a = b := by simp [upd]
theorem upd_other {α : Type} (f : Nat → α) (a : Nat) (b : α) {x : Nat} (h : x ≠ a) : upd f a b x = f x := by simp [upd, h]

/-- Whoever runs a task has a reference to it. -/
def Held (s : St) : Prop := ∀ t, s.executions t ≠ 0 → s.refs t ≠ 0

theorem Held.step {s s' : St} {o : Op} (I : Held s) (h : step s o = some s') : Held s' := by
  intro x
  have Ix := I x
  cases o <;> simp only [SerialStuck.step] at h
  case pop =>
    cases h
    unfold pop
    split
    · split
      · exact Ix
      · rename_i t ts _
        intro hx
        by_cases e : x = t
        · subst e; simp [upd]
        · simpa [upd, e] using Ix hx
    · exact Ix
  all_goals
    rename_i t
    split at h <;> cases h
    rename_i hc
    by_cases e : x = t
    · subst e
      simp [upd] at *
      try omega
    · simpa [upd, e] using Ix

theorem Held.run {s s' : St} {os : List Op} (I : Held s) (h : run s os = some s') : Held s' := by
  induction os generalizing s with
  | nil => cases h; exact I
  | cons o os ih =>
    simp only [SerialStuck.run] at h
    cases e : SerialStuck.step s o with
    | none => rw [e] at h; cases h
    | some s1 => rw [e] at h; exact ih (I.step e) h

theorem Reach.held {s : St} (r : Reach s) : Held s := by
  obtain ⟨os, h⟩ := r
  exact Held.run (fun t h => absurd rfl h) h

/-- The task handed out last has not been run to its end, and nobody has it any more. -/
def Lost (s : St) : Prop := ∃ t, s.last = some t ∧ s.completed t = false ∧ s.refs t = 0

theorem Lost.pop {s : St} (h : Lost s) : pop s = (s, none) := by
  obtain ⟨t, e, hc, -⟩ := h
  simp [SerialStuck.pop, ready, e, hc]

theorem Lost.step {s s' : St} {o : Op} (I : Held s) (l : Lost s) (h : step s o = some s') : Lost s' := by
  have hp := l.pop
  obtain ⟨x, e, hc, hr⟩ := l
  have hx : s.executions x = 0 := Classical.byContradiction fun hn => I x hn hr
  cases o <;> simp only [SerialStuck.step] at h
  case pop => cases h; rw [hp]; exact ⟨x, e, hc, hr⟩
  all_goals
    rename_i t
    split at h <;> cases h
    rename_i hn
    have hne : x ≠ t := by
      intro et; subst et; simp_all
    exact ⟨x, e, by simpa [upd, hne] using hc, by simpa [upd, hne] using hr⟩

theorem Lost.run {s s' : St} {os : List Op} (I : Held s) (l : Lost s) (h : run s os = some s') : Lost s' := by
  induction os generalizing s with
  | nil => cases h; exact l
  | cons o os ih =>
    simp only [SerialStuck.run] at h
    cases e : SerialStuck.step s o with
    | none => rw [e] at h; cases h
    | some s1 => rw [e] at h; exact ih (I.step e) (l.step I e) h

/-- Ending all runs of a task. -/
theorem finish_all (t : Nat) (n : Nat) (s : St) (hn : s.executions t = n + 1) :
    ∃ s', run s (List.replicate (n + 1) (.finish t)) = some s' ∧ s'.completed t = true ∧ s'.last = s.last ∧ s'.waiting = s.waiting := by
  induction n generalizing s with
  | zero => exact ⟨{ s with executions := upd s.executions t (s.executions t - 1), completed := upd s.completed t (s.executions t == 1) }, by simp [SerialStuck.run, SerialStuck.step, hn], by simp [upd, hn], rfl, rfl⟩
  | succ n ih =>
    obtain ⟨s', h, a, b, c⟩ := ih { s with executions := upd s.executions t (s.executions t - 1), completed := upd s.completed t (s.executions t == 1) } (by simp [upd, hn])
    refine ⟨s', ?_, a, b, c⟩
    rw [List.replicate_succ]
    simpa [SerialStuck.run, SerialStuck.step, hn] using h

/-- A pop nobody interferes with returns the task that waits longest, if the task handed out before it has been run to its end. -/
theorem C142_pop (s : St) (t : Nat) (ts : List Nat) (hw : s.waiting = t :: ts) (hl : ∀ u, s.last = some u → s.completed u = true) : (pop s).2 = some t ∧ (pop s).1.waiting = ts ∧ (pop s).1.last = some t := by
  unfold pop
  split
  · rw [hw]; exact ⟨rfl, rfl, rfl⟩
  · rename_i h
    cases e : s.last with
    | none => simp [ready, e] at h
    | some u => simp [ready, e, hl u e] at h

/-- C142: the users of a serial queue in which tasks wait can still get the first of them, exactly if the task handed out before was not given up before it was run to its end. -/
theorem C142_goes_on (s : St) (r : Reach s) (t : Nat) (ts : List Nat) (hw : s.waiting = t :: ts) :
    (∃ os s', run s os = some s' ∧ (pop s').2 = some t) ↔ ¬ Lost s := by
  constructor
  · rintro ⟨os, s', h, hp⟩ l
    rw [(l.run r.held h).pop] at hp
    cases hp
  · intro hl
    by_cases hd : ∀ u, s.last = some u → s.completed u = true
    · exact ⟨[], s, rfl, (C142_pop s t ts hw hd).1⟩
    · have ⟨u, hu⟩ := Classical.not_forall.mp hd
      have ⟨e, hc⟩ := Classical.not_imp.mp hu
      have hcf : s.completed u = false := by simpa using hc
      have hr : s.refs u ≠ 0 := fun h0 => hl ⟨u, e, hcf, h0⟩
      obtain ⟨s', h, a, b, c⟩ := finish_all u (s.executions u) { s with executions := upd s.executions u (s.executions u + 1), completed := upd s.completed u false } (by simp [upd])
      refine ⟨.begin u :: List.replicate (s.executions u + 1) (.finish u), s', ?_, ?_⟩
      · simpa [SerialStuck.run, SerialStuck.step, hr] using h
      · refine (C142_pop s' t ts (c.trans hw) fun v hv => ?_).1
        have : v = u := by
          rw [b] at hv
          exact Option.some.inj (hv.symm.trans e)
        rw [this]; exact a

/-- A lost task is lost for ever: whatever the users do, no pop returns a task again. -/
theorem C142_stuck (s : St) (r : Reach s) (l : Lost s) (os : List Op) (s' : St) (h : run s os = some s') : (pop s').2 = none := by
  rw [(l.run r.held h).pop]

/-- The users give up the last reference to the task handed out last (by destroying it, or by pushing it again) only when it has been run to its end. -/
def Careful (s : St) : Op → Prop
  | .destroy t | .push t => s.last = some t → s.refs t = 1 → s.completed t = true
  | _ => True

/-- Calls of careful users. -/
inductive CarefulRun : St → Prop
  | init : CarefulRun init
  | step {s s' : St} {o : Op} : CarefulRun s → Careful s o → step s o = some s' → CarefulRun s'

theorem CarefulRun.reach {s : St} (r : CarefulRun s) : Reach s := by
  induction r with
  | init => exact ⟨[], rfl⟩
  | @step s s' o _ _ h ih =>
    obtain ⟨os, e⟩ := ih
    exact ⟨os ++ [o], by rw [run_append, e]; simp [SerialStuck.run, h]⟩

theorem CarefulRun.not_lost {s : St} (r : CarefulRun s) : ¬ Lost s := by
  induction r with
  | init => rintro ⟨t, h, -⟩; cases h
  | @step s s' o r hc h ih =>
    have I := r.reach.held
    rintro ⟨x, e, hf, hr⟩
    cases o <;> simp only [SerialStuck.step] at h
    case pop =>
      cases h
      by_cases h1 : ready s = true
      · cases hw : s.waiting with
        | nil => simp [pop, h1, hw] at e
        | cons t ts =>
          simp [pop, h1, hw] at e hf hr
          subst e
          simp [upd] at hr
      · simp [pop, h1] at e hf hr
        exact ih ⟨x, e, hf, hr⟩
    all_goals
      rename_i t
      split at h <;> cases h
      rename_i hn
      by_cases ex : x = t
      · subst ex
        have Ix := I x
        have hi : ¬ (s.completed x = false ∧ s.refs x = 0) := fun hh => ih ⟨x, e, hh.1, hh.2⟩
        simp only [Careful, upd, if_true] at *
        first
          | (simp_all; done)
          | (have h1 : s.refs x = 1 := by omega
             simp_all)
      · exact ih ⟨x, e, by simpa [upd, ex] using hf, by simpa [upd, ex] using hr⟩

/-- C142: with careful users no task is lost, and the first of the tasks that wait can always be had. -/
theorem C142_careful (s : St) (r : CarefulRun s) (t : Nat) (ts : List Nat) (hw : s.waiting = t :: ts) : ∃ os s', run s os = some s' ∧ (pop s').2 = some t :=
  (C142_goes_on s r.reach t ts hw).mpr r.not_lost

/-- Without care it is not so: a task that is popped and destroyed unrun, or popped and pushed again, keeps those behind it in the queue for ever. -/
theorem C142_refuted : (∃ s, run init [.create 0, .create 1, .push 0, .push 1, .pop, .destroy 0] = some s ∧ Lost s ∧ s.waiting = [1]) ∧
    ∃ s, run init [.create 0, .create 1, .push 0, .push 1, .pop, .push 0] = some s ∧ Lost s ∧ s.waiting = [1, 0] :=
  ⟨⟨_, rfl, ⟨0, rfl, rfl, rfl⟩, rfl⟩, ⟨_, rfl, ⟨0, rfl, rfl, rfl⟩, rfl⟩⟩

/-- The hypotheses are met: a task is run by two users at once, the next waits. -/
example : ∃ s, CarefulRun s ∧ s.waiting = [1] ∧ s.executions 0 = 1 ∧ s.completed 0 = false := by
  have r := CarefulRun.init
  have r := r.step (o := .create 0) trivial rfl
  have r := r.step (o := .create 1) trivial rfl
  have r := r.step (o := .push 0) (fun h => by cases h) rfl
  have r := r.step (o := .push 1) (fun h => by cases h) rfl
  have r := r.step (o := .pop) trivial rfl
  have r := r.step (o := .begin 0) trivial rfl
  have r := r.step (o := .begin 0) trivial rfl
  have r := r.step (o := .finish 0) trivial rfl
  exact ⟨_, r, rfl, rfl, rfl⟩

#print axioms C142_goes_on
#print axioms C142_stuck
#print axioms C142_careful
#print axioms C142_refuted

end Verif.SerialStuck
