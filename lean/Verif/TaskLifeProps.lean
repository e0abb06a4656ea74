import Verif.TaskLife
/-!
# C112: the life of a task
-/
namespace Verif.TaskLife

namespace Spec

/-- The input of a new task. -/
def input (size : Nat) (given : Option (List UInt8)) : Option Bytes :=
  if size = 0 then none else some (match given with | some l => l.map some | none => List.replicate size none)

/-- The output of a new task. -/
def output (size : Nat) : Option Bytes := if size = 0 then none else some (List.replicate size (some 0))

/-- The calls of destructors for what a task has. -/
def calls (destructor : Option Nat) (bytes : Option Bytes) : List (Nat × Bytes) :=
  match destructor, bytes with
  | some d, some l => [(d, l)]
  | _, _ => []

/-- All runs one after the other. -/
def runs (f : Option Bytes → Option Bytes → Option Bytes × Option Bytes) : Nat → Option Bytes × Option Bytes → Option Bytes × Option Bytes
  | 0, x => x
  | n + 1, x => runs f n (f x.1 x.2)

end Spec

/-- Memory above `next` is not in use. -/
def Fresh (m : Mem) : Prop := ∀ a, m.next ≤ a → m.block a = none ∧ m.task a = none

/-- Task `t` has this input and output with these destructors, on top of memory `m0`. -/
structure Has (m0 m : Mem) (t : Nat) (i o : Option Bytes) (di dq : Option Nat) : Prop where
  ex : ∃ a b : Option Nat, m.task t = some (a, b) ∧ (a = none ↔ i = none) ∧ (b = none ↔ o = none) ∧
    (∀ x, a = some x → m0.next ≤ x ∧ ∃ l, i = some l ∧ m.block x = some ⟨l, di⟩) ∧
    (∀ x, b = some x → m0.next ≤ x ∧ ∃ l, o = some l ∧ m.block x = some ⟨l, dq⟩) ∧
    (∀ x y, a = some x → b = some y → x ≠ y) ∧
    (∀ x, m0.next ≤ x → a ≠ some x → b ≠ some x → m.block x = none)
  below : ∀ x, x < m0.next → m.block x = m0.block x ∧ m.task x = m0.task x
  only : ∀ x, m0.next ≤ x → x ≠ t → m.task x = none
  above : m0.next ≤ t
  log : m.log = m0.log

theorem upd_same {α : Type} (f : Nat → α) (a : Nat) (b : α) : upd f a b a = b := if_pos rfl

theorem upd_ne {α : Type} (f : Nat → α) {a x : Nat} (b : α) (h : x ≠ a) : upd f a b x = f x := if_neg h

/-- Destroying the task gives back all memory, and calls each destructor once. -/
theorem freeTask_ok {m0 m : Mem} {t : Nat} {i o : Option Bytes} {di dq : Option Nat} (hf : Fresh m0) (H : Has m0 m t i o di dq) :
    ∃ m', freeTask m t = some m' ∧ (∀ x, m'.block x = m0.block x ∧ m'.task x = m0.task x) ∧ m'.log = m0.log ++ Spec.calls di i ++ Spec.calls dq o := by
  obtain ⟨a, b, ht, ha, hb, hia, hob, hne, hrest⟩ := H.ex
  have hlast : ∀ x, m0.next ≤ x → a ≠ some x → b ≠ some x → m.block x = m0.block x := by
    intro x hx h1 h2; rw [hrest x hx h1 h2, (hf x hx).1]
  have htask : ∀ x, upd m.task t none x = m0.task x := by
    intro x
    by_cases h : x = t
    · subst h; rw [upd_same, (hf x H.above).2]
    · rw [upd_ne _ _ h]
      rcases Nat.lt_or_ge x m0.next with hx | hx
      · exact (H.below x hx).2
      · rw [H.only x hx h, (hf x hx).2]
  rcases a with _ | x <;> rcases b with _ | y
  · have hi := ha.1 rfl; have ho := hb.1 rfl
    subst hi; subst ho
    refine ⟨{ m with task := upd m.task t none }, by simp [freeTask, ht], fun z => ⟨?_, htask z⟩, ?_⟩
    · rcases Nat.lt_or_ge z m0.next with hz | hz
      · exact (H.below z hz).1
      · exact hlast z hz (by simp) (by simp)
    · show m.log = _; rw [H.log]; cases di <;> cases dq <;> simp [Spec.calls]
  · have hi := ha.1 rfl
    obtain ⟨hy, l, rfl, hl⟩ := hob y rfl
    subst hi
    refine ⟨_, by simp [freeTask, ht, freeBlock, hl]; rfl, fun z => ⟨?_, htask z⟩, ?_⟩
    · show upd m.block y none z = _
      by_cases h : z = y
      · subst h; rw [upd_same, (hf z hy).1]
      · rw [upd_ne _ _ h]
        rcases Nat.lt_or_ge z m0.next with hz | hz
        · exact (H.below z hz).1
        · exact hlast z hz (by simp) (by simpa using Ne.symm h)
    · cases di <;> cases dq <;> simp [Spec.calls, H.log]
  · have ho := hb.1 rfl
    obtain ⟨hx, l, rfl, hl⟩ := hia x rfl
    subst ho
    refine ⟨_, by simp [freeTask, ht, freeBlock, hl]; rfl, fun z => ⟨?_, htask z⟩, ?_⟩
    · show upd m.block x none z = _
      by_cases h : z = x
      · subst h; rw [upd_same, (hf z hx).1]
      · rw [upd_ne _ _ h]
        rcases Nat.lt_or_ge z m0.next with hz | hz
        · exact (H.below z hz).1
        · exact hlast z hz (by simpa using Ne.symm h) (by simp)
    · cases di <;> cases dq <;> simp [Spec.calls, H.log]
  · obtain ⟨hx, l, rfl, hl⟩ := hia x rfl
    obtain ⟨hy, l', rfl, hl'⟩ := hob y rfl
    have hxy := hne x y rfl rfl
    refine ⟨_, by simp [freeTask, ht, freeBlock, hl, upd_ne m.block none (Ne.symm hxy), hl']; rfl, fun z => ⟨?_, htask z⟩, ?_⟩
    · show upd (upd m.block x none) y none z = _
      by_cases h : z = y
      · subst h; rw [upd_same, (hf z hy).1]
      · rw [upd_ne _ _ h]
        by_cases h' : z = x
        · subst h'; rw [upd_same, (hf z hx).1]
        · rw [upd_ne _ _ h']
          rcases Nat.lt_or_ge z m0.next with hz | hz
          · exact (H.below z hz).1
          · exact hlast z hz (by simpa using Ne.symm h') (by simpa using Ne.symm h)
    · cases di <;> cases dq <;> simp [Spec.calls, H.log]

/-- The task after the first allocation. -/
theorem has_bare {m0 : Mem} (hf : Fresh m0) (di dq : Option Nat) :
    Has m0 { m0 with next := m0.next + 1, task := upd m0.task m0.next (some (none, none)) } m0.next none none di dq := by
  refine ⟨⟨none, none, upd_same .., by simp, by simp, by simp, by simp, by simp, fun x hx _ _ => (hf x hx).1⟩, ?_, ?_, Nat.le_refl _, rfl⟩
  · intro x hx; exact ⟨rfl, upd_ne _ _ (by omega)⟩
  · intro x hx h; show upd m0.task m0.next _ x = none; rw [upd_ne _ _ h]; exact (hf x hx).2

/-- The task after the allocation of its input. -/
theorem has_input {m0 : Mem} (hf : Fresh m0) (di dq : Option Nat) (l : Bytes) :
    Has m0 { m0 with next := m0.next + 1 + 1, block := upd m0.block (m0.next + 1) (some ⟨l, di⟩),
                     task := upd (upd m0.task m0.next (some (none, none))) m0.next (some (some (m0.next + 1), none)) } m0.next (some l) none di dq := by
  refine ⟨⟨some (m0.next + 1), none, upd_same .., by simp, by simp, ?_, by simp, by simp, ?_⟩, ?_, ?_, Nat.le_refl _, rfl⟩
  · intro x hx; cases hx; exact ⟨by omega, l, rfl, upd_same ..⟩
  · intro x hx h _
    show upd m0.block _ _ x = none
    rw [upd_ne _ _ (by rintro rfl; exact h rfl)]; exact (hf x hx).1
  · intro x hx
    exact ⟨upd_ne _ _ (by omega), by show upd (upd m0.task _ _) _ _ x = _; rw [upd_ne _ _ (by omega), upd_ne _ _ (by omega)]⟩
  · intro x hx h; show upd (upd m0.task _ _) _ _ x = none; rw [upd_ne _ _ h, upd_ne _ _ h]; exact (hf x hx).2

/-- What has an input (or none) so far gets an output. -/
theorem has_output {m0 m : Mem} {t : Nat} {i : Option Bytes} {a : Option Nat} {di dq : Option Nat} (hn : m0.next ≤ m.next) (htn : t < m.next)
    (hfr : ∀ x, m.next ≤ x → m.block x = none) (ht : m.task t = some (a, none)) (H : Has m0 m t i none di dq) (l : Bytes) :
    Has m0 { m with next := m.next + 1, block := upd m.block m.next (some ⟨l, dq⟩), task := upd m.task t (some (a, some m.next)) } t i (some l) di dq := by
  obtain ⟨a', b', ht', ha, hb, hia, hob, hne, hrest⟩ := H.ex
  rw [ht] at ht'; cases ht'
  have hlt : ∀ x, a = some x → x ≠ m.next := by
    intro x hx h
    obtain ⟨_, l', -, hl'⟩ := hia x hx
    rw [h, hfr _ (Nat.le_refl _)] at hl'
    cases hl'
  refine ⟨⟨a, some m.next, upd_same .., ha, by simp, ?_, ?_, ?_, ?_⟩, ?_, ?_, H.above, H.log⟩
  · intro x hx
    obtain ⟨h1, l', h2, h3⟩ := hia x hx
    exact ⟨h1, l', h2, by show upd m.block _ _ x = _; rw [upd_ne _ _ (hlt x hx), h3]⟩
  · intro x hx; cases hx; exact ⟨hn, l, rfl, upd_same ..⟩
  · intro x y hx hy; cases hy; exact hlt x hx
  · intro x hx h h'
    show upd m.block _ _ x = none
    rw [upd_ne _ _ (by rintro rfl; exact h' rfl)]
    exact hrest x hx h (by simp)
  · intro x hx
    exact ⟨by show upd m.block _ _ x = _; rw [upd_ne _ _ (by omega)]; exact (H.below x hx).1,
      by show upd m.task _ _ x = _; rw [upd_ne _ _ (by have := H.above; omega)]; exact (H.below x hx).2⟩
  · intro x hx h; show upd m.task _ _ x = none; rw [upd_ne _ _ h]; exact H.only x hx h

/-- Are all allocations that are needed successful? -/
def Succeeds (ok : Nat → Bool) (inSize outSize : Nat) : Prop := ok 0 = true ∧ (inSize = 0 ∨ ok 1 = true) ∧ (outSize = 0 ∨ ok 2 = true)

theorem create_ok {ok : Nat → Bool} {m0 : Mem} (hf : Fresh m0) (outSize : Nat) (dq : Option Nat) (inSize : Nat) (input : Option (List UInt8)) (di : Option Nat)
    (hs : Succeeds ok inSize outSize) :
    ∃ m, create ok m0 outSize dq inSize input di = some (m, some m0.next) ∧ Has m0 m m0.next (Spec.input inSize input) (Spec.output outSize) di dq := by
  obtain ⟨h0, h1, h2⟩ := hs
  have g1 : ¬ (inSize ≠ 0 ∧ ok 1 = false) := by rintro ⟨a, b⟩; rcases h1 with h | h <;> simp_all
  have g2 : ¬ (outSize ≠ 0 ∧ ok 2 = false) := by rintro ⟨a, b⟩; rcases h2 with h | h <;> simp_all
  simp only [create, h0, if_true, if_neg g1, if_neg g2]
  by_cases hi : inSize = 0 <;> by_cases ho : outSize = 0
  · refine ⟨_, rfl, ?_⟩
    simp only [hi, ho, Spec.input, Spec.output, if_true]
    exact has_bare hf di dq
  · refine ⟨_, rfl, ?_⟩
    simp only [hi, ho, Spec.input, Spec.output, if_true, ne_eq, not_true_eq_false, if_false, not_false_eq_true]
    exact has_output (m := { m0 with next := m0.next + 1, task := upd m0.task m0.next (some (none, none)) }) (a := none) (by show m0.next ≤ m0.next + 1; omega)
      (by show m0.next < m0.next + 1; omega) (fun x hx => (hf x (by have : m0.next + 1 ≤ x := hx; omega)).1) (upd_same ..) (has_bare hf di dq) _
  · refine ⟨_, rfl, ?_⟩
    simp only [hi, ho, Spec.input, Spec.output, if_true, ne_eq, not_true_eq_false, if_false, not_false_eq_true]
    exact has_input hf di dq _
  · refine ⟨_, rfl, ?_⟩
    simp only [hi, ho, Spec.input, Spec.output, if_true, ne_eq, if_false, not_false_eq_true]
    exact has_output (a := some (m0.next + 1)) (by show m0.next ≤ m0.next + 1 + 1; omega)
      (by show m0.next < m0.next + 1 + 1; omega)
      (fun x hx => by
        have hx : m0.next + 1 + 1 ≤ x := hx
        show upd m0.block _ _ x = none
        rw [upd_ne _ _ (by omega)]; exact (hf x (by omega)).1)
      (upd_same ..) (has_input hf di dq _) _

theorem run_ok {m0 m : Mem} {t : Nat} {i o : Option Bytes} {di dq : Option Nat} (f : Option Bytes → Option Bytes → Option Bytes × Option Bytes)
    (hf : ∀ i o, ((f i o).1 = none ↔ i = none) ∧ ((f i o).2 = none ↔ o = none)) (H : Has m0 m t i o di dq) :
    ∃ m', run f m t = some m' ∧ Has m0 m' t (f i o).1 (f i o).2 di dq := by
  obtain ⟨a, b, ht, ha, hb, hia, hob, hne, hrest⟩ := H.ex
  obtain ⟨h1, h2⟩ := hf i o
  rcases a with _ | x <;> rcases b with _ | y
  · have hi := ha.1 rfl; have ho := hb.1 rfl
    subst hi; subst ho
    refine ⟨m, by simp [run, ht], ?_⟩
    rw [h1.2 rfl, h2.2 rfl]
    exact H
  · have hi := ha.1 rfl
    obtain ⟨hy, l, rfl, hl⟩ := hob y rfl
    subst hi
    obtain ⟨l', hl'⟩ : ∃ l', (f none (some l)).2 = some l' := by
      cases h : (f none (some l)).2 with
      | none => exact absurd (h2.1 h) (by simp)
      | some l' => exact ⟨l', rfl⟩
    refine ⟨{ m with block := upd m.block y (some ⟨l', dq⟩) }, by simp [run, ht, hl, hl'], ?_⟩
    rw [h1.2 rfl, hl']
    refine ⟨⟨none, some y, ht, by simp, by simp, by simp, ?_, by simp, ?_⟩, ?_, H.only, H.above, H.log⟩
    · intro z hz; cases hz; exact ⟨hy, l', rfl, upd_same ..⟩
    · intro z hz _ h
      show upd m.block y _ z = none
      rw [upd_ne _ _ (by rintro rfl; exact h rfl)]; exact hrest z hz (by simp) h
    · intro z hz; exact ⟨by show upd m.block y _ z = _; rw [upd_ne _ _ (by omega)]; exact (H.below z hz).1, (H.below z hz).2⟩
  · have ho := hb.1 rfl
    obtain ⟨hx, l, rfl, hl⟩ := hia x rfl
    subst ho
    obtain ⟨l', hl'⟩ : ∃ l', (f (some l) none).1 = some l' := by
      cases h : (f (some l) none).1 with
      | none => exact absurd (h1.1 h) (by simp)
      | some l' => exact ⟨l', rfl⟩
    refine ⟨{ m with block := upd m.block x (some ⟨l', di⟩) }, by simp [run, ht, hl, hl'], ?_⟩
    rw [h2.2 rfl, hl']
    refine ⟨⟨some x, none, ht, by simp, by simp, ?_, by simp, by simp, ?_⟩, ?_, H.only, H.above, H.log⟩
    · intro z hz; cases hz; exact ⟨hx, l', rfl, upd_same ..⟩
    · intro z hz h _
      show upd m.block x _ z = none
      rw [upd_ne _ _ (by rintro rfl; exact h rfl)]; exact hrest z hz h (by simp)
    · intro z hz; exact ⟨by show upd m.block x _ z = _; rw [upd_ne _ _ (by omega)]; exact (H.below z hz).1, (H.below z hz).2⟩
  · obtain ⟨hx, l, rfl, hl⟩ := hia x rfl
    obtain ⟨hy, k, rfl, hk⟩ := hob y rfl
    have hxy := hne x y rfl rfl
    obtain ⟨l', hl'⟩ : ∃ l', (f (some l) (some k)).1 = some l' := by
      cases h : (f (some l) (some k)).1 with
      | none => exact absurd (h1.1 h) (by simp)
      | some l' => exact ⟨l', rfl⟩
    obtain ⟨k', hk'⟩ : ∃ k', (f (some l) (some k)).2 = some k' := by
      cases h : (f (some l) (some k)).2 with
      | none => exact absurd (h2.1 h) (by simp)
      | some k' => exact ⟨k', rfl⟩
    refine ⟨{ m with block := upd (upd m.block x (some ⟨l', di⟩)) y (some ⟨k', dq⟩) }, by simp [run, ht, hl, hk, hl', hk'], ?_⟩
    rw [hl', hk']
    refine ⟨⟨some x, some y, ht, by simp, by simp, ?_, ?_, ?_, ?_⟩, ?_, H.only, H.above, H.log⟩
    · intro z hz; cases hz
      exact ⟨hx, l', rfl, by show upd _ _ _ x = _; rw [upd_ne _ _ hxy, upd_same]⟩
    · intro z hz; cases hz; exact ⟨hy, k', rfl, upd_same ..⟩
    · intro z w hz hw; cases hz; cases hw; exact hxy
    · intro z hz h h'
      show upd (upd m.block x _) y _ z = none
      rw [upd_ne _ _ (by rintro rfl; exact h' rfl), upd_ne _ _ (by rintro rfl; exact h rfl)]; exact hrest z hz h h'
    · intro z hz
      exact ⟨by show upd (upd m.block x _) y _ z = _; rw [upd_ne _ _ (by omega), upd_ne _ _ (by omega)]; exact (H.below z hz).1, (H.below z hz).2⟩

/-- Run a task a number of times. -/
def runN (f : Option Bytes → Option Bytes → Option Bytes × Option Bytes) : Nat → Mem → Nat → Option Mem
  | 0, m, _ => some m
  | n + 1, m, t => (run f m t).bind fun m => runN f n m t

theorem runN_ok {m0 : Mem} {t : Nat} {di dq : Option Nat} (f : Option Bytes → Option Bytes → Option Bytes × Option Bytes)
    (hf : ∀ i o, ((f i o).1 = none ↔ i = none) ∧ ((f i o).2 = none ↔ o = none)) (n : Nat) : ∀ {m : Mem} {i o : Option Bytes}, Has m0 m t i o di dq →
    ∃ m', runN f n m t = some m' ∧ Has m0 m' t (Spec.runs f n (i, o)).1 (Spec.runs f n (i, o)).2 di dq := by
  induction n with
  | zero => intro m i o H; exact ⟨m, rfl, H⟩
  | succ n ih =>
    intro m i o H
    obtain ⟨m1, e1, H1⟩ := run_ok f hf H
    obtain ⟨m2, e2, H2⟩ := ih H1
    exact ⟨m2, by rw [runN, e1]; exact e2, H2⟩

theorem result_ok {m0 m : Mem} {t : Nat} {i o : Option Bytes} {di dq : Option Nat} (H : Has m0 m t i o di dq) : result m t = some o := by
  obtain ⟨a, b, ht, ha, hb, hia, hob, hne, hrest⟩ := H.ex
  rcases b with _ | y
  · have ho := hb.1 rfl
    subst ho
    simp [result, ht]
  · obtain ⟨hy, l, rfl, hl⟩ := hob y rfl
    simp [result, ht, hl]

/-- **C112.** When the allocations succeed: a task starts with a copy of its input and an output of zeros; after any number of runs of any function its result is what the function made of them, one run after the other; and destroying it calls the destructors of
the input and the output once each, with what these are by then, and gives back all memory of the task, whatever else is allocated. -/
theorem C112_life (ok : Nat → Bool) (m0 : Mem) (hf : Fresh m0) (outSize : Nat) (outDestructor : Option Nat) (inSize : Nat) (input : Option (List UInt8)) (inDestructor : Option Nat)
    (hs : Succeeds ok inSize outSize)
    (f : Option Bytes → Option Bytes → Option Bytes × Option Bytes) (hfn : ∀ i o, ((f i o).1 = none ↔ i = none) ∧ ((f i o).2 = none ↔ o = none)) (n : Nat) :
    ∃ m t m' m'', create ok m0 outSize outDestructor inSize input inDestructor = some (m, some t) ∧ m.log = m0.log ∧
      runN f n m t = some m' ∧ result m' t = some (Spec.runs f n (Spec.input inSize input, Spec.output outSize)).2 ∧
      freeTask m' t = some m'' ∧ (∀ x, m''.block x = m0.block x ∧ m''.task x = m0.task x) ∧
      m''.log = m0.log ++ Spec.calls inDestructor (Spec.runs f n (Spec.input inSize input, Spec.output outSize)).1 ++
        Spec.calls outDestructor (Spec.runs f n (Spec.input inSize input, Spec.output outSize)).2 := by
  obtain ⟨m, e, H⟩ := create_ok hf outSize outDestructor inSize input inDestructor hs
  obtain ⟨m1, e1, H1⟩ := runN_ok f hfn n H
  obtain ⟨m2, e2, h2, l2⟩ := freeTask_ok hf H1
  exact ⟨m, _, m1, m2, e, H.log, e1, result_ok H1, e2, h2, l2⟩

/-- **C112**, failure: if an allocation fails all memory is given back; but NULL is returned only if it was the one of the task itself: otherwise the address returned is that of the freed task. -/
theorem C112_failure_exact (ok : Nat → Bool) (m0 : Mem) (hf : Fresh m0) (outSize : Nat) (outDestructor : Option Nat) (inSize : Nat) (input : Option (List UInt8))
    (inDestructor : Option Nat) (hs : ¬ Succeeds ok inSize outSize) :
    ∃ m r, create ok m0 outSize outDestructor inSize input inDestructor = some (m, r) ∧ (∀ x, m.block x = m0.block x ∧ m.task x = m0.task x) ∧
      r = (if ok 0 = true then some m0.next else none) ∧
      m.log = m0.log ++ (if ok 0 = true ∧ (inSize = 0 ∨ ok 1 = true) then Spec.calls inDestructor (Spec.input inSize input) else []) := by
  by_cases h0 : ¬ ok 0 = true
  · exact ⟨m0, none, by simp [create, h0], fun x => ⟨rfl, rfl⟩, by simp [h0], by simp [h0]⟩
  rw [Decidable.not_not] at h0
  by_cases h1 : inSize ≠ 0 ∧ ok 1 = false
  · obtain ⟨m, e, hm, hl⟩ := freeTask_ok hf (has_bare hf none none)
    refine ⟨m, some m0.next, ?_, hm, by simp [h0], ?_⟩
    · simp only [create, h0, if_true, if_pos h1]
      rw [e]; rfl
    · rw [hl]; simp [Spec.calls, h1]
  · have h1' : inSize = 0 ∨ ok 1 = true := by
      rcases Nat.eq_zero_or_pos inSize with h | h
      · exact Or.inl h
      · right
        cases h' : ok 1 with
        | true => rfl
        | false => exact absurd ⟨by omega, h'⟩ h1
    have h2 : outSize ≠ 0 ∧ ok 2 = false := by
      refine ⟨fun h => hs ⟨h0, h1', Or.inl h⟩, ?_⟩
      cases h : ok 2 with
      | false => rfl
      | true => exact absurd ⟨h0, h1', Or.inr h⟩ hs
    by_cases hi : inSize = 0
    · obtain ⟨m, e, hm, hl⟩ := freeTask_ok hf (has_bare hf none none)
      refine ⟨m, some m0.next, ?_, hm, by simp [h0], ?_⟩
      · simp only [create, h0, if_true, if_neg h1, if_pos h2, hi, ne_eq, not_true_eq_false, if_false]
        rw [e]; rfl
      · rw [hl]; simp [Spec.calls, hi, Spec.input]
    · obtain ⟨m, e, hm, hl⟩ := freeTask_ok hf (has_input hf inDestructor none (match input with | some l => l.map some | none => List.replicate inSize none))
      refine ⟨m, some m0.next, ?_, hm, by simp [h0], ?_⟩
      · simp only [create, h0, if_true, if_neg h1, if_pos h2, if_pos (show inSize ≠ 0 from hi)]
        exact congrArg (Option.map fun m => (m, some m0.next)) e
      · rw [hl, if_pos ⟨h0, h1'⟩]; simp [Spec.calls, hi, Spec.input]

/-- "An executable task, or NULL on failure" is false: when only the output cannot be allocated the address of a freed task is returned, and using it is an error. -/
theorem C112_failure_refuted : ∃ (ok : Nat → Bool) (m : Mem) (t : Nat), create ok ⟨0, fun _ => none, fun _ => none, []⟩ 4 none 0 none none = some (m, some t) ∧
    m.task t = none ∧ run (fun i o => (i, o)) m t = none ∧ freeTask m t = none :=
  ⟨fun n => n != 2, _, 0, rfl, rfl, rfl, rfl⟩

/-! ### The hypotheses can be met -/

example : Fresh ⟨0, fun _ => none, fun _ => none, []⟩ := fun _ _ => ⟨rfl, rfl⟩

example : Succeeds (fun _ => true) 2 3 := ⟨rfl, Or.inr rfl, Or.inr rfl⟩

/-- A function that copies the first byte of the input to the output. -/
example : ∀ i o : Option Bytes, (((fun (i o : Option Bytes) => (i, o.map fun l => ((i.bind List.head?).getD none) :: l.tail)) i o).1 = none ↔ i = none) ∧
    (((fun (i o : Option Bytes) => (i, o.map fun l => ((i.bind List.head?).getD none) :: l.tail)) i o).2 = none ↔ o = none) := by
  intro i o; simp

#print axioms C112_life
#print axioms C112_failure_exact
#print axioms C112_failure_refuted

end Verif.TaskLife
