import Verif.TaskQueue
import Verif.TaskProps
/-!
# C35: a serial task queue runs one task at a time, in order. C49: whether the queue is empty
-/
namespace Verif.TaskQueue
open Verif.Task (countP_set_same countP_set_up countP_set_down)

variable {T : Type}

/-- The thread holds the lock. -/
def PC.critical : PC T → Bool
  | .locked | .ready | .giveUp | .taken _ | .stored _ => true
  | _ => false

def PC.isPushed : PC T → Bool
  | .pushed => true
  | _ => false

/-- The thread has taken a task and not yet counted it. -/
def PC.hasTask : PC T → Bool
  | .taken _ | .stored _ | .released _ => true
  | _ => false

/-- Rewrites the count after a move of a thread that does not change it. -/
macro "same" h:term : tactic => `(tactic| (rw [countP_set_same $h]; rotate_left; (focus rfl)))

/-- What the thread in the critical section knows about the task handed out last. -/
def PC.knows (last : Option T) (handed : List T) (seen : T → Prop) : PC T → Prop
  | .locked => last = handed.getLast? ∨ (last = none ∧ ∀ t, handed.getLast? = some t → seen t)
  | .ready => last = none ∧ ∀ t, handed.getLast? = some t → seen t
  | .giveUp => last = handed.getLast? ∨ (last = none ∧ ∀ t, handed.getLast? = some t → seen t)
  | .taken t => last = none ∧ handed.getLast? = some t
  | .stored t => last = some t ∧ handed.getLast? = some t
  | _ => True

/-- Every task but the last one handed out has been seen finished. -/
def Chain (handed : List T) (seen : T → Prop) : Prop := ∀ i t, handed[i]? = some t → i + 1 < handed.length → seen t

structure Inv (y : Sys T) : Prop where
  order : y.handedOut ++ y.tasks = y.pushedTasks
  excl : y.pcs.countP PC.critical = if y.lock then 1 else 0
  chain : Chain y.handedOut y.seen
  knows : ∀ pc ∈ y.pcs, pc.knows y.last y.handedOut y.seen
  free : y.lock = false → (y.last = y.handedOut.getLast? ∨ (y.last = none ∧ ∀ t, y.handedOut.getLast? = some t → y.seen t))
  sees : ∀ t, y.done t = true → y.seen t
  count : y.count + BitVec.ofNat 64 (y.pcs.countP PC.isPushed) = BitVec.ofNat 64 (y.tasks.length) + BitVec.ofNat 64 (y.pcs.countP PC.hasTask)

theorem countP_one {α : Type} {p : α → Bool} {l : List α} (h : l.countP p = 1) {i j : Nat} {a b : α}
    (hi : l[i]? = some a) (hj : l[j]? = some b) (ha : p a = true) (hb : p b = true) : i = j := by
  induction l generalizing i j with
  | nil => simp at hi
  | cons x xs ih =>
    rw [List.countP_cons] at h
    cases i with
    | zero =>
      cases j with
      | zero => rfl
      | succ j =>
        simp only [List.getElem?_cons_zero, Option.some.injEq] at hi
        simp only [List.getElem?_cons_succ] at hj
        rw [hi, if_pos ha] at h
        have : 0 < xs.countP p := List.countP_pos_iff.2 ⟨b, List.mem_of_getElem? hj, hb⟩
        omega
    | succ i =>
      cases j with
      | zero =>
        simp only [List.getElem?_cons_zero, Option.some.injEq] at hj
        simp only [List.getElem?_cons_succ] at hi
        rw [hj, if_pos hb] at h
        have : 0 < xs.countP p := List.countP_pos_iff.2 ⟨a, List.mem_of_getElem? hi, ha⟩
        omega
      | succ j =>
        simp only [List.getElem?_cons_succ] at hi hj
        have : 0 < xs.countP p := List.countP_pos_iff.2 ⟨a, List.mem_of_getElem? hi, ha⟩
        have : xs.countP p = 1 := by split at h <;> omega
        rw [ih this hi hj]

/-- A thread outside the critical section knows nothing. -/
theorem knows_free {pc : PC T} (h : pc.critical = false) (last : Option T) (handed : List T) (seen : T → Prop) : pc.knows last handed seen := by
  cases pc <;> simp_all [PC.critical, PC.knows]

/-- When thread `i` in the critical section moves on, only its own knowledge matters. -/
theorem knows_set {y : Sys T} {i : Nat} {a b : PC T} {last : Option T} {handed : List T} {seen : T → Prop}
    (he : y.pcs.countP PC.critical = if y.lock then 1 else 0) (hi : y.pcs[i]? = some a) (ha : a.critical = true)
    (hb : b.knows last handed seen) : ∀ pc ∈ y.pcs.set i b, pc.knows last handed seen := by
  intro pc hpc
  obtain ⟨j, hj, rfl⟩ := List.getElem_of_mem hpc
  by_cases hij : i = j
  · subst hij; simpa using hb
  · rw [List.getElem_set_ne hij]
    simp only [List.length_set] at hj
    apply knows_free
    cases hc : (y.pcs[j]).critical with
    | false => rfl
    | true =>
      have h1 : y.pcs.countP PC.critical = 1 := by
        have : 0 < y.pcs.countP PC.critical := List.countP_pos_iff.2 ⟨_, List.mem_of_getElem? hi, ha⟩
        split at he <;> omega
      exact absurd (countP_one h1 hi (List.getElem?_eq_getElem hj) ha hc) hij

theorem lock_of_critical {y : Sys T} {i : Nat} {a : PC T} (he : y.pcs.countP PC.critical = if y.lock then 1 else 0)
    (hi : y.pcs[i]? = some a) (ha : a.critical = true) : y.lock = true := by
  have : 0 < y.pcs.countP PC.critical := List.countP_pos_iff.2 ⟨_, List.mem_of_getElem? hi, ha⟩
  cases h : y.lock with
  | true => rfl
  | false =>
    rw [h] at he
    have he : y.pcs.countP PC.critical = 0 := he
    omega

/-- A thread outside the critical section moves on outside. -/
theorem knows_set_free {y : Sys T} {i : Nat} {b : PC T} {last : Option T} {handed : List T} {seen : T → Prop}
    (h : ∀ pc ∈ y.pcs, pc.knows last handed seen) (hb : b.critical = false) : ∀ pc ∈ y.pcs.set i b, pc.knows last handed seen := by
  intro pc hpc
  rcases List.mem_or_eq_of_mem_set hpc with hp | rfl
  · exact h _ hp
  · exact knows_free hb _ _ _

theorem knows_mono {pc : PC T} {last : Option T} {handed : List T} {seen seen' : T → Prop} (hs : ∀ t, seen t → seen' t)
    (h : pc.knows last handed seen) : pc.knows last handed seen' := by
  cases pc <;> simp_all [PC.knows] <;> grind

theorem inv_reach {n : Nat} {y : Sys T} (h : Reach n y) : Inv y := by
  induction h with
  | init done =>
    exact ⟨rfl, by simp [init, List.countP_replicate, PC.critical], fun i t hi => by simp [init] at hi,
      fun pc hpc => by simp only [init, List.mem_replicate] at hpc; rw [hpc.2]; trivial, fun _ => Or.inl rfl, fun t ht => ht,
      by simp [init, List.countP_replicate, PC.isPushed, PC.hasTask]⟩
  | @step y y' _ hs ih =>
    obtain ⟨h1, h2, h3, h4, h5, h6, h7⟩ := ih
    cases hs with
    | busy h hl => exact ⟨h1, h2, h3, h4, h5, h6, h7⟩
    | env done =>
      exact ⟨h1, h2, fun i t hi hl => Or.inl (h3 i t hi hl), fun pc hpc => knows_mono (fun t ht => Or.inl ht) (h4 pc hpc),
        fun hl => (h5 hl).imp id (fun ⟨a, b⟩ => ⟨a, fun t ht => Or.inl (b t ht)⟩), fun t ht => Or.inr ht, h7⟩
    | push t h =>
      refine ⟨by rw [← h1, List.append_assoc], ?_, h3, knows_set_free h4 rfl, h5, h6, ?_⟩
      · dsimp only; same h; exact h2
      · dsimp only
        rw [countP_set_up h rfl rfl]
        same h
        rw [List.length_append, BitVec.ofNat_add, BitVec.ofNat_add, ← BitVec.add_assoc, h7]
        simp only [List.length_singleton]
        rw [BitVec.add_assoc, BitVec.add_assoc, BitVec.add_comm (BitVec.ofNat 64 (List.countP PC.hasTask y.pcs))]
    | pushCount h =>
      refine ⟨h1, ?_, h3, knows_set_free h4 rfl, h5, h6, ?_⟩
      · dsimp only; same h; exact h2
      · dsimp only
        have e := countP_set_down (p := PC.isPushed (T := T)) (b := PC.idle) h rfl rfl
        rw [← e, BitVec.ofNat_add] at h7
        have e2 : (y.pcs.set _ PC.idle).countP PC.hasTask = y.pcs.countP PC.hasTask := countP_set_same (p := PC.hasTask (T := T)) (b := PC.idle) h rfl
        rw [e2, ← h7, BitVec.add_assoc, BitVec.add_comm _ (BitVec.ofNat 64 1)]; rfl
    | lock h hl =>
      refine ⟨h1, ?_, h3, ?_, fun hf => by simp at hf, h6, ?_⟩
      · dsimp only; rw [countP_set_up h rfl rfl, h2, hl]; rfl
      · intro pc hpc
        rcases List.mem_or_eq_of_mem_set hpc with hp | rfl
        · exact h4 _ hp
        · exact h5 hl
      · dsimp only; same h; same h; exact h7
    | noLast h hl =>
      have hk := h4 _ (List.mem_of_getElem? h)
      have hlk := lock_of_critical h2 h rfl
      refine ⟨h1, ?_, h3, knows_set h2 h rfl ?_, fun hf => by simp [hlk] at hf, h6, ?_⟩
      · dsimp only; same h; exact h2
      · refine ⟨hl, fun t ht => ?_⟩
        rcases hk with hk | hk
        · rw [hl] at hk; rw [← hk] at ht; cases ht
        · exact hk.2 t ht
      · dsimp only; same h; same h; exact h7
    | unfinished h hl hd =>
      have hk := h4 _ (List.mem_of_getElem? h)
      have hlk := lock_of_critical h2 h rfl
      refine ⟨h1, ?_, h3, knows_set h2 h rfl hk, fun hf => by simp [hlk] at hf, h6, ?_⟩
      · dsimp only; same h; exact h2
      · dsimp only; same h; same h; exact h7
    | @finished i t h hl hd =>
      have hk := h4 _ (List.mem_of_getElem? h)
      have hlk := lock_of_critical h2 h rfl
      refine ⟨h1, ?_, h3, knows_set h2 h rfl ⟨rfl, fun t' ht => ?_⟩, fun hf => by simp [hlk] at hf, h6, ?_⟩
      · dsimp only; same h; exact h2
      · rcases hk with hk | hk
        · rw [hl, ht] at hk
          rw [← Option.some.inj hk]
          exact h6 _ hd
        · exact hk.2 t' ht
      · dsimp only; same h; same h; exact h7
    | nothing h =>
      have hk := h4 _ (List.mem_of_getElem? h)
      have hlk := lock_of_critical h2 h rfl
      refine ⟨h1, ?_, h3, knows_set h2 h rfl (Or.inr hk), fun hf => by simp [hlk] at hf, h6, ?_⟩
      · dsimp only; same h; exact h2
      · dsimp only; same h; same h; exact h7
    | @take i t ts h ht =>
      have hk := h4 _ (List.mem_of_getElem? h)
      have hlk := lock_of_critical h2 h rfl
      refine ⟨by dsimp only; rw [← h1, ht, List.append_assoc]; rfl, ?_, ?_, knows_set h2 h rfl ⟨hk.1, by simp⟩, fun hf => by simp [hlk] at hf, h6, ?_⟩
      · dsimp only; same h; exact h2
      · intro j u hj hjl
        dsimp only at hj hjl
        simp only [List.length_append, List.length_singleton] at hjl
        rw [List.getElem?_append_left (by omega)] at hj
        by_cases hlast : j + 1 < y.handedOut.length
        · exact h3 j u hj hlast
        · apply hk.2
          rw [List.getLast?_eq_getElem?, ← hj]; congr 1; omega
      · dsimp only
        same h
        rw [countP_set_up h rfl rfl]
        rw [ht, List.length_cons, BitVec.ofNat_add] at h7
        rw [h7, BitVec.ofNat_add, BitVec.add_assoc, BitVec.add_comm (BitVec.ofNat 64 1)]
    | giveUp h =>
      have hk := h4 _ (List.mem_of_getElem? h)
      have hlk := lock_of_critical h2 h rfl
      refine ⟨h1, ?_, h3, knows_set h2 h rfl trivial, fun _ => hk, h6, ?_⟩
      · dsimp only
        have e := countP_set_down (p := PC.critical (T := T)) (b := PC.idle) h rfl rfl
        rw [h2, hlk] at e
        simp at e ⊢; omega
      · dsimp only; same h; same h; exact h7
    | store h =>
      have hk := h4 _ (List.mem_of_getElem? h)
      have hlk := lock_of_critical h2 h rfl
      refine ⟨h1, ?_, h3, knows_set h2 h rfl ⟨rfl, hk.2⟩, fun hf => by simp [hlk] at hf, h6, ?_⟩
      · dsimp only; same h; exact h2
      · dsimp only; same h; same h; exact h7
    | @release i t h =>
      have hk := h4 _ (List.mem_of_getElem? h)
      have hlk := lock_of_critical h2 h rfl
      refine ⟨h1, ?_, h3, knows_set h2 h rfl trivial, fun _ => Or.inl (by rw [hk.1, hk.2]), h6, ?_⟩
      · dsimp only
        have e := countP_set_down (p := PC.critical (T := T)) (b := PC.released t) h rfl rfl
        rw [h2, hlk] at e
        simp at e ⊢; omega
      · dsimp only; same h; same h; exact h7
    | popCount h =>
      refine ⟨h1, ?_, h3, knows_set_free h4 rfl, h5, h6, ?_⟩
      · dsimp only; same h; exact h2
      · dsimp only
        have e := countP_set_down (p := PC.hasTask (T := T)) (b := PC.idle) h rfl rfl
        rw [← e, BitVec.ofNat_add] at h7
        same h
        rw [← BitVec.add_assoc] at h7
        rw [BitVec.sub_eq_add_neg, BitVec.add_assoc, BitVec.add_comm (-1), ← BitVec.add_assoc, h7, ← BitVec.sub_eq_add_neg]
        exact BitVec.add_sub_cancel _ _

/-- **C35, order**: the tasks handed out are the tasks pushed, in push order, each at most once; the others are still queued. -/
theorem C35_order {n : Nat} {y : Sys T} (h : Reach n y) : y.handedOut ++ y.tasks = y.pushedTasks := (inv_reach h).order

/-- **C35, one at a time**: whenever a task is handed out, every task handed out before it has reported finished. -/
theorem C35_serial {n : Nat} {y : Sys T} (h : Reach n y) (i j : Nat) (t u : T) (hi : y.handedOut[i]? = some t) (hj : y.handedOut[j]? = some u)
    (hij : i < j) : y.seen t := by
  refine (inv_reach h).chain i t hi ?_
  have := (List.getElem?_eq_some_iff.1 hj).1
  omega

/-- `seen` means what it says: it only grows when a task reports finished. -/
theorem C35_seen {y y' : Sys T} (h : Step y y') (t : T) (ht : y'.seen t) : y.seen t ∨ y'.done t = true := by
  cases h <;> first | exact Or.inl ht | exact ht

/-- A task popped in a step was waiting for nothing: at the time of the pop all tasks handed out before it had reported finished. -/
theorem C35_step {n : Nat} {y y' : Sys T} (h : Reach n y) (hs : Step y y') (hn : y'.handedOut ≠ y.handedOut) :
    ∃ t, y'.handedOut = y.handedOut ++ [t] ∧ y.tasks = t :: y'.tasks ∧ ∀ u ∈ y.handedOut, y.seen u := by
  have hi := inv_reach h
  cases hs <;> first | exact absurd rfl hn | skip
  rename_i i t ts h' ht
  refine ⟨t, rfl, ht, fun u hu => ?_⟩
  obtain ⟨j, hj, rfl⟩ := List.getElem_of_mem hu
  by_cases hl : j + 1 < y.handedOut.length
  · exact hi.chain j _ (List.getElem?_eq_getElem hj) hl
  · have hk := hi.knows _ (List.mem_of_getElem? h')
    apply hk.2
    rw [List.getLast?_eq_getElem?, ← List.getElem?_eq_getElem hj]; congr 1; omega

/-- **C49**: while no push or pop is under way, the queue reports empty exactly when it holds no task (fewer than `2^64` fit). -/
theorem C49_is_empty {n : Nat} {y : Sys T} (h : Reach n y) (hq : ∀ pc ∈ y.pcs, pc = .idle) (hl : y.tasks.length < 2 ^ 64) :
    isEmpty y = true ↔ y.tasks = [] := by
  have hc := (inv_reach h).count
  have e1 : y.pcs.countP PC.isPushed = 0 := by
    rw [List.countP_eq_zero]; intro pc hpc; rw [hq pc hpc]; simp [PC.isPushed]
  have e2 : y.pcs.countP PC.hasTask = 0 := by
    rw [List.countP_eq_zero]; intro pc hpc; rw [hq pc hpc]; simp [PC.hasTask]
  rw [e1, e2] at hc
  have hc : y.count = BitVec.ofNat 64 y.tasks.length := by simpa using hc
  unfold isEmpty
  rw [hc, beq_iff_eq, ← List.length_eq_zero_iff]
  constructor
  · intro hh
    have := congrArg BitVec.toNat hh
    simp at this
    omega
  · intro hh; rw [hh]; rfl

/-! ## Examples -/

/-- A run in which a second task is handed out: push 1, push 2, pop, finish, pop. -/
example : ∃ y : Sys Nat, Reach 1 y ∧ y.handedOut = [1, 2] ∧ y.tasks = [] ∧ (∀ pc ∈ y.pcs, pc = PC.idle) := by
  have r := Reach.init (T := Nat) (n := 1) (fun _ => false)
  have r := r.step (.push (i := 0) 1 rfl)
  have r := r.step (.pushCount (i := 0) rfl)
  have r := r.step (.push (i := 0) 2 rfl)
  have r := r.step (.pushCount (i := 0) rfl)
  have r := r.step (.lock (i := 0) rfl rfl)
  have r := r.step (.noLast (i := 0) rfl rfl)
  have r := r.step (.take (i := 0) (t := 1) (ts := [2]) rfl rfl)
  have r := r.step (.store (i := 0) (t := 1) rfl)
  have r := r.step (.release (i := 0) (t := 1) rfl)
  have r := r.step (.popCount (i := 0) (t := 1) rfl)
  have r := r.step (.env (fun t => t == 1))
  have r := r.step (.lock (i := 0) rfl rfl)
  have r := r.step (.finished (i := 0) (t := 1) rfl rfl rfl)
  have r := r.step (.take (i := 0) (t := 2) (ts := []) rfl rfl)
  have r := r.step (.store (i := 0) (t := 2) rfl)
  have r := r.step (.release (i := 0) (t := 2) rfl)
  have r := r.step (.popCount (i := 0) (t := 2) rfl)
  exact ⟨_, r, rfl, rfl, by intro pc hpc; simpa [init] using hpc⟩

#print axioms C35_order
#print axioms C35_serial
#print axioms C35_seen
#print axioms C35_step
#print axioms C49_is_empty

end Verif.TaskQueue
