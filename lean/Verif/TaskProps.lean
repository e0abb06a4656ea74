import Verif.Task
/-!
# C34: a task reports finished exactly when at least one run has completed and none is in progress
-/
namespace Verif.Task

/-- The thread is between the two exchanges of a run; it may be executing the task function. -/
def PC.running : PC → Bool
  | .body | .leave | .stop _ => true
  | _ => false

/-- The number of runs in progress. -/
def inProgress (y : Sys) : Nat := y.pcs.countP PC.running

theorem countP_set_same {α : Type} {p : α → Bool} {l : List α} {i : Nat} {a b : α} (h : l[i]? = some a) (e : p b = p a) :
    (l.set i b).countP p = l.countP p := by
  obtain ⟨hi, rfl⟩ := List.getElem?_eq_some_iff.1 h
  rw [List.countP_set hi, e]
  have : 0 < if p l[i] = true then l.countP p else 1 := by
    split
    · exact List.countP_pos_iff.2 ⟨_, List.getElem_mem hi, by assumption⟩
    · omega
  split <;> simp_all <;> omega

theorem countP_set_up {α : Type} {p : α → Bool} {l : List α} {i : Nat} {a b : α} (h : l[i]? = some a) (ha : p a = false) (hb : p b = true) :
    (l.set i b).countP p = l.countP p + 1 := by
  obtain ⟨hi, rfl⟩ := List.getElem?_eq_some_iff.1 h
  rw [List.countP_set hi, if_neg (by simp [ha]), if_pos hb]; omega

theorem countP_set_down {α : Type} {p : α → Bool} {l : List α} {i : Nat} {a b : α} (h : l[i]? = some a) (ha : p a = true) (hb : p b = false) :
    (l.set i b).countP p + 1 = l.countP p := by
  obtain ⟨hi, rfl⟩ := List.getElem?_eq_some_iff.1 h
  have : 0 < l.countP p := List.countP_pos_iff.2 ⟨_, List.getElem_mem hi, ha⟩
  rw [List.countP_set hi, if_pos ha, if_neg (by simp [hb])]; omega

/-- What holds in every reachable state. -/
structure Inv (n : Nat) (y : Sys) : Prop where
  threads : y.pcs.length = n
  runs : y.started = y.ended + inProgress y
  count : y.st.executions = BitVec.ofNat 32 (inProgress y)

theorem inProgress_le (y : Sys) : inProgress y ≤ y.pcs.length := List.countP_le_length

theorem inv_reach {n : Nat} {y : Sys} (h : Reach n y) : Inv n y := by
  induction h with
  | init => exact ⟨by simp [init], by simp [init, inProgress, List.countP_replicate, PC.running], by simp [init, inProgress, List.countP_replicate, PC.running]⟩
  | step _ hs ih =>
    obtain ⟨h1, h2, h3⟩ := ih
    cases hs with
    | call h | load h | retry h | body h | load' h | retry' h =>
      unfold inProgress at *
      refine ⟨by simp [h1], ?_, ?_⟩ <;> unfold inProgress <;> dsimp only <;> rw [countP_set_same h] <;> first | exact h2 | exact h3 | rfl
    | start h hst =>
      have e := countP_set_up (p := PC.running) (b := PC.body) h rfl rfl
      refine ⟨by simp [h1], ?_, ?_⟩
      · unfold inProgress at *; simp only [e]; omega
      · unfold inProgress at *; rw [e, St.begin]; simp only [← hst, h3]
        rw [BitVec.ofNat_add]; rfl
    | stop h hst =>
      have e := countP_set_down (p := PC.running) (b := PC.idle) h rfl rfl
      refine ⟨by simp [h1], ?_, ?_⟩
      · unfold inProgress at *; simp only; omega
      · unfold inProgress at *; rw [St.finish]; simp only [← hst, h3, ← e]
        rw [BitVec.ofNat_add]; exact BitVec.add_sub_cancel _ _

/-- The flag, as long as the counter has not wrapped. -/
theorem flag_reach {n : Nat} {y : Sys} (hn : n ≤ 2 ^ 32) (h : Reach n y) : y.st.completed = decide (0 < y.ended ∧ inProgress y = 0) := by
  induction h with
  | init => simp [init]
  | @step y y' hr hs ih =>
    have hi := inv_reach hr
    have hi' := inv_reach (hr.step hs)
    cases hs with
    | call h | load h | retry h | body h | load' h | retry' h =>
      unfold inProgress at *
      dsimp only
      rw [countP_set_same h]
      · exact ih
      · rfl
    | start h hst =>
      have e := countP_set_up (p := PC.running) (b := PC.body) h rfl rfl
      unfold inProgress at *; simp only [St.begin, e]; simp
    | @stop i s h hst =>
      have e := countP_set_down (p := PC.running) (b := PC.idle) h rfl rfl
      have hl := inProgress_le y
      have h1 := hi.threads
      have h3 := hi.count
      unfold inProgress at *
      have hx : y.pcs.countP PC.running < 2 ^ 32 ∨ y.pcs.countP PC.running = 2 ^ 32 := by omega
      simp only [St.finish, ← hst, h3]
      have : (BitVec.ofNat 32 (y.pcs.countP PC.running) == 1) = decide (y.pcs.countP PC.running = 1) := by
        rw [Bool.eq_iff_iff, beq_iff_eq, decide_eq_true_iff]
        constructor
        · intro hh
          have := congrArg BitVec.toNat hh
          simp at this
          rcases hx with hx | hx
          · omega
          · rw [hx] at this; omega
        · intro hh; rw [hh]; rfl
      rw [this, decide_eq_decide]
      omega

/-- **C34 (partial)**: with at most `2^32` threads, in every reachable state the task reports finished exactly when at least one run has
completed and no run is in progress. Missing: more threads (`C34_refuted`). -/
theorem C34_partial {n : Nat} (hn : n ≤ 2 ^ 32) {y : Sys} (h : Reach n y) :
    isFinished y = true ↔ 0 < y.ended ∧ ∀ i : Nat, (y.pcs[i]?.map PC.running).getD false = false := by
  have hf := flag_reach hn h
  unfold isFinished
  rw [hf, decide_eq_true_iff]
  apply and_congr_right
  intro _
  unfold inProgress
  rw [List.countP_eq_zero]
  constructor
  · intro hh i
    cases hi : y.pcs[i]? with
    | none => rfl
    | some a => simpa using hh a (List.mem_of_getElem? hi)
  · intro hh a ha
    obtain ⟨i, hi, rfl⟩ := List.getElem_of_mem ha
    have := hh i
    rw [List.getElem?_eq_getElem hi] at this
    simpa using this

/-- The runs are accounted for: those started are those that ended and those in progress. -/
theorem C34_runs {n : Nat} {y : Sys} (h : Reach n y) : y.started = y.ended + inProgress y := (inv_reach h).runs

/-- `k` threads run one after the other up to the task function. -/
theorem reach_started (n k : Nat) (hk : k ≤ n) : ∃ y, Reach n y ∧ inProgress y = k ∧ y.ended = 0 ∧
    y.pcs = List.replicate k .body ++ List.replicate (n - k) .idle := by
  induction k with
  | zero => exact ⟨init n, .init, by simp [init, inProgress, List.countP_replicate, PC.running], rfl, by simp [init]⟩
  | succ k ih =>
    obtain ⟨y, hr, hp, he, hl⟩ := ih (by omega)
    have hidle : y.pcs[k]? = some .idle := by
      rw [hl, List.getElem?_append_right (by simp), List.getElem?_replicate, List.length_replicate, if_pos (by omega)]
    have hlen : k < y.pcs.length := by rw [hl]; simp; omega
    have r1 := hr.step (.call hidle)
    have r2 := r1.step (.load (i := k) (by simp [hlen]))
    have r3 := r2.step (.start (i := k) (s := y.st) (by simp [hlen]) rfl)
    refine ⟨_, r3, ?_, he, ?_⟩
    · have := (inv_reach r3).runs
      have := (inv_reach hr).runs
      simp only at *
      omega
    · simp only [List.set_set, hl]
      apply List.ext_getElem?
      intro j
      rw [List.getElem?_set]
      simp only [List.getElem?_append, List.getElem?_replicate, List.length_replicate, List.length_append]
      grind

theorem wrapped (n m : Nat) (hm : n = m + 1) (hx : BitVec.ofNat 32 n = 1) :
    ∃ y, Reach n y ∧ isFinished y = true ∧ inProgress y = m := by
  obtain ⟨y, hr, hp, he, hl⟩ := reach_started n n (Nat.le_refl _)
  have hb : y.pcs[0]? = some .body := by
    rw [hl, List.getElem?_append_left (by simp; omega)]
    rw [List.getElem?_replicate, if_pos (by omega)]
  have hlen : 0 < y.pcs.length := (List.getElem?_eq_some_iff.1 hb).1
  have r1 := hr.step (.body hb)
  have r2 := r1.step (.load' (i := 0) (by simp [hlen]))
  have r3 := r2.step (.stop (i := 0) (s := y.st) (by simp [hlen]) rfl)
  have hc := (inv_reach hr).count
  refine ⟨_, r3, ?_, ?_⟩
  · simp only [isFinished, St.finish, hc, hp, hx]; rfl
  · have h1 := (inv_reach r3).runs
    have h2 := (inv_reach hr).runs
    simp only at *
    omega

/-- **C34 is false for more than `2^32` threads**: the counter wraps, and the task can report finished with `2^32` runs in progress. -/
theorem C34_refuted : ∃ y, Reach (2 ^ 32 + 1) y ∧ isFinished y = true ∧ inProgress y = 2 ^ 32 :=
  wrapped (2 ^ 32 + 1) (2 ^ 32) rfl (by decide)

/-! ## Examples -/

/-- Two threads, one run finished, the other one in the task function. -/
example : ∃ y, Reach 2 y ∧ 0 < y.ended ∧ inProgress y = 1 := by
  obtain ⟨y, hr, hp, he, hl⟩ := reach_started 2 2 (Nat.le_refl _)
  have hb : y.pcs[0]? = some .body := by rw [hl]; rfl
  have hlen : 0 < y.pcs.length := (List.getElem?_eq_some_iff.1 hb).1
  have r3 := ((hr.step (.body hb)).step (.load' (i := 0) (by simp [hlen]))).step (.stop (i := 0) (s := y.st) (by simp [hlen]) rfl)
  refine ⟨_, r3, Nat.succ_pos _, ?_⟩
  have h1 := (inv_reach r3).runs
  have h2 := (inv_reach hr).runs
  simp only at *
  omega

#print axioms C34_partial
#print axioms C34_runs
#print axioms C34_refuted

end Verif.Task
