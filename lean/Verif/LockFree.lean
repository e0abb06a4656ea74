/-!
# Exchange loops made explicit, and a bound on runs in which no call returns

Helpers for the progress of models whose compare-and-exchange loops are one step.  The rounds of the loops are added back: a thread first loads the shared value, then tries the exchange; the exchange may fail only if the value was changed since
the load (exchanges that fail without cause are left aside), and then the loop begins again.
-/
namespace Verif.LockFree

/-- A concurrent program of which the exchange loops are single steps. -/
structure Prog (S P V : Type) where
  /-- the steps -/
  Step : S → S → Prop
  /-- where the threads are -/
  thrs : S → List P
  /-- the shared values that are exchanged -/
  val : S → Nat → V
  /-- the shared value a thread is about to exchange -/
  slot : P → Option Nat
  /-- is this move such an exchange? -/
  exch : P → P → Bool
  /-- does the thread, once there, still have the value it loaded before? -/
  keep : P → Bool
  /-- does a call return with this move? -/
  done : P → P → Bool

/-- A state, with the number of changes of each shared value so far, and for each thread that has loaded one their number at that time. -/
structure Fine (S : Type) where
  sys : S
  ver : Nat → Nat
  seen : Nat → Option Nat

/-- Change what one thread has loaded. -/
def upd {α : Type} (f : Nat → α) (a : Nat) (b : α) : Nat → α := fun x => if x = a then b else f x

variable {S P V : Type} [DecidableEq V]

/-- One step, a round of a loop being a load and an exchange. -/
inductive FStep (L : Prog S P V) : Fine S → Fine S → Prop
  /-- the value is loaded -/
  | load {f : Fine S} {i a : Nat} {p : P} : (L.thrs f.sys)[i]? = some p → L.slot p = some a → f.seen i = none → FStep L f ⟨f.sys, f.ver, upd f.seen i (some (f.ver a))⟩
  /-- the exchange fails: the value was changed since it was loaded -/
  | fail {f : Fine S} {i a v : Nat} {p : P} : (L.thrs f.sys)[i]? = some p → L.slot p = some a → f.seen i = some v → v ≠ f.ver a → FStep L f ⟨f.sys, f.ver, upd f.seen i none⟩
  /-- any other step; an exchange needs a loaded value -/
  | move {f : Fine S} {i : Nat} {p p' : P} {y : S} : (L.thrs f.sys)[i]? = some p → L.Step f.sys y → L.thrs y = (L.thrs f.sys).set i p' → p ≠ p' → (L.exch p p' = true → f.seen i ≠ none) →
      FStep L f ⟨y, fun a => if L.val y a = L.val f.sys a then f.ver a else f.ver a + 1, upd f.seen i (if L.keep p' then f.seen i else none)⟩

/-- A call returns. -/
def Done (L : Prog S P V) (y y' : S) : Prop := ∃ (i : Nat) (p p' : P), (L.thrs y)[i]? = some p ∧ (L.thrs y')[i]? = some p' ∧ p ≠ p' ∧ L.done p p' = true

/-- The states reachable from one of the given. -/
inductive FReach (L : Prog S P V) (y₀ : S) : Fine S → Prop
  | init : FReach L y₀ ⟨y₀, fun _ => 0, fun _ => none⟩
  | step {f f' : Fine S} : FReach L y₀ f → FStep L f f' → FReach L y₀ f'

/-- `k` steps of any threads, in which no call returns. -/
inductive Quiet (L : Prog S P V) : Nat → Fine S → Fine S → Prop
  | nil (f : Fine S) : Quiet L 0 f f
  | cons {k : Nat} {f f' f'' : Fine S} : FStep L f f' → ¬ Done L f.sys f'.sys → Quiet L k f' f'' → Quiet L (k + 1) f f''

theorem Quiet.snoc {L : Prog S P V} {k : Nat} {f f' f'' : Fine S} (h : Quiet L k f f') (s : FStep L f' f'') (nd : ¬ Done L f'.sys f''.sys) : Quiet L (k + 1) f f'' := by
  induction h with
  | nil f => exact .cons s nd (.nil _)
  | cons s' nd' _ ih => exact .cons s' nd' (ih s nd)

/-- The rounds a thread needs before its exchange succeeds if nobody else changes the value. -/
def rounds (L : Prog S P V) (f : Fine S) (i : Nat) (p : P) : Nat := match L.slot p with
  | none => 0
  | some a => match f.seen i with
    | none => 1
    | some v => if v = f.ver a then 0 else 2

omit [DecidableEq V] in
theorem rounds_le (L : Prog S P V) (f : Fine S) (i : Nat) (p : P) : rounds L f i p ≤ 2 := by
  simp only [rounds]
  split
  · omega
  · split
    · omega
    · split <;> omega

/-- What is left for thread `i`. -/
def due (L : Prog S P V) (left : S → P → Nat) (c : Nat) (f : Fine S) (i : Nat) : Nat := match (L.thrs f.sys)[i]? with
  | none => 0
  | some p => c * left f.sys p + rounds L f i p

/-- The sum of `f 0, …, f (n - 1)`. -/
def sumTo (f : Nat → Nat) : Nat → Nat
  | 0 => 0
  | n + 1 => sumTo f n + f n

theorem sumTo_le {f f' : Nat → Nat} {i c d : Nat} (n : Nat) (h : ∀ j, j ≠ i → f' j ≤ f j + c) (hi : f' i + d ≤ f i) :
    (n ≤ i → sumTo f' n ≤ sumTo f n + c * n) ∧ (i < n → sumTo f' n + d ≤ sumTo f n + c * n) := by
  induction n with
  | zero => exact ⟨fun _ => Nat.zero_le _, fun h => absurd h (Nat.not_lt_zero _)⟩
  | succ n ih =>
    have hs : c * (n + 1) = c * n + c := by rw [Nat.mul_succ]
    refine ⟨fun hn => ?_, fun hn => ?_⟩
    · have := ih.1 (by omega)
      have := h n (by omega)
      simp only [sumTo]
      omega
    · by_cases e : n = i
      · subst e
        have := ih.1 (Nat.le_refl _)
        simp only [sumTo]
        omega
      · have := ih.2 (by omega)
        have := h n e
        simp only [sumTo]
        omega

theorem sumTo_bound {f : Nat → Nat} {b : Nat} (h : ∀ j, f j ≤ b) (n : Nat) : sumTo f n ≤ n * b := by
  induction n with
  | zero => simp [sumTo]
  | succ n ih =>
    have := h n
    simp only [sumTo, Nat.succ_mul]
    omega

theorem lt_of_some {α : Type} {l : List α} {i : Nat} {a : α} (h : l[i]? = some a) : i < l.length := by
  rw [List.getElem?_eq_some_iff] at h
  exact h.1

/-- If every step in which no call returns brings its thread nearer to the end of its call, runs in which no call returns are short. -/
theorem quiet_bound (L : Prog S P V) (good : S → Prop) (left : S → P → Nat)
    (down : ∀ (y y' : S) (i : Nat) (p p' : P), good y → L.Step y y' → (L.thrs y)[i]? = some p → L.thrs y' = (L.thrs y).set i p' → p ≠ p' → L.done p p' = false →
      good y' ∧ left y' p' < left y p ∧ ∀ q, left y' q = left y q)
    {k : Nat} {f f' : Fine S} (h : Quiet L k f f') (g : good f.sys) :
    k ≤ sumTo (due L left (2 * (L.thrs f.sys).length + 3) f) (L.thrs f.sys).length := by
  induction h with
  | nil f => exact Nat.zero_le _
  | @cons k f f₂ f₃ s nd _ ih =>
    cases s with
    | @load i a p hp hs hn =>
      have := ih g
      have hk := (sumTo_le (f := due L left (2 * (L.thrs f.sys).length + 3) f) (f' := due L left (2 * (L.thrs f.sys).length + 3) ⟨f.sys, f.ver, upd f.seen i (some (f.ver a))⟩) (i := i) (c := 0) (d := 1) (L.thrs f.sys).length
        (fun j hj => by simp [due, rounds, upd, hj]) (by simp [due, rounds, upd, hp, hs, hn])).2 (lt_of_some hp)
      simp only [] at this
      omega
    | @fail i a v p hp hs hn hv =>
      have := ih g
      have hk := (sumTo_le (f := due L left (2 * (L.thrs f.sys).length + 3) f) (f' := due L left (2 * (L.thrs f.sys).length + 3) ⟨f.sys, f.ver, upd f.seen i none⟩) (i := i) (c := 0) (d := 1) (L.thrs f.sys).length
        (fun j hj => by simp [due, rounds, upd, hj]) (by simp [due, rounds, upd, hp, hs, hn, hv])).2 (lt_of_some hp)
      simp only [] at this
      omega
    | @move i p p' y hp hst ht hne hx =>
      have hl := lt_of_some hp
      have hp' : (L.thrs y)[i]? = some p' := by rw [ht, List.getElem?_set_self hl]
      have hd : L.done p p' = false := by
        cases hd : L.done p p' with
        | false => rfl
        | true => exact absurd ⟨i, p, p', hp, hp', hne, hd⟩ nd
      obtain ⟨g', lt, same⟩ := down _ _ _ _ _ g hst hp ht hne hd
      have := ih g'
      have hlen : (L.thrs y).length = (L.thrs f.sys).length := by rw [ht, List.length_set]
      simp only [] at this
      rw [hlen] at this
      generalize hn : (L.thrs f.sys).length = n at *
      generalize hf : (⟨y, fun a => if L.val y a = L.val f.sys a then f.ver a else f.ver a + 1, upd f.seen i (if L.keep p' then f.seen i else none)⟩ : Fine S) = f₁ at *
      have hy : f₁.sys = y := by rw [← hf]
      have hk := (sumTo_le (f := due L left (2 * n + 3) f) (f' := due L left (2 * n + 3) f₁) (i := i) (c := 2) (d := 2 * n + 1) n
        (fun j hj => by
          have hj' : (L.thrs y)[j]? = (L.thrs f.sys)[j]? := by rw [ht, List.getElem?_set_ne (Ne.symm hj)]
          simp only [due, hy, hj']
          split
          · omega
          · have := rounds_le L f₁ j ‹_›
            rw [same]
            omega) (by
          simp only [due, hy, hp, hp']
          have := rounds_le L f₁ i p'
          have hm : (2 * n + 3) * (left y p' + 1) ≤ (2 * n + 3) * left f.sys p := Nat.mul_le_mul_left _ lt
          rw [Nat.mul_succ] at hm
          omega)).2 hl
      omega

theorem FReach.sys {L : Prog S P V} {y₀ : S} {R : S → Prop} (h₀ : R y₀) (hs : ∀ y y', R y → L.Step y y' → R y') {f : Fine S} (h : FReach L y₀ f) : R f.sys := by
  induction h with
  | init => exact h₀
  | step _ s ih =>
    cases s with
    | load => exact ih
    | fail => exact ih
    | move _ st => exact hs _ _ ih st

end Verif.LockFree
