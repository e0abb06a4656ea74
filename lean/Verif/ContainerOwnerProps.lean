import Verif.ContainerOwner
/-!
# C154: the container of a data container lives as long as the data
-/
namespace Verif.ContainerOwner

namespace Spec

/-- What the program itself has: its own references to each container, and of the data it created the container and how many references
it still has. -/
structure Ledger where
  own : Nat → Nat
  held : List (Nat × Nat)

/-- The program gives back only what it has, and uses only what it has; `none` if it does not keep to that.  It need not keep its own
reference to a container whose data it uses. -/
def Ledger.step (l : Ledger) : Op → Option Ledger
  | .create c ok1 ok2 => if l.own c = 0 then none else some (if ok1 && ok2 then { l with held := l.held ++ [(c, 1)] } else l)
  | .retain c => if l.own c = 0 then none else some { l with own := fun j => if j = c then l.own c + 1 else l.own j }
  | .release c => if l.own c = 0 then none else some { l with own := fun j => if j = c then l.own c - 1 else l.own j }
  | .retainData d => match l.held[d]? with
    | some (c, n + 1) => some { l with held := l.held.set d (c, n + 2) }
    | _ => none
  | .destroy d => match l.held[d]? with
    | some (c, n + 1) => some { l with held := l.held.set d (c, n) }
    | _ => none
  | .use d => match l.held[d]? with
    | some (_, _ + 1) => some l
    | _ => none

/-- A run of a program. -/
def Ledger.run (l : Ledger) : List Op → Option Ledger
  | [] => some l
  | o :: os => do Ledger.run (← l.step o) os

/-- The number of data the program still has on a container. -/
def on (held : List (Nat × Nat)) (c : Nat) : Nat := held.countP fun x => x.1 = c ∧ x.2 ≠ 0

/-- The number of data the program still has. -/
def alive (held : List (Nat × Nat)) : Nat := held.countP fun x => x.2 ≠ 0

end Spec
open Spec

/-- What holds throughout: the counts are those of the ledger. -/
structure Inv (s : State) (l : Ledger) : Prop where
  datas : s.datas = l.held
  refs : ∀ c, s.refs c = l.own c + on l.held c
  blocks : s.blocks = 2 * alive l.held

theorem countP_set' {p : Nat × Nat → Bool} {l : List (Nat × Nat)} {d : Nat} {x y : Nat × Nat} (h : l[d]? = some x) :
    (l.set d y).countP p + (if p x then 1 else 0) = l.countP p + (if p y then 1 else 0) := by
  induction l generalizing d with
  | nil => simp at h
  | cons a l ih =>
    cases d with
    | zero => simp at h; subst h; simp only [List.set_cons_zero, List.countP_cons]; omega
    | succ d => simp only [List.set_cons_succ, List.countP_cons]; have := ih (d := d) (by simpa using h); omega

theorem on_set {held : List (Nat × Nat)} {d c n m : Nat} (h : held[d]? = some (c, n)) (j : Nat) :
    on (held.set d (c, m)) j + (if c = j ∧ n ≠ 0 then 1 else 0) = on held j + (if c = j ∧ m ≠ 0 then 1 else 0) := by
  simpa [on] using countP_set' (p := fun x => decide (x.1 = j ∧ x.2 ≠ 0)) (y := (c, m)) h

theorem alive_set {held : List (Nat × Nat)} {d c n m : Nat} (h : held[d]? = some (c, n)) :
    alive (held.set d (c, m)) + (if n ≠ 0 then 1 else 0) = alive held + (if m ≠ 0 then 1 else 0) := by
  simpa [alive] using countP_set' (p := fun x => decide (x.2 ≠ 0)) (y := (c, m)) h

theorem on_pos {held : List (Nat × Nat)} {d c n : Nat} (h : held[d]? = some (c, n + 1)) : 0 < on held c :=
  List.countP_pos_iff.2 ⟨_, List.mem_of_getElem? h, by simp⟩

theorem step_inv {s : State} {l l' : Ledger} {o : Op} (i : Inv s l) (h : l.step o = some l') : ∃ s', step s o = .ok s' ∧ Inv s' l' := by
  obtain ⟨i1, i2, i3⟩ := i
  cases o with
  | create c ok1 ok2 =>
    simp only [Ledger.step] at h
    split at h
    · cases h
    · rename_i hc
      injection h with h; subst h
      have hr : s.refs c ≠ 0 := by rw [i2]; omega
      cases ok1 with
      | false => exact ⟨s, rfl, i1, i2, i3⟩
      | true =>
        cases ok2 with
        | false => exact ⟨_, rfl, i1, i2, by show s.blocks + 1 - 1 = _; simpa using i3⟩
        | true =>
          refine ⟨⟨upd s.refs c (s.refs c + 1), s.datas ++ [(c, 1)], s.blocks + 1 + 1⟩, ?_, by simp [i1], fun j => ?_, ?_⟩
          · simp [step, create, retain, hr, bind, Except.bind]
          · have : on (l.held ++ [(c, 1)]) j = on l.held j + if c = j then 1 else 0 := by
              simp [on, List.countP_append, List.countP_cons]
            show upd s.refs c (s.refs c + 1) j = l.own j + on (l.held ++ [(c, 1)]) j
            rw [this, upd]
            by_cases e : j = c
            · subst e; simp [i2]; omega
            · simp [e, Ne.symm e, i2]
          · show s.blocks + 1 + 1 = 2 * alive (l.held ++ [(c, 1)])
            have : alive (l.held ++ [(c, 1)]) = alive l.held + 1 := by simp [alive, List.countP_append]
            omega
  | retain c =>
    simp only [Ledger.step] at h
    split at h
    · cases h
    · injection h with h; subst h
      have hr : s.refs c ≠ 0 := by rw [i2]; omega
      refine ⟨⟨upd s.refs c (s.refs c + 1), s.datas, s.blocks⟩, by simp only [step, retain, if_neg hr], i1, fun j => ?_, i3⟩
      dsimp only [upd]
      split
      · rename_i e; subst e; rw [i2]; omega
      · exact i2 j
  | release c =>
    simp only [Ledger.step] at h
    split at h
    · cases h
    · injection h with h; subst h
      have hr : s.refs c ≠ 0 := by rw [i2]; omega
      refine ⟨⟨upd s.refs c (s.refs c - 1), s.datas, s.blocks⟩, by simp only [step, release, if_neg hr], i1, fun j => ?_, i3⟩
      dsimp only [upd]
      split
      · rename_i e; subst e; rw [i2]; omega
      · exact i2 j
  | retainData d =>
    simp only [Ledger.step] at h
    split at h
    · rename_i c n e
      injection h with h; subst h
      refine ⟨_, by simp only [step, retainData, i1, e]; rfl, rfl, fun j => ?_, ?_⟩
      · have := on_set (m := n + 2) e j
        have := i2 j
        dsimp only
        by_cases hj : c = j
        · subst hj; simp at *; omega
        · simp [hj] at *; omega
      · have := alive_set (m := n + 2) e
        simp at this
        dsimp only; omega
    · cases h
  | destroy d =>
    simp only [Ledger.step] at h
    split at h
    · rename_i c n e
      injection h with h; subst h
      have hp := on_pos e
      have hr : s.refs c ≠ 0 := by rw [i2]; omega
      cases n with
      | zero =>
        refine ⟨⟨upd s.refs c (s.refs c - 1), l.held.set d (c, 0), s.blocks - 1 - 1⟩, ?_, rfl, fun j => ?_, ?_⟩
        · simp [step, destroy, release, hr, i1, e, bind, Except.bind]
        · have h1 := on_set (m := 0) e j
          have h2 := i2 j
          dsimp only [upd]
          by_cases hj : j = c
          · subst hj; simp at h1 ⊢; omega
          · simp [hj, Ne.symm hj] at h1 ⊢; omega
        · have := alive_set (m := 0) e
          simp at this
          dsimp only; omega
      | succ n =>
        refine ⟨_, by simp only [step, destroy, i1, e]; rfl, rfl, fun j => ?_, ?_⟩
        · have h1 := on_set (m := n + 1) e j
          have h2 := i2 j
          dsimp only
          by_cases hj : c = j
          · subst hj; simp at h1; omega
          · simp [hj] at h1; omega
        · have := alive_set (m := n + 1) e
          simp at this
          dsimp only; omega
    · cases h
  | use d =>
    simp only [Ledger.step] at h
    split at h
    · rename_i c n e
      injection h with h; subst h
      have hp := on_pos e
      have hr : s.refs c ≠ 0 := by rw [i2]; omega
      exact ⟨s, by simp only [step, use, i1, e, if_neg hr], i1, i2, i3⟩
    · cases h

theorem run_inv {ops : List Op} : ∀ {s : State} {l l' : Ledger}, Inv s l → l.run ops = some l' → ∃ s', run s ops = .ok s' ∧ Inv s' l' := by
  induction ops with
  | nil => intro s l l' i h; injection h with h; subst h; exact ⟨s, rfl, i⟩
  | cons o os ih =>
    intro s l l' i h
    simp only [Ledger.run] at h
    cases e : l.step o with
    | none => rw [e] at h; cases h
    | some l1 =>
      rw [e] at h
      obtain ⟨s1, e1, i1⟩ := step_inv i e
      obtain ⟨s2, e2, i2⟩ := ih i1 h
      exact ⟨s2, by simp only [run, e1]; exact e2, i2⟩

/-- **C154**: whatever a program does that gives back only what it has, nothing undefined happens, even if it gives up its own references
to a container and goes on using the data.  A container has the program's own references and one for each of the data the program still
has on it; so it is gone exactly when the program has none of either.  The data take up two blocks each while they are there and none
afterwards. -/
theorem C154_owned (own : Nat → Nat) (ops : List Op) (l : Ledger) (keeps : Ledger.run ⟨own, []⟩ ops = some l) :
    ∃ s, run ⟨own, [], 0⟩ ops = .ok s ∧ s.datas = l.held ∧ (∀ c, s.refs c = l.own c + on l.held c) ∧
      (∀ c, s.refs c = 0 ↔ l.own c = 0 ∧ ∀ n, (c, n) ∈ l.held → n = 0) ∧ s.blocks = 2 * alive l.held := by
  obtain ⟨s, e, i⟩ := run_inv (s := ⟨own, [], 0⟩) ⟨rfl, fun c => by simp [on], by simp [alive]⟩ keeps
  refine ⟨s, e, i.datas, i.refs, fun c => ?_, i.blocks⟩
  rw [i.refs]
  have : on l.held c = 0 ↔ ∀ n, (c, n) ∈ l.held → n = 0 := by
    rw [on, List.countP_eq_zero]
    constructor
    · intro h n hn
      have := h _ hn
      simpa using this
    · rintro h ⟨c', n⟩ hn
      simp only [decide_eq_true_eq]
      rintro ⟨rfl, hz⟩
      exact hz (h n hn)
  rw [← this]; omega

/-- **C154, failure**: data that could not be created take no reference and no memory. -/
theorem C154_failure (s : State) (c : Nat) (ok1 ok2 : Bool) (h : (ok1 && ok2) = false) : create s c ok1 ok2 = .ok s := by
  cases ok1 with
  | false => rfl
  | true => cases ok2 with
    | false => rfl
    | true => simp at h

/-! ### The hypotheses can be met -/

/-- The program gives up its container at once, uses the data, keeps a second reference to them, and gives up both. -/
def exampleOps : List Op := [.create 4 true false, .create 4 true true, .release 4, .use 0, .retainData 0, .destroy 0, .use 0]

example : ((Ledger.run ⟨fun c => if c = 4 then 1 else 0, []⟩ exampleOps).map fun l => (l.own 4, l.held)) = some (0, [(4, 1)]) ∧
    ((Ledger.run ⟨fun c => if c = 4 then 1 else 0, []⟩ (exampleOps ++ [.destroy 0])).map fun l => (l.own 4, l.held)) = some (0, [(4, 0)]) := by
  decide

example : (match run ⟨fun c => if c = 4 then 1 else 0, [], 0⟩ exampleOps with | .ok s => some (s.refs 4, s.blocks) | _ => none) = some (1, 2) ∧
    (match run ⟨fun c => if c = 4 then 1 else 0, [], 0⟩ (exampleOps ++ [.destroy 0]) with | .ok s => some (s.refs 4, s.blocks) | _ => none) = some (0, 0) := by
  decide

#print axioms C154_owned
#print axioms C154_failure

end Verif.ContainerOwner
