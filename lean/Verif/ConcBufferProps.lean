import Verif.ConcBuffer
import Verif.Conc
/-!
# C13: the concurrent buffer conserves its data
-/
namespace Verif.ConcBuffer
open Verif.Conc

/-- Is the thread about to dispose of `x`? -/
def disposing (x : Nat) (p : PC) : Nat := match p with
  | .replaced (some d) => if d = x then 1 else 0
  | _ => 0

/-- The number of places where `x` is. -/
def places (y : Sys) (x : Nat) : Nat :=
  (if y.alive then y.data.toList.count x else 0) + sumBy (disposing x) y.thrs + y.returned.count x + y.destroyed.count (some x) + y.dropped.count x

theorem count_toList (o : Option Nat) (x : Nat) : o.toList.count x = if o = some x then 1 else 0 := by
  cases o with
  | none => simp
  | some d => by_cases h : d = x <;> simp [h]

theorem disposing_replaced (x : Nat) (o : Option Nat) : disposing x (.replaced o) = o.toList.count x := by
  rw [count_toList]
  cases o with
  | none => simp [disposing]
  | some d => simp [disposing]

/-- **C13.** However any number of writers, swappers and readers interleave, every datum given to the buffer is in exactly as many places as times it was given: in the buffer, about to be destroyed by the one write that
replaced it, returned to one swapper or reader, destroyed, or, if there is no destructor, dropped by the write that replaced it.  So a datum given once is in exactly one place.  Nothing is dropped when there is a destructor, and nothing destroyed when there is none. -/
theorem C13_buffer_conserves (n : Nat) (y : Sys) (h : Reach true n y) :
    (∀ x, places y x = y.written.count x) ∧ y.dropped = [] := by
  induction h with
  | init =>
    refine ⟨fun x => ?_, rfl⟩
    simp only [places, init, sumBy_replicate]; simp [disposing]
  | @step y y' _ s ih =>
    obtain ⟨ih, hd⟩ := ih
    cases s with
    | @write i d ha ht =>
      refine ⟨fun x => ?_, hd⟩
      have := ih x
      have e := sumBy_set (disposing x) ht (.replaced y.data)
      rw [disposing_replaced] at e
      simp only [disposing] at e
      simp only [places, ha, if_true, List.count_append] at this ⊢
      omega
    | @finish i old ha ht =>
      refine ⟨fun x => ?_, by simp [hd]⟩
      have := ih x
      have e := sumBy_set (disposing x) ht .idle
      rw [disposing_replaced] at e
      simp only [disposing] at e
      have e' : (if (true && old.isSome) = true then [old] else []).count (some x) = old.toList.count x := by
        rw [count_toList]
        cases old with
        | none => simp
        | some d => by_cases h : d = x <;> simp [h]
      simp only [places, ha, if_true, List.count_append, e'] at this ⊢
      simp only [List.count_nil]
      omega
    | @swap i d ha ht =>
      refine ⟨fun x => ?_, hd⟩
      have := ih x
      simp only [places, ha, if_true, List.count_append] at this ⊢
      omega
    | destroy ha ht =>
      refine ⟨fun x => ?_, hd⟩
      have := ih x
      have e' : [y.data].count (some x) = y.data.toList.count x := by
        rw [count_toList]
        by_cases h : y.data = some x <;> simp [h]
      simp only [places, ha, if_true, List.count_append, e'] at this ⊢
      simp only [Bool.false_eq_true, if_false]
      omega

/-- **C13**, no destructor: the same places; the buffer itself destroys nothing, what it still holds when it goes away stays with the user. -/
theorem C13_buffer_conserves_no_destructor (n : Nat) (y : Sys) (h : Reach false n y) :
    (∀ x, y.data.toList.count x + sumBy (disposing x) y.thrs + y.returned.count x + y.dropped.count x = y.written.count x) ∧ y.destroyed = [] := by
  induction h with
  | init =>
    refine ⟨fun x => ?_, rfl⟩
    simp only [init, sumBy_replicate]; simp [disposing]
  | @step y y' _ s ih =>
    obtain ⟨ih, hd⟩ := ih
    cases s with
    | @write i d ha ht =>
      refine ⟨fun x => ?_, hd⟩
      have := ih x
      have e := sumBy_set (disposing x) ht (.replaced y.data)
      rw [disposing_replaced] at e
      simp only [disposing] at e
      simp only [List.count_append] at this ⊢
      omega
    | @finish i old ha ht =>
      refine ⟨fun x => ?_, by simp [hd]⟩
      have := ih x
      have e := sumBy_set (disposing x) ht .idle
      rw [disposing_replaced] at e
      simp only [disposing] at e
      simp only [List.count_append, Bool.false_eq_true, if_false] at this ⊢
      omega
    | @swap i d ha ht =>
      refine ⟨fun x => ?_, hd⟩
      have := ih x
      simp only [List.count_append] at this ⊢
      omega
    | destroy ha ht => exact ⟨ih, by simp [hd]⟩

/-- Consequence for data given only once: exactly one place, so no datum is both returned and destroyed, none returned or destroyed twice, and none lost. -/
theorem C13_one_place (n : Nat) (y : Sys) (h : Reach true n y) (hn : y.written.Nodup) (x : Nat) (hx : x ∈ y.written) : places y x = 1 := by
  rw [(C13_buffer_conserves n y h).1 x]
  rw [hn.count, if_pos hx]

/-- **C13**, the destructor: while the buffer is in use it is only called with data that were given to the buffer, never with `NULL`. -/
theorem C13_destructor_argument_partial (n : Nat) (y : Sys) (h : Reach true n y) (ha : y.alive = true) : none ∉ y.destroyed := by
  induction h with
  | init => simp [init]
  | @step y y' _ s ih =>
    cases s with
    | write _ _ _ => exact ih ha
    | @finish i old a ht =>
      rw [List.mem_append, not_or]
      refine ⟨ih a, ?_⟩
      cases old <;> simp
    | swap _ _ _ => exact ih ha
    | destroy _ _ => exact absurd ha (by simp)

/-- Destroying a buffer that holds nothing calls the destructor with `NULL` (line 41 has no test, unlike line 74), with any number of threads. -/
theorem C13_destructor_null_refuted : ∀ n, ∃ y, Reach true n y ∧ y.written = [] ∧ y.destroyed = [none] := fun n =>
  ⟨_, Reach.init.step (Step.destroy rfl (fun t ht => (List.mem_replicate.1 ht).2)), rfl, rfl⟩

/-- Non-vacuity: two writers, a reader, and the destruction of the buffer. -/
example : ∃ y, Reach true 2 y ∧ y.written = [1, 2, 3] ∧ y.returned = [2] ∧ y.destroyed = [some 1, some 3] ∧ y.written.Nodup := by
  have h := Reach.init (dtor := true) (n := 2)
  have h := h.step (Step.write (i := 0) (some 1) rfl rfl)
  have h := h.step (Step.write (i := 1) (some 2) rfl rfl)
  have h := h.step (Step.finish (i := 0) rfl rfl)
  have h := h.step (Step.swap (i := 0) none rfl rfl)
  have h := h.step (Step.finish (i := 1) rfl rfl)
  have h := h.step (Step.swap (i := 0) (some 3) rfl rfl)
  have h := h.step (Step.destroy rfl (by decide))
  exact ⟨_, h, rfl, rfl, rfl, by decide⟩

#print axioms C13_buffer_conserves
#print axioms C13_one_place
#print axioms C13_destructor_null_refuted
end Verif.ConcBuffer
