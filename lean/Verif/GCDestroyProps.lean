import Verif.GCDestroy
import Verif.EpochGCProps
import Verif.LazyGCProps
/-!
# C109: destroying a garbage collector
-/
namespace Verif.GCDestroy
open Verif.Conc

theorem drain_eq (active l) : ∀ log, drain active l log = log ++ l.map fun x => (x, active) := by
  induction l with
  | nil => intro log; simp [drain]
  | cons x l ih => intro log; rw [drain, ih]; simp

theorem drain_fst (active l log) : (drain active l log).map Prod.fst = log.map Prod.fst ++ l := by
  rw [drain_eq, List.map_append, List.map_map]
  congr 1
  induction l with
  | nil => rfl
  | cons x l ih => simpa using ih

/-- How often each item has been reclaimed after destruction: once if it was handed over, unless a thread still holds it. -/
theorem epoch_count {w n : Nat} (hn : n < w) {y : EpochGC.Sys} (h : EpochGC.Reach w n y) (x : Nat) :
    ((epoch y).reclaimed.map Prod.fst).count x + ((y.thrs.map EpochGC.PC.items).flatten).count x = if x < y.managed.length then 1 else 0 := by
  have hp := (h.inv hn).places x
  have hs : ∀ l : List EpochGC.PC, ((l.map EpochGC.PC.items).flatten).count x = sumBy (EpochGC.holds x) l := by
    intro l
    induction l with
    | nil => rfl
    | cons a l ih => simp only [List.map_cons, List.flatten_cons, List.count_append, ih, sumBy_cons, EpochGC.holds]
  rw [hs, ← hp]
  simp only [epoch, List.foldl_cons, List.foldl_nil, epochRound, drain_fst, EpochGC.upd, List.count_append, EpochGC.places, EpochGC.total]
  simp
  omega

theorem lazy_count {w n : Nat} (hn : n < w) {y : LazyGC.Sys} (h : LazyGC.Reach w n y) (x : Nat) :
    ((lazy y).reclaimed.map Prod.fst).count x + sumBy (LazyGC.holds x) y.thrs = if x < y.managed.length then 1 else 0 := by
  have hp := (h.inv hn).places x
  rw [← hp]
  simp only [lazy, drain_fst, List.count_append, LazyGC.places]
  omega

/-- **C109**, epoch collector.  In every interleaving of any number of threads: once all threads have left their sections and finished reclaiming, destroying the collector leaves everything that was ever handed over reclaimed exactly
once, and nothing else. -/
theorem C109_epoch (w n : Nat) (hn : n < w) (y : EpochGC.Sys) (h : EpochGC.Reach w n y) (quiet : ∀ t ∈ y.thrs, t = .out) :
    ∀ x, ((epoch y).reclaimed.map Prod.fst).count x = if x < y.managed.length then 1 else 0 := by
  intro x
  have hc := epoch_count hn h x
  have : ((y.thrs.map EpochGC.PC.items).flatten).count x = 0 := by
    apply List.count_eq_zero.2
    intro hm
    obtain ⟨l, hl, hx⟩ := List.mem_flatten.1 hm
    obtain ⟨t, ht, rfl⟩ := List.mem_map.1 hl
    rw [quiet t ht] at hx
    simp [EpochGC.PC.items] at hx
  omega

/-- **C109**, lazy collector: the same. -/
theorem C109_lazy (w n : Nat) (hn : n < w) (y : LazyGC.Sys) (h : LazyGC.Reach w n y) (quiet : ∀ t ∈ y.thrs, t = .out) :
    ∀ x, ((lazy y).reclaimed.map Prod.fst).count x = if x < y.managed.length then 1 else 0 := by
  intro x
  have hc := lazy_count hn h x
  have : sumBy (LazyGC.holds x) y.thrs = 0 := sumBy_eq_zero _ fun t ht => by rw [quiet t ht]; rfl
  omega

/-- The order of reclaiming: the lists of the three epochs one after the other, each newest first, after what was reclaimed before. -/
theorem C109_order (y : EpochGC.Sys) :
    (epoch y).reclaimed.map Prod.fst = y.reclaimed.map Prod.fst ++ (y.list 0 ++ y.list 1 ++ y.list 2) := by
  simp only [epoch, List.foldl_cons, List.foldl_nil, epochRound, drain_fst, EpochGC.upd]
  simp

namespace Spec

/-- The threads that began a section and did not end since; the latest event comes first. -/
def running : List Event → List Nat
  | [] => []
  | .begin t :: vs => if t ∈ running vs then running vs else t :: running vs
  | .exit t :: vs => (running vs).filter (· ≠ t)
  | .destroy :: vs => running vs

end Spec

theorem events_append (k vs ws) : events k (vs ++ ws) = (events k vs).bind fun k => events k ws := by
  induction vs generalizing k with
  | nil => rfl
  | cons v vs ih =>
    simp only [List.cons_append, events]
    cases event k v with
    | none => rfl
    | some k => simp [ih]

theorem events_running (vs : List Event) (hv : ∀ v ∈ vs, v ≠ .destroy) :
    events Key.new vs.reverse = some ⟨true, Spec.running vs⟩ := by
  induction vs with
  | nil => rfl
  | cons v vs ih =>
    rw [List.reverse_cons, events_append, ih (fun v h => hv v (List.mem_cons_of_mem _ h))]
    cases v with
    | destroy => exact absurd rfl (hv _ (List.mem_cons_self ..))
    | begin t => simp [events, event, Spec.running]
    | exit t => simp [events, event, Spec.running]

/-- **C109**, thread states: exactly the states of the threads that used the collector and had not ended when it was destroyed are left allocated, and they stay so when these threads end. -/
theorem C109_states_exact (before : List Event) (hb : ∀ v ∈ before, v ≠ .destroy) (ended : List Nat) :
    events Key.new (before ++ .destroy :: ended.map .exit) = some ⟨false, Spec.running before.reverse⟩ := by
  have h := events_running before.reverse (by simpa using hb)
  rw [List.reverse_reverse] at h
  rw [events_append, h, Option.bind_some]
  simp only [events, event, if_true, Option.bind_some]
  induction ended with
  | nil => rfl
  | cons t l ih => simpa [events, event] using ih

/-- "Must be destroyed to free the memory": a program that uses a collector in its only thread and destroys it there leaks the state of the thread. -/
theorem C109_states_refuted : ¬ ∀ before : List Event, (∀ v ∈ before, v ≠ .destroy) →
    ∃ k, events Key.new (before ++ [.destroy]) = some k ∧ k.states = [] := by
  intro h
  obtain ⟨k, hk, hs⟩ := h [.begin 0] (by simp)
  have : some (⟨false, [0]⟩ : Key) = some k := hk
  cases this
  simp at hs

/-! ### The hypotheses can be met -/

/-- A thread has handed over an item in epoch 0 and left; it is in a list until the collector is destroyed. -/
example : ∃ y, EpochGC.Reach (2 ^ 32) 1 y ∧ (∀ t ∈ y.thrs, t = .out) ∧ y.managed.length = 1 ∧ y.reclaimed = [] ∧ (epoch y).reclaimed.map Prod.fst = [0] := by
  have h := EpochGC.Reach.init (w := 2 ^ 32) (n := 1)
  have h := h.step (EpochGC.Step.begin (i := 0) rfl)
  have h := h.step (EpochGC.Step.inc (i := 0) rfl)
  have h := h.step (EpochGC.Step.enter (i := 0) rfl rfl)
  have h := h.step (EpochGC.Step.manage (i := 0) rfl)
  have h := h.step (EpochGC.Step.endLoad (i := 0) rfl)
  have h := h.step (EpochGC.Step.leave (i := 0) rfl)
  have h := h.step (EpochGC.Step.stale (i := 0) rfl rfl)
  have h := h.step (EpochGC.Step.next (i := 0) rfl rfl)
  have h := h.step (EpochGC.Step.take (i := 0) rfl rfl)
  have h := h.step (EpochGC.Step.same (i := 0) rfl rfl)
  have h := h.step (EpochGC.Step.advance (i := 0) rfl)
  exact ⟨_, h, by intro t ht; simpa [EpochGC.init] using ht, rfl, rfl, rfl⟩

/-- The lazy collector with one item, reclaimed before. -/
example : ∃ y, LazyGC.Reach (2 ^ 32) 1 y ∧ (∀ t ∈ y.thrs, t = .out) ∧ y.managed.length = 1 ∧ (lazy y).reclaimed.map Prod.fst = [0] := by
  have h := LazyGC.Reach.init (w := 2 ^ 32) (n := 1)
  have h := h.step (LazyGC.Step.begin (i := 0) rfl)
  have h := h.step (LazyGC.Step.manage (i := 0) rfl)
  have h := h.step (LazyGC.Step.last (i := 0) rfl (by decide))
  have h := h.step (LazyGC.Step.reclaim (i := 0) rfl)
  have h := h.step (LazyGC.Step.drained (i := 0) rfl)
  exact ⟨_, h, by intro t ht; simpa [LazyGC.init] using ht, rfl, rfl⟩

/-- Two threads used the collector, one has ended. -/
example : events Key.new ([.begin 0, .begin 1, .begin 0, .exit 0] ++ .destroy :: [1].map .exit) = some ⟨false, [1]⟩ :=
  C109_states_exact [.begin 0, .begin 1, .begin 0, .exit 0] (by simp) [1]

#print axioms C109_epoch
#print axioms C109_lazy
#print axioms C109_order
#print axioms C109_states_exact
#print axioms C109_states_refuted

end Verif.GCDestroy
