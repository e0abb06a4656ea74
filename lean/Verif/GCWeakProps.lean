import Verif.GCWeak
import Verif.HandoverWeakProps
/-!
# C135: what happened in the sections of a garbage collector before an item is reclaimed
-/
namespace Verif.GCWeak
open Verif.Conc
open Verif.HandoverWeak (lt_of get_set)

namespace Lazy

def Thr.busy (t : Thr) : Nat := if t.inside.isSome then 1 else 0

structure Inv (y : Sys) : Prop where
  count : y.rc = sumBy Thr.busy y.thrs
  uses : ∀ u, u < y.uses → u ∈ y.carries ∨ ∃ (i : Nat) (t : Thr), y.thrs[i]? = some t ∧ t.inside.isSome = true ∧ u ∈ t.knows
  log : ∀ e ∈ y.drained, ∀ u, u < e.1 → u ∈ e.2

theorem Inv.step {y y' : Sys} (I : Inv y) (s : Step full y y') : Inv y' := by
  have keep : ∀ {i : Nat} {t t' : Thr}, y.thrs[i]? = some t → (t.inside.isSome = true → t'.inside.isSome = true) → (∀ u ∈ t.knows, u ∈ t'.knows) → ∀ u,
      (∃ (j : Nat) (v : Thr), y.thrs[j]? = some v ∧ v.inside.isSome = true ∧ u ∈ v.knows) → ∃ (j : Nat) (v : Thr), (y.thrs.set i t')[j]? = some v ∧ v.inside.isSome = true ∧ u ∈ v.knows := by
    rintro i t t' ht hp hk u ⟨j, v, hj, hv, hu⟩
    by_cases e : i = j
    · subst e
      rw [ht] at hj
      obtain rfl := Option.some.inj hj
      exact ⟨i, t', List.getElem?_set_self (lt_of ht), hp hv, hk u hu⟩
    · exact ⟨j, v, by rw [List.getElem?_set_ne e]; exact hj, hv, hu⟩
  have out : ∀ {i c : Nat} {k k' : List Nat}, y.thrs[i]? = some ⟨some c, k⟩ → ∀ u, u < y.uses →
      u ∈ y.carries ++ k ∨ ∃ (j : Nat) (v : Thr), (y.thrs.set i ⟨none, k'⟩)[j]? = some v ∧ v.inside.isSome = true ∧ u ∈ v.knows := by
    intro i c k k' ht u hu
    rcases I.uses u hu with h | ⟨j, v, hj, hv, hk⟩
    · exact Or.inl (List.mem_append_left _ h)
    · by_cases e : i = j
      · subst e
        rw [ht] at hj
        obtain rfl := Option.some.inj hj
        exact Or.inl (List.mem_append_right _ hk)
      · exact Or.inr ⟨j, v, by rw [List.getElem?_set_ne e]; exact hj, hv, hk⟩
  have hp : ∀ c k, publish full y c k = y.carries ++ k := by
    intro c k
    unfold publish Orders.rel full
    simp
  have hl : ∀ c k, learn full y c k = k ++ y.carries := by
    intro c k
    unfold learn Orders.acq full
    simp
  cases s with
  | @begin i k ht =>
    refine ⟨?_, fun u hu => (I.uses u hu).imp id (keep (t' := ⟨some 0, k⟩) ht (fun _ => rfl) (fun _ h => h) u), I.log⟩
    have := sumBy_set Thr.busy ht ⟨some 0, k⟩
    have := I.count
    simp [Thr.busy] at *
    omega
  | @use i c k ht =>
    refine ⟨?_, ?_, I.log⟩
    · have := sumBy_set Thr.busy ht ⟨some c, k ++ [y.uses]⟩
      have := I.count
      simp [Thr.busy] at *
      omega
    · intro u hu
      by_cases e : u = y.uses
      · exact Or.inr ⟨i, _, List.getElem?_set_self (lt_of ht), rfl, by rw [e]; exact List.mem_append_right _ (List.mem_singleton_self _)⟩
      · exact (I.uses u (by simp only [] at hu; omega)).imp id (keep (t' := ⟨some c, k ++ [y.uses]⟩) ht (fun _ => rfl) (fun _ h => List.mem_append_left _ h) u)
  | @manage i c k ht =>
    refine ⟨?_, ?_, I.log⟩
    · have := sumBy_set Thr.busy ht ⟨some (c + 1), k ++ [y.uses]⟩
      have := I.count
      simp [Thr.busy] at *
      omega
    · intro u hu
      by_cases e : u = y.uses
      · exact Or.inr ⟨i, _, List.getElem?_set_self (lt_of ht), rfl, by rw [e]; exact List.mem_append_right _ (List.mem_singleton_self _)⟩
      · exact (I.uses u (by simp only [] at hu; omega)).imp id (keep (t' := ⟨some (c + 1), k ++ [y.uses]⟩) ht (fun _ => rfl) (fun _ h => List.mem_append_left _ h) u)
  | @leave i c k ht hr =>
    refine ⟨?_, fun u hu => ?_, I.log⟩
    · have := sumBy_set Thr.busy ht ⟨none, learn full y c k⟩
      have := I.count
      simp [Thr.busy] at *
      omega
    · simp only [hp]
      exact out ht u hu
  | @last i c k ht hr =>
    refine ⟨?_, fun u hu => ?_, ?_⟩
    · have := sumBy_set Thr.busy ht ⟨none, learn full y c k⟩
      have := I.count
      simp [Thr.busy] at *
      omega
    · simp only [hp]
      exact out ht u hu
    · have all : ∀ u, u < y.uses → u ∈ k ++ y.carries := by
        intro u hu
        rcases I.uses u hu with h | ⟨j, v, hj, hv, hk⟩
        · exact List.mem_append_right _ h
        · by_cases e : i = j
          · subst e
            rw [ht] at hj
            obtain rfl := Option.some.inj hj
            exact List.mem_append_left _ hk
          · have h := add_le_sumBy Thr.busy ht hj e
            have h2 := I.count
            rw [hr] at h2
            simp [Thr.busy, hv] at h h2
            omega
      intro e he u hu
      simp only [] at he
      split at he
      · exact I.log e he u hu
      · rcases List.mem_append.1 he with h | h
        · exact I.log e h u hu
        · rw [List.mem_singleton.1 h] at hu ⊢
          simp only [hl]
          exact all u hu

theorem inv {n : Nat} {y : Sys} (h : Reach full n y) : Inv y := by
  induction h with
  | init => exact ⟨by simp [init, sumBy_replicate, Thr.busy], fun u hu => absurd hu (Nat.not_lt_zero u), fun e he => by simp [init] at he⟩
  | step _ s ih => exact ih.step s

/-- **C135, lazy collector.**  Each time items are drained everything done in any section so far happened before, in every execution with at least two threads, exactly if both exchanges of `End` are acquires and releases. -/
theorem C135_lazy (o : Orders) : (∀ n y, Reach o n y → ∀ e ∈ y.drained, ∀ u, u < e.1 → u ∈ e.2) ↔ o = full := by
  constructor
  · intro h
    have a : o.someRel = true ∧ o.noneAcq = true := by
      have r := Reach.init (o := o) (n := 2)
      have r := r.step (.begin (i := 0) rfl)
      have r := r.step (.begin (i := 1) rfl)
      have r := r.step (.manage (i := 0) rfl)
      have r := r.step (.leave (i := 0) rfl (by decide))
      have r := r.step (.last (i := 1) rfl rfl)
      have := h _ _ r
      rcases o with ⟨a, b, c, d⟩
      cases a <;> cases d <;> simp [init, learn, publish, Orders.acq, Orders.rel] at this ⊢
    have b : o.noneRel = true ∧ o.someAcq = true := by
      have r := Reach.init (o := o) (n := 2)
      have r := r.step (.begin (i := 0) rfl)
      have r := r.step (.begin (i := 1) rfl)
      have r := r.step (.use (i := 0) rfl)
      have r := r.step (.manage (i := 1) rfl)
      have r := r.step (.leave (i := 0) rfl (by decide))
      have r := r.step (.last (i := 1) rfl rfl)
      have := h _ _ r _ (List.mem_append_right _ (List.mem_singleton_self _)) 0 (show 0 < 2 by decide)
      rcases o with ⟨a, b, c, d⟩
      cases b <;> cases c <;> simp [init, learn, publish, Orders.acq, Orders.rel] at this ⊢
    rcases o with ⟨_, _, _, _⟩
    obtain ⟨rfl, rfl⟩ := a
    obtain ⟨rfl, rfl⟩ := b
    rfl
  · rintro rfl n y h
    exact (inv h).log

/-- **C135, lazy collector, refuted for the code** (227, 236): `End` is never an acquire, and a release only if the section handed over items.  Two threads suffice: one uses the thing in a section and leaves, the other hands it over and is the last to leave. -/
theorem C135_lazy_refuted : ∃ y, Reach code 2 y ∧ ∃ e ∈ y.drained, ∃ u, u < e.1 ∧ u ∉ e.2 := by
  have r := Reach.init (o := code) (n := 2)
  have r := r.step (.begin (i := 0) rfl)
  have r := r.step (.begin (i := 1) rfl)
  have r := r.step (.use (i := 0) rfl)
  have r := r.step (.manage (i := 1) rfl)
  have r := r.step (.leave (i := 0) rfl (by decide))
  have r := r.step (.last (i := 1) rfl rfl)
  exact ⟨_, r, _, List.mem_append_right _ (List.mem_singleton_self _), 0, by decide, by decide⟩

/-- **C135, lazy collector, refuted for the code**, further: the thread that drains need not know that other sections wrote the nodes it is about to read, whether it handed over an item itself or not; and acquires alone would not be enough. -/
theorem C135_lazy_nodes_refuted :
    (∃ y, Reach code 2 y ∧ y.drained = [(2, [1])]) ∧ (∃ y, Reach code 2 y ∧ y.drained = [(1, [])]) ∧ ∃ y, Reach { code with someAcq := true, noneAcq := true } 2 y ∧ y.drained = [(2, [1])] := by
  refine ⟨?_, ?_, ?_⟩
  · have r := Reach.init (o := code) (n := 2)
    have r := r.step (.begin (i := 0) rfl)
    have r := r.step (.begin (i := 1) rfl)
    have r := r.step (.manage (i := 0) rfl)
    have r := r.step (.manage (i := 1) rfl)
    have r := r.step (.leave (i := 0) rfl (by decide))
    have r := r.step (.last (i := 1) rfl rfl)
    exact ⟨_, r, by decide⟩
  · have r := Reach.init (o := code) (n := 2)
    have r := r.step (.begin (i := 0) rfl)
    have r := r.step (.begin (i := 1) rfl)
    have r := r.step (.manage (i := 0) rfl)
    have r := r.step (.leave (i := 0) rfl (by decide))
    have r := r.step (.last (i := 1) rfl rfl)
    exact ⟨_, r, by decide⟩
  · have r := Reach.init (o := { code with someAcq := true, noneAcq := true }) (n := 2)
    have r := r.step (.begin (i := 0) rfl)
    have r := r.step (.begin (i := 1) rfl)
    have r := r.step (.use (i := 0) rfl)
    have r := r.step (.manage (i := 1) rfl)
    have r := r.step (.leave (i := 0) rfl (by decide))
    have r := r.step (.last (i := 1) rfl rfl)
    exact ⟨_, r, by decide⟩

/-- Nothing is drained if nothing was handed over. -/
example : ∃ y, Reach code 1 y ∧ y.uses = 1 ∧ y.drained = [] := by
  have r := Reach.init (o := code) (n := 1)
  have r := r.step (.begin (i := 0) rfl)
  have r := r.step (.use (i := 0) rfl)
  have r := r.step (.last (i := 0) rfl rfl)
  exact ⟨_, r, by decide⟩

/-- A list is drained, and all that happened before is known, with the strong orders. -/
example : ∃ y, Reach full 2 y ∧ y.drained = [(2, [1, 0])] := by
  have r := Reach.init (o := full) (n := 2)
  have r := r.step (.begin (i := 0) rfl)
  have r := r.step (.begin (i := 1) rfl)
  have r := r.step (.use (i := 0) rfl)
  have r := r.step (.manage (i := 1) rfl)
  have r := r.step (.leave (i := 0) rfl (by decide))
  have r := r.step (.last (i := 1) rfl rfl)
  exact ⟨_, r, by decide⟩

end Lazy

namespace Epoch
open EpochGC

theorem upd_self {α : Type} (f : Nat → α) (a : Nat) (b : α) : upd f a b a = b := by simp [upd]

theorem upd_ne {α : Type} (f : Nat → α) {a c : Nat} (b : α) (h : c ≠ a) : upd f a b c = f c := by simp [upd, h]

/-- The items a thread holds. -/
def holds : PC → List Nat
  | .inside _ _ loc => loc
  | .e1 _ _ loc _ => loc
  | .e5 _ l => l
  | .dr _ l => l
  | .p0 l => l
  | .p1 l _ => l
  | .p2 l _ => l
  | .p3 l _ _ => l
  | .p4 l _ => l
  | _ => []

/-- What had happened before an item was handed over. -/
def before (z : W) (x : Nat) : List Nat := (z.handed[x]?).getD []

structure Inv (z : W) : Prop where
  len : z.handed.length = z.sys.managed.length
  lists : ∀ s, ∀ x ∈ z.sys.list s, x < z.handed.length ∧ ∀ u ∈ before z x, u ∈ z.carries s
  held : ∀ (i : Nat) (p : PC), z.sys.thrs[i]? = some p → ∀ x ∈ holds p, x < z.handed.length ∧ ∀ u ∈ before z x, u ∈ z.knows i
  log : ∀ e ∈ z.reclaimed, e.1 < z.handed.length ∧ ∀ u ∈ before z e.1, u ∈ e.2

theorem before_snoc {z z' : W} {k : List Nat} (h : z'.handed = z.handed ++ [k]) {x : Nat} (hx : x < z.handed.length) : before z' x = before z x := by
  unfold before
  rw [h, List.getElem?_append_left hx]

theorem thr_of {y y' : Sys} {i : Nat} {p q : PC} {j : Nat} {r : PC} (hp : y.thrs[i]? = some p) (hne : p ≠ q) (e1 : y'.thrs = y.thrs.set i q) (hj : y.thrs[j]? = some r) {r' : PC} (e2 : y'.thrs = y.thrs.set j r') (hr : r ≠ r') :
    j = i ∧ r = p ∧ r' = q := by
  have h : (y.thrs.set i q)[i]? = some q := List.getElem?_set_self (lt_of hp)
  rw [← e1, e2] at h
  rcases get_set h with ⟨rfl, e⟩ | ⟨e, h'⟩
  · rw [hp] at hj
    exact ⟨rfl, (Option.some.inj hj).symm, e.symm⟩
  · rw [hp] at h'
    exact absurd (Option.some.inj h') hne

structure Facts (y y' : Sys) (p q : PC) : Prop where
  managed : y'.managed.length = y.managed.length + (if hands p q then 1 else 0)
  list : ∀ s x, x ∈ y'.list s → x ∈ y.list s ∨ (x ∈ holds p ∧ ((∃ sec g loc G, p = .e1 sec g loc G ∧ s = slot g ∧ loc ≠ []) ∨ ∃ l g, p = .p4 l g ∧ s = slot g))
  holds : ∀ x ∈ holds q, x ∈ holds p ∨ (hands p q = true ∧ x = y.managed.length) ∨ ∃ G l, p = .e4 G ∧ q = .e5 G l ∧ x ∈ y.list (G % 3)

theorem facts {w : Nat} {y y' : Sys} {i : Nat} {p q : PC} (hp : y.thrs[i]? = some p) (s : EpochGC.Step w y y') (e : y'.thrs = y.thrs.set i q) (hne : p ≠ q) : Facts y y' p q := by
  cases s with
  | @begin j h => obtain ⟨rfl, rfl, rfl⟩ := thr_of hp hne e h rfl (by simp); exact ⟨rfl, fun s x h => Or.inl h, fun x h => by simp [Epoch.holds] at h⟩
  | @inc j g h => obtain ⟨rfl, rfl, rfl⟩ := thr_of hp hne e h rfl (by simp); exact ⟨rfl, fun s x h => Or.inl h, fun x h => by simp [Epoch.holds] at h⟩
  | @enter j g h _ => obtain ⟨rfl, rfl, rfl⟩ := thr_of hp hne e h rfl (by simp); exact ⟨rfl, fun s x h => Or.inl h, fun x h => by simp [Epoch.holds] at h⟩
  | @retry j g h _ => obtain ⟨rfl, rfl, rfl⟩ := thr_of hp hne e h rfl (by simp); exact ⟨rfl, fun s x h => Or.inl h, fun x h => by simp [Epoch.holds] at h⟩
  | @dec j g g' h => obtain ⟨rfl, rfl, rfl⟩ := thr_of hp hne e h rfl (by simp); exact ⟨rfl, fun s x h => Or.inl h, fun x h => by simp [Epoch.holds] at h⟩
  | @manage j s g loc h =>
    obtain ⟨rfl, rfl, rfl⟩ := thr_of hp hne e h rfl (by
      intro h
      have := congrArg (fun p => (Epoch.holds p).length) h
      simp [Epoch.holds] at this)
    refine ⟨by simp [hands], fun s x h => Or.inl h, fun x h => ?_⟩
    simp only [Epoch.holds, List.mem_cons] at h ⊢
    rcases h with h | h
    · exact Or.inr (Or.inl ⟨rfl, h⟩)
    · exact Or.inl h
  | @endLoad j s g loc h => obtain ⟨rfl, rfl, rfl⟩ := thr_of hp hne e h rfl (by simp); exact ⟨rfl, fun s x h => Or.inl h, fun x h => Or.inl h⟩
  | @leave j sec g loc G h =>
    obtain ⟨rfl, rfl, rfl⟩ := thr_of hp hne e h rfl (by simp)
    refine ⟨rfl, fun s x h => ?_, fun x h => by simp [Epoch.holds] at h⟩
    simp only [upd] at h
    split at h
    · rename_i es
      rcases List.mem_append.1 h with h | h
      · exact Or.inr ⟨h, Or.inl ⟨sec, g, loc, G, rfl, es, List.ne_nil_of_mem h⟩⟩
      · exact Or.inl (es ▸ h)
    · exact Or.inl h
  | @stale j G h _ => obtain ⟨rfl, rfl, rfl⟩ := thr_of hp hne e h rfl (by simp); exact ⟨rfl, fun s x h => Or.inl h, fun x h => by simp [Epoch.holds] at h⟩
  | @staleNot j G h _ => obtain ⟨rfl, rfl, rfl⟩ := thr_of hp hne e h rfl (by simp); exact ⟨rfl, fun s x h => Or.inl h, fun x h => by simp [Epoch.holds] at h⟩
  | @next j G h _ => obtain ⟨rfl, rfl, rfl⟩ := thr_of hp hne e h rfl (by simp); exact ⟨rfl, fun s x h => Or.inl h, fun x h => by simp [Epoch.holds] at h⟩
  | @nextNot j G h _ => obtain ⟨rfl, rfl, rfl⟩ := thr_of hp hne e h rfl (by simp); exact ⟨rfl, fun s x h => Or.inl h, fun x h => by simp [Epoch.holds] at h⟩
  | @take j G h _ =>
    obtain ⟨rfl, rfl, rfl⟩ := thr_of hp hne e h rfl (by simp)
    refine ⟨rfl, fun s x h => ?_, fun x h => Or.inr (Or.inr ⟨G, _, rfl, rfl, h⟩)⟩
    simp only [upd] at h
    split at h
    · simp at h
    · exact Or.inl h
  | @takeNot j G h => obtain ⟨rfl, rfl, rfl⟩ := thr_of hp hne e h rfl (by simp); exact ⟨rfl, fun s x h => Or.inl h, fun x h => by simp [Epoch.holds] at h⟩
  | @same j G l h _ => obtain ⟨rfl, rfl, rfl⟩ := thr_of hp hne e h rfl (by simp); exact ⟨rfl, fun s x h => Or.inl h, fun x h => Or.inl h⟩
  | @moved j G l h _ _ => obtain ⟨rfl, rfl, rfl⟩ := thr_of hp hne e h rfl (by simp); exact ⟨rfl, fun s x h => Or.inl h, fun x h => Or.inl h⟩
  | @movedNone j G h _ => obtain ⟨rfl, rfl, rfl⟩ := thr_of hp hne e h rfl (by simp); exact ⟨rfl, fun s x h => Or.inl h, fun x h => by simp [Epoch.holds] at h⟩
  | @reclaim j G x l h =>
    obtain ⟨rfl, rfl, rfl⟩ := thr_of hp hne e h rfl (by
      intro h
      have := congrArg (fun p => (Epoch.holds p).length) h
      simp [Epoch.holds] at this)
    exact ⟨rfl, fun s x h => Or.inl h, fun x h => Or.inl (List.mem_cons_of_mem _ h)⟩
  | @advance j G h => obtain ⟨rfl, rfl, rfl⟩ := thr_of hp hne e h rfl (by simp); exact ⟨rfl, fun s x h => Or.inl h, fun x h => by simp [Epoch.holds] at h⟩
  | @pLoad j l h => obtain ⟨rfl, rfl, rfl⟩ := thr_of hp hne e h rfl (by simp); exact ⟨rfl, fun s x h => Or.inl h, fun x h => Or.inl h⟩
  | @pInc j g l h => obtain ⟨rfl, rfl, rfl⟩ := thr_of hp hne e h rfl (by simp); exact ⟨rfl, fun s x h => Or.inl h, fun x h => Or.inl h⟩
  | @pSame j g l h _ => obtain ⟨rfl, rfl, rfl⟩ := thr_of hp hne e h rfl (by simp); exact ⟨rfl, fun s x h => Or.inl h, fun x h => Or.inl h⟩
  | @pRetry j g l h _ => obtain ⟨rfl, rfl, rfl⟩ := thr_of hp hne e h rfl (by simp); exact ⟨rfl, fun s x h => Or.inl h, fun x h => Or.inl h⟩
  | @pDec j g g' l h => obtain ⟨rfl, rfl, rfl⟩ := thr_of hp hne e h rfl (by simp); exact ⟨rfl, fun s x h => Or.inl h, fun x h => Or.inl h⟩
  | @put j g l h =>
    obtain ⟨rfl, rfl, rfl⟩ := thr_of hp hne e h rfl (by simp)
    refine ⟨rfl, fun s x h => ?_, fun x h => by simp [Epoch.holds] at h⟩
    simp only [upd] at h
    split at h
    · rename_i es
      rcases List.mem_append.1 h with h | h
      · exact Or.inr ⟨h, Or.inr ⟨l, g, rfl, es⟩⟩
      · exact Or.inl (es ▸ h)
    · exact Or.inl h

theorem publish_mono (o : Orders) (c : Nat → List Nat) (k : List Nat) (p : PC) (s : Nat) : ∀ u ∈ c s, u ∈ publish o c k p s := by
  intro u h
  have key : ∀ a, u ∈ upd c a (c a ++ k) s := by
    intro a
    by_cases e : s = a
    · subst e
      rw [upd_self]
      exact List.mem_append_left _ h
    · rw [upd_ne _ _ e]
      exact h
  unfold publish
  split
  · split <;> split <;> first | exact key _ | exact h
  · split
    · exact key _
    · exact h
  · exact h

theorem learn_mono (o : Orders) (c : Nat → List Nat) (k : List Nat) (p q : PC) : ∀ u ∈ k, u ∈ learn o c k p q := by
  intro u h
  unfold learn
  split
  · split
    · exact List.mem_append_left _ h
    · exact h
  · exact h

theorem item_holds {p q : PC} {x : Nat} (h : item? p q = some x) : x ∈ holds p := by
  unfold item? at h
  split at h
  · rw [← Option.some.inj h]
    exact List.mem_cons_self
  · exact absurd h (by simp)

theorem Inv.step {o : Orders} {w : Nat} {z z' : W} (h1 : o.someRel = true) (h2 : o.takeAcq = true) (h3 : o.putRel = true) (I : Inv z) (s : Step o w z z') : Inv z' := by
  cases s with
  | @use i s g loc ht =>
    refine ⟨I.len, I.lists, fun j p hj x hx => ⟨(I.held j p hj x hx).1, fun u hu => ?_⟩, I.log⟩
    have h := (I.held j p hj x hx).2 u hu
    by_cases e : j = i
    · subst e
      simp only [upd_self]
      exact List.mem_append_left _ h
    · simp only [upd_ne _ _ e]
      exact h
  | @move i p q y hp hs e hne =>
    have F := facts hp hs e hne
    have hlen : (if hands p q then z.handed ++ [z.knows i] else z.handed).length = z.handed.length + (if hands p q then 1 else 0) := by
      split <;> simp
    have hle : ∀ {x}, x < z.handed.length → x < (if hands p q then z.handed ++ [z.knows i] else z.handed).length := by
      intro x hx
      rw [hlen]
      omega
    have hold : ∀ {x}, x < z.handed.length → (((if hands p q then z.handed ++ [z.knows i] else z.handed)[x]?).getD []) = before z x := by
      intro x hx
      unfold before
      split
      · rw [List.getElem?_append_left hx]
      · rfl
    refine ⟨?_, ?_, ?_, ?_⟩
    · simp only [hlen, F.managed, I.len]
    · intro s x hx
      rcases F.list s x hx with h | ⟨h, hc⟩
      · have hI := I.lists s x h
        refine ⟨hle hI.1, fun u hu => publish_mono _ _ _ _ _ u (hI.2 u ?_)⟩
        rw [← hold hI.1]
        exact hu
      · have hI := I.held i p hp x h
        refine ⟨hle hI.1, fun u hu => ?_⟩
        have hk := hI.2 u (by rw [← hold hI.1]; exact hu)
        rcases hc with ⟨sec, g, loc, G, rfl, rfl, hl⟩ | ⟨l, g, rfl, rfl⟩
        · simp only [publish, if_neg hl, h1, if_true, upd_self]
          exact List.mem_append_right _ hk
        · simp only [publish, h3, if_true, upd_self]
          exact List.mem_append_right _ hk
    · intro j r hj x hx
      simp only [e] at hj
      rcases get_set hj with ⟨rfl, rfl⟩ | ⟨ne, hj⟩
      · rcases F.holds x hx with h | ⟨h, hx'⟩ | ⟨G, l, rfl, rfl, h⟩
        · have hI := I.held j p hp x h
          refine ⟨hle hI.1, fun u hu => ?_⟩
          simp only [upd_self]
          exact learn_mono _ _ _ _ _ u (hI.2 u (by rw [← hold hI.1]; exact hu))
        · have hx' : x = z.handed.length := by rw [I.len]; exact hx'
          refine ⟨by simp [h, hx'], fun u hu => ?_⟩
          simp only [upd_self]
          refine learn_mono _ _ _ _ _ u ?_
          simp only [before, h, if_true, hx', List.getElem?_append_right (Nat.le_refl _), Nat.sub_self, List.getElem?_cons_zero, Option.getD_some] at hu
          exact hu
        · have hI := I.lists _ x h
          refine ⟨hle hI.1, fun u hu => ?_⟩
          simp only [upd_self, learn, h2, if_true]
          exact List.mem_append_right _ (hI.2 u (by rw [← hold hI.1]; exact hu))
      · have hI := I.held j r hj x hx
        refine ⟨hle hI.1, fun u hu => ?_⟩
        simp only [upd_ne _ _ ne]
        exact hI.2 u (by rw [← hold hI.1]; exact hu)
    · intro ev he
      have key : ev ∈ z.reclaimed ∨ (ev.1 ∈ holds p ∧ ev.2 = z.knows i) := by
        simp only [] at he
        split at he
        · rename_i x hx
          rcases List.mem_append.1 he with h | h
          · exact Or.inl h
          · rw [List.mem_singleton.1 h]
            exact Or.inr ⟨item_holds hx, rfl⟩
        · exact Or.inl he
      rcases key with h | ⟨h, h'⟩
      · have hI := I.log ev h
        exact ⟨hle hI.1, fun u hu => hI.2 u (by rw [← hold hI.1]; exact hu)⟩
      · have hI := I.held i p hp _ h
        exact ⟨hle hI.1, fun u hu => h' ▸ hI.2 u (by rw [← hold hI.1]; exact hu)⟩

theorem inv {o : Orders} {w n : Nat} {z : W} (h1 : o.someRel = true) (h2 : o.takeAcq = true) (h3 : o.putRel = true) (h : Reach o w n z) : Inv z := by
  induction h with
  | init =>
    refine ⟨rfl, fun s x hx => by simp [init, EpochGC.init] at hx, fun i p hp x hx => ?_, fun e he => by simp [init] at he⟩
    simp only [init, EpochGC.init, List.getElem?_replicate] at hp
    split at hp
    · rw [← Option.some.inj hp] at hx
      simp [holds] at hx
    · simp at hp
  | step _ s ih => exact ih.step h1 h2 h3 s

/-! Executions: a script of moves is run by a function. -/

/-- What a thread does next: `true` where there is a choice means an item is handed over. -/
def next (w : Nat) (y : Sys) (i : Nat) (m : Bool) : PC → Option (PC × Sys)
  | .out => some (.b1 y.epoch, { y with thrs := y.thrs.set i (.b1 y.epoch) })
  | .b1 g => some (.b2 g, { y with rc := upd y.rc (slot g) ((y.rc (slot g) + 1) % w), thrs := y.thrs.set i (.b2 g) })
  | .b2 g => if g = y.epoch then some (.inside y.secs g [], { y with thrs := y.thrs.set i (.inside y.secs g []), secs := y.secs + 1 }) else none
  | .inside s g loc =>
    if m then some (.inside s g (y.managed.length :: loc), { y with thrs := y.thrs.set i (.inside s g (y.managed.length :: loc)), managed := y.managed ++ [y.active] })
    else some (.e1 s g loc y.epoch, { y with thrs := y.thrs.set i (.e1 s g loc y.epoch) })
  | .e1 _ g loc G => some (.e2 G, { y with list := upd y.list (slot g) (loc ++ y.list (slot g)), rc := upd y.rc (slot g) ((y.rc (slot g) + w - 1) % w), thrs := y.thrs.set i (.e2 G) })
  | .e2 G => if y.rc (G % 3) = 0 then some (.e3 G, { y with thrs := y.thrs.set i (.e3 G) }) else none
  | .e3 G => if y.rc ((G % 3 + 1) % 3) = 0 then some (.e4 G, { y with thrs := y.thrs.set i (.e4 G) }) else none
  | .e4 G => if y.rc (G % 3) = 0 then some (.e5 G (y.list (G % 3)), { y with list := upd y.list (G % 3) [], thrs := y.thrs.set i (.e5 G (y.list (G % 3))) }) else none
  | .e5 G l => if G = y.epoch then some (.dr G l, { y with thrs := y.thrs.set i (.dr G l) }) else if l ≠ [] then some (.p0 l, { y with thrs := y.thrs.set i (.p0 l) }) else none
  | .dr G (_ :: l) => match y.thrs[i]? with
    | some (.dr _ (x :: _)) => some (.dr G l, { y with thrs := y.thrs.set i (.dr G l), reclaimed := y.reclaimed ++ [(x, y.active)] })
    | _ => none
  | .dr G [] => some (.out, { y with epoch := if y.epoch = G then G + 1 else y.epoch, thrs := y.thrs.set i .out })
  | .p0 l => some (.p1 l y.epoch, { y with thrs := y.thrs.set i (.p1 l y.epoch) })
  | .p1 l g => some (.p2 l g, { y with rc := upd y.rc (slot g) ((y.rc (slot g) + 1) % w), thrs := y.thrs.set i (.p2 l g) })
  | .p2 l g => if g = y.epoch then some (.p4 l g, { y with thrs := y.thrs.set i (.p4 l g) }) else none
  | .p4 l g => some (.out, { y with list := upd y.list (slot g) (l ++ y.list (slot g)), rc := upd y.rc (slot g) ((y.rc (slot g) + w - 1) % w), thrs := y.thrs.set i .out })
  | _ => none

theorem next_sound {w : Nat} {y y' : Sys} {i : Nat} {m : Bool} {p q : PC} (hp : y.thrs[i]? = some p) (h : next w y i m p = some (q, y')) :
    EpochGC.Step w y y' ∧ y'.thrs = y.thrs.set i q ∧ p ≠ q := by
  have grow : ∀ {a b : PC}, (Epoch.holds a).length ≠ (Epoch.holds b).length → a ≠ b := by
    rintro a b h rfl
    exact h rfl
  cases p with
  | out => simp only [next, Option.some.injEq, Prod.mk.injEq] at h; obtain ⟨rfl, rfl⟩ := h; exact ⟨.begin hp, rfl, by simp⟩
  | b1 g => simp only [next, Option.some.injEq, Prod.mk.injEq] at h; obtain ⟨rfl, rfl⟩ := h; exact ⟨.inc hp, rfl, by simp⟩
  | b2 g =>
    simp only [next] at h
    split at h
    · rename_i e
      simp only [Option.some.injEq, Prod.mk.injEq] at h; obtain ⟨rfl, rfl⟩ := h; exact ⟨.enter hp e, rfl, by simp⟩
    · simp at h
  | b3 g g' => simp [next] at h
  | inside s g loc =>
    simp only [next] at h
    split at h
    · simp only [Option.some.injEq, Prod.mk.injEq] at h; obtain ⟨rfl, rfl⟩ := h; exact ⟨.manage hp, rfl, grow (by simp [holds])⟩
    · simp only [Option.some.injEq, Prod.mk.injEq] at h; obtain ⟨rfl, rfl⟩ := h; exact ⟨.endLoad hp, rfl, by simp⟩
  | e1 s g loc G => simp only [next, Option.some.injEq, Prod.mk.injEq] at h; obtain ⟨rfl, rfl⟩ := h; exact ⟨.leave hp, rfl, by simp⟩
  | e2 G =>
    simp only [next] at h
    split at h
    · rename_i e
      simp only [Option.some.injEq, Prod.mk.injEq] at h; obtain ⟨rfl, rfl⟩ := h; exact ⟨.stale hp e, rfl, by simp⟩
    · simp at h
  | e3 G =>
    simp only [next] at h
    split at h
    · rename_i e
      simp only [Option.some.injEq, Prod.mk.injEq] at h; obtain ⟨rfl, rfl⟩ := h; exact ⟨.next hp e, rfl, by simp⟩
    · simp at h
  | e4 G =>
    simp only [next] at h
    split at h
    · rename_i e
      simp only [Option.some.injEq, Prod.mk.injEq] at h; obtain ⟨rfl, rfl⟩ := h; exact ⟨.take hp e, rfl, by simp⟩
    · simp at h
  | e5 G l =>
    simp only [next] at h
    split at h
    · rename_i e
      simp only [Option.some.injEq, Prod.mk.injEq] at h; obtain ⟨rfl, rfl⟩ := h; exact ⟨.same hp e, rfl, by simp⟩
    · split at h
      · rename_i e e'
        simp only [Option.some.injEq, Prod.mk.injEq] at h; obtain ⟨rfl, rfl⟩ := h; exact ⟨.moved hp e e', rfl, by simp⟩
      · simp at h
  | dr G l =>
    cases l with
    | nil => simp only [next, Option.some.injEq, Prod.mk.injEq] at h; obtain ⟨rfl, rfl⟩ := h; exact ⟨.advance hp, rfl, by simp⟩
    | cons x l =>
      simp only [next, hp, Option.some.injEq, Prod.mk.injEq] at h; obtain ⟨rfl, rfl⟩ := h; exact ⟨.reclaim hp, rfl, grow (by simp [holds])⟩
  | p0 l => simp only [next, Option.some.injEq, Prod.mk.injEq] at h; obtain ⟨rfl, rfl⟩ := h; exact ⟨.pLoad hp, rfl, by simp⟩
  | p1 l g => simp only [next, Option.some.injEq, Prod.mk.injEq] at h; obtain ⟨rfl, rfl⟩ := h; exact ⟨.pInc hp, rfl, by simp⟩
  | p2 l g =>
    simp only [next] at h
    split at h
    · rename_i e
      simp only [Option.some.injEq, Prod.mk.injEq] at h; obtain ⟨rfl, rfl⟩ := h; exact ⟨.pSame hp e, rfl, by simp⟩
    · simp at h
  | p3 l g g' => simp [next] at h
  | p4 l g => simp only [next, Option.some.injEq, Prod.mk.injEq] at h; obtain ⟨rfl, rfl⟩ := h; exact ⟨.put hp, rfl, by simp⟩

/-- One entry of a script: which thread, and whether it goes on, uses something, or hands over an item. -/
inductive Act
  | go (i : Nat)
  | use (i : Nat)
  | manage (i : Nat)

/-- The state after moving. -/
def move (o : Orders) (w : Nat) (z : W) (i : Nat) (m : Bool) : Option W := match z.sys.thrs[i]? with
  | none => none
  | some p => match next w z.sys i m p with
    | none => none
    | some (q, y) => some { z with
        sys := y
        carries := publish o z.carries (z.knows i) p
        knows := upd z.knows i (learn o z.carries (z.knows i) p q)
        handed := if hands p q then z.handed ++ [z.knows i] else z.handed
        reclaimed := match item? p q with
          | some x => z.reclaimed ++ [(x, z.knows i)]
          | none => z.reclaimed }

def act (o : Orders) (w : Nat) (z : W) : Act → Option W
  | .go i => move o w z i false
  | .manage i => move o w z i true
  | .use i => match z.sys.thrs[i]? with
    | some (.inside s _ _) => some { z with knows := upd z.knows i (z.knows i ++ [z.uses.length]), uses := z.uses ++ [s] }
    | _ => none

def run (o : Orders) (w : Nat) : W → List Act → Option W
  | z, [] => some z
  | z, a :: l => match act o w z a with
    | none => none
    | some z' => run o w z' l

theorem move_sound {o : Orders} {w : Nat} {z z' : W} {i : Nat} {m : Bool} (h : move o w z i m = some z') : Step o w z z' := by
  unfold move at h
  split at h
  · simp at h
  · rename_i p hp
    split at h
    · simp at h
    · rename_i q y hq
      have s := next_sound hp hq
      rw [← Option.some.inj h]
      exact .move hp s.1 s.2.1 s.2.2

theorem act_sound {o : Orders} {w : Nat} {z z' : W} {a : Act} (h : act o w z a = some z') : Step o w z z' := by
  cases a with
  | go i => exact move_sound h
  | manage i => exact move_sound h
  | use i =>
    simp only [act] at h
    split at h
    · rename_i s g loc hp
      rw [← Option.some.inj h]
      exact .use hp
    · simp at h

theorem run_sound {o : Orders} {w n : Nat} {z z' : W} {l : List Act} (r : Reach o w n z) (h : run o w z l = some z') : Reach o w n z' := by
  induction l generalizing z with
  | nil =>
    rw [← Option.some.inj h]
    exact r
  | cons a l ih =>
    simp only [run] at h
    split at h
    · simp at h
    · rename_i z1 h1
      exact ih (r.step (act_sound h1)) h

/-- `k` moves of a thread. -/
def go (i k : Nat) : List Act := List.replicate k (.go i)

/-- A section without items that advances the epoch. -/
def tick (i : Nat) : List Act := go i 10

/-- Thread 1 hands over an item in epoch 0, thread 0 reclaims it in epoch 2. -/
def plain : List Act := go 1 3 ++ [.use 1, .manage 1] ++ go 1 7 ++ tick 0 ++ go 0 10

/-- Thread 1 takes an item that thread 2 handed over, and has to put it back; thread 0 reclaims it. -/
def back : List Act := go 1 7 ++ tick 3 ++ go 2 3 ++ [.use 2, .manage 2] ++ go 2 2 ++ go 1 1 ++ tick 3 ++ go 1 5 ++ tick 3 ++ tick 3 ++ go 0 10

/-- Thread 1 hands over an item in epoch 0 while thread 0 is in a section that began in epoch 1; thread 2 reclaims it. -/
def other : List Act := go 1 3 ++ tick 2 ++ go 0 3 ++ [.use 0, .manage 1] ++ go 1 7 ++ go 0 2 ++ go 2 10

theorem ran {o : Orders} {w n : Nat} {l : List Act} {t : W → Bool} (h : (run o w (init n) l).any t = true) : ∃ z, Reach o w n z ∧ t z = true := by
  rcases e : run o w (init n) l with _ | z
  · simp [e] at h
  · exact ⟨z, run_sound .init e, by simpa [e] using h⟩

/-- The first reclaimed item is item 0, handed over after use 0, which is not known to have happened before. -/
def unknown (z : W) : Bool := z.reclaimed.head?.any (fun e => e.1 == 0 && !e.2.contains 0) && z.handed.head?.any (fun k => k.contains 0)

/-- **C135, epoch collector, handing over.**  When an item is reclaimed, everything that had happened before it was handed over happened before, in every execution, exactly if the section that handed it over ends with a release (258), the list is taken with an acquire (273) and put back with a
release (295), as in the code. -/
theorem C135_epoch_handover (o : Orders) :
    (∀ n z, Reach o (2 ^ 32) n z → ∀ x k, (x, k) ∈ z.reclaimed → ∃ b, z.handed[x]? = some b ∧ ∀ u ∈ b, u ∈ k) ↔ (o.someRel = true ∧ o.takeAcq = true ∧ o.putRel = true) := by
  constructor
  · intro h
    have no : ∀ n l, (run o (2 ^ 32) (init n) l).any unknown = true → False := by
      intro n l hr
      obtain ⟨z, r, hz⟩ := ran hr
      unfold unknown at hz
      rcases hc : z.reclaimed with _ | ⟨⟨x, k⟩, t⟩
      · simp [hc] at hz
      · rcases hh : z.handed with _ | ⟨b, t'⟩
        · simp [hh] at hz
        · simp [hc, hh] at hz
          obtain ⟨⟨rfl, h1⟩, h2⟩ := hz
          obtain ⟨b', hb, hu⟩ := h _ _ r 0 k (by rw [hc]; exact List.mem_cons_self)
          rw [hh] at hb
          obtain rfl := Option.some.inj hb
          exact h1 (hu 0 h2)
    rcases o with ⟨a, b, c, d⟩
    cases a
    · refine (no 2 plain ?_).elim
      cases b <;> cases c <;> cases d <;> decide
    · cases c
      · refine (no 2 plain ?_).elim
        cases b <;> cases d <;> decide
      · cases d
        · refine (no 4 back ?_).elim
          cases b <;> decide
        · exact ⟨rfl, rfl, rfl⟩
  · rintro ⟨h1, h2, h3⟩ n z r x k hx
    have h := (inv h1 h2 h3 r).log _ hx
    refine ⟨_, List.getElem?_eq_getElem h.1, fun u hu => h.2 u ?_⟩
    unfold before
    rw [List.getElem?_eq_getElem h.1]
    exact hu

/-- **C135, epoch collector, the code's orders** are such. -/
theorem C135_epoch_handover_code (n : Nat) (z : W) (r : Reach code (2 ^ 32) n z) (x : Nat) (k : List Nat) (hx : (x, k) ∈ z.reclaimed) :
    ∃ b, z.handed[x]? = some b ∧ ∀ u ∈ b, u ∈ k := (C135_epoch_handover code).2 ⟨rfl, rfl, rfl⟩ n z r x k hx

/-- **C135, epoch collector, other sections, refuted**, for the code and for every other choice of these orders: an item is reclaimed although a use made in a section in progress when it was handed over need not have happened before.  The section was counted in the next pair, which the
reclaiming thread only loads, relaxed (272). -/
theorem C135_epoch_sections_refuted (o : Orders) : ∃ z, Reach o (2 ^ 32) 3 z ∧
    ∃ x k s u, (x, k) ∈ z.reclaimed ∧ (∃ m, z.sys.managed[x]? = some m ∧ s ∈ m) ∧ z.uses[u]? = some s ∧ u ∉ k := by
  have hr : (run o (2 ^ 32) (init 3) other).any (fun z => z.reclaimed.head?.any (fun e => e.1 == 0 && !e.2.contains 0) && z.sys.managed.head?.any (fun m => m.contains 2) && z.uses.head? == some 2) = true := by
    rcases o with ⟨a, b, c, d⟩
    cases a <;> cases b <;> cases c <;> cases d <;> decide
  obtain ⟨z, r, hz⟩ := ran hr
  refine ⟨z, r, ?_⟩
  rcases hc : z.reclaimed with _ | ⟨⟨x, k⟩, t⟩
  · simp [hc] at hz
  · rcases hm : z.sys.managed with _ | ⟨m, t'⟩
    · simp [hm] at hz
    · rcases hu : z.uses with _ | ⟨s, t''⟩
      · simp [hu] at hz
      · simp [hc, hm, hu] at hz
        obtain ⟨⟨⟨rfl, h1⟩, h2⟩, rfl⟩ := hz
        exact ⟨0, k, 2, 0, List.mem_cons_self, ⟨m, rfl, h2⟩, rfl, h1⟩

/-- With the code's orders an item is handed over after a use, put back, and reclaimed by a thread that knows that use. -/
example : ∃ z, Reach code (2 ^ 32) 4 z ∧ (z.handed == [[0]] && z.reclaimed == [(0, [0])]) = true := ran (l := back) (by decide)

end Epoch
end Verif.GCWeak

#print axioms Verif.GCWeak.Lazy.C135_lazy
#print axioms Verif.GCWeak.Lazy.C135_lazy_refuted
#print axioms Verif.GCWeak.Lazy.C135_lazy_nodes_refuted
#print axioms Verif.GCWeak.Epoch.C135_epoch_handover
#print axioms Verif.GCWeak.Epoch.C135_epoch_handover_code
#print axioms Verif.GCWeak.Epoch.C135_epoch_sections_refuted
