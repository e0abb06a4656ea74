import Verif.LockFree
import Verif.EpochGCProps
import Verif.LazyGCProps
/-!
# C132: the garbage collectors are lock-free

The models are those of C18 and C19, with the rounds of their exchange loops added back (`LockFree.lean`): each loop first loads the pair, and its exchange fails only if the pair was changed since.  Left aside are exchanges that fail without cause
(the weak ones may).
-/
namespace Verif.GCProgress
open LockFree

/-- The pair a thread of the epoch collector is about to exchange (210-212, 219-224, 255-258, 263-265, 285-287, 292-295, 302-307). -/
def epochSlot : EpochGC.PC → Option Nat
  | .b1 g | .b3 g _ | .e1 _ g _ _ | .p1 _ g | .p3 _ g _ | .p4 _ g => some (EpochGC.slot g)
  | _ => none

/-- `Begin` has returned, `Manage` has, or `End` has. -/
def epochDone : EpochGC.PC → EpochGC.PC → Bool
  | _, .out | _, .inside _ _ _ => true
  | _, _ => false

/-- The epoch collector (`EpochGarbageCollector.c`), with the rounds of its loops.  Where a thread counts itself out again, it first tries with the pair it had loaded to count itself in (219, 302). -/
def epoch (w : Nat) : Prog EpochGC.Sys EpochGC.PC (List Nat × Nat) where
  Step := EpochGC.Step w
  thrs := EpochGC.Sys.thrs
  val := fun y a => (y.list a, y.rc a)
  slot := epochSlot
  exch := fun p _ => (epochSlot p).isSome
  keep := fun p => match p with
    | .b2 _ | .b3 _ _ | .p2 _ _ | .p3 _ _ _ => true
    | _ => false
  done := epochDone

/-- `Begin` has returned, `Manage` has, or `End` has. -/
def lazyDone : LazyGC.PC → LazyGC.PC → Bool
  | _, .out | _, .inside _ _ => true
  | _, _ => false

/-- The lazy collector (`LazyGarbageCollector.c`), with the rounds of its loops (196-198, 224-227, 234-236). -/
def lazy (w : Nat) : Prog LazyGC.Sys LazyGC.PC (List Nat × Nat) where
  Step := LazyGC.Step w
  thrs := LazyGC.Sys.thrs
  val := fun y _ => (y.list, y.rc)
  slot := fun p => match p with
    | .out | .inside _ _ => some 0
    | .drain _ => none
  exch := fun p p' => match p, p' with
    | .out, _ => true
    | .inside _ _, .inside _ _ => false
    | .inside _ _, _ => true
    | .drain _, _ => false
  keep := fun _ => false
  done := lazyDone

/-- A list whose members are below `m`, each at most once, has at most `m` members. -/
theorem length_le (m : Nat) : ∀ l : List Nat, (∀ x, l.count x ≤ if x < m then 1 else 0) → l.length ≤ m := by
  induction m with
  | zero =>
    intro l h
    cases l with
    | nil => exact Nat.le_refl _
    | cons a l =>
      have := h a
      simp at this
  | succ m ih =>
    intro l h
    have := ih (l.filter (fun x => x != m)) (fun x => by
      have hx := h x
      by_cases e : x = m
      · subst e
        have : List.count x (l.filter (fun y => y != x)) = 0 := List.count_eq_zero.2 (by simp)
        omega
      · rw [List.count_filter (by simpa using e)]
        by_cases c : x < m
        · rw [if_pos c]
          rw [if_pos (by omega)] at hx
          exact hx
        · rw [if_neg c]
          rw [if_neg (by omega)] at hx
          exact hx)
    have h2 := List.length_eq_countP_add_countP (fun x => x != m) (l := l)
    have h3 : l.countP (fun x => decide (¬ (x != m) = true)) = l.count m := by
      rw [List.count]
      congr 1
      funext x
      by_cases e : x = m <;> simp [e]
    have h4 := h m
    rw [if_pos (by omega)] at h4
    rw [List.countP_eq_length_filter] at h2
    omega

/-- The moves a thread of the epoch collector still makes, if the epoch stays `E` and there are `m` items. -/
def epochLeft (E m : Nat) : EpochGC.PC → Nat
  | .out => 3
  | .b1 g => if g = E then 2 else 5
  | .b2 g => if g = E then 1 else 4
  | .b3 _ g' => if g' = E then 3 else 6
  | .inside _ _ _ => m + 10
  | .e1 _ _ _ _ => m + 9
  | .e2 _ => m + 8
  | .e3 _ => m + 7
  | .e4 _ => m + 6
  | .e5 _ l => max (l.length + 2) 5
  | .dr _ l => l.length + 1
  | .p0 _ => 4
  | .p1 _ g => if g = E then 3 else 6
  | .p2 _ g => if g = E then 2 else 5
  | .p3 _ _ g' => if g' = E then 4 else 7
  | .p4 _ _ => 1

theorem epoch_down {w n : Nat} (hn : n < w) (y y' : EpochGC.Sys) (i : Nat) (p p' : EpochGC.PC) (r : EpochGC.Reach w n y) (s : EpochGC.Step w y y') (hp : y.thrs[i]? = some p)
    (ht : y'.thrs = y.thrs.set i p') (hne : p ≠ p') (hd : epochDone p p' = false) :
    y'.epoch = y.epoch ∧ y'.managed.length = y.managed.length ∧ epochLeft y.epoch y.managed.length p' < epochLeft y.epoch y.managed.length p := by
  have I := r.inv hn
  have hl : ∀ G, (y.list (G % 3)).length ≤ y.managed.length := by
    intro G
    refine length_le _ _ (fun x => ?_)
    have hx := I.places x
    have : (y.list (G % 3)).count x ≤ EpochGC.total y.list x := by
      have : G % 3 = 0 ∨ G % 3 = 1 ∨ G % 3 = 2 := by omega
      rcases this with e | e | e <;> rw [e, EpochGC.total] <;> omega
    rw [← hx, EpochGC.places]
    omega
  have key : ∀ {j : Nat} {q q' : EpochGC.PC}, y.thrs[j]? = some q → y'.thrs = y.thrs.set j q' → p = q ∧ p' = q' := by
    intro j q q' hq e
    by_cases hj : j = i
    · subst hj
      rw [hp] at hq
      refine ⟨Option.some.inj hq, ?_⟩
      have h1 : y'.thrs[j]? = some p' := by rw [ht, List.getElem?_set_self (lt_of_some hp)]
      rw [e, List.getElem?_set_self (lt_of_some hp)] at h1
      exact (Option.some.inj h1).symm
    · exfalso
      have h1 : y'.thrs[i]? = some p' := by rw [ht, List.getElem?_set_self (lt_of_some hp)]
      rw [e, List.getElem?_set_ne hj, hp] at h1
      exact hne (Option.some.inj h1)
  cases s with
  | begin h => obtain ⟨rfl, rfl⟩ := key h rfl; simp [epochLeft]
  | inc h => obtain ⟨rfl, rfl⟩ := key h rfl; refine ⟨rfl, rfl, ?_⟩; simp only [epochLeft]; split <;> omega
  | enter h _ => obtain ⟨rfl, rfl⟩ := key h rfl; simp [epochDone] at hd
  | retry h c => obtain ⟨rfl, rfl⟩ := key h rfl; refine ⟨rfl, rfl, ?_⟩; simp [epochLeft, c]
  | dec h => obtain ⟨rfl, rfl⟩ := key h rfl; refine ⟨rfl, rfl, ?_⟩; simp only [epochLeft]; split <;> omega
  | manage h => obtain ⟨rfl, rfl⟩ := key h rfl; simp [epochDone] at hd
  | endLoad h => obtain ⟨rfl, rfl⟩ := key h rfl; simp [epochLeft]
  | leave h => obtain ⟨rfl, rfl⟩ := key h rfl; simp [epochLeft]
  | stale h _ => obtain ⟨rfl, rfl⟩ := key h rfl; simp [epochLeft]
  | staleNot h _ => obtain ⟨rfl, rfl⟩ := key h rfl; simp [epochDone] at hd
  | next h _ => obtain ⟨rfl, rfl⟩ := key h rfl; simp [epochLeft]
  | nextNot h _ => obtain ⟨rfl, rfl⟩ := key h rfl; simp [epochDone] at hd
  | @take _ G h _ =>
    obtain ⟨rfl, rfl⟩ := key h rfl
    refine ⟨rfl, rfl, ?_⟩
    have := hl G
    simp only [epochLeft]
    omega
  | takeNot h => obtain ⟨rfl, rfl⟩ := key h rfl; simp [epochDone] at hd
  | same h _ => obtain ⟨rfl, rfl⟩ := key h rfl; refine ⟨rfl, rfl, ?_⟩; simp only [epochLeft]; omega
  | moved h _ _ => obtain ⟨rfl, rfl⟩ := key h rfl; refine ⟨rfl, rfl, ?_⟩; simp only [epochLeft]; omega
  | movedNone h _ => obtain ⟨rfl, rfl⟩ := key h rfl; simp [epochDone] at hd
  | reclaim h => obtain ⟨rfl, rfl⟩ := key h rfl; simp [epochLeft]
  | advance h => obtain ⟨rfl, rfl⟩ := key h rfl; simp [epochDone] at hd
  | pLoad h => obtain ⟨rfl, rfl⟩ := key h rfl; simp [epochLeft]
  | pInc h => obtain ⟨rfl, rfl⟩ := key h rfl; refine ⟨rfl, rfl, ?_⟩; simp only [epochLeft]; split <;> omega
  | pSame h c => obtain ⟨rfl, rfl⟩ := key h rfl; refine ⟨rfl, rfl, ?_⟩; simp [epochLeft, c]
  | pRetry h c => obtain ⟨rfl, rfl⟩ := key h rfl; refine ⟨rfl, rfl, ?_⟩; simp [epochLeft, c]
  | pDec h => obtain ⟨rfl, rfl⟩ := key h rfl; refine ⟨rfl, rfl, ?_⟩; simp only [epochLeft]; split <;> omega
  | put h => obtain ⟨rfl, rfl⟩ := key h rfl; simp [epochDone] at hd

/-- The lists threads have are no longer than the number of items. -/
theorem epoch_held {w n : Nat} (hn : n < w) {y : EpochGC.Sys} (r : EpochGC.Reach w n y) {i : Nat} {p : EpochGC.PC} (h : y.thrs[i]? = some p) : p.items.length ≤ y.managed.length := by
  refine length_le _ _ (fun x => ?_)
  have hx := (r.inv hn).places x
  have := Conc.le_sumBy (EpochGC.holds x) h
  rw [← hx, EpochGC.places]
  rw [EpochGC.holds] at this
  omega

theorem epoch_length {w n : Nat} {y : EpochGC.Sys} (r : EpochGC.Reach w n y) : y.thrs.length = n := by
  induction r with
  | init => simp [EpochGC.init]
  | step _ s ih => cases s <;> simpa using ih

/-- **C132**, epoch collector.  Let `n` threads use the collector, fewer than a count has values, and let `m` items have been handed over so far.  From every reachable state, in whatever order the threads go on:
among any `n * ((2 * n + 3) * (m + 10) + 2) + 1` consecutive steps, there is one with which a call of `Begin`, `Manage` or `End` returns. -/
theorem C132_epoch (w n : Nat) (hn : n < w) (f f' : Fine EpochGC.Sys) (h : FReach (epoch w) (EpochGC.init n) f) (k : Nat) (q : Quiet (epoch w) k f f') :
    k ≤ n * ((2 * n + 3) * (f.sys.managed.length + 10) + 2) := by
  have r : EpochGC.Reach w n f.sys := h.sys .init (fun _ _ r s => r.step s)
  have b := quiet_bound (epoch w) (EpochGC.Reach w n) (fun y => epochLeft y.epoch y.managed.length)
    (fun y y' i p p' r s hp ht hne hd => by
      obtain ⟨e, m, lt⟩ := epoch_down hn y y' i p p' r s hp ht hne hd
      exact ⟨r.step s, by rw [e, m]; exact lt, fun q => by rw [e, m]⟩) q r
  have hl : ((epoch w).thrs f.sys).length = n := epoch_length r
  rw [hl] at b
  refine Nat.le_trans b (sumTo_bound (fun j => ?_) n)
  simp only [due]
  split
  · exact Nat.zero_le _
  · rename_i p hp
    have h1 := rounds_le (epoch w) f j p
    have h2 : epochLeft f.sys.epoch f.sys.managed.length p ≤ f.sys.managed.length + 10 := by
      have := epoch_held hn r (p := p) hp
      cases p <;> simp only [epochLeft, EpochGC.PC.items] at this ⊢ <;> (try split) <;> omega
    have h3 := Nat.mul_le_mul_left (2 * n + 3) h2
    omega

/-- The moves a thread of the lazy collector still makes, if there are `m` items. -/
def lazyLeft (m : Nat) : LazyGC.PC → Nat
  | .out => 1
  | .inside _ _ => m + 2
  | .drain l => l.length + 1

theorem lazy_down {w n : Nat} (hn : n < w) (y y' : LazyGC.Sys) (i : Nat) (p p' : LazyGC.PC) (r : LazyGC.Reach w n y) (s : LazyGC.Step w y y') (hp : y.thrs[i]? = some p)
    (ht : y'.thrs = y.thrs.set i p') (hne : p ≠ p') (hd : lazyDone p p' = false) : y'.managed.length = y.managed.length ∧ lazyLeft y.managed.length p' < lazyLeft y.managed.length p := by
  have I := r.inv hn
  have key : ∀ {j : Nat} {q q' : LazyGC.PC}, y.thrs[j]? = some q → y'.thrs = y.thrs.set j q' → p = q ∧ p' = q' := by
    intro j q q' hq e
    by_cases hj : j = i
    · subst hj
      rw [hp] at hq
      refine ⟨Option.some.inj hq, ?_⟩
      have h1 : y'.thrs[j]? = some p' := by rw [ht, List.getElem?_set_self (lt_of_some hp)]
      rw [e, List.getElem?_set_self (lt_of_some hp)] at h1
      exact (Option.some.inj h1).symm
    · exfalso
      have h1 : y'.thrs[i]? = some p' := by rw [ht, List.getElem?_set_self (lt_of_some hp)]
      rw [e, List.getElem?_set_ne hj, hp] at h1
      exact hne (Option.some.inj h1)
  cases s with
  | begin h => obtain ⟨rfl, rfl⟩ := key h rfl; simp [lazyDone] at hd
  | manage h => obtain ⟨rfl, rfl⟩ := key h rfl; simp [lazyDone] at hd
  | leave h _ => obtain ⟨rfl, rfl⟩ := key h rfl; simp [lazyDone] at hd
  | @last _ s loc h _ =>
    obtain ⟨rfl, rfl⟩ := key h rfl
    refine ⟨rfl, ?_⟩
    have : (loc ++ y.list).length ≤ y.managed.length := by
      refine length_le _ _ (fun x => ?_)
      have hx := I.places x
      have := Conc.le_sumBy (LazyGC.holds x) h
      rw [← hx, LazyGC.places, List.count_append]
      simp only [LazyGC.holds] at this
      omega
    rw [LazyGC.join_eq]
    simp only [lazyLeft]
    omega
  | reclaim h => obtain ⟨rfl, rfl⟩ := key h rfl; simp [lazyLeft]
  | drained h => obtain ⟨rfl, rfl⟩ := key h rfl; simp [lazyDone] at hd

theorem lazy_length {w n : Nat} {y : LazyGC.Sys} (r : LazyGC.Reach w n y) : y.thrs.length = n := by
  induction r with
  | init => simp [LazyGC.init]
  | step _ s ih => cases s <;> simpa using ih

/-- **C132**, lazy collector.  Let `n` threads use the collector, fewer than the count has values, and let `m` items have been handed over so far.  From every reachable state, in whatever order the threads go on:
among any `n * ((2 * n + 3) * (m + 2) + 2) + 1` consecutive steps, there is one with which a call of `Begin`, `Manage` or `End` returns. -/
theorem C132_lazy (w n : Nat) (hn : n < w) (f f' : Fine LazyGC.Sys) (h : FReach (lazy w) (LazyGC.init n) f) (k : Nat) (q : Quiet (lazy w) k f f') :
    k ≤ n * ((2 * n + 3) * (f.sys.managed.length + 2) + 2) := by
  have r : LazyGC.Reach w n f.sys := h.sys .init (fun _ _ r s => r.step s)
  have b := quiet_bound (lazy w) (LazyGC.Reach w n) (fun y => lazyLeft y.managed.length)
    (fun y y' i p p' r s hp ht hne hd => by
      obtain ⟨m, lt⟩ := lazy_down hn y y' i p p' r s hp ht hne hd
      exact ⟨r.step s, by rw [m]; exact lt, fun q => by rw [m]⟩) q r
  have hl : ((lazy w).thrs f.sys).length = n := lazy_length r
  rw [hl] at b
  refine Nat.le_trans b (sumTo_bound (fun j => ?_) n)
  simp only [due]
  split
  · exact Nat.zero_le _
  · rename_i p hp
    have h1 := rounds_le (lazy w) f j p
    have h2 : lazyLeft f.sys.managed.length p ≤ f.sys.managed.length + 2 := by
      have hp : f.sys.thrs[j]? = some p := hp
      cases p with
      | out => simp [lazyLeft]
      | inside _ _ => simp [lazyLeft]
      | drain l =>
        have : l.length ≤ f.sys.managed.length := by
          refine length_le _ _ (fun x => ?_)
          have hx := (r.inv hn).places x
          have := Conc.le_sumBy (LazyGC.holds x) hp
          rw [← hx, LazyGC.places]
          simp only [LazyGC.holds] at this
          omega
        simp only [lazyLeft]
        omega
    have h3 := Nat.mul_le_mul_left (2 * n + 3) h2
    omega

/-- A thread can always go on: it loads the pair it is about to exchange, or it moves. -/
def Goes {S P V : Type} [DecidableEq V] (L : Prog S P V) (f : Fine S) (i : Nat) : Prop :=
  ∃ f', FStep L f f' ∧ (f.seen i = none ∧ f'.seen i ≠ none ∨ (L.thrs f'.sys)[i]? ≠ (L.thrs f.sys)[i]?)

theorem goes_load {S P V : Type} [DecidableEq V] {L : Prog S P V} {f : Fine S} {i a : Nat} {p : P} (hp : (L.thrs f.sys)[i]? = some p) (hs : L.slot p = some a) (hn : f.seen i = none) : Goes L f i :=
  ⟨_, .load hp hs hn, .inl ⟨hn, by simp [LockFree.upd]⟩⟩

theorem goes_move {S P V : Type} [DecidableEq V] {L : Prog S P V} {f : Fine S} {i : Nat} {p p' : P} {y : S} (hp : (L.thrs f.sys)[i]? = some p) (s : L.Step f.sys y) (ht : L.thrs y = (L.thrs f.sys).set i p') (hne : p ≠ p')
    (hx : L.exch p p' = true → f.seen i ≠ none) : Goes L f i :=
  ⟨_, .move hp s ht hne hx, .inr (by
    simp only [ht]
    rw [List.getElem?_set_self (lt_of_some hp), hp]
    exact fun e => hne (Option.some.inj e).symm)⟩

/-- **C132.** No thread of the epoch collector ever waits for another: in every state each thread has a step it can take. -/
theorem C132_epoch_no_waiting (w : Nat) (f : Fine EpochGC.Sys) (i : Nat) (hi : i < f.sys.thrs.length) : Goes (epoch w) f i := by
  obtain ⟨p, hp⟩ : ∃ p, f.sys.thrs[i]? = some p := ⟨_, List.getElem?_eq_getElem hi⟩
  by_cases hs : ∃ a, epochSlot p = some a ∧ f.seen i = none
  · obtain ⟨a, hs, hn⟩ := hs
    exact goes_load (L := epoch w) hp hs hn
  have hx : ∀ p', (epoch w).exch p p' = true → f.seen i ≠ none := by
    intro p' h e
    have h : (epochSlot p).isSome = true := h
    obtain ⟨a, ha⟩ := Option.isSome_iff_exists.1 h
    exact hs ⟨a, ha, e⟩
  cases p with
  | out => exact goes_move (L := epoch w) hp (.begin hp) rfl (by simp) (hx _)
  | b1 g => exact goes_move (L := epoch w) hp (.inc hp) rfl (by simp) (hx _)
  | b2 g =>
    by_cases c : g = f.sys.epoch
    · exact goes_move (L := epoch w) hp (.enter hp c) rfl (by simp) (hx _)
    · exact goes_move (L := epoch w) hp (.retry hp c) rfl (by simp) (hx _)
  | b3 g g' => exact goes_move (L := epoch w) hp (.dec hp) rfl (by simp) (hx _)
  | inside s g loc => exact goes_move (L := epoch w) hp (.endLoad hp) rfl (by simp) (hx _)
  | e1 s g loc G => exact goes_move (L := epoch w) hp (.leave hp) rfl (by simp) (hx _)
  | e2 G =>
    by_cases c : f.sys.rc (G % 3) = 0
    · exact goes_move (L := epoch w) hp (.stale hp c) rfl (by simp) (hx _)
    · exact goes_move (L := epoch w) hp (.staleNot hp c) rfl (by simp) (hx _)
  | e3 G =>
    by_cases c : f.sys.rc ((G % 3 + 1) % 3) = 0
    · exact goes_move (L := epoch w) hp (.next hp c) rfl (by simp) (hx _)
    · exact goes_move (L := epoch w) hp (.nextNot hp c) rfl (by simp) (hx _)
  | e4 G => exact goes_move (L := epoch w) hp (.takeNot hp) rfl (by simp) (hx _)
  | e5 G l =>
    by_cases c : G = f.sys.epoch
    · exact goes_move (L := epoch w) hp (.same hp c) rfl (by simp) (hx _)
    · cases l with
      | nil => exact goes_move (L := epoch w) hp (.movedNone hp c) rfl (by simp) (hx _)
      | cons a l => exact goes_move (L := epoch w) hp (.moved hp c (by simp)) rfl (by simp) (hx _)
  | dr G l =>
    cases l with
    | nil => exact goes_move (L := epoch w) hp (.advance hp) rfl (by simp) (hx _)
    | cons a l => exact goes_move (L := epoch w) hp (.reclaim hp) rfl (by simp) (hx _)
  | p0 l => exact goes_move (L := epoch w) hp (.pLoad hp) rfl (by simp) (hx _)
  | p1 l g => exact goes_move (L := epoch w) hp (.pInc hp) rfl (by simp) (hx _)
  | p2 l g =>
    by_cases c : g = f.sys.epoch
    · exact goes_move (L := epoch w) hp (.pSame hp c) rfl (by simp) (hx _)
    · exact goes_move (L := epoch w) hp (.pRetry hp c) rfl (by simp) (hx _)
  | p3 l g g' => exact goes_move (L := epoch w) hp (.pDec hp) rfl (by simp) (hx _)
  | p4 l g => exact goes_move (L := epoch w) hp (.put hp) rfl (by simp) (hx _)

/-- **C132.** Nor does a thread of the lazy collector. -/
theorem C132_lazy_no_waiting (w : Nat) (f : Fine LazyGC.Sys) (i : Nat) (hi : i < f.sys.thrs.length) : Goes (lazy w) f i := by
  obtain ⟨p, hp⟩ : ∃ p, f.sys.thrs[i]? = some p := ⟨_, List.getElem?_eq_getElem hi⟩
  cases p with
  | out =>
    by_cases hn : f.seen i = none
    · exact goes_load (L := lazy w) (a := 0) hp rfl hn
    · exact goes_move (L := lazy w) hp (.begin hp) rfl (by simp) (fun _ => hn)
  | inside s loc =>
    by_cases hn : f.seen i = none
    · exact goes_load (L := lazy w) (a := 0) hp rfl hn
    · by_cases c : f.sys.rc = 1
      · exact goes_move (L := lazy w) hp (.last hp c) rfl (by simp) (fun _ => hn)
      · exact goes_move (L := lazy w) hp (.leave hp c) rfl (by simp) (fun _ => hn)
  | drain l =>
    cases l with
    | nil => exact goes_move (L := lazy w) hp (.drained hp) rfl (by simp) (by intro e; cases e)
    | cons a l => exact goes_move (L := lazy w) hp (.reclaim hp) rfl (by simp) (by intro e; cases e)

/-- For the example: two threads, neither of which has returned. -/
theorem quiet_two {w : Nat} {y y' : EpochGC.Sys}
    (h : ∃ p q p' q', y.thrs = [p, q] ∧ y'.thrs = [p', q'] ∧ epochDone p p' = false ∧ epochDone q q' = false) : ¬ Done (epoch w) y y' := by
  obtain ⟨p, q, p', q', e, e', d, d'⟩ := h
  rintro ⟨i, a, b, hp, hp', hne, hd⟩
  have hp : y.thrs[i]? = some a := hp
  have hp' : y'.thrs[i]? = some b := hp'
  have hd : epochDone a b = true := hd
  rw [e] at hp
  rw [e'] at hp'
  match i with
  | 0 => cases hp; cases hp'; rw [d] at hd; cases hd
  | 1 => cases hp; cases hp'; rw [d'] at hd; cases hd
  | _ + 2 => cases hp

/-- Two threads begin: both load the pair, one counts itself in, the exchange of the other fails, and it loads the pair again.  No call has returned. -/
example : ∃ f f', FReach (epoch (2 ^ 32)) (EpochGC.init 2) f ∧ Quiet (epoch (2 ^ 32)) 5 f f' ∧ f'.sys.rc 2 = 1 := by
  have h := FReach.init (L := epoch (2 ^ 32)) (y₀ := EpochGC.init 2)
  have h := h.step (.move (i := 0) rfl (EpochGC.Step.begin (i := 0) rfl) rfl (by decide) (by intro e; cases e))
  have h := h.step (.move (i := 1) rfl (EpochGC.Step.begin (i := 1) rfl) rfl (by decide) (by intro e; cases e))
  obtain ⟨f, e, h⟩ : ∃ f, f = _ ∧ FReach (epoch (2 ^ 32)) (EpochGC.init 2) f := ⟨_, rfl, h⟩
  have q := Quiet.nil (L := epoch (2 ^ 32)) f
  rw [e] at q h
  have q := q.snoc (.load (i := 0) rfl rfl rfl) (quiet_two ⟨_, _, _, _, rfl, rfl, rfl, rfl⟩)
  have q := q.snoc (.load (i := 1) rfl rfl rfl) (quiet_two ⟨_, _, _, _, rfl, rfl, rfl, rfl⟩)
  have q := q.snoc (.move (i := 0) rfl (EpochGC.Step.inc (i := 0) rfl) rfl (by decide) (by intro _ e; cases e)) (quiet_two ⟨_, _, _, _, rfl, rfl, rfl, rfl⟩)
  have q := q.snoc (.fail (i := 1) (v := 0) rfl rfl rfl (by decide)) (quiet_two ⟨_, _, _, _, rfl, rfl, rfl, rfl⟩)
  have q := q.snoc (.load (i := 1) rfl rfl rfl) (quiet_two ⟨_, _, _, _, rfl, rfl, rfl, rfl⟩)
  exact ⟨_, _, h, q, rfl⟩

/-- One thread ends a section in which it handed over an item: it loads the pair, takes the list, and reclaims the item.  No call has returned, and the end of the list is still to be found. -/
example : ∃ f f', FReach (lazy (2 ^ 32)) (LazyGC.init 1) f ∧ Quiet (lazy (2 ^ 32)) 3 f f' ∧ f'.sys.reclaimed = [(0, [])] ∧ f.sys.managed.length = 1 := by
  have nd : ∀ {y y' : LazyGC.Sys}, (∃ p p', y.thrs = [p] ∧ y'.thrs = [p'] ∧ (p = p' ∨ lazyDone p p' = false)) → ¬ Done (lazy (2 ^ 32)) y y' := by
    rintro y y' ⟨p, p', e, e', d⟩ ⟨i, a, b, hp, hp', hne, hd⟩
    have hp : y.thrs[i]? = some a := hp
    have hp' : y'.thrs[i]? = some b := hp'
    have hd : lazyDone a b = true := hd
    rw [e] at hp
    rw [e'] at hp'
    match i with
    | 0 =>
      cases hp
      cases hp'
      rcases d with d | d
      · exact hne d
      · rw [d] at hd; cases hd
    | _ + 1 => cases hp
  have h := FReach.init (L := lazy (2 ^ 32)) (y₀ := LazyGC.init 1)
  have h := h.step (.load (i := 0) (a := 0) rfl rfl rfl)
  have h := h.step (.move (i := 0) rfl (LazyGC.Step.begin (i := 0) rfl) rfl (by decide) (by intro _ e; cases e))
  have h := h.step (.move (i := 0) rfl (LazyGC.Step.manage (i := 0) rfl) rfl (by decide) (by intro e; cases e))
  obtain ⟨f, e, h⟩ : ∃ f, f = _ ∧ FReach (lazy (2 ^ 32)) (LazyGC.init 1) f := ⟨_, rfl, h⟩
  have q := Quiet.nil (L := lazy (2 ^ 32)) f
  rw [e] at q h
  have q := q.snoc (.load (i := 0) (a := 0) rfl rfl rfl) (nd ⟨_, _, rfl, rfl, .inl rfl⟩)
  have q := q.snoc (.move (i := 0) rfl (LazyGC.Step.last (i := 0) rfl rfl) rfl (by decide) (by intro _ e; cases e)) (nd ⟨_, _, rfl, rfl, .inr rfl⟩)
  have q := q.snoc (.move (i := 0) rfl (LazyGC.Step.reclaim (i := 0) rfl) rfl (by decide) (by intro e; cases e)) (nd ⟨_, _, rfl, rfl, .inr rfl⟩)
  exact ⟨_, _, h, q, rfl, rfl⟩

#print axioms C132_epoch
#print axioms C132_lazy
#print axioms C132_epoch_no_waiting
#print axioms C132_lazy_no_waiting
end Verif.GCProgress
