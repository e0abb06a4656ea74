import Verif.ListMem
import Verif.PListOps
/-!
# C117: a CCList gives back the memory it has taken
-/
namespace Verif.ListMem
open Verif.Array hiding Op step create
open Verif.PList hiding step create
open Verif.PList.Spec hiding History

namespace Spec

/-- Memory in which nothing is held. -/
def empty : Mem := { live := [], next := 0 }

/-- Blocks lost by a call on a list of `n` elements: a removal that leaves some elements, exactly filling the pages, loses one. -/
def lost {α} (pageSize n : Nat) : Op α → Nat
  | .remove _ => if n - 1 ≠ 0 ∧ (n - 1) % pageSize = 0 then 1 else 0
  | _ => 0

/-- Histories of documented calls (those handled by the list, see C04) on a list created in empty memory: the list, the mathematical sequence
it holds, and the number of blocks lost so far. -/
inductive History {α} (chunk pageSize : Nat) : LM α → List (Option α) → Nat → Prop
  | create (X : LM α) : create α chunk pageSize empty = some X → History chunk pageSize X [] 0
  | call (X : LM α) (l : List (Option α)) (n : Nat) (op : Op α) (X' : LM α) (r : Ret) :
      History chunk pageSize X l n → valid l.length op → handled X.list.pageSize l.length op → step X op = some (X', r) →
      History chunk pageSize X' (edit l op) (n + lost X.list.pageSize l.length op)

end Spec
open Verif.ListMem.Spec

/-! ## Memory -/

theorem free_ok {m : Mem} {b : Nat} {rest : List Nat} (h : m.live.Perm (b :: rest)) :
    ∃ m', free m b = some m' ∧ m'.live.Perm rest ∧ m'.next = m.next := by
  have hb : b ∈ m.live := h.symm.subset (by simp)
  refine ⟨{ m with live := m.live.erase b }, by simp [free, hb], ?_, rfl⟩
  have := h.erase b
  simpa using this

theorem freeAll_ok : ∀ (bs : List Nat) (m : Mem) (rest : List Nat), m.live.Perm (bs ++ rest) →
    ∃ m', freeAll bs m = some m' ∧ m'.live.Perm rest ∧ m'.next = m.next
  | [], m, rest, h => ⟨m, rfl, h, rfl⟩
  | b :: bs, m, rest, h => by
    obtain ⟨m1, e1, p1, n1⟩ := free_ok (rest := bs ++ rest) h
    obtain ⟨m2, e2, p2, n2⟩ := freeAll_ok bs m1 rest p1
    refine ⟨m2, ?_, p2, by rw [n2, n1]⟩
    rw [freeAll, e1]; exact e2

/-- The blocks a list can reach. -/
def reach (o : Own) : List Nat := o.info :: (o.pages.map (·.1) ++ o.pages.map (·.2))

structure Holds (o : Own) (k : Nat) (leaked : List Nat) : Prop where
  len : o.pages.length = k
  perm : o.mem.live.Perm (reach o ++ leaked)
  nodup : o.mem.live.Nodup
  lt : ∀ b ∈ o.mem.live, b < o.mem.next

theorem addPage_ok {o : Own} {k leaked} (h : Holds o k leaked) : Holds (addPage o) (k + 1) leaked := by
  refine ⟨by simp [addPage, h.len], ?_, ?_, ?_⟩
  · simp only [addPage, alloc, reach, List.map_append, List.map_cons, List.map_nil]
    have := h.perm
    simp only [reach] at this
    rw [List.perm_iff_count] at this ⊢
    intro a
    have := this a
    simp only [List.count_cons, List.count_append, List.cons_append, List.count_nil] at this ⊢
    omega
  · simp only [addPage, alloc]
    refine List.nodup_cons.2 ⟨?_, List.nodup_cons.2 ⟨?_, h.nodup⟩⟩
    · intro hm
      rcases List.mem_cons.1 hm with e | e
      · omega
      · have := h.lt _ e; omega
    · intro e; have := h.lt _ e; omega
  · intro b hb
    simp only [addPage, alloc, List.mem_cons] at hb ⊢
    rcases hb with e | e | e
    · omega
    · omega
    · have := h.lt _ e; omega

theorem addPages_ok : ∀ (j : Nat) (o : Own) (k leaked), Holds o k leaked → Holds (addPages j o) (k + j) leaked
  | 0, _, _, _, h => h
  | j + 1, o, k, leaked, h => by
    have := addPages_ok j _ _ _ (addPage_ok h)
    rw [addPages, show k + (j + 1) = k + 1 + j by omega]; exact this

theorem createOwn_ok : Holds (createOwn empty) 1 [] := by
  refine ⟨rfl, ?_, ?_, ?_⟩
  · rw [List.perm_iff_count]; intro a
    simp only [createOwn, addPage, alloc, empty, reach, List.map_append, List.map_cons, List.map_nil, List.count_cons, List.count_append, List.nil_append, List.cons_append, List.count_nil]
    omega
  · simp [createOwn, addPage, alloc, empty]
  · simp [createOwn, addPage, alloc, empty]

theorem live_sub {m m' : Mem} {r leaked : List Nat} (hn : m.live.Nodup) (hp : m.live.Perm (r ++ leaked)) (hp' : m'.live.Perm leaked) :
    m'.live.Nodup ∧ ∀ b ∈ m'.live, b ∈ m.live := by
  refine ⟨?_, fun b hb => hp.symm.subset (List.mem_append_right _ (hp'.subset hb))⟩
  have := (hp.nodup_iff.1 hn)
  exact hp'.nodup_iff.2 (List.nodup_append.1 this).2.1

theorem dropPage_ok {o : Own} {k leaked} (h : Holds o (k + 1) leaked) :
    ∃ o' a, dropPage o = some o' ∧ Holds o' k (a :: leaked) := by
  obtain ⟨ps, ⟨a, n⟩, hp⟩ : ∃ ps p, o.pages = ps ++ [p] := by
    have hne : o.pages ≠ [] := by intro e; have := h.len; rw [e] at this; simp at this
    exact ⟨_, _, (List.dropLast_append_getLast hne).symm⟩
  have hperm := h.perm
  have hq : o.mem.live.Perm ([n] ++ (reach { o with pages := ps } ++ a :: leaked)) := by
    refine hperm.trans ?_
    rw [List.perm_iff_count]; intro b
    simp only [reach, hp, List.map_append, List.map_cons, List.map_nil, List.count_cons, List.count_append, List.nil_append, List.cons_append, List.count_nil]
    omega
  obtain ⟨m', e1, p1, n1⟩ := free_ok hq
  have hs := live_sub h.nodup hq p1
  refine ⟨{ o with mem := m', pages := ps }, a, ?_, ⟨?_, p1, hs.1, fun b hb => by rw [n1]; exact h.lt b (hs.2 b hb)⟩⟩
  · rw [dropPage, hp, List.getLast?_concat]
    simp only [e1, List.dropLast_concat]
  · have := h.len; rw [hp] at this; simpa using this

theorem dropTail_ok {o : Own} {k leaked} (h : Holds o (k + 1) leaked) :
    ∃ o', dropTail o = some o' ∧ Holds o' 1 leaked := by
  obtain ⟨p, ps, hp⟩ : ∃ p ps, o.pages = p :: ps := by
    cases e : o.pages with
    | nil => have := h.len; rw [e] at this; simp at this
    | cons p ps => exact ⟨p, ps, rfl⟩
  have hq : o.mem.live.Perm (ps.map (·.1) ++ (ps.map (·.2) ++ (reach { o with pages := [p] } ++ leaked))) := by
    refine h.perm.trans ?_
    rw [List.perm_iff_count]; intro b
    simp only [reach, hp, List.map_append, List.map_cons, List.map_nil, List.count_cons, List.count_append, List.nil_append, List.cons_append, List.count_nil]
    omega
  obtain ⟨m1, e1, p1, n1⟩ := freeAll_ok _ _ _ hq
  obtain ⟨m2, e2, p2, n2⟩ := freeAll_ok _ _ _ p1
  have hs := live_sub (r := ps.map (·.1) ++ ps.map (·.2)) h.nodup (by rw [List.append_assoc]; exact hq) p2
  refine ⟨{ o with mem := m2, pages := [p] }, ?_, ⟨rfl, p2, hs.1, fun b hb => by rw [n2, n1]; exact h.lt b (hs.2 b hb)⟩⟩
  rw [dropTail, hp]
  simp only [List.tail_cons, e1, e2]
  rfl

theorem destroyOwn_ok {o : Own} {k leaked} (h : Holds o k leaked) :
    ∃ m, destroyOwn o = some m ∧ m.live.Perm leaked := by
  have hq : o.mem.live.Perm (o.pages.map (·.1) ++ (o.pages.map (·.2) ++ (o.info :: leaked))) := by
    refine h.perm.trans ?_
    rw [List.perm_iff_count]; intro b
    simp only [reach, List.count_cons, List.count_append, List.cons_append]
    omega
  obtain ⟨m1, e1, p1, n1⟩ := freeAll_ok _ _ _ hq
  obtain ⟨m2, e2, p2, n2⟩ := freeAll_ok _ _ _ p1
  obtain ⟨m3, e3, p3, n3⟩ := free_ok p2
  refine ⟨m3, ?_, p3⟩
  simp only [destroyOwn, e1, e2, e3]

/-! ## The number of pages -/

/-- Pages needed for `n` elements. -/
def pageCount (ps n : Nat) : Nat := if n = 0 then 1 else (n - 1) / ps + 1

theorem rep_pages {α chunk} {L : PL α} {l} (h : Rep chunk L l) : 1 ≤ L.pageSize ∧ L.pages.length = pageCount L.pageSize l.length := by
  obtain ⟨init, t, o, rfl⟩ := h
  refine ⟨o.ps1, ?_⟩
  have hl : L.pages.length = init.length + 1 := by rw [o.pages.length_eq]; simp
  have hlen : (init ++ [t]).flatten.length = init.length * L.pageSize + t.length := by simp [flatten_full o.shape.full]
  rw [hl, hlen, pageCount]
  have hle := o.shape.le
  have hps := o.ps1
  by_cases ht : t = []
  · have := o.shape.ne ht
    simp [ht, this]
  · have htl : 1 ≤ t.length := List.length_pos_iff.2 ht
    rw [if_neg (by omega)]
    congr 1
    rw [show init.length * L.pageSize + t.length - 1 = (t.length - 1) + L.pageSize * init.length by rw [Nat.mul_comm]; omega]
    rw [Nat.add_mul_div_left _ _ (by omega), Nat.div_eq_of_lt (by omega)]; omega

theorem pageCount_mono {ps a b : Nat} (h : a ≤ b) : pageCount ps a ≤ pageCount ps b := by
  simp only [pageCount]
  split
  · split
    · omega
    · exact Nat.le_add_left _ _
  · rw [if_neg (by omega)]
    have := Nat.div_le_div_right (c := ps) (show a - 1 ≤ b - 1 by omega)
    omega

theorem pageCount_pred {ps n : Nat} (hps : 1 ≤ ps) (hn : 1 ≤ n) :
    pageCount ps n = pageCount ps (n - 1) + (if n - 1 ≠ 0 ∧ (n - 1) % ps = 0 then 1 else 0) := by
  simp only [pageCount]
  rw [if_neg (by omega)]
  by_cases h1 : n - 1 = 0
  · simp [h1]
  · rw [if_neg h1]
    obtain ⟨j, hj⟩ : ∃ j, n - 1 = j + 1 := ⟨n - 2, by omega⟩
    rw [hj, Nat.succ_div, Nat.add_sub_cancel]
    have : (ps ∣ j + 1) ↔ ((j + 1) % ps = 0) := Nat.dvd_iff_mod_eq_zero
    by_cases hd : (j + 1) % ps = 0
    · simp [hd, this.2 hd]
    · rw [if_neg (fun h => hd (this.1 h)), if_neg (fun h => hd h.2)]

theorem edit_grow {α} (l : List (Option α)) (op : Op α) (hv : valid l.length op) :
    match op with
    | .append _ | .appendN _ | .insert _ _ => l.length ≤ (edit l op).length
    | .replace _ _ => (edit l op).length = l.length
    | .remove _ => (edit l op).length = l.length - 1 ∧ 1 ≤ l.length
    | .removeAll => (edit l op).length = 0 := by
  cases op with
  | append e => simp [edit]
  | appendN s => simp [edit]
  | replace i e => cases e <;> simp [edit]
  | insert i e => simp only [edit, List.length_append, List.length_take, List.length_drop, List.length_cons, List.length_nil]; simp only [valid] at hv; omega
  | remove i => simp only [edit, List.length_append, List.length_take, List.length_drop]; simp only [valid] at hv; omega
  | removeAll => simp [edit]

/-- One call. -/
theorem step_ok {α chunk} {X : LM α} {l leaked} (rep : Rep chunk X.list l) (h : Holds X.own X.list.pages.length leaked)
    (op : Op α) (hv : valid l.length op) (hh : handled X.list.pageSize l.length op) :
    ∃ X' leaked', step X op = some (X', result l op) ∧ X'.list.pageSize = X.list.pageSize ∧ Rep chunk X'.list (edit l op) ∧ Holds X'.own X'.list.pages.length leaked' ∧
      leaked'.length = leaked.length + lost X.list.pageSize l.length op := by
  obtain ⟨L', e, hps, rep'⟩ := step_rep rep op hv hh
  obtain ⟨hp1, hc⟩ := rep_pages rep
  obtain ⟨-, hc'⟩ := rep_pages rep'
  rw [hps] at hc'
  have hg := edit_grow l op hv
  have fin : ∀ o' leaked', ownStep X.list.pages.length L'.pages.length op X.own = some o' → Holds o' L'.pages.length leaked' →
      leaked'.length = leaked.length + lost X.list.pageSize l.length op →
      ∃ X' leaked', step X op = some (X', result l op) ∧ X'.list.pageSize = X.list.pageSize ∧ Rep chunk X'.list (edit l op) ∧ Holds X'.own X'.list.pages.length leaked' ∧
      leaked'.length = leaked.length + lost X.list.pageSize l.length op := by
    intro o' leaked' h1 h2 h3
    refine ⟨{ list := L', own := o' }, leaked', ?_, hps, rep', h2, h3⟩
    rw [step, e]; simp only [h1]
  have grow : (∀ o, ownStep X.list.pages.length L'.pages.length op o = some (addPages (L'.pages.length - X.list.pages.length) o)) →
      l.length ≤ (edit l op).length → lost X.list.pageSize l.length op = 0 →
      ∃ X' leaked', step X op = some (X', result l op) ∧ X'.list.pageSize = X.list.pageSize ∧ Rep chunk X'.list (edit l op) ∧ Holds X'.own X'.list.pages.length leaked' ∧
      leaked'.length = leaked.length + lost X.list.pageSize l.length op := by
    intro h1 h2 h3
    refine fin _ leaked (h1 _) ?_ (by rw [h3]; omega)
    have := addPages_ok (L'.pages.length - X.list.pages.length) _ _ _ h
    have hm := pageCount_mono (ps := X.list.pageSize) h2
    rwa [show X.list.pages.length + (L'.pages.length - X.list.pages.length) = L'.pages.length by omega] at this
  cases op with
  | append e => exact grow (fun _ => rfl) hg rfl
  | appendN s => exact grow (fun _ => rfl) hg rfl
  | insert i e => exact grow (fun _ => rfl) hg rfl
  | replace i e =>
    refine fin X.own leaked rfl ?_ rfl
    rw [show L'.pages.length = X.list.pages.length by rw [hc, hc', hg]]; exact h
  | removeAll =>
    have h1 : L'.pages.length = 1 := by rw [hc', hg]; rfl
    obtain ⟨k, hk⟩ : ∃ k, X.list.pages.length = k + 1 := by
      rw [hc, pageCount]; split
      · exact ⟨0, rfl⟩
      · exact ⟨_, rfl⟩
    rw [hk] at h
    obtain ⟨o', e1, h2⟩ := dropTail_ok h
    exact fin o' leaked e1 (by rw [h1]; exact h2) rfl
  | remove i =>
    have hpp := pageCount_pred hp1 hg.2
    rw [hg.1] at hc'
    rw [← hc, ← hc'] at hpp
    by_cases hl : l.length - 1 ≠ 0 ∧ (l.length - 1) % X.list.pageSize = 0
    · rw [if_pos hl] at hpp
      rw [hpp] at h
      obtain ⟨o', a, e1, h2⟩ := dropPage_ok h
      refine fin o' (a :: leaked) ?_ h2 (by simp only [lost, if_pos hl, List.length_cons])
      rw [ownStep, if_pos (by omega)]; exact e1
    · rw [if_neg hl] at hpp
      refine fin X.own leaked ?_ ?_ (by simp only [lost, if_neg hl]; omega)
      · rw [ownStep, if_neg (by omega)]
      · rw [show L'.pages.length = X.list.pages.length by omega]; exact h

theorem history_ok {α} {chunk ps n : Nat} {X : LM α} {l} (h : History chunk ps X l n) :
    ∃ leaked, Rep chunk X.list l ∧ Holds X.own X.list.pages.length leaked ∧ leaked.length = n := by
  induction h with
  | create X h =>
    simp only [create] at h
    split at h
    · rename_i L e
      cases h
      have rep : Rep chunk L ([] : List (Option α)) := history_rep (HistoryH.create L e)
      refine ⟨[], rep, ?_, rfl⟩
      have := (rep_pages rep).2
      rw [show L.pages.length = 1 by rw [this]; rfl]
      exact createOwn_ok
    · cases h
  | call X l n op X' r _ hv hh hs ih =>
    obtain ⟨leaked, rep, ho, hn⟩ := ih
    obtain ⟨X2, leaked', e, -, rep', ho', hl'⟩ := step_ok rep ho op hv hh
    rw [e] at hs; cases hs
    exact ⟨leaked', rep', ho', by rw [hl', hn]⟩

/-! ## C117 -/

/-- **C117 (exactly what is lost)**: after any history of documented calls the list can be destroyed without giving back a block twice, and what
then remains held is exactly one block for each removal that left a positive multiple of the page size of elements. -/
theorem C117_destroy_exact {α} (chunk pageSize n : Nat) (X : LM α) (l : List (Option α)) (h : History chunk pageSize X l n) :
    ∃ m, destroy X = some m ∧ m.live.Nodup ∧ m.live.length = n := by
  obtain ⟨leaked, -, ho, hn⟩ := history_ok h
  obtain ⟨m, e, p⟩ := destroyOwn_ok ho
  exact ⟨m, e, (live_sub ho.nodup ho.perm p).1, by rw [p.length_eq, hn]⟩

/-- **C117 (in use)**: the memory held while the list is in use is the list itself, an array and a node for each page (as many as the elements
need, at least one), and what has been lost. -/
theorem C117_in_use {α} (chunk pageSize n : Nat) (X : LM α) (l : List (Option α)) (h : History chunk pageSize X l n) :
    X.own.mem.live.Nodup ∧
    X.own.mem.live.length = 1 + 2 * (if l.length = 0 then 1 else (l.length - 1) / X.list.pageSize + 1) + n := by
  obtain ⟨leaked, rep, ho, hn⟩ := history_ok h
  refine ⟨ho.nodup, ?_⟩
  have := ho.len
  have hp := (rep_pages rep).2
  rw [pageCount] at hp
  rw [ho.perm.length_eq, reach]
  simp only [List.length_cons, List.length_append, List.length_map]
  omega

/-- **C117 (no fault)**: every documented call succeeds in the memory model too: no call gives back a block that is not held. -/
theorem C117_no_fault {α} (chunk pageSize n : Nat) (X : LM α) (l : List (Option α)) (h : History chunk pageSize X l n)
    (op : Op α) (hv : valid l.length op) (hh : handled X.list.pageSize l.length op) :
    ∃ X', step X op = some (X', result l op) := by
  obtain ⟨leaked, rep, ho, hn⟩ := history_ok h
  obtain ⟨X', -, e, -⟩ := step_ok rep ho op hv hh
  exact ⟨X', e⟩

/-- Histories without `CCListRemoveElementAtIndex`. -/
inductive NoRemove {α} (chunk pageSize : Nat) : LM α → List (Option α) → Prop
  | create (X : LM α) : create α chunk pageSize empty = some X → NoRemove chunk pageSize X []
  | call (X : LM α) (l : List (Option α)) (op : Op α) (X' : LM α) (r : Ret) :
      NoRemove chunk pageSize X l → valid l.length op → handled X.list.pageSize l.length op → (∀ i, op ≠ .remove i) → step X op = some (X', r) →
      NoRemove chunk pageSize X' (edit l op)

/-- **C117 (partial)**: without `CCListRemoveElementAtIndex` everything is given back.
Missing: removals, for which it is false (`C117_destroy_refuted`, `C117_destroy_exact`). -/
theorem C117_destroy_partial {α} (chunk pageSize : Nat) (X : LM α) (l : List (Option α)) (h : NoRemove chunk pageSize X l) :
    ∃ m, destroy X = some m ∧ m.live = [] := by
  have hh : History chunk pageSize X l 0 := by
    induction h with
    | create X h => exact .create X h
    | call X l op X' r _ hv hd hr hs ih =>
      have := History.call X l 0 op X' r ih hv hd hs
      have h0 : lost X.list.pageSize l.length op = 0 := by
        cases op with
        | remove i => exact absurd rfl (hr i)
        | _ => rfl
      rwa [h0] at this
  obtain ⟨m, e, -, hl⟩ := C117_destroy_exact _ _ _ _ _ hh
  exact ⟨m, e, List.length_eq_zero_iff.1 hl⟩

theorem exists_step {α} {chunk pageSize n : Nat} {X : LM α} {l : List (Option α)} (h : History chunk pageSize X l n)
    (op : Op α) (hv : valid l.length op) (hh : ∀ ps, handled ps l.length op) :
    ∃ X', History chunk pageSize X' (edit l op) (n + lost X.list.pageSize l.length op) ∧ X'.list.pageSize = X.list.pageSize := by
  obtain ⟨leaked, rep, ho, hn⟩ := history_ok h
  obtain ⟨X', -, e, hp, -⟩ := step_ok rep ho op hv (hh _)
  exact ⟨X', .call _ _ _ _ _ _ h hv (hh _) e, hp⟩

/-- **C117 is false**: with a page size of 1, appending two elements, removing one and destroying the list leaves a block held. -/
theorem C117_destroy_refuted :
    ¬ ∀ (chunk pageSize n : Nat) (X : LM Nat) (l : List (Option Nat)) (m : Mem), History chunk pageSize X l n → destroy X = some m → m.live = [] := by
  intro H
  have h0 : ∃ X : LM Nat, History 1 1 X [] 0 ∧ X.list.pageSize = 1 := ⟨_, .create _ rfl, rfl⟩
  obtain ⟨X0, h0, p0⟩ := h0
  obtain ⟨X1, h1, p1⟩ := exists_step h0 (.append (some 1)) trivial (fun _ => trivial)
  obtain ⟨X2, h2, p2⟩ := exists_step h1 (.append (some 2)) trivial (fun _ => trivial)
  obtain ⟨X3, h3, p3⟩ := exists_step h2 (.remove 0) (by simp [valid, edit]) (fun _ => trivial)
  obtain ⟨m, e, -, hl⟩ := C117_destroy_exact _ _ _ _ _ h3
  have := H _ _ _ _ _ m h3 e
  rw [this, p2, p1, p0] at hl
  simp [lost, edit] at hl

/-- A list that grows to three pages, shrinks by one element on a page boundary (one block lost) and by one more (none lost). -/
example : ∃ X : LM Nat, History 1 2 X [some 1, some 2, some 3] 1 := by
  have h0 : ∃ X : LM Nat, History 1 2 X [] 0 ∧ X.list.pageSize = 2 := ⟨_, .create _ rfl, rfl⟩
  obtain ⟨X0, h0, p0⟩ := h0
  obtain ⟨X1, h1, p1⟩ := exists_step h0 (.appendN (.buf [1, 2, 3, 4, 5])) (by simp [valid, Src.count]) (fun _ => by simp [handled])
  obtain ⟨X2, h2, p2⟩ := exists_step h1 (.remove 4) (by simp [valid, edit, Src.cells]) (fun _ => trivial)
  obtain ⟨X3, h3, p3⟩ := exists_step h2 (.remove 3) (by simp [valid, edit, Src.cells]) (fun _ => trivial)
  rw [p2, p1, p0] at h3
  simp [lost, edit, Src.cells] at h3
  exact ⟨X3, h3⟩

/-- The partial theorem applies to a list emptied by `CCListRemoveAllElements`. -/
example : ∃ X : LM Nat, NoRemove 1 1 X [some 7] :=
  ⟨_, .call _ _ (.append (some 7)) _ _ (.call _ _ .removeAll _ _ (.call _ _ (.append (some 2)) _ _ (.call _ _ (.append (some 1)) _ _ (.create _ rfl)
    trivial trivial (by simp) rfl) trivial trivial (by simp) rfl) trivial trivial (by simp) rfl) trivial trivial (by simp) rfl⟩

#print axioms C117_destroy_exact
#print axioms C117_in_use
#print axioms C117_no_fault
#print axioms C117_destroy_partial
#print axioms C117_destroy_refuted

end Verif.ListMem
