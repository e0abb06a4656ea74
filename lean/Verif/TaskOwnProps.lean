import Verif.TaskOwn
import Verif.Conc
/-!
# C111: tasks and nodes of a task queue are freed exactly when nobody has them any more
-/
namespace Verif.TaskOwn
open Verif.Conc

namespace Spec

/-- The states of a queue and the references of the user.  `refs t`: the user may destroy task `t` that many times.  Pushing a task gives away one reference, popping it gets one. -/
inductive History (serial : Bool) : Sys → (Nat → Nat) → Prop
  | start : History serial (init serial) (fun _ => 0)
  | create {s refs} : History serial s refs → History serial (create s) (upd refs s.tasks 1)
  | retain {s refs t s'} : History serial s refs → refs t ≠ 0 → retain s t = some s' → History serial s' (upd refs t (refs t + 1))
  | release {s refs t s'} : History serial s refs → refs t ≠ 0 → freeTask s t = some s' → History serial s' (upd refs t (refs t - 1))
  | run {s refs t s'} : History serial s refs → refs t ≠ 0 → runTask s t = some s' → History serial s' refs
  | push {s refs t} : History serial s refs → refs t ≠ 0 → History serial (push s t) (upd refs t (refs t - 1))
  | popped {s refs t s'} : History serial s refs → pop s = some (s', some t) → History serial s' (upd refs t (refs t + 1))
  | nothing {s refs s'} : History serial s refs → pop s = some (s', none) → History serial s' refs
  | reclaim {s refs n s'} : History serial s refs → n ∈ s.pending → reclaim s n = some s' → History serial s' refs

end Spec

theorem upd_same {α : Type} (f : Nat → α) (a : Nat) (b : α) : upd f a b a = b := if_pos rfl

theorem upd_ne {α : Type} (f : Nat → α) {a x : Nat} (b : α) (h : x ≠ a) : upd f a b x = f x := if_neg h

/-- Has node `n` task `t`? -/
def has (payload : Nat → Option Nat) (t n : Nat) : Nat := if payload n = some t then 1 else 0

/-- The references to tasks, and what is freed. -/
structure TaskInv (s : Sys) (refs : Nat → Nat) : Prop where
  trc : ∀ t, s.trc t = refs t
  tfreed : ∀ t, s.tfreed.count t + (if s.trc t = 0 then 0 else 1) = if t < s.tasks then 1 else 0

/-- The references to nodes, and what is freed. -/
structure NodeInv (s : Sys) : Prop where
  nrc : ∀ n, s.nrc n = s.chain.count n + s.chain.tail.count n + s.pending.count n
  nfreed : ∀ n, s.nfreed.count n + (s.chain ++ s.pending).count n = if n < s.nodes then 1 else 0

/-- Who has references to task `t`: the user, the nodes, and `lastTask`. -/
def owners (s : Sys) (refs : Nat → Nat) (t : Nat) : Nat :=
  refs t + sumBy (has s.payload t) (s.chain ++ s.pending) + (if s.last = some t then 1 else 0)

structure Core (s : Sys) (refs : Nat → Nat) : Prop where
  task : TaskInv s (owners s refs)
  node : NodeInv s

structure Inv (serial : Bool) (s : Sys) (refs : Nat → Nat) : Prop where
  core : Core s refs
  full : ∀ n ∈ s.chain.tail, ∃ t, s.payload n = some t
  count : s.count = s.chain.tail.length
  ne : s.chain ≠ []
  serial : s.serial = serial
  conc : s.serial = false → s.last = none

theorem freeTask_ok {s : Sys} {refs refs' : Nat → Nat} {t : Nat} (I : TaskInv s refs) (h : refs t = refs' t + 1) (h' : ∀ u, u ≠ t → refs u = refs' u) :
    ∃ s', freeTask s t = some s' ∧ TaskInv s' refs' ∧
      s' = { s with trc := upd s.trc t (s.trc t - 1), tfreed := if s.trc t = 1 then s.tfreed ++ [t] else s.tfreed } := by
  have h1 := I.trc t
  refine ⟨_, by rw [freeTask, if_neg (by omega)], ⟨?_, ?_⟩, rfl⟩
  · intro u
    show upd s.trc t (s.trc t - 1) u = _
    rw [upd]; split
    · next hu => subst hu; omega
    · next hu => rw [I.trc, h' u hu]
  · intro u
    have hf := I.tfreed u
    show (if s.trc t = 1 then s.tfreed ++ [t] else s.tfreed).count u + (if upd s.trc t (s.trc t - 1) u = 0 then 0 else 1) = if u < s.tasks then 1 else 0
    rw [← hf, upd]
    by_cases hu : u = t
    · subst hu
      rw [if_pos rfl]
      by_cases h2 : s.trc u = 1
      · rw [if_pos h2, List.count_append]; simp [h2]
      · rw [if_neg h2, if_neg (by omega), if_neg (by omega)]
    · rw [if_neg hu]
      split
      · rw [List.count_append, List.count_singleton, if_neg (by simpa using fun h => hu h.symm)]; rfl
      · rfl

theorem count_append_singleton (l : List Nat) (a b : Nat) : (l ++ [a]).count b = l.count b + (if a = b then 1 else 0) := by
  rw [List.count_append, List.count_singleton]
  by_cases h : a = b
  · subst h; simp
  · simp [h]

/-- Freeing the last reference of a node. -/
theorem freeNode_last {s : Sys} {refs refs' : Nat → Nat} {n : Nat} (hn : s.nrc n = 1) (I : TaskInv s refs)
    (h : ∀ t, refs t = refs' t + has s.payload t n) :
    ∃ s', freeNode s n = some s' ∧ TaskInv s' refs' ∧ s'.nrc = upd s.nrc n 0 ∧ s'.nfreed = s.nfreed ++ [n] ∧ s'.chain = s.chain ∧ s'.pending = s.pending ∧
      s'.nodes = s.nodes ∧ s'.payload = s.payload ∧ s'.last = s.last ∧ s'.serial = s.serial ∧ s'.count = s.count ∧ s'.tasks = s.tasks := by
  rw [freeNode, if_neg (by omega), if_pos hn]
  cases hp : s.payload n with
  | none =>
    refine ⟨{ s with nrc := upd s.nrc n 0, nfreed := s.nfreed ++ [n] }, rfl, ⟨?_, I.tfreed⟩, rfl, rfl, rfl, rfl, rfl, rfl, rfl, rfl, rfl, rfl⟩
    intro t
    have := h t
    rw [has, hp] at this
    simp at this
    rw [← this]; exact I.trc t
  | some t =>
    obtain ⟨s', e, I', hs'⟩ := freeTask_ok (refs' := refs') (t := t) I (by rw [h t, has, hp, if_pos rfl]) (by
      intro u hu
      rw [h u, has, hp, if_neg (by simpa using fun h => hu h.symm)]; rfl)
    refine ⟨{ s' with nrc := upd s'.nrc n 0, nfreed := s'.nfreed ++ [n] }, ?_, ⟨I'.trc, I'.tfreed⟩, ?_, ?_, ?_, ?_, ?_, ?_, ?_, ?_, ?_, ?_⟩
    · simp [e]
    all_goals (subst hs'; rfl)

theorem sumBy_erase {f : Nat → Nat} {l : List Nat} {n : Nat} (h : n ∈ l) : sumBy f l = sumBy f (l.erase n) + f n := by
  induction l with
  | nil => simp at h
  | cons x l ih =>
    by_cases hx : x = n
    · subst hx; simp; omega
    · have hm : n ∈ l := by
        rcases List.mem_cons.1 h with rfl | h
        · exact absurd rfl hx
        · exact h
      rw [List.erase_cons_tail (by simpa using hx)]
      simp only [sumBy_cons]
      have := ih hm
      omega

theorem sumBy_congr {f g : Nat → Nat} {l : List Nat} (h : ∀ n ∈ l, f n = g n) : sumBy f l = sumBy g l := by
  induction l with
  | nil => rfl
  | cons x l ih =>
    rw [sumBy_cons, sumBy_cons, h x (List.mem_cons_self ..), ih fun n hn => h n (List.mem_cons_of_mem _ hn)]

theorem NodeInv.le {s : Sys} (N : NodeInv s) (n : Nat) : (s.chain ++ s.pending).count n ≤ 1 := by
  have := N.nfreed n
  split at this <;> omega

theorem tail_count_le (l : List Nat) (n : Nat) : l.tail.count n ≤ l.count n := by
  cases l with
  | nil => simp
  | cons a l => rw [List.tail_cons, List.count_cons]; omega

theorem reclaim_ok {s : Sys} {refs : Nat → Nat} {n : Nat} (C : Core s refs) (hn : n ∈ s.pending) :
    ∃ s', reclaim s n = some s' ∧ Core s' refs ∧ s'.chain = s.chain ∧ s'.pending = s.pending.erase n ∧ s'.nodes = s.nodes ∧ s'.payload = s.payload ∧
      s'.last = s.last ∧ s'.serial = s.serial ∧ s'.count = s.count ∧ s'.tasks = s.tasks := by
  have hle := C.node.le
  have hpos := List.count_pos_iff.2 hn
  have h1 : s.nrc n = 1 := by
    have := C.node.nrc n
    have := hle n
    have := tail_count_le s.chain n
    rw [List.count_append] at *
    omega
  obtain ⟨s', e, I, h2, h3, h4, h5, h6, h7, h8, h9, h10, h11⟩ :=
    freeNode_last (s := { s with pending := s.pending.erase n }) (refs := owners s refs) (refs' := owners { s with pending := s.pending.erase n } refs) (n := n) h1
    ⟨C.task.trc, C.task.tfreed⟩ (by
      intro t
      show refs t + sumBy (has s.payload t) (s.chain ++ s.pending) + (if s.last = some t then 1 else 0) =
        refs t + sumBy (has s.payload t) (s.chain ++ s.pending.erase n) + (if s.last = some t then 1 else 0) + has s.payload t n
      rw [sumBy_append, sumBy_append, sumBy_erase hn]
      omega)
  have hown : owners s' refs = owners { s with pending := s.pending.erase n } refs := by
    funext t
    rw [owners, owners, h4, h5, h7, h8]
  refine ⟨s', e, ⟨by rw [hown]; exact I, ?_, ?_⟩, h4, h5, h6, h7, h8, h9, h10, h11⟩
  · intro m
    have hm := C.node.nrc m
    have := hle m
    rw [List.count_append] at this
    have := tail_count_le s.chain m
    rw [h2, h4, h5]
    show upd s.nrc n 0 m = s.chain.count m + s.chain.tail.count m + (s.pending.erase n).count m
    rw [upd]
    split
    · next h =>
      subst h
      rw [List.count_erase_self]
      omega
    · next h => rw [List.count_erase_of_ne (by simpa using h)]; exact hm
  · intro m
    have hm := C.node.nfreed m
    rw [h3, h4, h5, h6, count_append_singleton, List.count_append]
    rw [List.count_append] at hm
    show s.nfreed.count m + _ + (s.chain.count m + (s.pending.erase n).count m) = if m < s.nodes then 1 else 0
    split
    · next h => subst h; rw [List.count_erase_self]; omega
    · next h => rw [List.count_erase_of_ne (by simpa using fun h' => h h'.symm)]; omega

/-- A node is popped, and its first reference freed: it stays in the queue. -/
theorem popNode_ok {s : Sys} {refs : Nat → Nat} (C : Core s refs) {d n : Nat} {ns : List Nat} (hc : s.chain = d :: n :: ns) :
    freeNode { s with chain := n :: ns, pending := s.pending ++ [d] } n = some { s with chain := n :: ns, pending := s.pending ++ [d], nrc := upd s.nrc n 1 } ∧
    Core { s with chain := n :: ns, pending := s.pending ++ [d], nrc := upd s.nrc n 1 } refs := by
  have hle := C.node.le n
  have hr := C.node.nrc n
  rw [hc] at hle hr
  simp only [List.cons_append, List.count_cons, List.tail_cons, List.count_append, beq_self_eq_true, if_true] at hle hr
  have h2 : s.nrc n = 2 := by omega
  refine ⟨?_, ⟨⟨?_, C.task.tfreed⟩, ?_, ?_⟩⟩
  · rw [freeNode]
    simp only [h2]
    rfl
  · intro t
    have := C.task.trc t
    rw [owners, hc] at this
    show s.trc t = refs t + sumBy (has s.payload t) (n :: ns ++ (s.pending ++ [d])) + _
    rw [this]
    simp only [List.cons_append, sumBy_cons, sumBy_append, sumBy_nil]
    show _ + _ + (if s.last = some t then 1 else 0) = _ + _ + (if s.last = some t then 1 else 0)
    omega
  · intro m
    have hm := C.node.nrc m
    have hl := C.node.le m
    rw [hc] at hm hl
    show upd s.nrc n 1 m = (n :: ns).count m + ns.count m + (s.pending ++ [d]).count m
    rw [upd]
    simp only [List.cons_append, List.count_cons, List.tail_cons, List.count_append, beq_iff_eq, List.count_nil] at hm hl ⊢
    by_cases h : m = n
    · subst h
      simp only [if_true] at hm hl ⊢
      split at hl <;> split <;> omega
    · rw [if_neg h]
      rw [hm, if_neg (fun h' => h h'.symm)]
      omega
  · intro m
    have hm := C.node.nfreed m
    rw [hc] at hm
    show s.nfreed.count m + (n :: ns ++ (s.pending ++ [d])).count m = if m < s.nodes then 1 else 0
    rw [← hm]
    simp only [List.cons_append, List.count_cons, List.count_append, List.count_nil]
    omega

theorem inv_init (serial : Bool) : Inv serial (init serial) (fun _ => 0) := by
  refine ⟨⟨⟨?_, ?_⟩, ?_, ?_⟩, by simp [init], rfl, by simp [init], rfl, fun _ => rfl⟩
  · intro t; simp [init, owners, has]
  · intro t; simp [init]
  · intro n
    simp only [init, upd, List.tail_cons, List.count_nil, List.count_singleton]
    by_cases h : n = 0
    · subst h; simp
    · simp [h, Ne.symm h]
  · intro n
    simp only [init, List.append_nil, List.count_nil, List.count_singleton]
    by_cases h : n = 0
    · subst h; simp
    · have h1 : ¬ n < 1 := by omega
      simp [h1, Ne.symm h]

theorem push_inv {serial s refs t} (I : Inv serial s refs) (ht : refs t ≠ 0) : Inv serial (push s t) (upd refs t (refs t - 1)) := by
  have hfresh : (s.chain ++ s.pending).count s.nodes = 0 := by
    have := I.core.node.nfreed s.nodes
    rw [if_neg (by omega)] at this; omega
  have hnot : s.nodes ∉ s.chain ++ s.pending := List.count_eq_zero.1 hfresh
  have htail : (s.chain ++ [s.nodes]).tail = s.chain.tail ++ [s.nodes] := by
    cases h : s.chain with
    | nil => exact absurd h I.ne
    | cons a l => rfl
  refine ⟨⟨⟨?_, I.core.task.tfreed⟩, ?_, ?_⟩, ?_, ?_, by simp [push], I.serial, I.conc⟩
  · intro u
    have h := I.core.task.trc u
    show s.trc u = upd refs t (refs t - 1) u + sumBy (has (push s t).payload u) (s.chain ++ [s.nodes] ++ s.pending) + (if s.last = some u then 1 else 0)
    have hold : ∀ l : List Nat, (∀ n ∈ l, n ∈ s.chain ++ s.pending) → sumBy (has (push s t).payload u) l = sumBy (has s.payload u) l := by
      intro l hl
      apply sumBy_congr
      intro n hn
      show (if upd s.payload s.nodes (some t) n = some u then 1 else 0) = _
      rw [upd_ne _ _ (show n ≠ s.nodes from fun h' => hnot (h' ▸ hl n hn))]; rfl
    have hnew : has (push s t).payload u s.nodes = if t = u then 1 else 0 := by
      show (if upd s.payload s.nodes (some t) s.nodes = some u then 1 else 0) = _
      rw [upd, if_pos rfl]; simp
    rw [sumBy_append, sumBy_append, hold s.chain (fun n h => List.mem_append_left _ h), hold s.pending (fun n h => List.mem_append_right _ h), sumBy_cons, sumBy_nil, hnew]
    rw [owners, sumBy_append] at h
    rw [h]
    by_cases hu : u = t
    · subst hu; rw [upd_same, if_pos (rfl : u = u)]; omega
    · rw [upd_ne _ _ hu, if_neg (fun h : t = u => hu h.symm)]; omega
  · intro n
    have h := I.core.node.nrc n
    show upd s.nrc s.nodes 2 n = (s.chain ++ [s.nodes]).count n + (s.chain ++ [s.nodes]).tail.count n + s.pending.count n
    rw [htail, count_append_singleton, count_append_singleton, upd]
    rw [List.count_append] at hfresh
    have := tail_count_le s.chain s.nodes
    by_cases hn : n = s.nodes
    · subst hn; rw [if_pos rfl, if_pos rfl]; omega
    · rw [if_neg hn, if_neg (fun h => hn h.symm)]; omega
  · intro n
    have h := I.core.node.nfreed n
    show s.nfreed.count n + (s.chain ++ [s.nodes] ++ s.pending).count n = if n < s.nodes + 1 then 1 else 0
    rw [List.count_append, count_append_singleton]
    rw [List.count_append] at h
    by_cases hn : n = s.nodes
    · subst hn
      rw [if_neg (by omega)] at h
      rw [if_pos rfl, if_pos (by omega)]; omega
    · rw [if_neg (fun h => hn h.symm)]
      split at h
      · rw [if_pos (by omega)]; omega
      · rw [if_neg (by omega)]; omega
  · intro n hn
    replace hn : n ∈ (s.chain ++ [s.nodes]).tail := hn
    rw [htail] at hn
    show ∃ u, upd s.payload s.nodes (some t) n = some u
    rw [upd]
    split
    · exact ⟨t, rfl⟩
    · next h =>
      rcases List.mem_append.1 hn with hn | hn
      · exact I.full n hn
      · exact absurd (List.mem_singleton.1 hn) h
  · show s.count + 1 = (s.chain ++ [s.nodes]).tail.length
    rw [htail, I.count]; simp

/-- The end of `CCTaskQueuePop`: with nothing in `lastTask`. -/
theorem popRest_inv {serial s refs} (I : Inv serial s refs) (hl : s.last = none) :
    (∃ s', popRest s = some (s', none) ∧ s.chain.tail = [] ∧ Inv serial s' refs) ∨
    (∃ s' t, popRest s = some (s', some t) ∧ Inv serial s' (upd refs t (refs t + 1))) := by
  rcases hc : s.chain with _ | ⟨d, _ | ⟨n, ns⟩⟩
  · exact absurd hc I.ne
  · left
    refine ⟨s, ?_, rfl, I⟩
    simp [popRest, popNode, hc]
  · right
    obtain ⟨t, ht⟩ := I.full n (by rw [hc]; simp)
    have hle := I.core.node.le
    have hnle := hle n
    rw [hc] at hnle
    simp only [List.cons_append, List.count_cons, List.count_append, beq_self_eq_true, if_true] at hnle
    -- the payload is taken out: the user has the reference
    have C0 : Core { s with payload := upd s.payload n none } (upd refs t (refs t + 1)) := by
      refine ⟨⟨?_, I.core.task.tfreed⟩, I.core.node.nrc, I.core.node.nfreed⟩
      intro u
      have h := I.core.task.trc u
      show s.trc u = upd refs t (refs t + 1) u + sumBy (has (upd s.payload n none) u) (s.chain ++ s.pending) + (if s.last = some u then 1 else 0)
      rw [h, owners, hc]
      have hold : ∀ l : List Nat, l.count n = 0 → sumBy (has (upd s.payload n none) u) l = sumBy (has s.payload u) l := by
        intro l hl
        apply sumBy_congr
        intro m hm
        show (if upd s.payload n none m = some u then 1 else 0) = _
        rw [upd_ne _ _ (by rintro rfl; exact List.count_eq_zero.1 hl hm)]; rfl
      have hnew : has (upd s.payload n none) u n = 0 := by
        show (if upd s.payload n none n = some u then 1 else 0) = 0
        rw [upd, if_pos rfl]; simp
      have hd : has (upd s.payload n none) u d = has s.payload u d := by
        show (if upd s.payload n none d = some u then 1 else 0) = _
        rw [upd_ne _ _ (by rintro rfl; simp at hnle)]; rfl
      have hn : has s.payload u n = if t = u then 1 else 0 := by rw [has, ht]; simp
      simp only [List.cons_append, sumBy_cons, sumBy_append]
      rw [hold ns (by omega), hold s.pending (by omega), hnew, hd, hn]
      by_cases hu : u = t
      · subst hu; rw [upd_same, if_pos (rfl : u = u)]; omega
      · rw [upd_ne _ _ hu, if_neg (fun h : t = u => hu h.symm)]
    obtain ⟨e1, C1⟩ := popNode_ok C0 (d := d) (n := n) (ns := ns) hc
    have hfull : ∀ m ∈ ns, ∃ u, upd s.payload n none m = some u := by
      intro m hm
      obtain ⟨u, hu⟩ := I.full m (by rw [hc]; exact List.mem_cons_of_mem _ hm)
      refine ⟨u, ?_⟩
      rw [upd_ne _ _ (by rintro rfl; have := List.count_pos_iff.2 hm; omega), hu]
    have hcount : s.count - 1 = ns.length := by rw [I.count, hc]; simp
    cases hser : s.serial with
    | false =>
      refine ⟨{ s with payload := upd s.payload n none, chain := n :: ns, pending := s.pending ++ [d], nrc := upd s.nrc n 1, count := s.count - 1 }, t, ?_,
        ⟨⟨C1.task.trc, C1.task.tfreed⟩, C1.node.nrc, C1.node.nfreed⟩, hfull, hcount, by simp, I.serial, fun _ => hl⟩
      rw [popRest, popNode, hc]
      simp only [ht]
      rw [e1]
      simp [hser]
    | true =>
      have hpos : s.trc t ≠ 0 := by
        have h1 := C1.task.trc t
        have h2 : s.trc t = upd refs t (refs t + 1) t + _ + _ := h1
        rw [upd, if_pos rfl] at h2
        omega
      refine ⟨{ s with payload := upd s.payload n none, chain := n :: ns, pending := s.pending ++ [d], nrc := upd s.nrc n 1, count := s.count - 1,
                       last := some t, trc := upd s.trc t (s.trc t + 1) }, t, ?_, ⟨⟨?_, ?_⟩, C1.node.nrc, C1.node.nfreed⟩, hfull, hcount, by simp, I.serial, fun h => by rw [show s.serial = false from h] at hser; cases hser⟩
      · rw [popRest, popNode, hc]
        simp only [ht]
        rw [e1]
        simp [hser, retain, hpos]
      · intro u
        have h1 : s.trc u = upd refs t (refs t + 1) u + sumBy (has (upd s.payload n none) u) (n :: ns ++ (s.pending ++ [d])) + (if s.last = some u then 1 else 0) := C1.task.trc u
        show upd s.trc t (s.trc t + 1) u = upd refs t (refs t + 1) u + sumBy (has (upd s.payload n none) u) (n :: ns ++ (s.pending ++ [d])) + (if some t = some u then 1 else 0)
        rw [hl] at h1
        rw [if_neg (by simp)] at h1
        have hu' : upd s.trc t (s.trc t + 1) u = s.trc u + if t = u then 1 else 0 := by
          rw [upd]
          by_cases hu : u = t
          · subst hu; simp
          · rw [if_neg hu, if_neg (fun h => hu h.symm)]; rfl
        have hs' : (if (some t : Option Nat) = some u then 1 else 0) = if t = u then 1 else 0 := by simp
        rw [hu', hs', h1]; omega
      · intro u
        have h1 := I.core.task.tfreed u
        show s.tfreed.count u + (if upd s.trc t (s.trc t + 1) u = 0 then 0 else 1) = if u < s.tasks then 1 else 0
        rw [← h1, upd]
        by_cases hu : u = t
        · subst hu; rw [if_pos rfl, if_neg (by omega), if_neg hpos]
        · rw [if_neg hu]

/-- `lastTask` is destroyed. -/
theorem last_ok {s : Sys} {refs t} (C : Core s refs) (hl : s.last = some t) :
    ∃ s', freeTask s t = some s' ∧ Core { s' with last := none } refs ∧
      s' = { s with trc := upd s.trc t (s.trc t - 1), tfreed := if s.trc t = 1 then s.tfreed ++ [t] else s.tfreed } := by
  obtain ⟨s', e, I, hs'⟩ := freeTask_ok (refs' := owners { s with last := none } refs) (t := t) C.task
    (by rw [owners, owners, hl, if_pos rfl]; rfl)
    (by intro u hu; rw [owners, owners, hl, if_neg (by simpa using fun h => hu h.symm)]; rfl)
  refine ⟨s', e, ⟨⟨?_, I.tfreed⟩, ?_, ?_⟩, hs'⟩
  · intro u
    have := I.trc u
    subst hs'
    exact this
  · subst hs'; exact C.node.nrc
  · subst hs'; exact C.node.nfreed

theorem pop_inv {serial s refs} (I : Inv serial s refs) :
    (∃ s', pop s = some (s', none) ∧ Inv serial s' refs) ∨ (∃ s' t, pop s = some (s', some t) ∧ Inv serial s' (upd refs t (refs t + 1))) := by
  cases hl : s.last with
  | none =>
    have : pop s = popRest s := by
      rw [pop]; cases s.serial <;> simp [hl]
    rw [this]
    rcases popRest_inv I hl with ⟨s', h, -, h'⟩ | h
    · exact Or.inl ⟨s', h, h'⟩
    · exact Or.inr h
  | some t =>
    cases hs : s.serial with
    | false => rw [I.conc hs] at hl; cases hl
    | true =>
      have hpos : s.trc t ≠ 0 := by
        have := I.core.task.trc t
        rw [owners, hl, if_pos rfl] at this
        omega
      obtain ⟨s1, e1, C1, hs1⟩ := last_ok I.core hl
      by_cases hc : s.completed t = true
      · have : pop s = popRest { s1 with last := none } := by
          rw [pop]; simp [hl, hs, hpos, hc, e1]
        rw [this]
        have I1 : Inv serial { s1 with last := none } refs := by
          refine ⟨C1, ?_, ?_, ?_, ?_, ?_⟩
          · subst hs1; exact I.full
          · subst hs1; exact I.count
          · subst hs1; exact I.ne
          · subst hs1; exact I.serial
          · intro _; rfl
        rcases popRest_inv I1 rfl with ⟨s', h, -, h'⟩ | h
        · exact Or.inl ⟨s', h, h'⟩
        · exact Or.inr h
      · left
        refine ⟨s, ?_, I⟩
        rw [pop]; simp [hl, hs, hpos, hc]

theorem history_inv {serial s refs} (h : Spec.History serial s refs) : Inv serial s refs := by
  induction h with
  | start => exact inv_init serial
  | @create s refs _ I =>
    have h0 : s.trc s.tasks = 0 := by
      have := I.core.task.tfreed s.tasks
      rw [if_neg (Nat.lt_irrefl s.tasks)] at this
      split at this
      · assumption
      · omega
    have hr : owners s refs s.tasks = 0 := by rw [← I.core.task.trc]; exact h0
    refine ⟨⟨⟨?_, ?_⟩, I.core.node.nrc, I.core.node.nfreed⟩, I.full, I.count, I.ne, I.serial, I.conc⟩
    · intro t
      have h := I.core.task.trc t
      show upd s.trc s.tasks 1 t = upd refs s.tasks 1 t + sumBy (has s.payload t) (s.chain ++ s.pending) + (if s.last = some t then 1 else 0)
      rw [upd, upd]
      rw [owners] at h hr
      split
      · next ht => subst ht; omega
      · exact h
    · intro t
      have h := I.core.task.tfreed t
      show s.tfreed.count t + (if upd s.trc s.tasks 1 t = 0 then 0 else 1) = if t < s.tasks + 1 then 1 else 0
      rw [upd]
      by_cases ht : t = s.tasks
      · subst ht
        rw [if_neg (Nat.lt_irrefl s.tasks)] at h
        rw [if_pos rfl, if_neg (by omega), if_pos (by omega)]
        omega
      · rw [if_neg ht, h]
        split
        · rw [if_pos (by omega)]
        · rw [if_neg (by omega)]
  | @retain s refs t s' _ hr e I =>
    have hpos : s.trc t ≠ 0 := by rw [I.core.task.trc, owners]; omega
    rw [retain, if_neg hpos] at e
    cases e
    refine ⟨⟨⟨?_, ?_⟩, I.core.node.nrc, I.core.node.nfreed⟩, I.full, I.count, I.ne, I.serial, I.conc⟩
    · intro u
      have h := I.core.task.trc u
      show upd s.trc t (s.trc t + 1) u = upd refs t (refs t + 1) u + sumBy (has s.payload u) (s.chain ++ s.pending) + (if s.last = some u then 1 else 0)
      rw [upd, upd]
      rw [owners] at h
      split
      · next ht => subst ht; omega
      · exact h
    · intro u
      have h := I.core.task.tfreed u
      show s.tfreed.count u + (if upd s.trc t (s.trc t + 1) u = 0 then 0 else 1) = if u < s.tasks then 1 else 0
      rw [← h, upd]
      by_cases hu : u = t
      · subst hu; rw [if_pos rfl, if_neg (by omega), if_neg hpos]
      · rw [if_neg hu]
  | @release s refs t s' _ hr e I =>
    obtain ⟨s1, e1, T, hs1⟩ := freeTask_ok (refs' := owners s (upd refs t (refs t - 1))) (t := t) I.core.task
      (by rw [owners, owners, upd, if_pos rfl]; omega)
      (by intro u hu; rw [owners, owners, upd, if_neg hu])
    rw [e1] at e; cases e
    subst hs1
    exact ⟨⟨⟨T.trc, T.tfreed⟩, I.core.node.nrc, I.core.node.nfreed⟩, I.full, I.count, I.ne, I.serial, I.conc⟩
  | @run s refs t s' _ hr e I =>
    rw [runTask] at e
    split at e
    · simp at e
    · cases e
      exact ⟨⟨⟨I.core.task.trc, I.core.task.tfreed⟩, I.core.node.nrc, I.core.node.nfreed⟩, I.full, I.count, I.ne, I.serial, I.conc⟩
  | push _ hr I => exact push_inv I hr
  | popped _ e I =>
    rcases pop_inv I with ⟨s1, e1, I1⟩ | ⟨s1, t1, e1, I1⟩
    · rw [e1] at e; cases e
    · rw [e1] at e; cases e; exact I1
  | nothing _ e I =>
    rcases pop_inv I with ⟨s1, e1, I1⟩ | ⟨s1, t1, e1, I1⟩
    · rw [e1] at e; cases e; exact I1
    · rw [e1] at e; cases e
  | @reclaim s refs n s' _ hn e I =>
    obtain ⟨s1, e1, C1, h1, h2, h3, h4, h5, h6, h7, h8⟩ := reclaim_ok I.core hn
    rw [e1] at e; cases e
    refine ⟨C1, ?_, ?_, ?_, ?_, ?_⟩
    · rw [h1, h4]; exact I.full
    · rw [h1, h7]; exact I.count
    · rw [h1]; exact I.ne
    · rw [h6]; exact I.serial
    · rw [h6, h5]; exact I.conc

theorem popAll_ok {refs : Nat → Nat} : ∀ (ns : List Nat) (d : Nat) (s : Sys) (fuel : Nat), Core s refs → s.chain = d :: ns → ns.length < fuel →
    ∃ s' e, popAll fuel s = some s' ∧ Core s' refs ∧ s'.chain = [e] ∧ s'.last = s.last ∧ s'.tasks = s.tasks ∧ s'.nodes = s.nodes := by
  intro ns
  induction ns with
  | nil =>
    intro d s fuel C hc hf
    obtain ⟨f, rfl⟩ : ∃ f, fuel = f + 1 := ⟨fuel - 1, by simp at hf; omega⟩
    refine ⟨s, d, ?_, C, hc, rfl, rfl, rfl⟩
    simp [popAll, popNode, hc]
  | cons n ns ih =>
    intro d s fuel C hc hf
    obtain ⟨f, rfl⟩ : ∃ f, fuel = f + 1 := ⟨fuel - 1, by simp at hf; omega⟩
    obtain ⟨e1, C1⟩ := popNode_ok C hc
    obtain ⟨s', e, h, h'⟩ := ih n _ f C1 rfl (by simp at hf; omega)
    refine ⟨s', e, ?_, h'⟩
    rw [popAll, popNode, hc]
    simp only [e1]
    exact h

theorem reclaimAll_ok {refs : Nat → Nat} : ∀ (l : List Nat) (s : Sys), Core s refs → s.pending = l →
    ∃ s', reclaimAll l s = some s' ∧ Core s' refs ∧ s'.chain = s.chain ∧ s'.pending = [] ∧ s'.last = s.last ∧ s'.tasks = s.tasks ∧ s'.nodes = s.nodes := by
  intro l
  induction l with
  | nil => intro s C h; exact ⟨s, rfl, C, rfl, h, rfl, rfl, rfl⟩
  | cons n l ih =>
    intro s C h
    obtain ⟨s1, e1, C1, h1, h2, h3, h4, h5, h6, h7, h8⟩ := reclaim_ok C (n := n) (by rw [h]; simp)
    obtain ⟨s2, e2, C2, k1, k2, k3, k4, k5⟩ := ih s1 C1 (by rw [h2, h]; simp)
    refine ⟨s2, ?_, C2, k1.trans h1, k2, k3.trans h5, k4.trans h8, k5.trans h3⟩
    rw [reclaimAll, e1]; exact e2

/-- **C111.** In every history of a task queue, serial or not, whatever the garbage collector reclaims when:
* no call the user is entitled to, and no pop, uses a freed task or node;
* a task is freed, once, exactly when nobody has a reference any more: not the user, not a node waiting in the queue, not the queue as its last task;
* the queue says it is empty exactly when no task waits. -/
theorem C111_owned (serial : Bool) (s : Sys) (refs : Nat → Nat) (h : Spec.History serial s refs) :
    (∀ t, refs t ≠ 0 → (retain s t).isSome ∧ (freeTask s t).isSome ∧ (runTask s t).isSome) ∧ (pop s).isSome ∧
    (∀ n ∈ s.pending, (reclaim s n).isSome) ∧
    (∀ t, t < s.tasks → (s.tfreed.count t = 1 ↔ refs t = 0 ∧ (∀ n ∈ s.chain ++ s.pending, s.payload n ≠ some t) ∧ s.last ≠ some t)) ∧
    (∀ t, s.tfreed.count t ≤ 1) ∧ (isEmpty s = true ↔ s.chain.length = 1) := by
  have I := history_inv h
  refine ⟨?_, ?_, ?_, ?_, ?_, ?_⟩
  · intro t ht
    have hpos : s.trc t ≠ 0 := by rw [I.core.task.trc, owners]; omega
    simp [retain, freeTask, runTask, hpos]
  · rcases pop_inv I with ⟨s1, e1, -⟩ | ⟨s1, t1, e1, -⟩ <;> simp [e1]
  · intro n hn
    obtain ⟨s1, e1, -⟩ := reclaim_ok I.core hn
    simp [e1]
  · intro t ht
    have h1 := I.core.task.tfreed t
    have h2 := I.core.task.trc t
    rw [if_pos ht] at h1
    rw [owners] at h2
    have h3 : s.tfreed.count t = 1 ↔ s.trc t = 0 := by
      split at h1 <;> omega
    rw [h3]
    constructor
    · intro h0
      refine ⟨by omega, ?_, ?_⟩
      · intro n hn hp
        obtain ⟨i, hi⟩ := List.mem_iff_getElem?.1 hn
        have := le_sumBy (has s.payload t) hi
        rw [has, if_pos hp] at this
        omega
      · intro hl
        rw [if_pos hl] at h2; omega
    · intro ⟨h4, h5, h6⟩
      rw [h2, if_neg h6, sumBy_eq_zero _ (fun n hn => by rw [has, if_neg (h5 n hn)])]
      omega
  · intro t
    have h1 := I.core.task.tfreed t
    split at h1 <;> split at h1 <;> omega
  · rw [isEmpty, I.count]
    rcases hc : s.chain with _ | ⟨a, l⟩
    · exact absurd hc I.ne
    · simp

/-- **C111**, destruction: destroying the queue frees every node exactly once, and every task exactly once that the user has no reference to; the user's tasks stay. -/
theorem C111_destroyed (serial : Bool) (s : Sys) (refs : Nat → Nat) (h : Spec.History serial s refs) :
    ∃ s', destroy s = some s' ∧ (∀ n, s'.nfreed.count n = if n < s.nodes then 1 else 0) ∧
      (∀ t, s'.tfreed.count t = if t < s.tasks ∧ refs t = 0 then 1 else 0) ∧ (∀ t, s'.trc t = refs t) := by
  have I := history_inv h
  obtain ⟨d, ns, hc⟩ : ∃ d ns, s.chain = d :: ns := by
    rcases hc : s.chain with _ | ⟨a, l⟩
    · exact absurd hc I.ne
    · exact ⟨a, l, rfl⟩
  obtain ⟨s1, e, e1, C1, hc1, l1, t1, n1⟩ := popAll_ok ns d s (s.chain.length + 1) I.core hc (by rw [hc]; simp; omega)
  have hrc : s1.nrc e = 1 := by
    have h1 := C1.node.nrc e
    have h2 := C1.node.le e
    rw [hc1] at h1 h2
    simp at h1 h2
    rw [h1]
    omega
  obtain ⟨s2, e2, T2, a1, a2, a3, a4, a5, a6, a7, a8, a9, a10⟩ := freeNode_last (s := { s1 with chain := [] }) (refs := owners s1 refs)
    (refs' := owners { s1 with chain := [] } refs) (n := e) hrc ⟨C1.task.trc, C1.task.tfreed⟩ (by
      intro t
      show refs t + sumBy (has s1.payload t) (s1.chain ++ s1.pending) + _ = refs t + sumBy (has s1.payload t) ([] ++ s1.pending) + _ + has s1.payload t e
      rw [hc1]
      simp only [List.cons_append, List.nil_append, sumBy_cons]
      omega)
  have C2 : Core s2 refs := by
    have hown : owners s2 refs = owners { s1 with chain := [] } refs := by
      funext t
      rw [owners, owners, a3, a4, a6, a7]
    refine ⟨by rw [hown]; exact T2, ?_, ?_⟩
    · intro m
      have hm := C1.node.nrc m
      have hl := C1.node.le m
      rw [hc1] at hm hl
      rw [a1, a3, a4]
      show upd s1.nrc e 0 m = List.count m [] + List.count m ([] : List Nat).tail + s1.pending.count m
      rw [upd]
      split
      · next h => subst h; simp at hl ⊢; exact hl.symm
      · next h => rw [hm]; simp [List.count_cons, Ne.symm h]
    · intro m
      have hm := C1.node.nfreed m
      rw [hc1, List.count_append, List.count_singleton] at hm
      rw [a2, a3, a4, a5, count_append_singleton]
      show s1.nfreed.count m + _ + ([] ++ s1.pending).count m = if m < s1.nodes then 1 else 0
      rw [← hm, List.nil_append]
      by_cases h : e = m
      · subst h; simp; omega
      · simp [h]
  obtain ⟨s3, e3, C3, b1, b2, b3, b4, b5⟩ := reclaimAll_ok s2.pending s2 C2 rfl
  have hd : destroyTasks s = some s3 := by
    rw [destroyTasks, e1]
    show (match s1.chain with | [] => none | d :: ns => _) = _
    rw [hc1]
    show (freeNode { s1 with chain := [] } e).bind _ = _
    rw [e2]
    exact e3
  have hlist : s3.chain ++ s3.pending = [] := by rw [b1, b2, a3]; rfl
  have hn : ∀ n, s3.nfreed.count n = if n < s.nodes then 1 else 0 := by
    intro n
    have := C3.node.nfreed n
    rw [hlist, b5, a5, n1] at this
    simpa using this
  have hfin : ∀ s' : Sys, Core s' refs → s'.chain ++ s'.pending = [] → s'.last = none → s'.tasks = s.tasks →
      (∀ t, s'.tfreed.count t = if t < s.tasks ∧ refs t = 0 then 1 else 0) ∧ (∀ t, s'.trc t = refs t) := by
    intro s' C hl h0 ht
    have h2 : ∀ t, s'.trc t = refs t := by
      intro t
      have := C.task.trc t
      rw [owners, hl, h0] at this
      simpa using this
    refine ⟨?_, h2⟩
    intro t
    have h1 := C.task.tfreed t
    rw [h2, ht] at h1
    by_cases hr : refs t = 0
    · rw [if_pos hr] at h1
      simp only [hr, and_true]
      omega
    · rw [if_neg hr] at h1
      rw [if_neg (fun h => hr h.2)]
      split at h1 <;> omega
  cases hl : s3.last with
  | none =>
    refine ⟨s3, ?_, hn, hfin s3 C3 hlist hl (b4.trans (a10.trans t1))⟩
    rw [destroy, hd]; simp [hl]
  | some t =>
    obtain ⟨s4, e4, C4, h4⟩ := last_ok C3 hl
    refine ⟨{ s4 with last := none }, ?_, ?_, hfin _ C4 ?_ rfl ?_⟩
    · rw [destroy, hd]; simp [hl, e4]
    · subst h4; exact hn
    · subst h4; exact hlist
    · subst h4; exact b4.trans (a10.trans t1)

/-! ### The hypotheses can be met -/

/-- A serial queue: two tasks pushed, the first popped and given up without being run; a second pop gets nothing; the queue has both tasks. -/
example : ∃ s refs, Spec.History true s refs ∧ s.tasks = 2 ∧ refs 0 = 0 ∧ refs 1 = 0 ∧ s.tfreed = [] ∧ s.last = some 0 ∧
    (destroy s).map (·.tfreed) = some [1, 0] ∧ (destroy s).map (·.nfreed) = some [2, 0, 1] := by
  have h := Spec.History.start (serial := true)
  have h := h.create
  have h := h.push (t := 0) (by decide)
  have h := h.create
  have h := h.push (t := 1) (by decide)
  have h := h.popped (t := 0) rfl
  have h := h.release (t := 0) (by decide) rfl
  have h := h.nothing rfl
  exact ⟨_, _, h, rfl, rfl, rfl, rfl, rfl, rfl, rfl⟩

#print axioms C111_owned
#print axioms C111_destroyed

end Verif.TaskOwn
