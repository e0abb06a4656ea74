import Verif.ListEnum
import Verif.LinkedListLemmas
/-!
# C108: the enumerables of linked lists and queues
-/
namespace Verif.ListEnum

namespace Spec

/-- What an enumerable over the items answers.  `none` for the position: behind an end, where only setting the position anew and asking for
the current item are allowed. -/
def step {α : Type} (items : List α) (pos : Option Nat) : Action → Option (Option Nat)
  | .head => some (if items = [] then none else some 0)
  | .tail => some (if items = [] then none else some (items.length - 1))
  | .next => pos.map fun i => if i + 1 < items.length then some (i + 1) else none
  | .previous => pos.map fun i => if 0 < i then some (i - 1) else none
  | .current => some pos

/-- The answers to a series of calls; `none` if it makes a call that is not allowed. -/
def run {α : Type} (items : List α) (pos : Option Nat) : List Action → Option (List (Option α))
  | [] => some []
  | a :: as => do
    let pos ← step items pos a
    let xs ← run items pos as
    return pos.bind (fun i => items[i]?) :: xs

/-- The position at the start: the first item. -/
def start {α : Type} (items : List α) : Option Nat := if items = [] then none else some 0

end Spec

open Verif.LinkedList (Heap nextOf prevOf getHead getTail Queue Ok QOk)
open Verif.LinkedList.Spec (IsChain add History QHistory)

/-- A cursor over the items: what the pointer and the two ends are. -/
structure At (h : Heap) (c : List Nat) (e : En) (pos : Option Nat) : Prop where
  ptr : e.ptr = pos.bind (fun i => c[i]?)
  low : ∀ i, pos = some i → i < c.length
  first : e.first = c.head?
  last : e.last = none ∨ e.last = c.getLast?
  ref : ∃ x ∈ c, e.ref = some x

theorem chain_at {h : Heap} {c : List Nat} (hc : IsChain h c) {i x} (hi : c[i]? = some x) :
    h.live x = true ∧ h.prev x = (if 0 < i then c[i - 1]? else none) ∧ h.next x = c[i + 1]? := by
  have hlt : i < c.length := by
    rcases Nat.lt_or_ge i c.length with h | h
    · exact h
    · rw [List.getElem?_eq_none h] at hi; simp at hi
  have hx : c[i] = x := by rw [List.getElem?_eq_getElem hlt] at hi; simpa using hi
  have hsplit : c = c.take i ++ x :: c.drop (i + 1) := by
    rw [← hx, ← List.drop_eq_getElem_cons hlt, List.take_append_drop]
  obtain ⟨h1, h2, h3⟩ := hc _ _ _ hsplit
  refine ⟨h1, ?_, ?_⟩
  · rw [h2, List.getLast?_eq_getElem?, List.length_take, Nat.min_eq_left (by omega)]
    by_cases h0 : 0 < i
    · rw [if_pos h0, List.getElem?_take, if_pos (by omega)]
    · have : i = 0 := by omega
      subst this; simp
  · rw [h3, List.head?_drop]

/-- The chain as the head and tail searches see it. -/
structure Searchable (h : Heap) (c : List Nat) : Prop where
  chain : IsChain h c
  head : ∀ x ∈ c, getHead h x = c.head?
  tail : ∀ x ∈ c, getTail h x = c.getLast?

theorem searchable {h : Heap} {cs c} (o : Ok h cs) (hc : c ∈ cs) : Searchable h c := by
  refine ⟨(o.consists.chains c hc).2, ?_, ?_⟩
  · intro x hx
    obtain ⟨a, b, rfl⟩ := List.append_of_mem hx
    rw [o.head hc]; cases a <;> simp
  · intro x hx
    obtain ⟨a, b, rfl⟩ := List.append_of_mem hx
    rw [o.tail hc, List.getLast?_append]
    cases b with
    | nil => simp
    | cons y b => rw [List.getLast?_cons_cons, List.getLast?_eq_some_getLast (by simp : y :: b ≠ [])]; simp

theorem listStep_ok {h : Heap} {c e pos} (s : Searchable h c) (hat : At h c e pos) (a : Action) (pos' : Option Nat)
    (hs : Spec.step c pos a = some pos') :
    ∃ e', listHandler h e a = some (e', pos'.bind (fun i => c[i]?)) ∧ At h c e' pos' := by
  obtain ⟨x, hx, hr⟩ := hat.ref
  have hne : c ≠ [] := by rintro rfl; simp at hx
  have hpos : 0 < c.length := List.length_pos_iff.2 hne
  cases a with
  | head =>
    simp only [Spec.step, if_neg hne] at hs; cases hs
    refine ⟨{ e with ptr := e.first }, ?_, ?_, ?_, hat.first, hat.last, hat.ref⟩
    · rw [listHandler, hat.first, List.head?_eq_getElem?]; rfl
    · show e.first = _; rw [hat.first, List.head?_eq_getElem?]; rfl
    · intro i h; cases h; exact hpos
  | tail =>
    simp only [Spec.step, if_neg hne] at hs; cases hs
    have hgl : c.getLast? = (some (c.length - 1)).bind (fun i => c[i]?) := by rw [List.getLast?_eq_getElem?]; rfl
    obtain ⟨l, hl⟩ : ∃ l, c.getLast? = some l := ⟨_, List.getLast?_eq_some_getLast hne⟩
    rcases hat.last with h0 | h1
    · have htl : ∃ y, e.ptr.or e.ref = some y ∧ getTail h y = some l := by
        cases hp : e.ptr with
        | none => exact ⟨x, by rw [hr]; rfl, by rw [s.tail x hx, hl]⟩
        | some p =>
          refine ⟨p, rfl, ?_⟩
          have hm := hat.ptr; rw [hp] at hm
          cases pos with
          | none => simp at hm
          | some i => rw [s.tail p (List.mem_of_getElem? hm.symm), hl]
      obtain ⟨y, hy, hyl⟩ := htl
      refine ⟨{ e with ptr := some l, last := some l }, ?_, ?_, ?_, hat.first, ?_, hat.ref⟩
      · simp only [listHandler, h0, hy, Option.bind_eq_bind, Option.bind_some, hyl, Option.pure_def]
        rw [← List.getLast?_eq_getElem?, hl]
      · show some l = _; rw [← hl, hgl]
      · intro i h; cases h; omega
      · right; exact hl.symm
    · rw [hl] at h1
      refine ⟨{ e with ptr := some l }, ?_, ?_, ?_, hat.first, ?_, hat.ref⟩
      · simp only [listHandler, h1]; rw [← hgl, hl]
      · show some l = _; rw [← hl, hgl]
      · intro i h; cases h; omega
      · right; show e.last = _; rw [h1, hl]
  | next =>
    cases pos with
    | none => simp [Spec.step] at hs
    | some i =>
      simp only [Spec.step, Option.map_some] at hs; cases hs
      have hi := hat.low i rfl
      have hp := hat.ptr
      rw [Option.bind_some, List.getElem?_eq_getElem hi] at hp
      obtain ⟨hl, -, hn⟩ := chain_at s.chain (List.getElem?_eq_getElem hi)
      by_cases hlast : i + 1 < c.length
      · rw [if_pos hlast]
        rw [List.getElem?_eq_getElem hlast] at hn
        refine ⟨{ e with ptr := some c[i + 1] }, ?_, ?_, ?_, hat.first, hat.last, hat.ref⟩
        · simp [listHandler, hp, nextOf, hl, hn, List.getElem?_eq_getElem hlast]
        · simp [List.getElem?_eq_getElem hlast]
        · intro j h; cases h; exact hlast
      · rw [if_neg hlast]
        rw [List.getElem?_eq_none (by omega)] at hn
        refine ⟨{ e with ptr := none, last := if e.last = none then some c[i] else e.last }, ?_, rfl, by simp, hat.first, ?_, hat.ref⟩
        · simp [listHandler, hp, nextOf, hl, hn]
        · right
          have hgl : c.getLast? = some c[i] := by
            rw [List.getLast?_eq_getElem?, show c.length - 1 = i by omega, List.getElem?_eq_getElem hi]
          rcases hat.last with h0 | h1
          · show (if e.last = none then some c[i] else e.last) = _
            rw [if_pos h0, hgl]
          · show (if e.last = none then some c[i] else e.last) = _
            rw [h1, hgl]; simp
  | previous =>
    cases pos with
    | none => simp [Spec.step] at hs
    | some i =>
      simp only [Spec.step, Option.map_some] at hs; cases hs
      have hi := hat.low i rfl
      have hp := hat.ptr
      rw [Option.bind_some, List.getElem?_eq_getElem hi] at hp
      obtain ⟨hl, hn, -⟩ := chain_at s.chain (List.getElem?_eq_getElem hi)
      refine ⟨{ e with ptr := h.prev c[i] }, ?_, ?_, ?_, hat.first, hat.last, hat.ref⟩
      · simp only [listHandler, hp, prevOf, hl, if_true, Option.bind_eq_bind, Option.bind_some, Option.pure_def, hn]
        split <;> rfl
      · show h.prev c[i] = _
        rw [hn]; split <;> rfl
      · intro j hj
        split at hj
        · cases hj; omega
        · simp at hj
  | current =>
    simp only [Spec.step] at hs; cases hs
    exact ⟨e, by rw [listHandler, hat.ptr], hat⟩

/-- The invariant of a queue's enumerable: the chain of the queue is the items in reverse. -/
structure QAt (c : List Nat) (e : En) (pos : Option Nat) : Prop where
  ptr : e.ptr = pos.bind (fun i => c[i]?)
  low : ∀ i, pos = some i → i < c.length
  first : e.first = c.head?
  last : e.last = c.getLast?

theorem queueStep_ok {h : Heap} {c e pos} (s : c ≠ [] → IsChain h c.reverse) (hat : QAt c e pos) (a : Action) (pos' : Option Nat)
    (hs : Spec.step c pos a = some pos') :
    ∃ e', queueHandler h e a = some (e', pos'.bind (fun i => c[i]?)) ∧ QAt c e' pos' := by
  cases a with
  | head =>
    simp only [Spec.step] at hs; cases hs
    refine ⟨{ e with ptr := e.first }, ?_, ?_, ?_, hat.first, hat.last⟩
    · rw [queueHandler, hat.first, List.head?_eq_getElem?]; split <;> simp_all
    · show e.first = _; rw [hat.first, List.head?_eq_getElem?]; split <;> simp_all
    · intro i h; split at h
      · simp at h
      · next hn => cases h; exact List.length_pos_iff.2 hn
  | tail =>
    simp only [Spec.step] at hs; cases hs
    refine ⟨{ e with ptr := e.last }, ?_, ?_, ?_, hat.first, hat.last⟩
    · rw [queueHandler, hat.last, List.getLast?_eq_getElem?]; split <;> simp_all
    · show e.last = _; rw [hat.last, List.getLast?_eq_getElem?]; split <;> simp_all
    · intro i h; split at h
      · simp at h
      · next hn => cases h; have := List.length_pos_iff.2 hn; omega
  | next =>
    cases pos with
    | none => simp [Spec.step] at hs
    | some i =>
      simp only [Spec.step, Option.map_some] at hs; cases hs
      have hi := hat.low i rfl
      have hp := hat.ptr
      rw [Option.bind_some, List.getElem?_eq_getElem hi] at hp
      have hrev : c.reverse[c.length - 1 - i]? = some c[i] := by
        rw [List.getElem?_reverse (by omega), show c.length - 1 - (c.length - 1 - i) = i by omega, List.getElem?_eq_getElem hi]
      obtain ⟨hl, hn, -⟩ := chain_at (s (by rintro rfl; simp at hi)) hrev
      have hn' : h.prev c[i] = if i + 1 < c.length then c[i + 1]? else none := by
        rw [hn]
        by_cases h : i + 1 < c.length
        · rw [if_pos h, if_pos (by omega), List.getElem?_reverse (by omega)]
          congr 1; omega
        · rw [if_neg h, if_neg (by omega)]
      refine ⟨{ e with ptr := h.prev c[i] }, ?_, ?_, ?_, hat.first, hat.last⟩
      · simp only [queueHandler, hp, prevOf, hl, if_true, Option.bind_eq_bind, Option.bind_some, Option.pure_def, hn']
        split <;> rfl
      · show h.prev c[i] = _
        rw [hn']; split <;> rfl
      · intro j hj
        split at hj
        · cases hj; assumption
        · simp at hj
  | previous =>
    cases pos with
    | none => simp [Spec.step] at hs
    | some i =>
      simp only [Spec.step, Option.map_some] at hs; cases hs
      have hi := hat.low i rfl
      have hp := hat.ptr
      rw [Option.bind_some, List.getElem?_eq_getElem hi] at hp
      have hrev : c.reverse[c.length - 1 - i]? = some c[i] := by
        rw [List.getElem?_reverse (by omega), show c.length - 1 - (c.length - 1 - i) = i by omega, List.getElem?_eq_getElem hi]
      obtain ⟨hl, -, hn⟩ := chain_at (s (by rintro rfl; simp at hi)) hrev
      have hn' : h.next c[i] = if 0 < i then c[i - 1]? else none := by
        rw [hn]
        by_cases h : 0 < i
        · rw [if_pos h, List.getElem?_reverse (by omega)]
          congr 1; omega
        · rw [if_neg h, List.getElem?_eq_none (by simp; omega)]
      refine ⟨{ e with ptr := h.next c[i] }, ?_, ?_, ?_, hat.first, hat.last⟩
      · simp only [queueHandler, hp, nextOf, hl, if_true, Option.bind_eq_bind, Option.bind_some, Option.pure_def, hn']
        split <;> rfl
      · show h.next c[i] = _
        rw [hn']; split <;> rfl
      · intro j hj
        split at hj
        · cases hj; omega
        · simp at hj
  | current =>
    simp only [Spec.step] at hs; cases hs
    exact ⟨e, by rw [queueHandler, hat.ptr], hat⟩

theorem listStep_none {h : Heap} {c e pos} (hat : At h c e pos) (a : Action) (hs : Spec.step c pos a = none) : listHandler h e a = none := by
  have hp := hat.ptr
  cases pos with
  | none => cases a <;> simp_all [Spec.step, listHandler]
  | some i => cases a <;> simp [Spec.step] at hs

theorem queueStep_none {h : Heap} {c e pos} (hat : QAt c e pos) (a : Action) (hs : Spec.step c pos a = none) : queueHandler h e a = none := by
  have hp := hat.ptr
  cases pos with
  | none => cases a <;> simp_all [Spec.step, queueHandler]
  | some i => cases a <;> simp [Spec.step] at hs

theorem run_ok {I : En → Option Nat → Prop} {handler : En → Action → Option (En × Option Nat)} {c : List Nat}
    (hstep : ∀ e pos a pos', I e pos → Spec.step c pos a = some pos' → ∃ e', handler e a = some (e', pos'.bind (fun i => c[i]?)) ∧ I e' pos')
    (hnone : ∀ e pos a, I e pos → Spec.step c pos a = none → handler e a = none) :
    ∀ (as : List Action) (e : En) (pos : Option Nat), I e pos → runWith handler e as = Spec.run c pos as := by
  intro as
  induction as with
  | nil => intro e pos _; rfl
  | cons a as ih =>
    intro e pos hI
    cases hs : Spec.step c pos a with
    | none => simp [Spec.run, runWith, hs, hnone e pos a hI hs]
    | some pos' =>
      obtain ⟨e', he, hI'⟩ := hstep e pos a pos' hI hs
      simp [Spec.run, runWith, hs, he, ih e' pos' hI']

theorem forEach_ok {I : En → Option Nat → Prop} {handler : En → Action → Option (En × Option Nat)} {c : List Nat}
    (hstep : ∀ e pos a pos', I e pos → Spec.step c pos a = some pos' → ∃ e', handler e a = some (e', pos'.bind (fun i => c[i]?)) ∧ I e' pos') :
    ∀ (n i : Nat) (e : En) (a : Action) (pos : Option Nat) (fuel : Nat), I e pos →
      Spec.step c pos a = some (if i < c.length then some i else none) → c.length - i = n → n < fuel →
      forEach handler fuel e a = some (c.drop i) := by
  intro n
  induction n with
  | zero =>
    intro i e a pos fuel hI hs hn hf
    obtain ⟨f, rfl⟩ : ∃ f, fuel = f + 1 := ⟨fuel - 1, by omega⟩
    rw [if_neg (by omega)] at hs
    obtain ⟨e', he, -⟩ := hstep e pos a _ hI hs
    rw [List.drop_eq_nil_of_le (by omega)]
    simp [forEach, he]
  | succ n ih =>
    intro i e a pos fuel hI hs hn hf
    obtain ⟨f, rfl⟩ : ∃ f, fuel = f + 1 := ⟨fuel - 1, by omega⟩
    have hi : i < c.length := by omega
    rw [if_pos hi] at hs
    obtain ⟨e', he, hI'⟩ := hstep e pos a _ hI hs
    have := ih (i + 1) e' .next (some i) f hI' rfl (by omega) (by omega)
    rw [Option.bind_some, List.getElem?_eq_getElem hi] at he
    rw [List.drop_eq_getElem_cons hi]
    simp [forEach, he, this]

/-- **C108, linked lists**: in any state the linked list functions can produce, an enumerable of a list, made from whichever of its nodes, answers
every series of calls as a cursor over the nodes of the list in order, starting at the first; it faults exactly when a series asks to move on
from behind an end without setting the position anew; and the loop from the current
node to the end visits each node exactly once in order. -/
theorem C108_list (h : Heap) (cs : List (List Nat)) (history : History h cs) (c : List Nat) (hc : c ∈ cs) (x : Nat) (hx : x ∈ c) :
    ∃ e, listEnumerable h x = some e ∧
      (∀ calls, runWith (listHandler h) e calls = Spec.run c (Spec.start c) calls) ∧
      (∀ fuel, c.length < fuel → forEach (listHandler h) fuel e .current = some c) := by
  have s := searchable (LinkedList.history_ok history) hc
  have hne : c ≠ [] := by rintro rfl; simp at hx
  obtain ⟨y, hy⟩ : ∃ y, c.head? = some y := ⟨_, List.head?_eq_some_head hne⟩
  have hat : At h c ⟨some x, some y, some y, none⟩ (some 0) :=
    ⟨by show some y = c[0]?; rw [← List.head?_eq_getElem?, hy], fun i h => by cases h; exact List.length_pos_iff.2 hne, hy.symm,
      Or.inl rfl, x, hx, rfl⟩
  refine ⟨⟨some x, some y, some y, none⟩, ?_, ?_, ?_⟩
  · simp [listEnumerable, s.head x hx, hy]
  · intro calls
    rw [Spec.start, if_neg hne]
    exact run_ok (I := fun e pos => At h c e pos) (fun e pos a pos' hI hs => listStep_ok s hI a pos' hs)
      (fun e pos a hI hs => listStep_none hI a hs) calls _ _ hat
  · intro fuel hf
    have := forEach_ok (I := fun e pos => At h c e pos) (fun e pos a pos' hI hs => listStep_ok s hI a pos' hs) c.length 0
      ⟨some x, some y, some y, none⟩ .current (some 0) fuel hat
      (by rw [if_pos (List.length_pos_iff.2 hne)]; rfl) rfl hf
    simpa using this

theorem qok_history {h q loose pushed popped} (H : QHistory h q loose pushed popped) :
    ∃ waiting, pushed = popped ++ waiting ∧ QOk h q loose waiting := by
  induction H with
  | start => exact ⟨[], rfl, LinkedList.qok_start⟩
  | create h q loose pushed popped _ ih => obtain ⟨w, e, o⟩ := ih; exact ⟨w, e, LinkedList.qok_create o⟩
  | push h q loose pushed popped n h' q' _ hn he ih =>
    obtain ⟨w, e, o⟩ := ih
    obtain ⟨h'', q'', e', o'⟩ := LinkedList.qok_push o hn
    rw [e'] at he; cases he
    exact ⟨w ++ [n], by rw [e, List.append_assoc], o'⟩
  | pop h q loose pushed popped n h' q' _ he ih =>
    obtain ⟨w, e, o⟩ := ih
    obtain ⟨h'', q'', e', o'⟩ := LinkedList.qok_pop o
    rw [e'] at he
    cases w with
    | nil => simp at he
    | cons x w =>
      simp at he
      obtain ⟨rfl, rfl, rfl⟩ := he
      exact ⟨w, by rw [e]; simp, by simpa using o'⟩
  | popEmpty h q loose pushed popped h' q' _ he ih =>
    obtain ⟨w, e, o⟩ := ih
    obtain ⟨h'', q'', e', o'⟩ := LinkedList.qok_pop o
    rw [e'] at he
    cases w with
    | nil => simp at he; obtain ⟨rfl, rfl⟩ := he; exact ⟨[], e, by simpa using o'⟩
    | cons x w => simp at he

/-- **C108, queues**: after any history of a queue its enumerable answers every series of calls as a cursor over the waiting nodes (those
pushed and not popped), in the order in which they will be popped, faulting exactly when asked to move on from behind an end, and the loop visits each exactly once in this order. -/
theorem C108_queue (h : Heap) (q : Queue) (loose pushed popped : List Nat) (history : QHistory h q loose pushed popped) :
    ∃ waiting, pushed = popped ++ waiting ∧
      (∀ calls, runWith (queueHandler h) (queueEnumerable q) calls = Spec.run waiting (Spec.start waiting) calls) ∧
      (∀ fuel, waiting.length < fuel → forEach (queueHandler h) fuel (queueEnumerable q) .current = some waiting) := by
  obtain ⟨c, e, o⟩ := qok_history history
  have s : c ≠ [] → IsChain h c.reverse := fun hne =>
    (o.ok.consists.chains c.reverse (by simp [add, hne])).2
  have hat : QAt c (queueEnumerable q) (Spec.start c) := by
    refine ⟨?_, ?_, o.tail, o.head⟩
    · show q.tail = _
      rw [o.tail, Spec.start, List.head?_eq_getElem?]; split <;> simp_all
    · intro i h
      rw [Spec.start] at h; split at h
      · simp at h
      · next hn => cases h; exact List.length_pos_iff.2 hn
  refine ⟨c, e, ?_, ?_⟩
  · intro calls
    exact run_ok (I := fun e pos => QAt c e pos) (fun e pos a pos' hI hs => queueStep_ok s hI a pos' hs)
      (fun e pos a hI hs => queueStep_none hI a hs) calls _ _ hat
  · intro fuel hf
    have := forEach_ok (I := fun e pos => QAt c e pos) (fun e pos a pos' hI hs => queueStep_ok s hI a pos' hs) c.length 0
      (queueEnumerable q) .current (Spec.start c) fuel hat
      (by rw [Spec.start]
          by_cases hne : c = []
          · simp [hne, Spec.step]
          · rw [if_neg hne, if_pos (List.length_pos_iff.2 hne)]; rfl) rfl hf
    simpa using this

/-! ### The hypotheses can be met -/

/-- A list of two nodes, made by the functions. -/
example : ∃ h, History h [[1, 0]] := by
  refine ⟨_, .call _ _ (.insertBefore 0 1) _ _ _ _
    (.call _ _ .create _ _ _ _ (.call _ _ .create _ _ _ _ .start (.create []) rfl) (.create _) rfl)
    (.insertBefore _ [] [] [] [1] 0 1 (List.Perm.swap _ _ _) (by simp)) (by rfl)⟩

/-- A series of allowed calls. -/
example : Spec.run [1, 0] (Spec.start [1, 0]) [.current, .next, .next, .tail, .previous, .previous, .head] =
    some [some 1, some 0, none, some 0, some 1, none, some 1] := rfl

/-- A queue with one node waiting. -/
example : ∃ h q loose pushed popped, QHistory h q loose pushed popped ∧ pushed = [0] ∧ popped = [] :=
  ⟨_, _, _, _, _, .push _ _ _ _ _ 0 _ _ (.create _ _ _ _ _ .start) (by simp [LinkedList.createNode, Heap.empty]) (by rfl), rfl, rfl⟩

#print axioms C108_list
#print axioms C108_queue

end Verif.ListEnum
