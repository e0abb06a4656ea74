import Verif.LinkedListLemmas
/-!
# Property theorems C05 (CCLinkedList) and C06 (CCQueue)
-/
namespace Verif.LinkedList
open Spec

/-- **C05.** After any history of calls the heap consists of exactly the chains obtained by the same edits on mathematical
lists (doubly linked, acyclic, no node lost or duplicated), and every further call that has a meaning on the chains completes without
undefined behaviour, returns the documented node and performs its edit. -/
theorem C05_linked_list_chains (h : Heap) (cs : List (List Nat)) (H : History h cs) :
    Consists h cs ∧
    ∀ op cs' r, Edit h.size cs op cs' r → ∃ h', step h op = some (h', r) ∧ Consists h' cs' := by
  have o := history_ok H
  refine ⟨o.consists, fun op cs' r e => ?_⟩
  obtain ⟨h', e', o'⟩ := step_ok o e
  exact ⟨h', e', o'.consists⟩

/-- Non-vacuity: two chains are built and spliced, then one is cut again. -/
example : ∃ h, History h [[2], [0, 1, 3]] := by
  have h0 := History.start
  have h1 := History.call _ _ .create _ _ _ _ h0 (.create _) rfl
  have h2 := History.call _ _ .create _ _ _ _ h1 (.create _) rfl
  have h3 := History.call _ _ .create _ _ _ _ h2 (.create _) rfl
  have h4 := History.call _ _ .create _ _ _ _ h3 (.create _) rfl
  have h5 := History.call _ _ (.append 0 1) _ _ _ _ h4 (.append _ [[3], [2]] [0] [1] 0 1 (by decide) (by simp) (by simp)) rfl
  have h6 := History.call _ _ (.append 2 3) _ _ _ _ h5 (.append _ [[0, 1]] [2] [3] 2 3 (by decide) (by simp) (by simp)) rfl
  have h7 := History.call _ _ (.insertAfter 1 3) _ _ _ _ h6 (.insertAfter _ [] [0] [] [2, 3] 1 3 (by decide) (by simp)) rfl
  have h8 := History.call _ _ (.removeNode 2) _ _ _ _ h7 (.removeNode _ [] [0, 1] [3] 2 (by simp)) rfl
  exact ⟨_, h8⟩

/-- **C06.** In every history of push / pop (and node creation) on a queue, with single nodes: the nodes popped so far are the
first ones pushed, in the same order; what is left (`waiting`) is exactly the rest.  The count is its length, peek shows its
first node, the next pop returns that node (or nothing when empty), and pushing any loose node works. -/
theorem C06_queue_fifo (h : Heap) (q : Queue) (loose pushed popped : List Nat) (H : QHistory h q loose pushed popped) :
    ∃ waiting, pushed = popped ++ waiting ∧ qCount q = waiting.length ∧ qPeek q = waiting.head? ∧
      (∃ h' q', qPop h q = some (h', q', waiting.head?)) ∧
      (∀ n ∈ loose, ∃ h' q', qPush h q n = some (h', q')) := by
  have key : ∃ waiting, pushed = popped ++ waiting ∧ QOk h q loose waiting := by
    induction H with
    | start => exact ⟨[], rfl, qok_start⟩
    | create h q loose pushed popped _ ih =>
      obtain ⟨w, hw, o⟩ := ih; exact ⟨w, hw, qok_create o⟩
    | push h q loose pushed popped n h' q' _ hn hs ih =>
      obtain ⟨w, hw, o⟩ := ih
      obtain ⟨h1, q1, e, o'⟩ := qok_push o hn
      rw [e] at hs; cases hs
      exact ⟨w ++ [n], by simp [hw], o'⟩
    | pop h q loose pushed popped n h' q' _ hs ih =>
      obtain ⟨w, hw, o⟩ := ih
      obtain ⟨h1, q1, e, o'⟩ := qok_pop o
      rw [e] at hs
      cases w with
      | nil => simp at hs
      | cons x w => simp at hs; obtain ⟨rfl, rfl, rfl⟩ := hs; exact ⟨w, by simp [hw], by simpa using o'⟩
    | popEmpty h q loose pushed popped h' q' _ hs ih =>
      obtain ⟨w, hw, o⟩ := ih
      obtain ⟨h1, q1, e, o'⟩ := qok_pop o
      rw [e] at hs
      cases w with
      | nil => simp at hs; obtain ⟨rfl, rfl⟩ := hs; exact ⟨[], hw, by simpa using o'⟩
      | cons x w => simp at hs
  obtain ⟨w, hw, o⟩ := key
  refine ⟨w, hw, o.count, o.tail, ?_, fun n hn => ?_⟩
  · obtain ⟨h1, q1, e, -⟩ := qok_pop o; exact ⟨h1, q1, e⟩
  · obtain ⟨h1, q1, e, -⟩ := qok_push o hn; exact ⟨h1, q1, e⟩

/-- Non-vacuity: push 0, push 1, pop, push 0 again. -/
example : ∃ h q loose, QHistory h q loose [0, 1, 0] [0] := by
  have h0 := QHistory.start
  have h1 := QHistory.create _ _ _ _ _ h0
  have h2 := QHistory.create _ _ _ _ _ h1
  have h3 := QHistory.push _ _ _ _ _ 0 _ _ h2 (by decide) rfl
  have h4 := QHistory.push _ _ _ _ _ 1 _ _ h3 (by decide) rfl
  have h5 := QHistory.pop _ _ _ _ _ 0 _ _ h4 rfl
  have h6 := QHistory.push _ _ _ _ _ 0 _ _ h5 (by decide) rfl
  exact ⟨_, _, _, h6⟩

/-- Two nodes linked to each other are pushed as one node would be: the second of them never comes out of an empty queue. -/
theorem C06_chain_refuted : ∃ h q h' q' h'' q'', History h [[0, 1]] ∧ qPush h qCreate 0 = some (h', q) ∧
    qPop h' q = some (h'', q', some 0) ∧ qPop h'' q' = some (h'', q'', none) := by
  have h1 := History.call _ _ .create _ _ _ _ History.start (Edit.create _) rfl
  have h2 := History.call _ _ .create _ _ _ _ h1 (Edit.create _) rfl
  have h3 := History.call _ _ (.append 0 1) _ _ _ _ h2 (Edit.append _ [] [0] [1] 0 1 (List.Perm.swap _ _ _) (by decide) (by decide)) rfl
  exact ⟨_, _, _, _, _, _, h3, rfl, rfl, rfl⟩

/-- Pushed behind another node they do come out, but the count says one fewer than there are: it is 0 while a node waits. -/
theorem C06_chain_count_refuted : ∃ h h1 q1 h2 q2 h3 q3 h4 q4 h5 q5, History h [[2], [0, 1]] ∧ qPush h qCreate 2 = some (h1, q1) ∧
    qPush h1 q1 0 = some (h2, q2) ∧ qCount q2 = 2 ∧ qPop h2 q2 = some (h3, q3, some 2) ∧ qPop h3 q3 = some (h4, q4, some 1) ∧
    qCount q4 = 0 ∧ qPeek q4 = some 0 ∧ qPop h4 q4 = some (h5, q5, some 0) := by
  have h1 := History.call _ _ .create _ _ _ _ History.start (Edit.create _) rfl
  have h2 := History.call _ _ .create _ _ _ _ h1 (Edit.create _) rfl
  have h3 := History.call _ _ (.append 0 1) _ _ _ _ h2 (Edit.append _ [] [0] [1] 0 1 (List.Perm.swap _ _ _) (by decide) (by decide)) rfl
  have h4 := History.call _ _ .create _ _ _ _ h3 (Edit.create _) rfl
  exact ⟨_, _, _, _, _, _, _, _, _, _, _, h4, rfl, rfl, rfl, rfl, rfl, rfl, rfl, rfl⟩

#print axioms C06_chain_refuted
#print axioms C06_chain_count_refuted
#print axioms C05_linked_list_chains
#print axioms C06_queue_fifo
end Verif.LinkedList
