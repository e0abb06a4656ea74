import Verif.PoolWeak
import Verif.ConcPoolProps
/-!
# C139: the memory orders of the concurrent buffer and of the concurrent pool
-/
namespace Verif.PoolWeak

theorem upd_same {α : Type} (f : Nat → α) (i : Nat) (a : α) : upd f i a i = a := by simp [upd]

namespace Buffer

structure Inv (z : W) : Prop where
  data : ∀ a, z.data = some a → ∀ e ∈ a, e ∈ z.carries
  ok : ∀ r ∈ z.taken, ∀ e ∈ r.1, e ∈ r.2

theorem Reach.inv {z : W} {o : Orders} (ho : o.rel = true ∧ o.acq = true) (r : Reach o z) : Inv z := by
  obtain ⟨o1, o2⟩ := ho
  induction r with
  | init => exact ⟨fun a h => by simp [Buffer.init] at h, fun r h => by simp [Buffer.init] at h⟩
  | @step z z' _ s I =>
    cases s with
    | work i => exact ⟨I.data, I.ok⟩
    | exchange i null =>
      refine ⟨?_, ?_⟩
      · intro a h e he
        cases null with
        | true => simp at h
        | false =>
          simp at h
          show e ∈ (if o.rel then z.carries ++ z.knows i else z.carries)
          rw [o1]
          exact List.mem_append_right _ (h ▸ he)
      · intro r hr e he
        rcases List.mem_append.mp hr with h | h
        · exact I.ok r h e he
        · obtain ⟨a, ha, rfl⟩ := List.mem_map.mp h
          show e ∈ after o z i
          rw [after, o2]
          exact List.mem_append_right _ (I.data a (by simpa using ha) e he)

/-- Thread 0 fills data and writes them, thread 1 takes them. -/
theorem handed (o : Orders) : ∃ z, Reach o z ∧ z.taken = [([0], if o.rel && o.acq then [0] else [])] := by
  have r := (((Reach.init (o := o)).step (.work 0)).step (.exchange 0 false)).step (.exchange 1 true)
  refine ⟨_, r, ?_⟩
  rcases o with ⟨_ | _, _ | _⟩ <;> rfl

/-- C139, buffer: whenever data are taken out of the buffer, everything the thread that put them there had done happened before, exactly if the exchange is a release and an acquire. -/
theorem C139_buffer (o : Orders) : (∀ z, Reach o z → ∀ r ∈ z.taken, ∀ e ∈ r.1, e ∈ r.2) ↔ (o.rel = true ∧ o.acq = true) := by
  constructor
  · intro H
    obtain ⟨z, r, h⟩ := handed o
    have := H z r _ (by rw [h]; exact List.mem_singleton_self _) 0 (List.mem_singleton_self _)
    rcases o with ⟨_ | _, _ | _⟩ <;> simp_all
  · intro ho z r
    exact (r.inv ho).ok

/-- C139, buffer, for the orders of the file. -/
theorem C139_buffer_code (z : W) (r : Reach code z) : ∀ r ∈ z.taken, ∀ e ∈ r.1, e ∈ r.2 := (C139_buffer code).mpr ⟨rfl, rfl⟩ z r

/-- The numbers tell apart what was done: whatever is known has a number below the next. -/
theorem C139_buffer_numbers {o : Orders} {z : W} (r : Reach o z) : (∀ i, ∀ e ∈ z.knows i, e < z.events) ∧ ∀ e ∈ z.carries, e < z.events := by
  induction r with
  | init => exact ⟨fun i e h => by simp [Buffer.init] at h, fun e h => by simp [Buffer.init] at h⟩
  | @step z z' _ s ih =>
    obtain ⟨h1, h2⟩ := ih
    cases s with
    | work i =>
      refine ⟨fun j e h => ?_, fun e h => Nat.lt_succ_of_lt (h2 e h)⟩
      dsimp only [upd] at h ⊢
      split at h
      · rcases List.mem_append.mp h with h | h
        · exact Nat.lt_succ_of_lt (h1 i e h)
        · rw [List.mem_singleton.mp h]; exact Nat.lt_succ_self _
      · exact Nat.lt_succ_of_lt (h1 j e h)
    | exchange i null =>
      refine ⟨fun j e h => ?_, fun e h => ?_⟩
      · dsimp only [upd] at h ⊢
        split at h
        · rw [after] at h
          split at h
          · rcases List.mem_append.mp h with h | h
            · exact h1 i e h
            · exact h2 e h
          · exact h1 i e h
        · exact h1 j e h
      · dsimp only at h ⊢
        split at h
        · rcases List.mem_append.mp h with h | h
          · exact h2 e h
          · exact h1 i e h
        · exact h2 e h

/-- Data that were filled and taken. -/
example : ∃ z, Reach code z ∧ z.taken = [([0], [0])] := handed code

#print axioms Verif.PoolWeak.Buffer.C139_buffer
#print axioms Verif.PoolWeak.Buffer.C139_buffer_code

end Buffer

namespace Pool
open ConcPool

theorem Step.sys {o : Orders} {c : Cfg} {z z' : W} (s : Step o c z z') : ConcPool.Step c z.sys z'.sys := by
  cases s with
  | other s _ _ _ => exact s
  | begin h => exact .begin h
  | pushed h => exact .pushed h
  | commit m h => exact .commit h
  | pop h h1 h2 => exact .pop h h1 h2

theorem Reach.sys {o : Orders} {c : Cfg} {n : Nat} {z : W} (r : Reach o c n z) : ConcPool.Reach c n z.sys := by
  induction r with
  | init => exact .init
  | step _ s ih => exact .step ih s.sys

structure WInv (z : W) : Prop where
  len : z.wrote.length = z.sys.pushed.length
  prod : ∀ e ∈ z.wrote, e ∈ z.prod
  com : ∀ k e : Nat, k < z.sys.committed → z.wrote[k]? = some e → e ∈ z.carries
  ok : ∀ r ∈ z.pops, ∃ e, r.1 = some e ∧ e ∈ r.2

theorem WInv.step {o : Orders} (ho : o.rel = true ∧ o.acq = true) {c : Cfg} {z z' : W} (V : ConcPool.Inv c z.sys) (V' : ConcPool.Inv c z'.sys) (I : WInv z) (s : Step o c z z') : WInv z' := by
  obtain ⟨o1, o2⟩ := ho
  cases s with
  | @other y s e1 e2 hn =>
    have e3 : y.committed = z.sys.committed := by
      cases s with
      | commit h => simp at hn
      | _ => rfl
    exact ⟨by show z.wrote.length = y.pushed.length; rw [e2]; exact I.len, I.prod, by show ∀ k e : Nat, k < y.committed → _; rw [e3]; exact I.com, I.ok⟩
  | begin h =>
    refine ⟨?_, fun e he => I.prod e (List.mem_of_mem_take he), ?_, I.ok⟩
    · show (z.wrote.take z.sys.committed).length = (z.sys.pushed.take z.sys.committed).length
      rw [List.length_take, List.length_take, I.len]
    · intro k e hk he
      change k < z.sys.committed at hk
      refine I.com k e hk ?_
      rw [← he]
      exact (List.getElem?_take_of_lt hk).symm
  | pushed h =>
    refine ⟨?_, ?_, ?_, I.ok⟩
    · show (z.wrote ++ [z.events]).length = (z.sys.pushed ++ [_]).length
      simp [I.len]
    · intro e he
      rcases List.mem_append.mp he with h | h
      · exact List.mem_append_left _ (I.prod e h)
      · exact List.mem_append_right _ h
    · intro k e hk he
      change k < z.sys.committed at hk
      have := V.le2
      have := I.len
      rw [List.getElem?_append_left (by omega)] at he
      exact I.com k e hk he
  | commit m h =>
    refine ⟨I.len, I.prod, ?_, I.ok⟩
    intro k e _ he
    show e ∈ _ ++ (if o.rel then z.prod else [])
    rw [o1]
    exact List.mem_append_right _ (I.prod e (List.mem_of_getElem? he))
  | @pop i a b h h1 h2 =>
    refine ⟨I.len, I.prod, I.com, ?_⟩
    intro r hr
    rcases List.mem_append.mp hr with h' | h'
    · exact I.ok r h'
    · rw [List.mem_singleton.mp h']
      have k1 : z.sys.popped + 1 ≤ z.sys.committed := V'.le1
      have k2 := V.le2
      have k3 := I.len
      have hk : z.sys.popped < z.wrote.length := by omega
      refine ⟨z.wrote[z.sys.popped], List.getElem?_eq_getElem hk, ?_⟩
      show _ ∈ (if o.acq then z.knows i ++ z.carries else z.knows i)
      rw [o2]
      exact List.mem_append_right _ (I.com z.sys.popped _ (by omega) (List.getElem?_eq_getElem hk))

/-- An item is pushed and committed, and popped. -/
theorem handed (o : Orders) (m : Bool) : ∃ z, Reach o ⟨2 ^ 32, 2⟩ 1 z ∧ z.sys.peak = 1 ∧ z.pops = [(some 0, if o.rel && o.acq then [0] else [])] := by
  have r := Reach.init (o := o) (c := ⟨2 ^ 32, 2⟩) (n := 1)
  have r := r.step (.other (.push 7 rfl (fun k h => absurd h (by simp [Pool.init, ConcPool.init]))) rfl rfl (.inr (.inr nofun)))
  have r := r.step (.pushed rfl)
  have r := r.step (.commit m rfl)
  have r := r.step (.other (.load (i := 0) rfl nofun) rfl rfl (.inl nofun))
  have r := r.step (.pop (i := 0) rfl rfl rfl)
  refine ⟨_, r, rfl, ?_⟩
  rcases o with ⟨_ | _, _ | _⟩ <;> cases m <;> rfl

/-- C139, pool: whenever a consumer pops an item, the writing of the item by the producer happened before, exactly if the commit is a release and the exchange of the pop an acquire.  As in C17, the number of slots divides the number of indexes or the pool never holds more items than there are indexes. -/
theorem C139_pool_partial (o : Orders) :
    (∀ (c : Cfg) (n : Nat), 0 < c.max → c.max < c.w → ∀ z, Reach o c n z → (c.max ∣ c.w ∨ z.sys.peak ≤ c.w) → ∀ r ∈ z.pops, ∃ e, r.1 = some e ∧ e ∈ r.2) ↔ (o.rel = true ∧ o.acq = true) := by
  constructor
  · intro H
    obtain ⟨z, r, hp, h⟩ := handed o true
    obtain ⟨e, h1, h2⟩ := H ⟨2 ^ 32, 2⟩ 1 (by decide) (by decide) z r (.inr (by rw [hp]; decide)) _ (by rw [h]; exact List.mem_singleton_self _)
    rcases o with ⟨_ | _, _ | _⟩ <;> simp_all
  · intro ho c n hm hw z r D
    have I : WInv z := by
      induction r with
      | init => exact ⟨rfl, fun e h => by simp [Pool.init] at h, fun k e h => by simp [Pool.init, ConcPool.init] at h, fun r h => by simp [Pool.init] at h⟩
      | @step z z' r s ih =>
        have D' : c.max ∣ c.w ∨ z.sys.peak ≤ c.w := D.imp id (fun h => Nat.le_trans (peak_le s.sys) h)
        exact WInv.step ho (r.sys.inv hm hw D') ((r.step s).sys.inv hm hw D) (ih D') s
    exact I.ok

/-- C139, pool, for the orders of the file with `memory_order_consume` taken as an acquire. -/
theorem C139_pool_code_partial (c : Cfg) (n : Nat) (hm : 0 < c.max) (hw : c.max < c.w) (z : W) (r : Reach code c n z) (D : c.max ∣ c.w ∨ z.sys.peak ≤ c.w) : ∀ r ∈ z.pops, ∃ e, r.1 = some e ∧ e ∈ r.2 :=
  (C139_pool_partial code).mpr ⟨rfl, rfl⟩ c n hm hw z r D

/-- C139, pool, for the orders of the file by the letter: an item may be popped without the writing of it happening before. -/
theorem C139_pool_letter_refuted : ∃ z, Reach letter ⟨2 ^ 32, 2⟩ 1 z ∧ z.pops = [(some 0, [])] := by
  obtain ⟨z, r, -, h⟩ := handed letter true
  exact ⟨z, r, h⟩

/-- An acquire there is all that is missing. -/
theorem C139_pool_letter_repaired (c : Cfg) (n : Nat) (hm : 0 < c.max) (hw : c.max < c.w) (z : W) (r : Reach { letter with acq := true } c n z) (D : c.max ∣ c.w ∨ z.sys.peak ≤ c.w) : ∀ r ∈ z.pops, ∃ e, r.1 = some e ∧ e ∈ r.2 :=
  (C139_pool_partial _).mpr ⟨rfl, rfl⟩ c n hm hw z r D

/-- An item that was pushed and popped, with either kind of commit. -/
example (m : Bool) : ∃ z, Reach code ⟨2 ^ 32, 2⟩ 1 z ∧ z.sys.peak = 1 ∧ z.pops = [(some 0, [0])] := handed code m

#print axioms Verif.PoolWeak.Pool.C139_pool_partial
#print axioms Verif.PoolWeak.Pool.C139_pool_code_partial
#print axioms Verif.PoolWeak.Pool.C139_pool_letter_refuted

end Pool
end Verif.PoolWeak
#print axioms Verif.PoolWeak.Pool.C139_pool_letter_repaired
#print axioms Verif.PoolWeak.Buffer.C139_buffer_numbers
