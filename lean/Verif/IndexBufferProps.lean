import Verif.IndexBuffer
import Verif.IDGenProps
/-!
# C14: every index of a concurrent index buffer has one owner

The index buffer is simulated by the generator alone with one more thread, which never calls anything and holds what is staged.
-/
namespace Verif.IndexBuffer
open Verif Verif.Conc
open Verif.IDGen (own PC Thr)

/-- What the additional thread holds. -/
def stagedList (s : Nat) : List Nat := if s = 0 then [] else [s - 1]

/-- The simulating state of the generator. -/
def sim (y : Sys) : IDGen.Sys := { y.gen with thrs := y.gen.thrs ++ [⟨.idle, stagedList y.staged⟩] }

theorem get_app {l : List Thr} {i : Nat} {t b : Thr} (h : l[i]? = some t) : (l ++ [b])[i]? = some t := by
  rw [List.getElem?_append_left (List.getElem?_eq_some_iff.1 h).1]; exact h

theorem set_app {l : List Thr} {i : Nat} {t b x : Thr} (h : l[i]? = some t) : (l ++ [b]).set i x = l.set i x ++ [b] := by
  rw [List.set_append_left _ _ (List.getElem?_eq_some_iff.1 h).1]

theorem step_app {c : IDGen.Cfg} {g g' : IDGen.Sys} (b : Thr) (h : IDGen.Step c g g') :
    IDGen.Step c { g with thrs := g.thrs ++ [b] } { g' with thrs := g'.thrs ++ [b] } := by
  cases h with
  | call h => have := IDGen.Step.call (c := c) (y := { g with thrs := g.thrs ++ [b] }) (get_app h); simp only [set_app h] at this; exact this
  | full h h1 h2 => have := IDGen.Step.full (c := c) (y := { g with thrs := g.thrs ++ [b] }) (get_app h) h1 h2; simp only [set_app h] at this; exact this
  | some h h1 h2 => have := IDGen.Step.some (c := c) (y := { g with thrs := g.thrs ++ [b] }) (get_app h) h1 h2; simp only [set_app h] at this; exact this
  | fail h h1 => have := IDGen.Step.fail (c := c) (y := { g with thrs := g.thrs ++ [b] }) (get_app h) h1; simp only [set_app h] at this; exact this
  | taken h h1 h2 h3 => have := IDGen.Step.taken (c := c) (y := { g with thrs := g.thrs ++ [b] }) (get_app h) h1 h2 h3; simp only [set_app h] at this; exact this
  | assign h h1 h2 => have := IDGen.Step.assign (c := c) (y := { g with thrs := g.thrs ++ [b] }) (get_app h) h1 h2; simp only [set_app h] at this; exact this
  | next h h1 => have := IDGen.Step.next (c := c) (y := { g with thrs := g.thrs ++ [b] }) (get_app h) h1; simp only [set_app h] at this; exact this
  | pass h h1 h2 =>
    have h2' := get_app (b := b) h2
    rw [← set_app h] at h2'
    have := IDGen.Step.pass (c := c) (y := { g with thrs := g.thrs ++ [b] }) (get_app h) h1 h2'
    simp only [set_app h, set_app h2] at this; exact this
  | recycle h h1 => have := IDGen.Step.recycle (c := c) (y := { g with thrs := g.thrs ++ [b] }) (get_app h) h1; simp only [set_app h] at this; exact this
  | check h h1 => have := IDGen.Step.check (c := c) (y := { g with thrs := g.thrs ++ [b] }) (get_app h) h1; simp only [set_app h] at this; exact this
  | store h => have := IDGen.Step.store (c := c) (y := { g with thrs := g.thrs ++ [b] }) (get_app h); simp only [set_app h] at this; exact this

/-- The state of the generator when the staged word and one thread change. -/
theorem moved {c : IDGen.Cfg} {y : Sys} (I : IDGen.Inv c (sim y)) {i s : Nat} {q : PC} {h h' : List Nat} (ht : y.gen.thrs[i]? = some ⟨.idle, h⟩)
    (ho : ∀ id, own id ⟨q, h'⟩ + (stagedList s).count id = h.count id + (stagedList y.staged).count id)
    (hq : IDGen.PcOK c (sim y) i q) : IDGen.Inv c (sim { gen := { y.gen with thrs := y.gen.thrs.set i ⟨q, h'⟩ }, staged := s }) := by
  have hsum : ∀ id, sumBy (own id) (y.gen.thrs.set i ⟨q, h'⟩ ++ [⟨.idle, stagedList s⟩]) = sumBy (own id) (y.gen.thrs ++ [⟨.idle, stagedList y.staged⟩]) := by
    intro id
    have a := sumBy_set (own id) ht ⟨q, h'⟩
    have b := ho id
    rw [sumBy_append, sumBy_append, sumBy_cons, sumBy_cons, sumBy_nil, IDGen.own_idle, IDGen.own_idle]
    rw [IDGen.own_idle] at a
    omega
  refine ⟨I.len, ?_, fun id hid => (hsum id).trans (I.range id hid), ?_, I.unused, I.good⟩
  · intro id b hb
    have := I.byte hb
    simp only [IDGen.ByteOK, sim, hsum] at this ⊢
    exact this
  · intro j t hj
    simp only [sim, List.getElem?_append, List.length_set] at hj
    split at hj
    · next hlt =>
      rcases IDGen.thr_set hj with ⟨rfl, rfl⟩ | ⟨hn, hj⟩
      · exact hq
      · exact I.pcs (get_app hj)
    · next hlt =>
      rw [List.getElem?_singleton] at hj
      split at hj
      · cases hj; trivial
      · cases hj

theorem staged_count (s id : Nat) : (stagedList s).count id = if s = id + 1 then 1 else 0 := by
  unfold stagedList
  split
  · next h => subst h; simp
  · by_cases h : s = id + 1
    · simp [h]
    · rw [List.count_eq_zero.2 (by simp; omega)]; simp [h]

theorem Reach.inv {c : IDGen.Cfg} {n : Nat} {y : Sys} (v : IDGen.Valid c) (h : Reach c n y) : IDGen.Inv c (sim y) := by
  induction h with
  | init =>
    have := IDGen.inv_init v (n + 1)
    have e : sim (IndexBuffer.init c n) = IDGen.init c (n + 1) := by
      simp only [sim, IndexBuffer.init, IDGen.init, stagedList, if_true, List.replicate_succ']
    rw [e]; exact this
  | @step y y' _ s I =>
    cases s with
    | gen s => exact I.step v (step_app _ s)
    | @stage i id h ht hm hs =>
      refine moved I ht (fun x => ?_) trivial
      have := IDGen.count_erase' (id := x) hm
      rw [IDGen.own_idle, staged_count, staged_count, hs]
      by_cases e : id = x
      · subst e; simp at this ⊢; omega
      · have e1 : ¬ id + 1 = x + 1 := by omega
        rw [if_neg e] at this
        rw [if_neg e1, if_neg (by omega)]; omega
    | @restage i id h ht hm hs =>
      have hpos : 0 < sumBy (own (y.staged - 1)) (sim y).thrs := by
        simp only [sim, sumBy_append, sumBy_cons, sumBy_nil, IDGen.own_idle, staged_count]
        rw [if_pos (by omega)]; omega
      obtain ⟨o1, -⟩ := I.owned v hpos
      rw [if_pos o1]
      refine moved I ht (fun x => ?_) trivial
      have := IDGen.count_erase' (id := x) hm
      rw [IDGen.own_check, staged_count, staged_count]
      have e1 : (if y.staged - 1 = x then 1 else 0) = if y.staged = x + 1 then 1 else 0 := by
        by_cases e : y.staged = x + 1
        · rw [if_pos e, if_pos (by omega)]
        · rw [if_neg e, if_neg (by omega)]
      have e2 : (if id + 1 = x + 1 then 1 else 0) = if id = x then 1 else 0 := by
        by_cases e : id = x
        · rw [if_pos e, if_pos (by omega)]
        · rw [if_neg e, if_neg (by omega)]
      rw [e1, e2]; omega
    | @read i h ht hs =>
      refine moved I ht (fun x => ?_) trivial
      rw [IDGen.own_idle, IDGen.count_cons', staged_count, staged_count]
      have e1 : (if y.staged - 1 = x then 1 else 0) = if y.staged = x + 1 then 1 else 0 := by
        by_cases e : y.staged = x + 1
        · rw [if_pos e, if_pos (by omega)]
        · rw [if_neg e, if_neg (by omega)]
      have e0 : ¬ 0 = x + 1 := by omega
      rw [e1, if_neg e0]
      omega
    | readNone => exact I

/-- The number of times a list of threads has `id`. -/
def holders (id : Nat) (thrs : List Thr) : Nat := (thrs.flatMap Thr.held).count id
/-- The number of threads that are giving `id` back. -/
def returning (id : Nat) (thrs : List Thr) : Nat := thrs.countP fun t => t.pc = .check id ∨ t.pc = .store id

/-- **C14.** For every capacity and any number of threads, at every moment of every interleaving, each index is in exactly one of the states: free, held (once, by one thread, which acquired it for writing or for reading),
staged, or being given back by one thread.  Only indexes of the buffer are ever held or staged, no assertion fails, and no byte outside the pool is accessed. -/
theorem C14_one_owner (c : IDGen.Cfg) (v : IDGen.Valid c) (n : Nat) (y : Sys) (h : Reach c n y) :
    (∀ id, id < c.size → (if y.gen.pool[id]? = some 0 then 1 else 0) + holders id y.gen.thrs + (if y.staged = id + 1 then 1 else 0) + returning id y.gen.thrs = 1) ∧
    y.staged ≤ c.size ∧ (∀ t ∈ y.gen.thrs, ∀ id ∈ t.held, id < c.size) ∧
    (∀ t ∈ y.gen.thrs, t.pc ≠ .abort) ∧
    (∀ t ∈ y.gen.thrs, ∀ k, t.pc = .sample k → k < c.size → k + c.w ≤ y.gen.pool.length) ∧
    (∀ t ∈ y.gen.thrs, ∀ k stop, t.pc = .try k stop → k < stop → k < y.gen.pool.length) := by
  have I := h.inv v
  have hpad := IDGen.size_le_padded v
  have hown : ∀ id (l : List Thr), sumBy (own id) l = holders id l + returning id l := by
    intro id l
    induction l with
    | nil => rfl
    | cons t l ih =>
      rw [sumBy_cons, ih]
      simp only [holders, returning, List.flatMap_cons, List.count_append, List.countP_cons]
      have : own id t = t.held.count id + if (decide (t.pc = .check id ∨ t.pc = .store id)) = true then 1 else 0 := by
        unfold own
        by_cases h1 : t.pc = .check id
        · simp [h1]
        · by_cases h2 : t.pc = .store id
          · simp [h2]
          · simp [h1, h2]
      omega
  have hsim : ∀ id, sumBy (own id) (sim y).thrs = holders id y.gen.thrs + returning id y.gen.thrs + if y.staged = id + 1 then 1 else 0 := by
    intro id
    simp only [sim, sumBy_append, sumBy_cons, sumBy_nil, IDGen.own_idle, staged_count]
    rw [hown]
    omega
  have hpos : ∀ t ∈ y.gen.thrs, ∀ id, 0 < own id t → id < c.size := by
    intro t ht id hp
    obtain ⟨i, hi⟩ := List.mem_iff_getElem?.1 ht
    have := le_sumBy (own id) hi
    refine (I.owned v (id := id) ?_).1
    rw [hsim, ← hown]; omega
  refine ⟨?_, ?_, ?_, ?_, ?_, ?_⟩
  · intro id hid
    obtain ⟨b, hb⟩ : ∃ b, y.gen.pool[id]? = some b := ⟨_, List.getElem?_eq_getElem (by have := I.len; simp only [sim] at this; omega)⟩
    have := (I.byte (y := sim y) hb).1 hid
    rw [hsim] at this
    rw [hb]
    rcases this with ⟨h1, h2, -⟩ | ⟨h1, h2, -⟩
    · rw [h1, if_pos rfl]; omega
    · rw [h1, if_neg (by decide)]; omega
  · apply Decidable.byContradiction; intro hn
    have := I.range (y.staged - 1) (by omega)
    rw [hsim, if_pos (by omega)] at this
    omega
  · intro t ht id hid
    exact hpos t ht id (by have := List.count_pos_iff.2 hid; unfold own; omega)
  · intro t ht hab
    obtain ⟨i, hi⟩ := List.mem_iff_getElem?.1 ht
    have := I.pcs (get_app hi)
    rw [hab] at this; exact this
  · intro t ht k hk hlt
    obtain ⟨i, hi⟩ := List.mem_iff_getElem?.1 ht
    have := I.pcs (get_app hi)
    rw [hk] at this
    have hl := I.len
    simp only [sim] at hl
    rw [hl]
    rcases this.1 with h1 | h1
    · omega
    · exact IDGen.sample_fits v h1.1 h1.2 hlt
  · intro t ht k stop hk hlt
    obtain ⟨i, hi⟩ := List.mem_iff_getElem?.1 ht
    have := I.pcs (get_app hi)
    rw [hk] at this
    have hl := I.len
    simp only [sim] at hl
    rw [hl]
    have := this.1
    omega

/-- Non-vacuity: a writer stages index 0, stages index 1 over it, a reader takes index 1, index 0 is free again. -/
example : ∃ y, Reach ⟨2, 8, false⟩ 2 y ∧ y.staged = 0 ∧ y.gen.thrs = [⟨.idle, []⟩, ⟨.idle, [1]⟩] ∧ IDGen.Valid ⟨2, 8, false⟩ := by
  have h := Reach.init (c := ⟨2, 8, false⟩) (n := 2)
  have h := h.step (.gen (IDGen.Step.call (i := 0) rfl))
  have h := h.step (.gen (IDGen.Step.some (i := 0) rfl (by decide) rfl))
  have h := h.step (.gen (IDGen.Step.assign (i := 0) rfl (by decide) rfl))
  have h := h.step (Step.stage (i := 0) (id := 0) rfl (by decide) rfl)
  have h := h.step (.gen (IDGen.Step.call (i := 0) rfl))
  have h := h.step (.gen (IDGen.Step.some (i := 0) rfl (by decide) rfl))
  have h := h.step (.gen (IDGen.Step.taken (i := 0) rfl (by decide) rfl (by decide)))
  have h := h.step (.gen (IDGen.Step.assign (i := 0) rfl (by decide) rfl))
  have h := h.step (Step.restage (i := 0) (id := 1) rfl (by decide) (by decide))
  have h := h.step (.gen (IDGen.Step.check (i := 0) rfl rfl))
  have h := h.step (.gen (IDGen.Step.store (i := 0) rfl))
  have h := h.step (Step.read (i := 1) rfl (by decide))
  exact ⟨_, h, rfl, rfl, by decide, by decide⟩

#print axioms C14_one_owner
end Verif.IndexBuffer
