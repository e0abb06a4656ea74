import Verif.PoolCommit
import Verif.ConcPoolProps
/-!
# C140: the commit of the concurrent pool finishes
-/
namespace Verif.PoolCommit
open ConcPool

/-- Every step is one of the pool, or none. -/
theorem Step.sys {c : Cfg} {z z' : Z} (h : z.busy = true → z.sys.writing = none) (s : Step c z z') : ConcPool.Step c z.sys z'.sys ∨ z'.sys = z.sys := by
  cases s with
  | consumer s => exact .inl s
  | begin _ h => exact .inl (.begin h)
  | push _ s => exact .inl s
  | call => exact .inr rfl
  | done hb hp =>
    refine .inl ?_
    have e : z.ptr.1 = z.sys.index := by rw [hp]
    have := ConcPool.Step.commit (c := c) (h hb)
    rw [e]
    exact this
  | fail => exact .inr rfl
  | spurious => exact .inr rfl

theorem Reach.writing {c : Cfg} {n : Nat} {z : Z} (r : Reach c n z) : z.busy = true → z.sys.writing = none := by
  induction r with
  | init => intro h; simp [PoolCommit.init] at h
  | @step z z' _ s ih =>
    cases s with
    | consumer s _ _ _ hw _ => intro hb; exact hw.trans (ih hb)
    | begin hb _ => intro h; rw [hb] at h; exact absurd h (by simp)
    | push hb _ _ => intro h; rw [hb] at h; exact absurd h (by simp)
    | call _ h => exact fun _ => h
    | done => intro h; simp at h
    | fail => exact ih
    | spurious => exact ih

theorem Reach.sys {c : Cfg} {n : Nat} {z : Z} (r : Reach c n z) : ConcPool.Reach c n z.sys := by
  induction r with
  | init => exact .init
  | @step z z' r s ih =>
    rcases s.sys r.writing with s | e
    · exact .step ih s
    · rw [e]; exact ih

theorem popped_le {c : Cfg} {y y' : Sys} (s : ConcPool.Step c y y') : y.popped ≤ y'.popped := by
  cases s <;> first | exact Nat.le_refl _ | exact Nat.le_succ _

/-- While the producer is in the loop. -/
structure BInv (c : Cfg) (z : Z) : Prop where
  start : z.busy = true → z.start ≤ z.sys.popped
  /-- the stage has the pointer of `m` pops ago, or has not looked yet -/
  ptr : z.busy = true → z.fails = z.spurious ∨ ∃ m, z.start ≤ m ∧ m ≤ z.sys.popped ∧ z.ptr = (m % c.w, z.sys.last) ∧ z.fails + z.start ≤ z.spurious + m + 1

theorem BInv.step {c : Cfg} {z z' : Z} (V : ConcPool.Inv c z.sys) (I : BInv c z) (s : Step c z z') : BInv c z' := by
  cases s with
  | @consumer y s h1 h2 h3 h4 h5 =>
    have := popped_le s
    refine ⟨fun hb => Nat.le_trans (I.start hb) this, fun hb => ?_⟩
    rcases I.ptr hb with h | ⟨m, k1, k2, k3, k4⟩
    · exact .inl h
    · exact .inr ⟨m, k1, Nat.le_trans k2 this, by show z.ptr = (m % c.w, y.last); rw [h2]; exact k3, k4⟩
  | begin hb h => exact ⟨fun h => by rw [hb] at h; exact absurd h (by simp), fun h => by rw [hb] at h; exact absurd h (by simp)⟩
  | push hb s h => exact ⟨fun h => by rw [hb] at h; exact absurd h (by simp), fun h => by rw [hb] at h; exact absurd h (by simp)⟩
  | call hb h => exact ⟨fun _ => Nat.le_refl _, fun _ => .inl rfl⟩
  | done hb h => exact ⟨fun h => by simp at h, fun h => by simp at h⟩
  | fail hb h =>
    refine ⟨fun _ => I.start hb, fun _ => .inr ⟨z.sys.popped, I.start hb, Nat.le_refl _, by rw [← V.idx], ?_⟩⟩
    have hs := I.start hb
    show z.fails + 1 + z.start ≤ z.spurious + z.sys.popped + 1
    rcases I.ptr hb with e | ⟨m, k1, k2, k3, k4⟩
    · omega
    · have : m ≠ z.sys.popped := fun e => h (by rw [k3, e, ← V.idx])
      omega
  | spurious hb h =>
    refine ⟨fun _ => I.start hb, fun _ => ?_⟩
    rcases I.ptr hb with e | ⟨m, k1, k2, k3, k4⟩
    · exact .inl (by show z.fails + 1 = z.spurious + 1; omega)
    · exact .inr ⟨m, k1, k2, k3, by show z.fails + 1 + z.start ≤ z.spurious + 1 + m + 1; omega⟩

theorem Reach.binv {c : Cfg} (hm : 0 < c.max) (hmw : c.max < c.w) {n : Nat} {z : Z} (r : Reach c n z) (D : c.max ∣ c.w ∨ z.sys.peak ≤ c.w) : BInv c z := by
  induction r with
  | init => exact ⟨fun h => by simp [PoolCommit.init] at h, fun h => by simp [PoolCommit.init] at h⟩
  | @step z z' r s ih =>
    have D' : c.max ∣ c.w ∨ z.sys.peak ≤ c.w := D.imp id (fun h => by
      rcases s.sys r.writing with s | e
      · exact Nat.le_trans (peak_le s) h
      · rw [e] at h; exact h)
    exact BInv.step (r.sys.inv hm hmw D') (ih D') s

/-- At the start of a commit no more items are there to be popped than the pool has slots, and none are added before it ends. -/
structure CInv (c : Cfg) (z : Z) : Prop where
  room : z.busy = true → z.sys.committed ≤ z.start + c.max

theorem Reach.cinv {c : Cfg} (hm : 0 < c.max) (hmw : c.max < c.w) {n : Nat} {z : Z} (r : Reach c n z) (D : c.max ∣ c.w ∨ z.sys.peak ≤ c.w) : CInv c z := by
  induction r with
  | init => exact ⟨fun h => by simp [PoolCommit.init] at h⟩
  | @step z z' r s ih =>
    have D' : c.max ∣ c.w ∨ z.sys.peak ≤ c.w := D.imp id (fun h => by
      rcases s.sys r.writing with s | e
      · exact Nat.le_trans (peak_le s) h
      · rw [e] at h; exact h)
    have I := ih D'
    have V := r.sys.inv hm hmw D'
    cases s with
    | @consumer y s h1 h2 h3 h4 h5 => exact ⟨fun hb => by show y.committed ≤ z.start + c.max; rw [h3]; exact I.room hb⟩
    | begin hb h => exact ⟨fun h => by rw [hb] at h; exact absurd h (by simp)⟩
    | push hb s h => exact ⟨fun h => by rw [hb] at h; exact absurd h (by simp)⟩
    | call hb h => exact ⟨fun _ => by have := V.le2; have := V.within; show z.sys.committed ≤ z.sys.popped + c.max; omega⟩
    | done hb h => exact ⟨fun h => by simp at h⟩
    | fail hb h => exact ⟨fun _ => I.room hb⟩
    | spurious hb h => exact ⟨fun _ => I.room hb⟩

/-- C140: however the consumers interleave, the attempts of a commit that fail are the spurious failures of the weak exchange, one for each item popped since the commit began, and one more if the stage was reused; as no more items can be popped than the pool holds, there are at most `Max + 1` of them besides
the spurious ones.  The next attempt, if no item is popped before it and it does not fail spuriously, succeeds. -/
theorem C140_commit_partial (c : Cfg) (hm : 0 < c.max) (hmw : c.max < c.w) (n : Nat) (z : Z) (r : Reach c n z) (D : c.max ∣ c.w ∨ z.sys.peak ≤ c.w) (hb : z.busy = true) :
    z.fails ≤ z.spurious + (z.sys.popped - z.start) + 1 ∧ z.fails ≤ z.spurious + c.max + 1 ∧
    ∃ z', Step c z z' ∧ (z'.busy = false ∧ z'.sys.committed = z.sys.pushed.length ∧ z'.sys.last = z.sys.stage ∧ z'.sys.index = z.sys.index ∨
      z'.busy = true ∧ z'.ptr = (z.sys.index, z.sys.last) ∧ z'.sys = z.sys) := by
  have B := r.binv hm hmw D
  have C := r.cinv hm hmw D
  have V := r.sys.inv hm hmw D
  have h1 := B.start hb
  have h2 := C.room hb
  have h3 := V.le1
  have h0 : z.fails ≤ z.spurious + (z.sys.popped - z.start) + 1 := by
    rcases B.ptr hb with h | ⟨m, k1, k2, -, k4⟩
    · omega
    · omega
  refine ⟨h0, by omega, ?_⟩
  by_cases e : z.ptr = (z.sys.index, z.sys.last)
  · exact ⟨_, .done hb e, .inl ⟨rfl, rfl, rfl, by show z.ptr.1 = _; rw [e]⟩⟩
  · exact ⟨_, .fail hb e, .inr ⟨hb, rfl, rfl⟩⟩

/-- C140: a commit is the one of the pool: it publishes what was staged and takes nothing from the consumers, whatever they did since the stage began. -/
theorem C140_commit_refines (c : Cfg) (n : Nat) (z : Z) (r : Reach c n z) : ConcPool.Reach c n z.sys := r.sys

/-- C140: the weak exchange alone does not bound the number of attempts. -/
theorem C140_spurious_refuted : ∀ k, ∃ z, Reach ⟨2 ^ 32, 2⟩ 1 z ∧ z.busy = true ∧ z.fails = k := by
  intro k
  suffices h : ∃ z, Reach ⟨2 ^ 32, 2⟩ 1 z ∧ z.busy = true ∧ z.fails = k ∧ z.ptr = (z.sys.index, z.sys.last) by
    obtain ⟨z, h1, h2, h3, -⟩ := h
    exact ⟨z, h1, h2, h3⟩
  induction k with
  | zero => exact ⟨_, Reach.init.step (.call rfl rfl), rfl, rfl, rfl⟩
  | succ k ih =>
    obtain ⟨z, r, hb, hf, hp⟩ := ih
    exact ⟨_, r.step (.spurious hb hp), hb, by show z.fails + 1 = k + 1; omega, hp⟩

/-- An item is committed; the stage is used again, and the item is popped while the next commit is at work: the bound `Max + 1` is met, for one slot. -/
theorem met : ∃ z, Reach ⟨2 ^ 32, 1⟩ 1 z ∧ z.busy = true ∧ z.spurious = 0 ∧ z.fails = 2 ∧ z.sys.popped - z.start = 1 ∧ z.sys.peak = 1 := by
  have r := Reach.init (c := ⟨2 ^ 32, 1⟩) (n := 1)
  have r := r.step (.push rfl (.push 7 rfl (fun k h => absurd h (by simp [PoolCommit.init, ConcPool.init]))) nofun)
  have r := r.step (.push rfl (.pushed rfl) nofun)
  have r := r.step (.call rfl rfl)
  have r := r.step (.done rfl rfl)
  have r := r.step (.call rfl rfl)
  have r := r.step (.fail rfl (by decide))
  have r := r.step (.consumer (.load (i := 0) rfl nofun) rfl rfl rfl rfl rfl)
  have r := r.step (.consumer (.pop (i := 0) rfl rfl rfl) rfl rfl rfl rfl rfl)
  have r := r.step (.fail rfl (by decide))
  exact ⟨_, r, rfl, rfl, rfl, rfl, rfl⟩

/-- The hypotheses of `C140_commit_partial` are met by it. -/
example : ∃ z, Reach ⟨2 ^ 32, 1⟩ 1 z ∧ z.busy = true ∧ ((1 : Nat) ∣ 2 ^ 32 ∨ z.sys.peak ≤ 2 ^ 32) ∧ z.fails = z.spurious + 1 + 1 := by
  obtain ⟨z, r, h1, h2, h3, -⟩ := met
  exact ⟨z, r, h1, .inl ⟨2 ^ 32, by decide⟩, by omega⟩

#print axioms Verif.PoolCommit.C140_commit_partial
#print axioms Verif.PoolCommit.C140_commit_refines
#print axioms Verif.PoolCommit.C140_spurious_refuted

end Verif.PoolCommit
