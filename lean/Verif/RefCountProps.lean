import Verif.RefCount
import Verif.Conc
/-!
# C38: reference counted memory is destroyed exactly once
-/
namespace Verif.RefCount

open Verif.Conc

def atDestroy (t : Thr) : Nat := if t.pc = .destroy then 1 else 0
def atDealloc (t : Thr) : Nat := if t.pc = .dealloc then 1 else 0
def atAbort (t : Thr) : Nat := if t.pc = .abort then 1 else 0

structure Inv (y : Sys) : Prop where
  count : y.refCount = BitVec.ofNat 32 (sumBy Thr.held y.thrs)
  abort : sumBy atAbort y.thrs = 0
  once : sumBy atDestroy y.thrs + sumBy atDealloc y.thrs + y.freed = if sumBy Thr.held y.thrs = 0 then 1 else 0
  ran : y.ran = if sumBy atDealloc y.thrs + y.freed = 0 then [] else [y.destructor]
  touched : y.touched = 0

theorem Inv.pos {y : Sys} (I : Inv y) {i k : Nat} {p : PC} (h : y.thrs[i]? = some ⟨p, k + 1⟩) :
    0 < sumBy Thr.held y.thrs ∧ sumBy atDestroy y.thrs = 0 ∧ sumBy atDealloc y.thrs = 0 ∧ y.freed = 0 ∧ y.ran = [] ∧ y.touch = y := by
  have h1 := le_sumBy Thr.held h
  have h1' : k + 1 ≤ sumBy Thr.held y.thrs := h1
  have := I.once
  rw [if_neg (by omega)] at this
  have hr := I.ran
  rw [if_pos (by omega)] at hr
  refine ⟨by omega, by omega, by omega, by omega, hr, ?_⟩
  unfold Sys.touch
  rw [if_pos (by omega)]

theorem inv_init (n : Nat) : Inv (init n) := by
  constructor <;> simp [init, sumBy_replicate, atAbort, atDestroy, atDealloc]

theorem inv_step {y y' : Sys} (I : Inv y) (s : Step y y') (hL : sumBy Thr.held y.thrs < 2 ^ 31) : Inv y' := by
  cases s with
  | @retain i k h =>
    obtain ⟨p1, p2, p3, p4, p5, p6⟩ := I.pos h
    rw [p6]
    have a := sumBy_set Thr.held h ⟨.idle, k + 2⟩
    have b := sumBy_set atAbort h ⟨.idle, k + 2⟩
    have c := sumBy_set atDestroy h ⟨.idle, k + 2⟩
    have d := sumBy_set atDealloc h ⟨.idle, k + 2⟩
    simp only [atAbort, atDestroy, atDealloc, Nat.add_zero, reduceCtorEq, if_false] at a b c d
    have := I.abort
    refine ⟨?_, ?_, ?_, ?_, I.touched⟩
    · dsimp only
      rw [I.count, show sumBy Thr.held (y.thrs.set i ⟨.idle, k + 2⟩) = sumBy Thr.held y.thrs + 1 by omega, BitVec.ofNat_add]
      rfl
    · dsimp only; omega
    · dsimp only; rw [if_neg (by omega)]; omega
    · dsimp only; rw [if_pos (by omega)]; exact p5
  | @pass i j k m p h h' =>
    obtain ⟨p1, p2, p3, p4, p5, p6⟩ := I.pos h
    have a := sumBy_set Thr.held h ⟨.idle, k⟩
    have b := sumBy_set atAbort h ⟨.idle, k⟩
    have c := sumBy_set atDestroy h ⟨.idle, k⟩
    have d := sumBy_set atDealloc h ⟨.idle, k⟩
    have a' := sumBy_set Thr.held h' ⟨p, m + 1⟩
    have b' := sumBy_set atAbort h' ⟨p, m + 1⟩
    have c' := sumBy_set atDestroy h' ⟨p, m + 1⟩
    have d' := sumBy_set atDealloc h' ⟨p, m + 1⟩
    simp only [atAbort, atDestroy, atDealloc, Nat.add_zero, reduceCtorEq, if_false] at a b c d a' b' c' d'
    have := I.abort
    have e : sumBy Thr.held ((y.thrs.set i ⟨.idle, k⟩).set j ⟨p, m + 1⟩) = sumBy Thr.held y.thrs := by omega
    have eb : sumBy atAbort ((y.thrs.set i ⟨.idle, k⟩).set j ⟨p, m + 1⟩) = 0 := by omega
    have ec : sumBy atDestroy ((y.thrs.set i ⟨.idle, k⟩).set j ⟨p, m + 1⟩) = 0 := by omega
    have ed : sumBy atDealloc ((y.thrs.set i ⟨.idle, k⟩).set j ⟨p, m + 1⟩) = 0 := by omega
    refine ⟨?_, ?_, ?_, ?_, I.touched⟩
    · dsimp only; rw [e, I.count]
    · exact eb
    · dsimp only; rw [ec, ed, e, if_neg (by omega)]; omega
    · dsimp only; rw [ed, if_pos (by omega)]; exact p5
  | @setDestructor i k dd h =>
    obtain ⟨p1, p2, p3, p4, p5, p6⟩ := I.pos h
    rw [p6]
    refine ⟨I.count, I.abort, I.once, ?_, I.touched⟩
    dsimp only; rw [p3, p4]; exact p5
  | @sub i k h =>
    obtain ⟨p1, p2, p3, p4, p5, p6⟩ := I.pos h
    rw [p6]
    generalize hpc : afterSub (y.refCount - 1) = q
    have a := sumBy_set Thr.held h ⟨q, k⟩
    have b := sumBy_set atAbort h ⟨q, k⟩
    have c := sumBy_set atDestroy h ⟨q, k⟩
    have d := sumBy_set atDealloc h ⟨q, k⟩
    simp only [atAbort, atDestroy, atDealloc, Nat.add_zero, reduceCtorEq, if_false] at a b c d
    have := I.abort
    have e : sumBy Thr.held y.thrs = sumBy Thr.held (y.thrs.set i ⟨q, k⟩) + 1 := by omega
    have ec : y.refCount - 1 = BitVec.ofNat 32 (sumBy Thr.held (y.thrs.set i ⟨q, k⟩)) := by
      rw [I.count, e, BitVec.ofNat_add]
      exact BitVec.add_sub_cancel _ _
    generalize hN : sumBy Thr.held (y.thrs.set i ⟨q, k⟩) = N at *
    have hN31 : N < 2 ^ 31 := by omega
    have hq : q = if N = 0 then .destroy else .idle := by
      rw [← hpc, ec]
      unfold afterSub
      have t : (BitVec.ofNat 32 N).toNat = N := by
        rw [BitVec.toNat_ofNat]; exact Nat.mod_eq_of_lt (by omega)
      have t1 : ¬ (BitVec.ofNat 32 N).toInt < 0 := by
        rw [BitVec.toInt_eq_toNat_of_lt (by rw [t]; omega), t]; omega
      rw [if_neg t1]
      by_cases z : N = 0
      · subst z; rfl
      · have t2 : ¬ BitVec.ofNat 32 N = 0 := by
          intro e0
          have := congrArg BitVec.toNat e0
          rw [t] at this
          exact z this
        rw [if_neg t2, if_neg z]
    by_cases z : N = 0
    · rw [if_pos z] at hq
      subst hq
      simp only [if_true, reduceCtorEq, if_false] at b c d
      refine ⟨?_, ?_, ?_, ?_, I.touched⟩
      · dsimp only; rw [hN]; exact ec
      · dsimp only; omega
      · dsimp only; rw [hN, if_pos z]; omega
      · dsimp only; rw [if_pos (by omega)]; exact p5
    · rw [if_neg z] at hq
      subst hq
      simp only [reduceCtorEq, if_false] at b c d
      refine ⟨?_, ?_, ?_, ?_, I.touched⟩
      · dsimp only; rw [hN]; exact ec
      · dsimp only; omega
      · dsimp only; rw [hN, if_neg z]; omega
      · dsimp only; rw [if_pos (by omega)]; exact p5
  | @destroy i k h =>
    have l := le_sumBy atDestroy h
    have a := sumBy_set Thr.held h ⟨.dealloc, k⟩
    have b := sumBy_set atAbort h ⟨.dealloc, k⟩
    have c := sumBy_set atDestroy h ⟨.dealloc, k⟩
    have d := sumBy_set atDealloc h ⟨.dealloc, k⟩
    simp only [atAbort, atDestroy, atDealloc, Nat.add_zero, reduceCtorEq, if_false, if_true] at a b c d l
    have o := I.once
    have r := I.ran
    have := I.abort
    have z : sumBy Thr.held y.thrs = 0 := by
      apply Decidable.byContradiction; intro z
      rw [if_neg z] at o
      omega
    rw [if_pos z] at o
    have f : y.freed = 0 := by omega
    have z2 : sumBy atDealloc y.thrs = 0 := by omega
    rw [if_pos (by omega)] at r
    have t : y.touch = y := by unfold Sys.touch; rw [if_pos f]
    rw [t]
    refine ⟨?_, ?_, ?_, ?_, I.touched⟩
    · dsimp only; rw [I.count]; congr 1; omega
    · dsimp only; omega
    · dsimp only; rw [if_pos (by omega)]; omega
    · dsimp only; rw [if_neg (by omega), r]; rfl
  | @dealloc i k h =>
    have l := le_sumBy atDealloc h
    have a := sumBy_set Thr.held h ⟨.idle, k⟩
    have b := sumBy_set atAbort h ⟨.idle, k⟩
    have c := sumBy_set atDestroy h ⟨.idle, k⟩
    have d := sumBy_set atDealloc h ⟨.idle, k⟩
    simp only [atAbort, atDestroy, atDealloc, Nat.add_zero, reduceCtorEq, if_false, if_true] at a b c d l
    have o := I.once
    have r := I.ran
    have := I.abort
    have z : sumBy Thr.held y.thrs = 0 := by
      apply Decidable.byContradiction; intro z
      rw [if_neg z] at o
      omega
    rw [if_pos z] at o
    have f : y.freed = 0 := by omega
    rw [if_neg (by omega)] at r
    have t : y.touch = y := by unfold Sys.touch; rw [if_pos f]
    rw [t]
    refine ⟨?_, ?_, ?_, ?_, I.touched⟩
    · dsimp only; rw [I.count]; congr 1; omega
    · dsimp only; omega
    · dsimp only; rw [if_pos (by omega)]; omega
    · dsimp only; rw [if_neg (by omega)]; exact r

theorem reach_inv {n L : Nat} {y : Sys} (hL : L < 2 ^ 31) (h : Reach n L y) : Inv y ∧ y.refs ≤ max 1 L := by
  induction h with
  | init => exact ⟨inv_init n, by simp [Sys.refs, init]; omega⟩
  | step _ s hl ih => exact ⟨inv_step ih.1 s (by have := ih.2; unfold Sys.refs at this; unfold sumBy; omega), by omega⟩

/-- **C38**: in every interleaving, as long as fewer than 2^31 references exist at a time, the destructor and the
deallocator are not called while a reference is held; each is called at most once; nobody touches the
header after the deallocation; and no assertion fails. -/
theorem C38_partial {n L : Nat} {y : Sys} (hL : L < 2 ^ 31) (h : Reach n L y) :
    (0 < y.refs → y.freed = 0 ∧ y.ran = []) ∧ y.freed ≤ 1 ∧ y.ran.length ≤ 1 ∧ y.touched = 0 ∧ ∀ t ∈ y.thrs, t.pc ≠ .abort := by
  have I := (reach_inv hL h).1
  have o := I.once
  have r := I.ran
  refine ⟨fun hp => ?_, ?_, ?_, I.touched, ?_⟩
  · have hp' : 0 < sumBy Thr.held y.thrs := hp
    rw [if_neg (by omega)] at o
    rw [if_pos (by omega)] at r
    exact ⟨by omega, r⟩
  · split at o <;> omega
  · rw [r]; split <;> simp
  · intro t ht e
    have := sumBy_zero atAbort I.abort t ht
    simp [atAbort, e] at this

/-- **C38**: when every reference was given up and every call has returned, the destructor that was set last has
run once (if one was set), and the memory was deallocated once. -/
theorem C38_destroyed {n L : Nat} {y : Sys} (hL : L < 2 ^ 31) (h : Reach n L y) (h0 : y.refs = 0) (hi : ∀ t ∈ y.thrs, t.pc = .idle) :
    y.freed = 1 ∧ y.ran = [y.destructor] := by
  have I := (reach_inv hL h).1
  have o := I.once
  have r := I.ran
  have a : sumBy atDestroy y.thrs = 0 := sumBy_eq_zero _ fun t ht => by simp [atDestroy, hi t ht]
  have b : sumBy atDealloc y.thrs = 0 := sumBy_eq_zero _ fun t ht => by simp [atDealloc, hi t ht]
  have h0' : sumBy Thr.held y.thrs = 0 := h0
  rw [if_pos h0'] at o
  rw [if_neg (by omega)] at r
  exact ⟨by omega, r⟩

/-- **C38**: the destructor runs before the deallocation. -/
theorem C38_order {n L : Nat} {y : Sys} (hL : L < 2 ^ 31) (h : Reach n L y) (hf : y.freed ≠ 0) : y.ran = [y.destructor] := by
  have r := (reach_inv hL h).1.ran
  rwa [if_neg (by omega)] at r

/-- **C38**: when the last reference is given up some thread is on its way to destroy the memory. -/
theorem C38_progress {n L : Nat} {y : Sys} (hL : L < 2 ^ 31) (h : Reach n L y) (h0 : y.refs = 0) (hf : y.freed = 0) :
    ∃ y', Step y y' := by
  have I := (reach_inv hL h).1
  have o := I.once
  have h0' : sumBy Thr.held y.thrs = 0 := h0
  rw [if_pos h0'] at o
  by_cases c : 0 < sumBy atDestroy y.thrs
  · obtain ⟨t, ht, hp⟩ := sumBy_pos _ c
    obtain ⟨i, hi⟩ := List.getElem?_of_mem ht
    obtain ⟨p, k⟩ := t
    have : p = .destroy := by
      unfold atDestroy at hp
      split at hp
      · assumption
      · omega
    subst this
    exact ⟨_, Step.destroy hi⟩
  · obtain ⟨t, ht, hp⟩ := sumBy_pos atDealloc (l := y.thrs) (by omega)
    obtain ⟨i, hi⟩ := List.getElem?_of_mem ht
    obtain ⟨p, k⟩ := t
    have : p = .dealloc := by
      unfold atDealloc at hp
      split at hp
      · assumption
      · omega
    subst this
    exact ⟨_, Step.dealloc hi⟩

/-- **C38**: `CCMemoryRefCount` (`Allocator.c` 614-630) is the number of references. -/
theorem C38_ref_count {n L : Nat} {y : Sys} (hL : L < 2 ^ 31) (h : Reach n L y) : y.refCount.toInt = y.refs := by
  have I := (reach_inv hL h).1
  have hb := (reach_inv hL h).2
  rw [I.count]
  have hb' : sumBy Thr.held y.thrs ≤ max 1 L := hb
  have t : (BitVec.ofNat 32 (sumBy Thr.held y.thrs)).toNat = sumBy Thr.held y.thrs := by
    rw [BitVec.toNat_ofNat]; exact Nat.mod_eq_of_lt (by omega)
  rw [BitVec.toInt_eq_toNat_of_lt (by rw [t]; omega), t]
  rfl

/-! ## Too many references -/

/-- One thread that has retained the memory `k` times. -/
def many (k : Nat) : Sys :=
  { refCount := BitVec.ofNat 32 (k + 1), destructor := none, thrs := [⟨.idle, k + 1⟩], ran := [], freed := 0, touched := 0 }

theorem reach_many (L k : Nat) (h : k + 1 ≤ L) : Reach 0 L (many k) := by
  induction k with
  | zero => exact Reach.init
  | succ k ih =>
    have := Reach.step (ih (by omega)) (Step.retain (i := 0) (k := k) rfl) (by simp [many, Sys.refs]; omega)
    have e : ({ (many k).touch with refCount := (many k).refCount + 1, thrs := (many k).thrs.set 0 ⟨.idle, k + 2⟩ } : Sys) = many (k + 1) := by
      simp only [many, Sys.touch, if_true, List.set_cons_zero, Sys.mk.injEq, and_true, true_and]
      rw [BitVec.ofNat_add (k + 1) 1]
      rfl
    rwa [e] at this

/-- The count is a 32-bit integer: with 2^31 + 1 references, giving one of them up trips the over-release
assertion. -/
theorem C38_refuted : ∃ y y', Reach 0 (2 ^ 31 + 1) y ∧ Step y y' ∧ y'.refs = 2 ^ 31 ∧ ∃ t ∈ y'.thrs, t.pc = .abort := by
  refine ⟨many (2 ^ 31), _, reach_many _ _ (Nat.le_refl _), Step.sub (i := 0) (k := 2 ^ 31) rfl, ?_, ⟨⟨.abort, 2 ^ 31⟩, ?_, rfl⟩⟩
  · simp [many, Sys.refs]
  · have : afterSub ((many (2 ^ 31)).refCount - 1) = .abort := by
      show afterSub (BitVec.ofNat 32 (2 ^ 31 + 1) - 1) = .abort
      decide
    rw [this]
    simp [many]

/-- With 2^32 + 1 references the first one given up destroys the memory under the other 2^32. -/
theorem C38_wrap_refuted : ∃ y y', Reach 0 (2 ^ 32 + 1) y ∧ Step y y' ∧ y'.refs = 2 ^ 32 ∧ ∃ t ∈ y'.thrs, t.pc = .destroy := by
  refine ⟨many (2 ^ 32), _, reach_many _ _ (Nat.le_refl _), Step.sub (i := 0) (k := 2 ^ 32) rfl, ?_, ⟨⟨.destroy, 2 ^ 32⟩, ?_, rfl⟩⟩
  · simp [many, Sys.refs]
  · have : afterSub ((many (2 ^ 32)).refCount - 1) = .destroy := by
      show afterSub (BitVec.ofNat 32 (2 ^ 32 + 1) - 1) = .destroy
      decide
    rw [this]
    simp [many]

/-! ## The hypotheses can be met -/

/-- Two threads share the memory and both give it up. -/
example : ∃ y, Reach 1 2 y ∧ y.refs = 0 ∧ (∀ t ∈ y.thrs, t.pc = .idle) ∧ y.ran = [some 7] := by
  have h0 : Reach 1 2 _ := Reach.init
  have h1 := h0.step (Step.setDestructor (i := 0) (k := 0) (some 7) rfl) (by decide)
  have h2 := h1.step (Step.retain (i := 0) (k := 0) rfl) (by decide)
  have h3 := h2.step (Step.pass (i := 0) (j := 1) (k := 1) (m := 0) (p := .idle) rfl rfl) (by decide)
  have h4 := h3.step (Step.sub (i := 0) (k := 0) rfl) (by decide)
  have h5 := h4.step (Step.sub (i := 1) (k := 0) rfl) (by decide)
  have h6 := h5.step (Step.destroy (i := 1) (k := 0) rfl) (by decide)
  have h7 := h6.step (Step.dealloc (i := 1) (k := 0) rfl) (by decide)
  exact ⟨_, h7, by decide, by decide, by decide⟩

#print axioms C38_partial
#print axioms C38_destroyed
#print axioms C38_order
#print axioms C38_progress
#print axioms C38_ref_count
#print axioms C38_refuted
#print axioms C38_wrap_refuted

end Verif.RefCount
