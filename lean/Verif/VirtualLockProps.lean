import Verif.VirtualLock
import Verif.Conc
/-!
# C65: the lock of virtual files
-/
namespace Verif.VirtualLock
open Verif.Conc

variable {σ ω : Type} {app : ω → σ → σ}

/-- The data after the changes `ws`, one after the other. -/
def after (app : ω → σ → σ) (s : σ) (ws : List ω) : σ := ws.foldl (fun s w => app w s) s

/-- Is the thread counted as reader? -/
def isR : PC σ ω → Nat
  | .rwait _ | .reading _ _ => 1
  | _ => 0

/-- Does the thread have the lock for reading? -/
def inR : PC σ ω → Nat
  | .reading _ _ => 1
  | _ => 0

/-- Does the thread have the lock for writing? -/
def inW : PC σ ω → Nat
  | .writing _ _ | .wdone _ => 1
  | _ => 0

theorem inR_le (p : PC σ ω) : inR p ≤ isR p := by cases p <;> simp [inR, isR]
theorem isR_le (p : PC σ ω) : isR p ≤ 1 := by cases p <;> simp [inR, isR]

theorem sumBy_le {α : Type} {f g : α → Nat} (h : ∀ a, f a ≤ g a) (l : List α) : sumBy f l ≤ sumBy g l := by
  induction l with
  | nil => exact Nat.le_refl _
  | cons x l ih => simp only [sumBy_cons]; have := h x; omega

theorem sumBy_le_length {α : Type} {f : α → Nat} (h : ∀ a, f a ≤ 1) (l : List α) : sumBy f l ≤ l.length := by
  induction l with
  | nil => exact Nat.le_refl _
  | cons x l ih => simp only [sumBy_cons, List.length_cons]; have := h x; omega

theorem flag_clear {c : Nat} (h : c < F) : c &&& F = 0 := by
  apply Nat.eq_of_testBit_eq
  intro i
  rw [Nat.testBit_and, show F = 2 ^ 31 by rfl, Nat.testBit_two_pow, Nat.zero_testBit]
  by_cases hi : 31 = i
  · subst hi
    rw [Nat.testBit_lt_two_pow (show c < 2 ^ 31 from h)]
    rfl
  · simp [hi]

theorem flag_set {c : Nat} (h : c < F) : (c + 2147483648) &&& F = F := by
  show (c + F) &&& F = F
  apply Nat.eq_of_testBit_eq
  intro i
  rw [Nat.testBit_and, show F = 2 ^ 31 by rfl, Nat.testBit_two_pow]
  by_cases hi : 31 = i
  · subst hi
    rw [Nat.add_comm, Nat.testBit_two_pow_add_eq, Nat.testBit_lt_two_pow (show c < 2 ^ 31 from h)]
    rfl
  · simp [hi]

theorem flag_xor {c : Nat} (h : c < F) : (c + 2147483648) ^^^ F = c := by
  show (c + F) ^^^ F = c
  apply Nat.eq_of_testBit_eq
  intro i
  rw [Nat.testBit_xor, show F = 2 ^ 31 by rfl, Nat.testBit_two_pow]
  by_cases hi : 31 = i
  · subst hi
    rw [Nat.add_comm, Nat.testBit_two_pow_add_eq, Nat.testBit_lt_two_pow (show c < 2 ^ 31 from h)]
    rfl
  · simp only [hi, decide_false, Bool.xor_false]
    rw [Nat.add_comm]
    rcases Nat.lt_or_gt_of_ne (Ne.symm hi) with hl | hl
    · rw [Nat.testBit_two_pow_add_gt hl]
    · rw [Nat.testBit_lt_two_pow, Nat.testBit_lt_two_pow]
      · exact Nat.lt_of_lt_of_le (show c < 2 ^ 31 from h) (Nat.pow_le_pow_right (by omega) (by omega))
      · have : 2 ^ 32 ≤ 2 ^ i := Nat.pow_le_pow_right (by omega) (by omega)
        have : c < 2 ^ 31 := h
        omega

/-- The lock word tells who has the lock. -/
structure Lck (n : Nat) (lock : Nat) (thrs : List (PC σ ω)) : Prop where
  len : thrs.length = n
  small : n < F
  word : lock = sumBy isR thrs + 2147483648 * sumBy inW thrs
  one : sumBy inW thrs ≤ 1
  excl : 0 < sumBy inW thrs → sumBy inR thrs = 0

/-- What each thread knows about the data. -/
def Knows (app : ω → σ → σ) (s : σ) (done : List ω) (data : σ) (writers : Nat) : PC σ ω → Prop
  | .idle | .wwait _ => True
  | .rwait k => (done.length = k ∧ writers = 1) ∨ (done.length = k + 1 ∧ writers = 0)
  | .reading k seen => done.length = k ∧ ∀ x ∈ seen, x = after app s done
  | .writing _ t => t = after app s done
  | .wdone w => data = app w (after app s done)

structure Inv (app : ω → σ → σ) (s : σ) (n : Nat) (y : Sys σ ω) : Prop where
  lck : Lck n y.lock y.thrs
  ok : y.failed = false
  free : sumBy inW y.thrs = 0 → y.data = after app s y.done
  knows : ∀ (i : Nat) (p : PC σ ω), y.thrs[i]? = some p → Knows app s y.done y.data (sumBy inW y.thrs) p
  got : ∀ k seen, (k, seen) ∈ y.got → k ≤ y.done.length ∧ ∀ x ∈ seen, x = after app s (y.done.take k)

theorem Lck.readers {n lock : Nat} {thrs : List (PC σ ω)} (h : Lck n lock thrs) : sumBy isR thrs < F := by
  have := sumBy_le_length isR_le thrs
  have := h.len
  have := h.small
  omega

theorem Lck.clear {n lock : Nat} {thrs : List (PC σ ω)} (h : Lck n lock thrs) : lock &&& F = 0 ↔ sumBy inW thrs = 0 := by
  have hr := h.readers
  have h1 := h.one
  rw [h.word]
  constructor
  · intro hf
    rcases Nat.lt_or_ge (sumBy inW thrs) 1 with hw | hw
    · omega
    · rw [show sumBy inW thrs = 1 by omega, Nat.mul_one, flag_set hr] at hf
      cases hf
  · intro hw
    rw [hw, Nat.mul_zero, Nat.add_zero, flag_clear hr]

theorem get_set {α : Type} {l : List α} {i j : Nat} {a b p : α} (h : l[i]? = some a) (hp : (l.set i b)[j]? = some p) : p = b ∨ (j ≠ i ∧ l[j]? = some p) := by
  rw [List.getElem?_set] at hp
  split at hp
  · split at hp
    · injection hp with hp; exact .inl hp.symm
    · cases hp
  · rename_i hij
    exact .inr ⟨fun h => hij h.symm, hp⟩

theorem inv_init (s : σ) (n : Nat) (hn : n < F) : Inv app s n (init s n) := by
  have h1 : sumBy inW (List.replicate n (PC.idle : PC σ ω)) = 0 := by rw [sumBy_replicate]; rfl
  have h2 : sumBy isR (List.replicate n (PC.idle : PC σ ω)) = 0 := by rw [sumBy_replicate]; rfl
  have h3 : sumBy inR (List.replicate n (PC.idle : PC σ ω)) = 0 := by rw [sumBy_replicate]; rfl
  refine ⟨⟨List.length_replicate, hn, ?_, ?_, ?_⟩, rfl, fun _ => rfl, ?_, ?_⟩
  · simp only [init, h1, h2, Nat.mul_zero, Nat.add_zero]
  · simp only [init, h1]; omega
  · simp only [init, h1]; omega
  · intro i p hp
    simp only [init, List.getElem?_replicate] at hp
    split at hp
    · injection hp with hp; subst hp; exact trivial
    · cases hp
  · intro k seen h
    cases h

/-- A reader or a writer excludes the others. -/
theorem only_writer {n lock : Nat} {thrs : List (PC σ ω)} (h : Lck n lock thrs) {i j : Nat} {p q : PC σ ω} (hp : thrs[i]? = some p) (hpw : inW p = 1)
    (hq : thrs[j]? = some q) (hij : j ≠ i) : inW q = 0 ∧ inR q = 0 := by
  have h1 := add_le_sumBy inW hp hq (Ne.symm hij)
  have h2 := h.one
  have h3 := le_sumBy inW hp
  have h4 := h.excl (by omega)
  have h5 := le_sumBy inR hq
  omega

theorem inv_step {s : σ} {n : Nat} {y y' : Sys σ ω} (h : Inv app s n y) (hs : Step app y y') : Inv app s n y' := by
  have hr := h.lck.readers
  have hw := h.lck.word
  have h1 := h.lck.one
  have hF : F = 2147483648 := rfl
  have hW : W = 4294967296 := rfl
  cases hs with
  | @readEnter i hi hf =>
    have hw0 := h.lck.clear.1 hf
    have e1 := sumBy_set isR hi (.reading y.done.length [])
    have e2 := sumBy_set inW hi (.reading y.done.length [])
    have hs' := sumBy_le_length isR_le (y.thrs.set i (.reading y.done.length []))
    simp only [isR, inW] at e1 e2
    have hlen := h.lck.len
    have hsm := h.lck.small
    rw [List.length_set] at hs'
    refine ⟨⟨by simp only [List.length_set]; exact hlen, hsm, ?_, ?_, ?_⟩, h.ok, fun _ => h.free hw0, ?_, h.got⟩ <;> dsimp only
    · rw [Nat.mod_eq_of_lt] <;> omega
    · omega
    · omega
    · intro j p hp
      rcases get_set hi hp with rfl | ⟨_, hp⟩
      · exact ⟨rfl, fun x hx => by cases hx⟩
      · rw [show sumBy inW (y.thrs.set i _) = sumBy inW y.thrs by omega]; exact h.knows j p hp
  | @readWait i hi hf =>
    have hw0 : sumBy inW y.thrs ≠ 0 := fun e => hf (h.lck.clear.2 e)
    have e1 := sumBy_set isR hi (.rwait y.done.length)
    have e2 := sumBy_set inW hi (.rwait y.done.length)
    have e3 := sumBy_set inR hi (.rwait y.done.length)
    have hs' := sumBy_le_length isR_le (y.thrs.set i (.rwait y.done.length))
    simp only [isR, inW, inR] at e1 e2 e3
    have hlen := h.lck.len
    have hsm := h.lck.small
    rw [List.length_set] at hs'
    refine ⟨⟨by simp only [List.length_set]; exact hlen, hsm, ?_, ?_, ?_⟩, h.ok, ?_, ?_, h.got⟩ <;> dsimp only
    · rw [Nat.mod_eq_of_lt] <;> omega
    · omega
    · have := h.lck.excl; omega
    · omega
    · intro j p hp
      rw [show sumBy inW (y.thrs.set i _) = sumBy inW y.thrs by omega]
      rcases get_set hi hp with rfl | ⟨_, hp⟩
      · exact .inl ⟨rfl, by omega⟩
      · exact h.knows j p hp
  | @readGo i k hi hf =>
    have hw0 := h.lck.clear.1 hf
    have e1 := sumBy_set isR hi (.reading y.done.length [])
    have e2 := sumBy_set inW hi (.reading y.done.length [])
    simp only [isR, inW] at e1 e2
    refine ⟨⟨by simp only [List.length_set]; exact h.lck.len, h.lck.small, ?_, ?_, ?_⟩, h.ok, fun _ => h.free hw0, ?_, h.got⟩ <;> dsimp only
    · omega
    · omega
    · omega
    · intro j p hp
      rcases get_set hi hp with rfl | ⟨_, hp⟩
      · exact ⟨rfl, fun x hx => by cases hx⟩
      · rw [show sumBy inW (y.thrs.set i _) = sumBy inW y.thrs by omega]; exact h.knows j p hp
  | @look i k seen hi =>
    have e1 := sumBy_set isR hi (.reading k (seen ++ [y.data]))
    have e2 := sumBy_set inW hi (.reading k (seen ++ [y.data]))
    have e3 := sumBy_set inR hi (.reading k (seen ++ [y.data]))
    simp only [isR, inW, inR] at e1 e2 e3
    have hin := le_sumBy inR hi
    simp only [inR] at hin
    have hw0 : sumBy inW y.thrs = 0 := by have := h.lck.excl; omega
    have hk := h.knows i _ hi
    refine ⟨⟨by simp only [List.length_set]; exact h.lck.len, h.lck.small, ?_, ?_, ?_⟩, h.ok, fun _ => h.free hw0, ?_, h.got⟩ <;> dsimp only
    · omega
    · omega
    · omega
    · intro j p hp
      rcases get_set hi hp with rfl | ⟨_, hp⟩
      · refine ⟨hk.1, fun x hx => ?_⟩
        rcases List.mem_append.1 hx with hx | hx
        · exact hk.2 x hx
        · rw [List.mem_singleton.1 hx]; exact h.free hw0
      · rw [show sumBy inW (y.thrs.set i _) = sumBy inW y.thrs by omega]; exact h.knows j p hp
  | @readUnlock i k seen hi =>
    have e1 := sumBy_set isR hi .idle
    have e2 := sumBy_set inW hi .idle
    simp only [isR, inW] at e1 e2
    have hin := le_sumBy inR hi
    simp only [inR] at hin
    have hw0 : sumBy inW y.thrs = 0 := by have := h.lck.excl; omega
    have hk := h.knows i _ hi
    refine ⟨⟨by simp only [List.length_set]; exact h.lck.len, h.lck.small, ?_, ?_, ?_⟩, ?_, fun _ => h.free hw0, ?_, ?_⟩ <;> dsimp only
    · rw [show y.lock + W - 1 = (sumBy isR y.thrs - 1) + W by omega, Nat.add_mod_right, Nat.mod_eq_of_lt] <;> omega
    · omega
    · omega
    · rw [h.ok, h.lck.clear.2 hw0]; rfl
    · intro j p hp
      rcases get_set hi hp with rfl | ⟨_, hp⟩
      · exact trivial
      · rw [show sumBy inW (y.thrs.set i _) = sumBy inW y.thrs by omega]; exact h.knows j p hp
    · intro k' seen' hm
      rcases List.mem_append.1 hm with hm | hm
      · exact h.got k' seen' hm
      · cases List.mem_singleton.1 hm
        refine ⟨by have := hk.1; omega, ?_⟩
        rw [← hk.1, List.take_length]
        exact hk.2
  | @writeBegin i w hi =>
    have e1 := sumBy_set isR hi (.wwait w)
    have e2 := sumBy_set inW hi (.wwait w)
    have e3 := sumBy_set inR hi (.wwait w)
    simp only [isR, inW, inR] at e1 e2 e3
    refine ⟨⟨by simp only [List.length_set]; exact h.lck.len, h.lck.small, ?_, ?_, ?_⟩, h.ok, ?_, ?_, h.got⟩ <;> dsimp only
    · omega
    · omega
    · have := h.lck.excl; omega
    · intro e; exact h.free (by omega)
    · intro j p hp
      rcases get_set hi hp with rfl | ⟨_, hp⟩
      · exact trivial
      · rw [show sumBy inW (y.thrs.set i _) = sumBy inW y.thrs by omega]; exact h.knows j p hp
  | @writeLock i w hi hl =>
    have e1 := sumBy_set isR hi (.writing w y.data)
    have e2 := sumBy_set inW hi (.writing w y.data)
    have e3 := sumBy_set inR hi (.writing w y.data)
    simp only [isR, inW, inR] at e1 e2 e3
    have hle := sumBy_le inR_le y.thrs
    have hw0 : sumBy inW y.thrs = 0 := by omega
    have hr0 : sumBy isR y.thrs = 0 := by omega
    refine ⟨⟨by simp only [List.length_set]; exact h.lck.len, h.lck.small, ?_, ?_, ?_⟩, h.ok, ?_, ?_, h.got⟩ <;> dsimp only
    · omega
    · omega
    · omega
    · omega
    · intro j p hp
      rcases get_set hi hp with rfl | ⟨_, hp⟩
      · exact h.free hw0
      · have hk := h.knows j p hp
        have hpr := le_sumBy isR hp
        have hpw := le_sumBy inW hp
        cases p with
        | rwait k => simp only [isR] at hpr; omega
        | reading k seen => simp only [isR] at hpr; omega
        | writing w t => exact hk
        | wdone w => simp only [inW] at hpw; omega
        | idle => trivial
        | wwait w => trivial
  | @scribble i w t x hi =>
    have hin := le_sumBy inW hi
    simp only [inW] at hin
    refine ⟨h.lck, h.ok, ?_, ?_, h.got⟩ <;> dsimp only
    · omega
    · intro j p hp
      have hk := h.knows j p hp
      cases p with
      | wdone w' =>
        by_cases hij : j = i
        · subst hij; rw [hi] at hp; cases hp
        · have := (only_writer h.lck hi rfl hp hij).1
          simp only [inW] at this; omega
      | idle => trivial
      | wwait w => trivial
      | rwait k => exact hk
      | reading k seen => exact hk
      | writing w t => exact hk
  | @writeDone i w t hi =>
    have e1 := sumBy_set isR hi (.wdone w)
    have e2 := sumBy_set inW hi (.wdone w)
    have e3 := sumBy_set inR hi (.wdone w)
    simp only [isR, inW, inR] at e1 e2 e3
    have hin := le_sumBy inW hi
    simp only [inW] at hin
    have hk : t = after app s y.done := h.knows i _ hi
    refine ⟨⟨by simp only [List.length_set]; exact h.lck.len, h.lck.small, ?_, ?_, ?_⟩, h.ok, ?_, ?_, h.got⟩ <;> dsimp only
    · omega
    · omega
    · have := h.lck.excl; omega
    · omega
    · intro j p hp
      rcases get_set hi hp with rfl | ⟨hij, hp⟩
      · show app w t = app w (after app s y.done)
        rw [hk]
      · have hk' := h.knows j p hp
        have ho := only_writer h.lck hi rfl hp hij
        rw [show sumBy inW (y.thrs.set i _) = sumBy inW y.thrs by omega]
        cases p with
        | wdone w' => simp only [inW] at ho; omega
        | idle => trivial
        | wwait w => trivial
        | rwait k => exact hk'
        | reading k seen => exact hk'
        | writing w t => exact hk'
  | @writeUnlock i w hi =>
    have e1 := sumBy_set isR hi .idle
    have e2 := sumBy_set inW hi .idle
    have e3 := sumBy_set inR hi .idle
    simp only [isR, inW, inR] at e1 e2 e3
    have hin := le_sumBy inW hi
    simp only [inW] at hin
    have hw1 : sumBy inW y.thrs = 1 := by omega
    have hk : y.data = app w (after app s y.done) := h.knows i _ hi
    have ha : after app s (y.done ++ [w]) = app w (after app s y.done) := by simp [after]
    refine ⟨⟨by simp only [List.length_set]; exact h.lck.len, h.lck.small, ?_, ?_, ?_⟩, ?_, ?_, ?_, ?_⟩ <;> dsimp only
    · rw [hw, hw1, Nat.mul_one, flag_xor hr]; omega
    · omega
    · omega
    · rw [h.ok, hw, hw1, Nat.mul_one, flag_set hr]; rfl
    · intro _; rw [ha, hk]
    · intro j p hp
      rw [show sumBy inW (y.thrs.set i _) = 0 by omega]
      rcases get_set hi hp with rfl | ⟨hij, hp⟩
      · trivial
      · have hk' := h.knows j p hp
        have ho := only_writer h.lck hi rfl hp hij
        cases p with
        | wdone w' => simp only [inW] at ho; omega
        | writing w t => simp only [inW] at ho; omega
        | reading k seen => simp only [inR] at ho; omega
        | idle => trivial
        | wwait w => trivial
        | rwait k =>
          rcases hk' with hk' | hk'
          · exact .inr ⟨by rw [List.length_append, hk'.1]; rfl, rfl⟩
          · omega
    · intro k seen hm
      obtain ⟨g1, g2⟩ := h.got k seen hm
      refine ⟨by rw [List.length_append]; omega, fun x hx => ?_⟩
      rw [List.take_append_of_le_length g1]
      exact g2 x hx

theorem inv_reach {s : σ} {n : Nat} (hn : n < F) {y : Sys σ ω} (h : Reach app s n y) : Inv app s n y := by
  induction h with
  | init => exact inv_init s n hn
  | step _ hs ih => exact inv_step ih hs

/-- **C65.** Whatever up to 2^31 - 1 threads do with the lock of a virtual file: a thread that has the lock for writing excludes every other thread from reading and from writing, and the assertions of the lock never fail. -/
theorem C65_exclusion (s : σ) (n : Nat) (hn : n < 2 ^ 31) (y : Sys σ ω) (h : Reach app s n y) :
    (∀ (i j : Nat) (p q : PC σ ω), y.thrs[i]? = some p → y.thrs[j]? = some q → i ≠ j → (∃ w t, p = .writing w t) ∨ (∃ w, p = .wdone w) →
      (∀ k seen, q ≠ .reading k seen) ∧ (∀ w t, q ≠ .writing w t) ∧ (∀ w, q ≠ .wdone w)) ∧
    y.failed = false := by
  have hi := inv_reach hn h
  refine ⟨fun i j p q hp hq hij hw => ?_, hi.ok⟩
  have := only_writer hi.lck hp (by rcases hw with ⟨w, t, rfl⟩ | ⟨w, rfl⟩ <;> rfl) hq (Ne.symm hij)
  refine ⟨?_, ?_, ?_⟩
  · rintro k seen rfl; simp [inR] at this
  · rintro w t rfl; simp [inW] at this
  · rintro w rfl; simp [inW] at this

/-- **C65.** The writes take effect one after the other and none is lost: when no thread has the lock for writing, the data is the result of the completed writes in the order of their completion; every write starts from the result of those
before it; and every reader, however often it looks, sees exactly the result of the writes that were complete when it got the lock. -/
theorem C65_atomic (s : σ) (n : Nat) (hn : n < 2 ^ 31) (y : Sys σ ω) (h : Reach app s n y) :
    ((∀ p ∈ y.thrs, (∀ w t, p ≠ .writing w t) ∧ ∀ w, p ≠ .wdone w) → y.data = after app s y.done) ∧
    (∀ w t, .writing w t ∈ y.thrs → t = after app s y.done) ∧
    (∀ k seen, .reading k seen ∈ y.thrs → k = y.done.length ∧ ∀ x ∈ seen, x = after app s y.done) ∧
    (∀ k seen, (k, seen) ∈ y.got → k ≤ y.done.length ∧ ∀ x ∈ seen, x = after app s (y.done.take k)) := by
  have hi := inv_reach hn h
  refine ⟨fun hp => hi.free (sumBy_eq_zero inW fun p hm => ?_), fun w t hm => ?_, fun k seen hm => ?_, hi.got⟩
  · have := hp p hm
    cases p with
    | writing w t => exact absurd rfl (this.1 w t)
    | wdone w => exact absurd rfl (this.2 w)
    | _ => rfl
  · obtain ⟨i, hi'⟩ := List.getElem?_of_mem hm
    exact hi.knows i _ hi'
  · obtain ⟨i, hi'⟩ := List.getElem?_of_mem hm
    have := hi.knows i _ hi'
    exact ⟨this.1.symm, this.2⟩

/-- **C65.** A reader that has to wait waits for one writer only: no second write completes before it gets the lock, and once the first one has, it may go on. -/
theorem C65_reader_waits_for_one (s : σ) (n : Nat) (hn : n < 2 ^ 31) (y : Sys σ ω) (h : Reach app s n y) (i k : Nat) (hp : y.thrs[i]? = some (.rwait k)) :
    y.done.length = k ∨ (y.done.length = k + 1 ∧ Step app y { y with thrs := y.thrs.set i (.reading y.done.length []) }) := by
  have hi := inv_reach hn h
  rcases hi.knows i _ hp with h1 | h1
  · exact .inl h1.1
  · exact .inr ⟨h1.1, .readGo hp (hi.lck.clear.2 h1.2)⟩

/-- The steps a thread has before it, at most. -/
def rank : PC σ ω → Nat
  | .idle => 0
  | .reading _ _ => 1
  | .rwait _ => 2
  | .wdone _ => 1
  | .writing _ _ => 2
  | .wwait _ => 3

theorem exists_of_sum {α : Type} {f : α → Nat} {l : List α} (h : 0 < sumBy f l) : ∃ (i : Nat) (a : α), l[i]? = some a ∧ 0 < f a := by
  obtain ⟨a, ha, h⟩ := sumBy_pos f h
  obtain ⟨i, hi⟩ := List.getElem?_of_mem ha
  exact ⟨i, a, hi, h⟩

theorem progress {s : σ} {n : Nat} {y : Sys σ ω} (h : Inv app s n y) (hb : 0 < sumBy rank y.thrs) : ∃ y', Step app y y' ∧ sumBy rank y'.thrs < sumBy rank y.thrs := by
  by_cases hw : 0 < sumBy inW y.thrs
  · obtain ⟨i, p, hp, hpw⟩ := exists_of_sum hw
    cases p with
    | writing w t =>
      refine ⟨_, .writeDone hp, ?_⟩
      have := sumBy_set rank hp (.wdone w)
      simp only [rank] at this
      dsimp only; omega
    | wdone w =>
      refine ⟨_, .writeUnlock hp, ?_⟩
      have := sumBy_set rank hp .idle
      simp only [rank] at this
      dsimp only; omega
    | idle => simp only [inW] at hpw; omega
    | reading k seen => simp only [inW] at hpw; omega
    | rwait k => simp only [inW] at hpw; omega
    | wwait w => simp only [inW] at hpw; omega
  · by_cases hr : 0 < sumBy isR y.thrs
    · obtain ⟨i, p, hp, hpr⟩ := exists_of_sum hr
      cases p with
      | rwait k =>
        refine ⟨_, .readGo hp (h.lck.clear.2 (by omega)), ?_⟩
        have := sumBy_set rank hp (.reading y.done.length [])
        simp only [rank] at this
        dsimp only; omega
      | reading k seen =>
        refine ⟨_, .readUnlock hp, ?_⟩
        have := sumBy_set rank hp .idle
        simp only [rank] at this
        dsimp only; omega
      | idle => simp only [isR] at hpr; omega
      | writing w t => simp only [isR] at hpr; omega
      | wdone w => simp only [isR] at hpr; omega
      | wwait w => simp only [isR] at hpr; omega
    · have hl : y.lock = 0 := by have := h.lck.word; omega
      obtain ⟨i, p, hp, hpr⟩ := exists_of_sum hb
      have h1 := le_sumBy isR hp
      have h2 := le_sumBy inW hp
      cases p with
      | wwait w =>
        refine ⟨_, .writeLock hp hl, ?_⟩
        have := sumBy_set rank hp (.writing w y.data)
        simp only [rank] at this
        dsimp only; omega
      | idle => simp only [rank] at hpr; omega
      | writing w t => simp only [inW] at h2; omega
      | wdone w => simp only [inW] at h2; omega
      | rwait k => simp only [isR] at h1; omega
      | reading k seen => simp only [isR] at h1; omega

/-- **C65.** No deadlock: from every reachable state the threads can all complete what they have begun. -/
theorem C65_no_deadlock (s : σ) (n : Nat) (hn : n < 2 ^ 31) (y : Sys σ ω) (h : Reach app s n y) : ∃ y', Steps app y y' ∧ ∀ p ∈ y'.thrs, p = .idle := by
  have hi := inv_reach hn h
  clear h
  generalize hm : sumBy rank y.thrs = m
  induction m using Nat.strongRecOn generalizing y with
  | _ m ih =>
    rcases Nat.eq_zero_or_pos m with h0 | h0
    · refine ⟨y, .refl, fun p hp => ?_⟩
      have := sumBy_zero rank (hm.trans h0) p hp
      cases p with
      | idle => rfl
      | _ => simp [rank] at this
    · obtain ⟨y1, hs, hlt⟩ := progress hi (by omega)
      obtain ⟨y2, hss, he⟩ := ih _ (by omega) y1 (inv_step hi hs) rfl
      exact ⟨y2, .step hs hss, he⟩

theorem readers_enter (app : ω → σ → σ) (s : σ) (n k : Nat) (hk : k ≤ n) (hF : k ≤ 2147483648) :
    Reach app s n ⟨k, s, List.replicate k (.reading 0 []) ++ List.replicate (n - k) .idle, [], [], false⟩ := by
  induction k with
  | zero => exact .init
  | succ k ih =>
    have h1 := ih (by omega) (by omega)
    have hi : (List.replicate k (PC.reading 0 [] : PC σ ω) ++ List.replicate (n - k) PC.idle)[k]? = some PC.idle := by
      rw [List.getElem?_append_right (by rw [List.length_replicate]; omega), List.length_replicate, Nat.sub_self, List.getElem?_replicate, if_pos (by omega)]
    have h2 := Reach.step h1 (.readEnter (app := app) hi (flag_clear (show k < 2147483648 by omega)))
    have e : (List.replicate k (PC.reading 0 [] : PC σ ω) ++ List.replicate (n - k) PC.idle).set k (.reading 0 []) =
        List.replicate (k + 1) (.reading 0 []) ++ List.replicate (n - (k + 1)) PC.idle := by
      rw [List.set_append_right _ _ (by rw [List.length_replicate]; omega), List.length_replicate, Nat.sub_self, show n - k = (n - (k + 1)) + 1 by omega, List.replicate_succ (n := n - (k + 1)),
        List.set_cons_zero, List.replicate_succ' (n := k), List.append_assoc]
      rfl
    simp only [List.length_nil] at h2
    rw [e] at h2
    rw [Nat.mod_eq_of_lt (show k + 1 < 4294967296 by omega)] at h2
    exact h2

/-- **C65**, why fewer than 2^31 threads: that many readers set the flag of the writer, and the assertion fails when the first of them releases the lock. -/
theorem C65_too_many_readers_refuted (app : ω → σ → σ) (s : σ) : ∃ y : Sys σ ω, Reach app s (2 ^ 31) y ∧ y.failed = true := by
  have h := readers_enter app s 2147483648 2147483648 (Nat.le_refl _) (Nat.le_refl _)
  generalize ht : List.replicate 2147483648 (PC.reading 0 [] : PC σ ω) ++ List.replicate (2147483648 - 2147483648) PC.idle = t at h
  have h0 : t[0]? = some (.reading 0 []) := by
    rw [← ht, List.getElem?_append_left (by rw [List.length_replicate]; omega), List.getElem?_replicate, if_pos (by omega)]
  have h2 := Reach.step h (.readUnlock (app := app) (i := 0) (k := 0) (seen := []) h0)
  have h3 : (false || 2147483648 &&& F != 0) = true := by decide
  rw [h3] at h2
  exact ⟨_, h2, rfl⟩

/-- A run during which thread `i` is kept out: it waits to write and the lock is never free. -/
inductive KeptOut (app : ω → σ → σ) (i : Nat) (w : ω) : Sys σ ω → Sys σ ω → Prop
  | refl {y : Sys σ ω} : KeptOut app i w y y
  | step {y y' y'' : Sys σ ω} : KeptOut app i w y y' → Step app y' y'' → y''.lock ≠ 0 → y''.thrs[i]? = some (.wwait w) → KeptOut app i w y y''

/-- **C65**, refuted: writers are not served fairly.  Two readers can keep a writer out for as long as they like. -/
theorem C65_writer_starves_refuted (app : ω → σ → σ) (s : σ) (w : ω) : ∃ y : Sys σ ω, Reach app s 3 y ∧ y.thrs[2]? = some (.wwait w) ∧
    ∀ m, ∃ y', KeptOut app 2 w y y' ∧ m ≤ y'.got.length := by
  let y0 : List (Nat × List σ) → Sys σ ω := fun g => ⟨1, s, [.reading 0 [], .idle, .wwait w], [], g, false⟩
  have hr : Reach app s 3 (y0 []) :=
    .step (.step .init (.readEnter (i := 0) rfl (flag_clear (c := 0) (by decide)))) (.writeBegin (i := 2) (w := w) rfl)
  refine ⟨y0 [], hr, rfl, fun m => ?_⟩
  suffices h : ∃ g, KeptOut app 2 w (y0 []) (y0 g) ∧ m ≤ g.length by
    obtain ⟨g, h1, h2⟩ := h
    exact ⟨_, h1, h2⟩
  induction m with
  | zero => exact ⟨[], .refl, Nat.le_refl _⟩
  | succ m ih =>
    obtain ⟨g, h1, h2⟩ := ih
    have e1 : (2 + W - 1) % W = 1 := by decide
    have e2 : (false || 2 &&& F != 0) = false := by decide
    have k1 : KeptOut app 2 w (y0 []) ⟨2, s, [.reading 0 [], .reading 0 [], .wwait w], [], g, false⟩ :=
      .step h1 (.readEnter (i := 1) rfl (flag_clear (c := 1) (by decide))) (Nat.succ_ne_zero 1) rfl
    have s2 := Step.readUnlock (app := app) (y := ⟨2, s, [.reading 0 [], .reading 0 [], .wwait w], [], g, false⟩) (i := 0) (k := 0) (seen := []) rfl
    dsimp only at s2
    rw [e1, e2] at s2
    have k2 : KeptOut app 2 w (y0 []) ⟨1, s, [.idle, .reading 0 [], .wwait w], [], g ++ [(0, [])], false⟩ := .step k1 s2 (Nat.succ_ne_zero 0) rfl
    have k3 : KeptOut app 2 w (y0 []) ⟨2, s, [.reading 0 [], .reading 0 [], .wwait w], [], g ++ [(0, [])], false⟩ :=
      .step k2 (.readEnter (i := 0) rfl (flag_clear (c := 1) (by decide))) (Nat.succ_ne_zero 1) rfl
    have s4 := Step.readUnlock (app := app) (y := ⟨2, s, [.reading 0 [], .reading 0 [], .wwait w], [], g ++ [(0, [])], false⟩) (i := 1) (k := 0) (seen := []) rfl
    dsimp only at s4
    rw [e1, e2] at s4
    have k4 : KeptOut app 2 w (y0 []) (y0 (g ++ [(0, [])] ++ [(0, [])])) := .step k3 s4 (Nat.succ_ne_zero 0) rfl
    exact ⟨_, k4, by simp; omega⟩

/-! ## Non-vacuity -/

/-- A state with a writer in the middle of its change, a reader that waits for it and a completed write. -/
example : ∃ y : Sys Nat Nat, Reach (fun w s => w + s) 5 3 y ∧ y.lock = F + 1 ∧ y.done = [2] ∧ y.data = 99 ∧
    y.thrs = [.writing 3 7, .rwait 1, .idle] :=
  ⟨_, .step (.step (.step (.step (.step (.step (.step (.step .init (.writeBegin (i := 0) (w := 2) rfl)) (.writeLock (i := 0) rfl rfl)) (.writeDone (i := 0) rfl)) (.writeUnlock (i := 0) rfl))
    (.writeBegin (i := 0) (w := 3) rfl)) (.writeLock (i := 0) rfl rfl)) (.readWait (i := 1) rfl (by decide))) (.scribble (i := 0) 99 rfl), rfl, rfl, rfl, rfl⟩

#print axioms C65_exclusion
#print axioms C65_atomic
#print axioms C65_no_deadlock
end Verif.VirtualLock
