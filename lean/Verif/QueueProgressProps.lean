import Verif.ConcQueueProps
import Verif.SharedProgressProps
/-!
# C131: the concurrent queue is lock-free

The model is that of C20.  Left aside are the calls into the garbage collector, and exchanges that fail without cause (the weak ones may, 126, 168).
-/
namespace Verif.QueueProgress
open ConcQueue WaitFree

/-- The number of pushes and pops that have taken effect. -/
def effects (y : Sys) : Nat := y.chain.length + y.popped.length

/-- Where thread `i` is, and the number of pushes and pops that have taken effect. -/
abbrev view (i : Nat) (y : Sys) : Option PC × Nat := (y.thrs[i]?, effects y)

/-- The thread is in no call, or a push or pop has taken effect since there were `e` of them. -/
def Progress (e : Nat) (v : Option PC × Nat) : Prop := v.1 = none ∨ v.1 = some .idle ∨ v.2 ≠ e

/-- An exchange fails although it finds what it expects. -/
def Spurious (y y' : Sys) : Prop :=
  ∃ i s : Nat, (∃ n t, y.thrs[i]? = some (.pu3 s n t) ∧ y.tail = t ∧ y'.thrs[i]? = some (.pu1 s n)) ∨
    ∃ h t p em st, y.thrs[i]? = some (.po4 s h t p em st) ∧ y.head = h ∧ y'.thrs[i]? = some (.po0 s)

/-- A step, except for exchanges that fail without cause. -/
def Strong (w : Nat) (y y' : Sys) : Prop := Step w y y' ∧ ¬ Spurious y y'

/-- Where the steps of a thread lead, as long as no push or pop takes effect. -/
inductive Next (y : Sys) : PC → PC → Prop
  | pushLoad {s n : Nat} : Next y (.pu1 s n) (.pu2 s n y.tail)
  | pushNext {s n : Nat} {t : Ptr} : Next y (.pu2 s n t) (.pu3 s n t)
  | pushFail {s n : Nat} {t : Ptr} : Next y (.pu3 s n t) (.pu1 s n)
  | pushPrev {s n : Nat} {t : Ptr} : Next y (.pu4 s n t) .idle
  | popHead {s : Nat} : Next y (.po0 s) (.po1 s y.head)
  | popTail {s : Nat} {h t : Ptr} {em : Bool} : Next y (.po1 s h) (.po2 s h t em)
  | popPrev {s : Nat} {h t p : Ptr} {em em' st : Bool} : Next y (.po2 s h t em) (.po3 s h t p em' st)
  | popSame {s : Nat} {h t p : Ptr} {em st : Bool} : y.head = h → Next y (.po3 s h t p em st) (.po4 s h t p em st)
  | popChanged {s : Nat} {h t p : Ptr} {em st : Bool} : y.head ≠ h → Next y (.po3 s h t p em st) (.po0 s)
  | popNull {s : Nat} {h t p : Ptr} {em st : Bool} : Next y (.po4 s h t p em st) .idle
  | popFail {s : Nat} {h t p : Ptr} {em st : Bool} : Next y (.po4 s h t p em st) (.po0 s)
  /-- what does not happen: C20 -/
  | other {p q : PC} : p = .idle ∨ q = .fault ∨ (∃ s h c, q = .fx1 s h c) ∨ (∃ s h c, p = .fx1 s h c) ∨ (∃ s h c, p = .fx2 s h c) ∨ (∃ s h c m, p = .fx3 s h c m) → Next y p q

theorem own_step {w : Nat} {y y' : Sys} (i : Nat) (s : Step w y y') :
    effects y' ≠ effects y ∨ effects y' = effects y ∧ y'.head = y.head ∧ y'.tail = y.tail ∧ (y'.thrs[i]? = y.thrs[i]? ∨ ∃ p q, y.thrs[i]? = some p ∧ y'.thrs[i]? = some q ∧ Next y p q) := by
  have key : ∀ (j : Nat) (p q : PC), y.thrs[j]? = some p → Next y p q → y'.thrs = y.thrs.set j q → y'.thrs[i]? = y.thrs[i]? ∨ ∃ p q, y.thrs[i]? = some p ∧ y'.thrs[i]? = some q ∧ Next y p q := by
    intro j p q h k e
    by_cases hj : j = i
    · subst hj
      exact Or.inr ⟨p, q, h, by rw [e, thr_new h], k⟩
    · exact Or.inl (by rw [e, List.getElem?_set_ne hj])
  cases s with
  | pushBegin h _ => exact Or.inr ⟨rfl, rfl, rfl, key _ _ _ h (.other (.inl rfl)) rfl⟩
  | pushLoad h => exact Or.inr ⟨rfl, rfl, rfl, key _ _ _ h .pushLoad rfl⟩
  | pushNext h => exact Or.inr ⟨rfl, rfl, rfl, key _ _ _ h .pushNext rfl⟩
  | pushCas h _ => exact Or.inl (by simp [effects])
  | pushFail h => exact Or.inr ⟨rfl, rfl, rfl, key _ _ _ h .pushFail rfl⟩
  | pushPrev h _ _ => exact Or.inr ⟨rfl, rfl, rfl, key _ _ _ h .pushPrev rfl⟩
  | pushFault h _ => exact Or.inr ⟨rfl, rfl, rfl, key _ _ _ h (.other (.inr (.inl rfl))) rfl⟩
  | popBegin h => exact Or.inr ⟨rfl, rfl, rfl, key _ _ _ h (.other (.inl rfl)) rfl⟩
  | popHead h => exact Or.inr ⟨rfl, rfl, rfl, key _ _ _ h .popHead rfl⟩
  | popTail h => exact Or.inr ⟨rfl, rfl, rfl, key _ _ _ h .popTail rfl⟩
  | popPrev h _ _ => exact Or.inr ⟨rfl, rfl, rfl, key _ _ _ h .popPrev rfl⟩
  | popFault h _ => exact Or.inr ⟨rfl, rfl, rfl, key _ _ _ h (.other (.inr (.inl rfl))) rfl⟩
  | popSame h a => exact Or.inr ⟨rfl, rfl, rfl, key _ _ _ h (.popSame a) rfl⟩
  | popChanged h a => exact Or.inr ⟨rfl, rfl, rfl, key _ _ _ h (.popChanged a) rfl⟩
  | popNull h _ => exact Or.inr ⟨rfl, rfl, rfl, key _ _ _ h .popNull rfl⟩
  | popFix h _ _ _ => exact Or.inr ⟨rfl, rfl, rfl, key _ _ _ h (.other (.inr (.inr (.inl ⟨_, _, _, rfl⟩)))) rfl⟩
  | popCas h _ _ _ _ => exact Or.inl (by simp [effects])
  | popFail h _ _ _ => exact Or.inr ⟨rfl, rfl, rfl, key _ _ _ h .popFail rfl⟩
  | fixGo h _ _ => exact Or.inr ⟨rfl, rfl, rfl, key _ _ _ h (.other (.inr (.inr (.inr (.inl ⟨_, _, _, rfl⟩))))) rfl⟩
  | fixEnd h _ => exact Or.inr ⟨rfl, rfl, rfl, key _ _ _ h (.other (.inr (.inr (.inr (.inl ⟨_, _, _, rfl⟩))))) rfl⟩
  | fixNext h _ _ => exact Or.inr ⟨rfl, rfl, rfl, key _ _ _ h (.other (.inr (.inr (.inr (.inr (.inl ⟨_, _, _, rfl⟩)))))) rfl⟩
  | fixPrev h _ _ => exact Or.inr ⟨rfl, rfl, rfl, key _ _ _ h (.other (.inr (.inr (.inr (.inr (.inr ⟨_, _, _, _, rfl⟩)))))) rfl⟩
  | fixFault h _ => exact Or.inr ⟨rfl, rfl, rfl, key _ _ _ h (.other (.inr (.inl rfl))) rfl⟩
  | fixFault' h _ => exact Or.inr ⟨rfl, rfl, rfl, key _ _ _ h (.other (.inr (.inl rfl))) rfl⟩
  | free _ _ _ => exact Or.inr ⟨rfl, rfl, rfl, Or.inl rfl⟩

/-- What is left of a call until it returns or some push or pop takes effect. -/
def left (i : Nat) (y : Sys) : Nat := match y.thrs[i]? with
  | some (.pu1 _ _) => 3
  | some (.pu2 _ _ t) => if t = y.tail then 2 else 5
  | some (.pu3 _ _ t) => if t = y.tail then 1 else 4
  | some (.pu4 _ _ _) => 1
  | some (.po0 _) => 5
  | some (.po1 _ h) => if h = y.head then 4 else 8
  | some (.po2 _ h _ _) => if h = y.head then 3 else 7
  | some (.po3 _ h _ _ _ _) => if h = y.head then 2 else 6
  | some (.po4 _ h _ _ _ _) => if h = y.head then 1 else 6
  | _ => 0

theorem left_le (i : Nat) (y : Sys) : left i y ≤ 8 := by
  unfold left
  split <;> first | omega | (split <;> omega)

/-- **C131.**  In every interleaving, a thread inside a push or pop is never held up, and by its 8th own step from any moment on (from the beginning: the 3rd of a push, the 5th of a pop) it has returned or some push or pop, its own or another's, has taken
effect. -/
theorem C131_lock_free (w n : Nat) (y : Sys) (h : Reach w n y) (i : Nat) :
    Within (Strong w) (view i) (Progress (effects y)) 8 y ∧
    (∀ s k, y.thrs[i]? = some (.pu1 s k) → Within (Strong w) (view i) (Progress (effects y)) 3 y) ∧
    (∀ s, y.thrs[i]? = some (.po0 s) → Within (Strong w) (view i) (Progress (effects y)) 5 y) := by
  have main : ∀ m, left i y ≤ m → Within (Strong w) (view i) (Progress (effects y)) m y := by
    intro m hm
    refine SharedProgress.within_of_state (left i) (Inv w) ?_ ?_ ?_ h.inv hm
    · intro y' I o
      unfold left
      match e : y'.thrs[i]? with
      | none => exact absurd (Or.inl e) o
      | some p =>
        have T := I.thr i p e
        cases p <;> first | exact absurd T id | exact absurd (Or.inr (Or.inl e)) o | (simp only; omega) | (simp only; split <;> omega)
    · intro z I o
      have go : ∀ (z' : Sys) (p q : PC), z.thrs[i]? = some p → Step w z z' → ¬ Spurious z z' → z'.thrs = z.thrs.set i q → q ≠ p → ∃ z', Strong w z z' ∧ view i z' ≠ view i z :=
        fun z' p q h s c e n => ⟨z', ⟨s, c⟩, fun k => by
          have := congrArg Prod.fst k
          simp only [e, h] at this
          rw [thr_new h] at this
          injection this with this
          exact n this⟩
      have ns : ∀ (z' : Sys) (p q : PC), z.thrs[i]? = some p → z'.thrs = z.thrs.set i q → ((∀ s n t, p = .pu3 s n t → z.tail = t → q ≠ .pu1 s n)) →
          (∀ s h t r em st, p = .po4 s h t r em st → z.head = h → q ≠ .po0 s) → ¬ Spurious z z' := by
        rintro z' p q h e a b ⟨j, s, ⟨n, t, h1, h2, h3⟩ | ⟨hd, t, r, em, st, h1, h2, h3⟩⟩
        · rw [e] at h3
          rcases thr_set h3 with ⟨rfl, h4⟩ | ⟨hj, h4⟩
          · rw [h1] at h
            injection h with h
            exact a s n t h.symm h2 h4.symm
          · rw [h1] at h4; simp at h4
        · rw [e] at h3
          rcases thr_set h3 with ⟨rfl, h4⟩ | ⟨hj, h4⟩
          · rw [h1] at h
            injection h with h
            exact b s hd t r em st h.symm h2 h4.symm
          · rw [h1] at h4; simp at h4
      have go' : ∀ (z' : Sys) (p q : PC), z.thrs[i]? = some p → Step w z z' → z'.thrs = z.thrs.set i q → q ≠ p → ((∀ s n t, p = .pu3 s n t → z.tail = t → q ≠ .pu1 s n)) →
          (∀ s h t r em st, p = .po4 s h t r em st → z.head = h → q ≠ .po0 s) → ∃ z', Strong w z z' ∧ view i z' ≠ view i z :=
        fun z' p q h s e n a b => go z' p q h s (ns z' p q h e a b) e n
      match e : z.thrs[i]? with
      | none => exact absurd (Or.inl e) o
      | some p =>
        have T := I.thr i p e
        cases p with
        | idle => exact absurd (Or.inr (Or.inl e)) o
        | fault => exact absurd T id
        | fx1 => exact absurd T id
        | fx2 => exact absurd T id
        | fx3 => exact absurd T id
        | pu1 s n => exact go' _ _ _ e (.pushLoad e) rfl (by simp) (by simp) (by simp)
        | pu2 s n t => exact go' _ _ _ e (.pushNext e) rfl (by simp) (by simp) (by simp)
        | pu3 s n t =>
          by_cases c : z.tail = t
          · exact go' _ _ _ e (.pushCas e c) rfl (by simp) (by simp) (by simp)
          · exact go' _ _ _ e (.pushFail e) rfl (by simp) (fun s' n' t' h1 h2 => by injection h1 with _ _ h1; exact absurd (h2.trans h1.symm) c) (by simp)
        | pu4 s n t =>
          obtain ⟨b, ⟨m, hb, rfl⟩, hp, _⟩ := T
          exact go' _ _ _ e (.pushPrev e rfl (mem_live.2 (.inl ⟨b, hb, hp.1⟩))) rfl (by simp) (by simp) (by simp)
        | po0 s => exact go' _ _ _ e (.popHead e) rfl (by simp) (by simp) (by simp)
        | po1 s h => exact go' _ _ _ e (.popTail e) rfl (by simp) (by simp) (by simp)
        | po2 s h t em =>
          obtain ⟨b, _, ⟨m, hb, rfl⟩, hp, _⟩ := T
          exact go' _ _ _ e (.popPrev e rfl (mem_live.2 (.inl ⟨b, hb, hp.1⟩))) rfl (by simp) (by simp) (by simp)
        | po3 s h t p em st =>
          by_cases c : z.head = h
          · exact go' _ _ _ e (.popSame e c) rfl (by simp) (by simp) (by simp)
          · exact go' _ _ _ e (.popChanged e c) rfl (by simp) (by simp) (by simp)
        | po4 s h t p em st =>
          obtain ⟨b, _, ⟨m, hb, rfl⟩, hp, _, q⟩ := T
          by_cases c : p.node = none ∨ t = ⟨some m, b % w⟩
          · exact go' _ _ _ e (.popNull e c) rfl (by simp) (by simp) (by simp)
          · rcases q with ⟨rfl, _⟩ | ⟨k, hk, rfl⟩
            · exact absurd (Or.inl rfl) c
            · have ct : t ≠ ⟨some m, b % w⟩ := fun h => c (Or.inr h)
              by_cases hd : z.head = ⟨some m, b % w⟩
              · exact go' _ _ _ e (.popCas e rfl ct rfl hd) rfl (by simp) (by simp) (by simp)
              · exact go' _ _ _ e (.popFail e (by simp) ct rfl) rfl (by simp) (by simp) (fun s' h' t' r' em' st' h1 h2 => by
                  injection h1 with _ h1
                  exact absurd (h2.trans h1.symm) hd)
    · intro z z' I o s
      have I' := I.step s.1
      rcases own_step i s.1 with h | ⟨he, hh, ht, h | ⟨p, q, e, e', n⟩⟩
      · refine Or.inr (Or.inl (Or.inr (Or.inr ?_)))
        intro k
        refine o (Or.inr (Or.inr ?_))
        intro k'
        exact h (k.trans k'.symm)
      · refine Or.inl ⟨by simp only [view, h, he], I', ?_⟩
        unfold left
        rw [h, hh, ht]
        exact Nat.le_refl _
      · have lt : left i z' < left i z ∨ q = .idle := by
          have T' := I'.thr i q e'
          have T := I.thr i p e
          unfold left
          rw [e, e']
          cases n
          case other c =>
            rcases c with rfl | rfl | ⟨_, _, _, rfl⟩ | ⟨_, _, _, rfl⟩ | ⟨_, _, _, rfl⟩ | ⟨_, _, _, _, rfl⟩
            · exact absurd (Or.inr (Or.inl e)) o
            all_goals first | exact absurd T' id | exact absurd T id
          all_goals first | exact Or.inr rfl | skip
          all_goals left
          case pushFail s' n' t =>
            have c : t ≠ z.tail := fun c => s.2 ⟨i, s', Or.inl ⟨n', t, e, c.symm, e'⟩⟩
            simp [c]
          case popFail s' h t p em st =>
            have c : h ≠ z.head := fun c => s.2 ⟨i, s', Or.inr ⟨h, t, p, em, st, e, c.symm, e'⟩⟩
            simp [c]
          case popSame c => simp [hh, c]
          case popChanged c => simp [Ne.symm c]
          all_goals simp only [hh, ht, if_true]
          all_goals first | omega | (split <;> omega)
        rcases lt with lt | rfl
        · exact Or.inr (Or.inr ⟨I', lt⟩)
        · exact Or.inr (Or.inl (Or.inr (Or.inl e')))
  exact ⟨main 8 (left_le i y), fun s k e => main 3 (by simp [left, e]), fun s e => main 5 (by simp [left, e])⟩

/-- Two pushes compete: thread 1 has exchanged `tail`, so that the exchange of thread 0 fails; a third thread has begun a pop. -/
example : ∃ y y', Reach (2 ^ 32) 3 y ∧ y.thrs = [.pu3 0 1 ⟨some 0, 0⟩, .pu4 1 2 ⟨some 0, 0⟩, .po0 2] ∧ Strong (2 ^ 32) y y' ∧ y'.thrs[0]? = some (.pu1 0 1) := by
  have h := Reach.init (w := 2 ^ 32) (n := 3)
  have h := h.step (Step.pushBegin (i := 0) (n := 1) rfl (by decide))
  have h := h.step (Step.pushBegin (i := 1) (n := 2) rfl (by decide))
  have h := h.step (Step.popBegin (i := 2) rfl)
  have h := h.step (Step.pushLoad (i := 0) rfl)
  have h := h.step (Step.pushLoad (i := 1) rfl)
  have h := h.step (Step.pushNext (i := 0) rfl)
  have h := h.step (Step.pushNext (i := 1) rfl)
  have h := h.step (Step.pushCas (i := 1) rfl rfl)
  obtain ⟨y, e, h⟩ : ∃ y, y = _ ∧ Reach (2 ^ 32) 3 y := ⟨_, rfl, h⟩
  have ht : y.thrs = [.pu3 0 1 ⟨some 0, 0⟩, .pu4 1 2 ⟨some 0, 0⟩, .po0 2] := by rw [e]; rfl
  have hl : y.tail ≠ ⟨some 0, 0⟩ := by rw [e]; decide
  clear e
  refine ⟨y, _, h, ht, ⟨.pushFail (i := 0) (by rw [ht]; rfl), ?_⟩, by rw [ht]; rfl⟩
  rintro ⟨j, s, ⟨n, t, h1, h2, h3⟩ | ⟨hd, t, p, em, st, h1, h2, h3⟩⟩
  · rw [ht] at h1
    match j with
    | 0 =>
      simp at h1
      exact hl (h2.trans h1.2.2.symm)
    | 1 => simp at h1
    | 2 => simp at h1
    | j + 3 => simp at h1
  · rw [ht] at h1
    match j with
    | 0 => simp at h1
    | 1 => simp at h1
    | 2 => simp at h1
    | j + 3 => simp at h1

#print axioms C131_lock_free

end Verif.QueueProgress
