import Verif.ConcPool
/-!
# C17: the concurrent pool hands out each item once, in order
-/
namespace Verif.ConcPool

/-- What C17 says about a recorded event. -/
def Ev.ok (y : Sys) : Ev → Prop
  | .pop _ => True
  | .empty left => left = 0
  | .look k x => k < y.popped ∧ ∃ v, y.pushed[k]? = some v ∧ x = some v

/-- The numbers of the pops, in order. -/
def pops (l : List Ev) : List Nat := l.filterMap fun e => match e with
  | .pop k => some k
  | _ => none

/-- The slot of item number `k`. -/
def slot (c : Cfg) (k : Nat) : Nat := k % c.w % c.max

/-- The slots of items close to each other differ. -/
theorem slot_ne {c : Cfg} {k k' : Nat} (h : k < k') (h' : k' < k + c.max) (hd : c.max ∣ c.w ∨ k' < c.w) : slot c k' ≠ slot c k := by
  have hm : 0 < c.max := by omega
  have e : slot c k = k % c.max ∧ slot c k' = k' % c.max := by
    unfold slot
    rcases hd with hd | hd
    · exact ⟨Nat.mod_mod_of_dvd _ hd, Nat.mod_mod_of_dvd _ hd⟩
    · rw [Nat.mod_eq_of_lt (by omega : k < c.w), Nat.mod_eq_of_lt hd]; exact ⟨rfl, rfl⟩
  rw [e.1, e.2]
  intro he
  have := Nat.sub_mod_eq_zero_of_mod_eq he
  rw [Nat.mod_eq_of_lt (by omega)] at this
  omega

theorem mod_inj {w a b : Nat} (h : a ≤ b) (hb : b < a + w) (e : a % w = b % w) : a = b := by
  have := Nat.sub_mod_eq_zero_of_mod_eq e.symm
  rw [Nat.mod_eq_of_lt (by omega)] at this
  omega

/-- Item `k` is not popped yet, or is being looked at. -/
def live (y : Sys) (k : Nat) : Prop := y.popped ≤ k ∨ ∃ s, PC.has s k ∈ y.thrs

structure Inv (c : Cfg) (y : Sys) : Prop where
  idx : y.index = y.popped % c.w
  lst : y.last = y.committed % c.w
  stg : y.stage = y.pushed.length % c.w
  le1 : y.popped ≤ y.committed
  le2 : y.committed ≤ y.pushed.length
  pk : y.pushed.length ≤ y.peak
  pkW : y.writing.isSome → y.pushed.length < y.peak
  len : y.items.length = c.max
  room : ∀ k, k < y.pushed.length → live y k → y.pushed.length ≤ k + c.max
  roomW : y.writing.isSome → ∀ k, k < y.pushed.length → live y k → y.pushed.length < k + c.max
  content : ∀ k, k < y.pushed.length → live y k → y.items[slot c k]? = some y.pushed[k]?
  has : ∀ s k, PC.has s k ∈ y.thrs → s = slot c k ∧ k < y.popped
  ld : ∀ a b, PC.loaded a b ∈ y.thrs → a ≠ b
  uniq : ∀ (i j s s' k : Nat), y.thrs[i]? = some (.has s k) → y.thrs[j]? = some (.has s' k) → i = j
  num : pops y.log = List.range y.popped
  log : ∀ e ∈ y.log, e.ok y

/-- A consumer step that ends with the thread having nothing. -/
theorem live_set {y : Sys} {i : Nat} {p : PC} (hp : ∀ s k, p ≠ .has s k) {k : Nat} (h : live { y with thrs := y.thrs.set i p } k) : live y k := by
  rcases h with h | ⟨s, h⟩
  · exact .inl h
  · rcases List.mem_or_eq_of_mem_set h with h | h
    · exact .inr ⟨s, h⟩
    · exact absurd h.symm (hp s k)

theorem thr_set {l : List PC} {i j : Nat} {t t' : PC} (h : (l.set i t)[j]? = some t') : (j = i ∧ t' = t) ∨ (j ≠ i ∧ l[j]? = some t') := by
  by_cases e : j = i
  · subst e
    rw [List.getElem?_set] at h
    simp at h
    exact .inl ⟨rfl, h.2.symm⟩
  · rw [List.getElem?_set_ne (fun h => e h.symm)] at h
    exact .inr ⟨e, h⟩

theorem Inv.thr {c : Cfg} {y : Sys} (I : Inv c y) {i : Nat} {p : PC} (hp : ∀ s k, p ≠ .has s k) (hl : ∀ a b, p = .loaded a b → a ≠ b) :
    Inv c { y with thrs := y.thrs.set i p } := by
  refine ⟨I.idx, I.lst, I.stg, I.le1, I.le2, I.pk, I.pkW, I.len, fun k h1 h2 => I.room k h1 (live_set hp h2), fun h k h1 h2 => I.roomW h k h1 (live_set hp h2),
    fun k h1 h2 => I.content k h1 (live_set hp h2), ?_, ?_, ?_, I.num, I.log⟩
  · intro s k h
    rcases List.mem_or_eq_of_mem_set h with h | h
    · exact I.has s k h
    · exact absurd h.symm (hp s k)
  · intro a b h
    rcases List.mem_or_eq_of_mem_set h with h | h
    · exact I.ld a b h
    · exact hl a b h.symm
  · intro i' j s s' k h1 h2
    rcases thr_set h1 with ⟨-, h1⟩ | ⟨-, h1⟩
    · exact absurd h1.symm (hp s k)
    · rcases thr_set h2 with ⟨-, h2⟩ | ⟨-, h2⟩
      · exact absurd h2.symm (hp s' k)
      · exact I.uniq i' j s s' k h1 h2

theorem Inv.within {c : Cfg} {y : Sys} (I : Inv c y) : y.pushed.length ≤ y.popped + c.max := by
  by_cases h : y.popped < y.pushed.length
  · exact I.room _ h (.inl (Nat.le_refl _))
  · omega

theorem Inv.step {c : Cfg} (hm : 0 < c.max) (hmw : c.max < c.w) {y y' : Sys} (I : Inv c y) (D : c.max ∣ c.w ∨ y'.peak ≤ c.w) (s : Step c y y') : Inv c y' := by
  have hin := I.within
  have h1 := I.le1
  have h2 := I.le2
  cases s with
  | begin hw =>
    have hl : (y.pushed.take y.committed).length = y.committed := by simp; omega
    refine ⟨I.idx, I.lst, ?_, h1, ?_, ?_, (fun h => by simp [hw] at h), I.len, ?_, (fun h => by simp [hw] at h), ?_, I.has, I.ld, I.uniq, I.num, ?_⟩
    · dsimp only; rw [hl]; exact I.lst
    · dsimp only; omega
    · have := I.pk; dsimp only; omega
    · intro k hk hlv
      dsimp only at hk ⊢
      have := I.room k (by omega) hlv
      omega
    · intro k hk hlv
      dsimp only at hk ⊢
      rw [List.getElem?_take_of_lt (by omega)]
      exact I.content k (by omega) hlv
    · intro e he
      have := I.log e he
      cases e with
      | pop _ => trivial
      | empty _ => exact this
      | look k x =>
        obtain ⟨a, b⟩ := this
        refine ⟨a, ?_⟩
        dsimp only
        rw [List.getElem?_take_of_lt (by omega)]
        exact b
  | push v hw hpre =>
    have hlive : ∀ k, k < y.pushed.length → live y k → y.pushed.length < k + c.max := by
      intro k hk hlv
      apply Decidable.byContradiction; intro hn
      obtain ⟨a, b⟩ := hpre k (by omega)
      rcases hlv with h | ⟨s, h⟩
      · omega
      · exact b s h
    have hpk : y.pushed.length < Nat.max y.peak (y.pushed.length + 1) := Nat.lt_of_succ_le (Nat.le_max_right _ _)
    refine ⟨I.idx, I.lst, I.stg, h1, h2, Nat.le_of_lt hpk, fun _ => hpk, by simp [I.len], I.room, fun _ => hlive, ?_, I.has, I.ld, I.uniq, I.num, I.log⟩
    intro k hk hlv
    have hne := slot_ne (c := c) hk (hlive k hk hlv) (D.imp id fun d => Nat.lt_of_lt_of_le hpk d)
    rw [I.stg]
    show (y.items.set (slot c _) _)[slot c _]? = _
    rw [List.getElem?_set_ne hne]
    exact I.content k hk hlv
  | @pushed v hw =>
    have hws : y.writing.isSome := by simp [hw]
    have hpk := I.pkW hws
    refine ⟨I.idx, I.lst, ?_, h1, by simp; omega, by simp; omega, (fun h => by simp at h), by simp [I.len], ?_, (fun h => by simp at h), ?_, I.has, I.ld, I.uniq, I.num, ?_⟩
    · simp [I.stg]
    · intro k hk hlv
      simp at hk ⊢
      by_cases e : k = y.pushed.length
      · omega
      · have := I.roomW hws k (by omega) hlv
        omega
    · intro k hk hlv
      simp at hk
      dsimp only
      rw [I.stg]
      by_cases e : k = y.pushed.length
      · subst e
        show (y.items.set (slot c _) _)[slot c _]? = _
        rw [List.getElem?_set_self (by rw [I.len]; exact Nat.mod_lt _ hm)]
        simp
      · have hne := slot_ne (c := c) (show k < y.pushed.length by omega) (I.roomW hws k (by omega) hlv) (D.imp id fun d => Nat.lt_of_lt_of_le hpk d)
        show (y.items.set (slot c _) _)[slot c _]? = _
        rw [List.getElem?_set_ne hne, List.getElem?_append_left (by omega)]
        exact I.content k (by omega) hlv
    · intro e he
      have := I.log e he
      cases e with
      | pop _ => trivial
      | empty _ => exact this
      | look k x =>
        obtain ⟨a, b⟩ := this
        refine ⟨a, ?_⟩
        dsimp only
        rw [List.getElem?_append_left (by omega)]
        exact b
  | commit hw => exact ⟨I.idx, I.stg, I.stg, by dsimp only; omega, Nat.le_refl _, I.pk, I.pkW, I.len, I.room, I.roomW, I.content, I.has, I.ld, I.uniq, I.num, I.log⟩
  | load ht hne => exact I.thr (fun _ _ h => nomatch h) (fun a b h => by cases h; exact hne)
  | empty ht he =>
    rw [I.idx, I.lst] at he
    have := mod_inj h1 (by omega) he
    refine ⟨I.idx, I.lst, I.stg, h1, h2, I.pk, I.pkW, I.len, I.room, I.roomW, I.content, I.has, I.ld, I.uniq, ?_, ?_⟩
    · have := I.num
      simp [pops] at this ⊢
      exact this
    · intro e he
      rcases List.mem_append.1 he with he | he
      · exact I.log e he
      · obtain rfl := List.mem_singleton.1 he
        show y.committed - y.popped = 0
        omega
  | @pop i a b ht ha hb =>
    have hab := I.ld a b (List.mem_iff_getElem?.2 ⟨i, ht⟩)
    have hlt : y.popped < y.committed := by
      apply Decidable.byContradiction; intro hn
      apply hab
      rw [← ha, ← hb, I.idx, I.lst, show y.popped = y.committed by omega]
    have hlv : ∀ k, live { y with index := (a + 1) % c.w, thrs := y.thrs.set i (.has (a % c.max) y.popped), popped := y.popped + 1, log := y.log ++ [.pop y.popped] } k → live y k := by
      rintro k (h | ⟨s, h⟩)
      · exact .inl (by dsimp only at h; omega)
      · rcases List.mem_or_eq_of_mem_set h with h | h
        · exact .inr ⟨s, h⟩
        · cases h; exact .inl (Nat.le_refl _)
    refine ⟨?_, I.lst, I.stg, hlt, h2, I.pk, I.pkW, I.len, fun k h1 h2 => I.room k h1 (hlv k h2), fun h k h1 h2 => I.roomW h k h1 (hlv k h2),
      fun k h1 h2 => I.content k h1 (hlv k h2), ?_, ?_, ?_, ?_, ?_⟩
    · rw [← ha, I.idx, Nat.mod_add_mod]
    · intro s k h
      rcases List.mem_or_eq_of_mem_set h with h | h
      · have := I.has s k h
        exact ⟨this.1, by dsimp only; omega⟩
      · cases h
        exact ⟨by rw [← ha, I.idx]; rfl, by dsimp only; omega⟩
    · intro a' b' h
      rcases List.mem_or_eq_of_mem_set h with h | h
      · exact I.ld a' b' h
      · cases h
    · intro i' j s s' k h1 h2
      rcases thr_set h1 with ⟨e1, h1⟩ | ⟨-, h1⟩
      · rcases thr_set h2 with ⟨e2, h2⟩ | ⟨-, h2⟩
        · rw [e1, e2]
        · cases h1
          have := (I.has _ _ (List.mem_iff_getElem?.2 ⟨j, h2⟩)).2
          omega
      · rcases thr_set h2 with ⟨e2, h2⟩ | ⟨-, h2⟩
        · cases h2
          have := (I.has _ _ (List.mem_iff_getElem?.2 ⟨i', h1⟩)).2
          omega
        · exact I.uniq i' j s s' k h1 h2
    · have := I.num
      simp [pops, List.range_succ] at this ⊢
      exact this
    · intro e he
      rcases List.mem_append.1 he with he | he
      · have := I.log e he
        cases e with
        | pop _ => trivial
        | empty _ => exact this
        | look k x => exact ⟨by have := this.1; dsimp only; omega, this.2⟩
      · obtain rfl := List.mem_singleton.1 he
        trivial
  | fail ht => exact I.thr (fun _ _ h => nomatch h) (fun a b h => nomatch h)
  | @look i s k ht =>
    have hmem := List.mem_iff_getElem?.2 ⟨i, ht⟩
    obtain ⟨rfl, hk⟩ := I.has s k hmem
    have hc := I.content k (by omega) (.inr ⟨_, hmem⟩)
    refine ⟨I.idx, I.lst, I.stg, h1, h2, I.pk, I.pkW, I.len, I.room, I.roomW, I.content, I.has, I.ld, I.uniq, ?_, ?_⟩
    · have := I.num
      simp [pops] at this ⊢
      exact this
    · intro e he
      rcases List.mem_append.1 he with he | he
      · exact I.log e he
      · obtain rfl := List.mem_singleton.1 he
        obtain ⟨v, hv⟩ : ∃ v, y.pushed[k]? = some v := ⟨_, List.getElem?_eq_getElem (by omega)⟩
        exact ⟨hk, v, hv, by rw [hc, hv]; rfl⟩
  | done ht => exact I.thr (fun _ _ h => nomatch h) (fun a b h => nomatch h)

theorem inv_init (c : Cfg) (n : Nat) : Inv c (init c n) := by
  refine ⟨by simp [init], by simp [init], by simp [init], Nat.le_refl _, Nat.le_refl _, Nat.le_refl _, (fun h => by simp [init] at h), by simp [init], ?_, ?_, ?_, ?_, ?_, ?_, rfl, ?_⟩
  · intro k h; simp [init] at h
  · intro _ k h; simp [init] at h
  · intro k h; simp [init] at h
  · intro s k h; simp [init] at h
  · intro s k h; simp [init] at h
  · intro i j s s' k h; simp [init, List.getElem?_replicate] at h
  · intro e h; simp [init] at h

theorem peak_le {c : Cfg} {y y' : Sys} (s : Step c y y') : y.peak ≤ y'.peak := by
  cases s <;> first | exact Nat.le_refl _ | exact Nat.le_max_left _ _

theorem Reach.inv {c : Cfg} (hm : 0 < c.max) (hmw : c.max < c.w) {n : Nat} {y : Sys} (h : Reach c n y) (D : c.max ∣ c.w ∨ y.peak ≤ c.w) : Inv c y := by
  induction h with
  | init => exact inv_init c n
  | step _ s ih => exact (ih (D.imp id fun d => Nat.le_trans (peak_le s) d)).step hm hmw D s

/-- **C17, partial.** For every pool whose size divides the number of index values (a power of two), or as long as there were never more than that many items: with one producer and any number of consumers, in every interleaving,
* only committed items are popped: the number of pops never exceeds the number of committed items, and pops are numbered consecutively, so each committed item is popped once;
* the consumer of pop number `k` sees, whenever it looks, the completely written item that is number `k` in the order of pushing;
* a pop finds the pool empty only if every committed item had been popped;
* no two consumers have the same item.
What is missing: sizes that do not divide the number of index values, beyond that many items; `C17_pool_refuted` shows this is not true for any of them. -/
theorem C17_pool_partial (c : Cfg) (hm : 0 < c.max) (hmw : c.max < c.w) (n : Nat) (y : Sys) (h : Reach c n y) (D : c.max ∣ c.w ∨ y.peak ≤ c.w) :
    y.popped ≤ y.committed ∧ y.committed ≤ y.pushed.length ∧ pops y.log = List.range y.popped ∧
    (∀ e ∈ y.log, match e with
      | .pop _ => True
      | .empty left => left = 0
      | .look k x => k < y.popped ∧ ∃ v, y.pushed[k]? = some v ∧ x = some v) ∧
    (∀ (i j s s' k : Nat), y.thrs[i]? = some (.has s k) → y.thrs[j]? = some (.has s' k) → i = j) := by
  have I := h.inv hm hmw D
  refine ⟨I.le1, I.le2, I.num, fun e he => ?_, I.uniq⟩
  have := I.log e he
  cases e <;> exact this

/-- A state with one idle consumer, `n` items committed and popped, and `j` more items staged, all 0. -/
structure Quiet (c : Cfg) (n j : Nat) (y : Sys) : Prop where
  reach : Reach c 1 y
  idx : y.index = n % c.w
  stg : y.stage = (n + j) % c.w
  wr : y.writing = none
  thrs : y.thrs = [.idle]
  pushed : y.pushed = List.replicate (n + j) 0
  popped : y.popped = n
  len : y.items.length = c.max

theorem push_room {c : Cfg} {n j : Nat} {y : Sys} (q : Quiet c n j y) (hj : j < c.max) :
    ∀ k, k + c.max ≤ y.pushed.length → k < y.popped ∧ ∀ s, PC.has s k ∉ y.thrs := by
  intro k hk
  rw [q.pushed, List.length_replicate] at hk
  rw [q.popped, q.thrs]
  exact ⟨by omega, by simp⟩

theorem quiet_push {c : Cfg} {n j : Nat} {y : Sys} (q : Quiet c n j y) (hj : j < c.max) : ∃ y', Quiet c n (j + 1) y' := by
  have h := (q.reach.step (Step.push 0 q.wr (push_room q hj))).step (Step.pushed rfl)
  refine ⟨_, h, q.idx, ?_, rfl, q.thrs, ?_, q.popped, by simp [q.len]⟩
  · simp [q.stg]; rfl
  · simp [q.pushed, ← List.replicate_succ']; rfl

theorem quiet_pop {c : Cfg} {n : Nat} {y : Sys} (q : Quiet c n 1 y) (hw : n + 1 < c.w) : ∃ y', Quiet c (n + 1) 0 y' := by
  have hn : n % c.w = n := Nat.mod_eq_of_lt (by omega)
  have hs : (n + 1) % c.w = n + 1 := Nat.mod_eq_of_lt hw
  have h := q.reach.step (Step.commit q.wr)
  have h := h.step (Step.load (i := 0) (by simp [q.thrs]) (by simp only [q.idx, q.stg, hn, hs]; omega))
  have h := h.step (Step.pop (i := 0) (by simp [q.thrs]) rfl rfl)
  have h := h.step (Step.done (i := 0) (by simp [q.thrs]; exact ⟨rfl, rfl⟩))
  refine ⟨_, h, ?_, ?_, q.wr, ?_, ?_, ?_, q.len⟩
  · simp [q.idx]
  · simp [q.stg]
  · simp [q.thrs]
  · simp [q.pushed]
  · simp [q.popped]

theorem quiet_all {c : Cfg} (hm : 0 < c.max) : ∀ n, n < c.w → ∃ y, Quiet c n 0 y := by
  intro n
  induction n with
  | zero =>
    intro _
    exact ⟨_, Reach.init, rfl, by simp [init], rfl, rfl, rfl, rfl, by simp [init]⟩
  | succ n ih =>
    intro h
    obtain ⟨y, q⟩ := ih (by omega)
    obtain ⟨y, q⟩ := quiet_push q hm
    exact quiet_pop q h

theorem quiet_stage {c : Cfg} {n : Nat} {y : Sys} (q : Quiet c n 0 y) : ∀ j, j < c.max → ∃ y, Quiet c n j y := by
  intro j
  induction j with
  | zero => intro _; exact ⟨y, q⟩
  | succ j ih =>
    intro h
    obtain ⟨y, q⟩ := ih (by omega)
    exact quiet_push q (by omega)

/-- **C17 fails** for every pool size that does not divide the number of index values: the user keeping to at most `max` items outstanding, after about `2^32` items the slot of an item not yet popped is overwritten, and its consumer sees another item. -/
theorem C17_pool_refuted (c : Cfg) (hm : 0 < c.max) (hmw : c.max < c.w) (hd : ¬ c.max ∣ c.w) :
    ∃ y k x v, Reach c 1 y ∧ Ev.look k (some x) ∈ y.log ∧ y.pushed[k]? = some v ∧ x ≠ v ∧ y.pushed.length ≤ y.popped + c.max := by
  have hr0 : 0 < c.w % c.max := Nat.pos_of_ne_zero fun h => hd (Nat.dvd_of_mod_eq_zero h)
  have hrm : c.w % c.max < c.max := Nat.mod_lt _ hm
  generalize hr : c.w % c.max = r at hr0 hrm
  have hn0 : (c.w - r) % c.max = 0 := by
    rw [← hr]
    exact Nat.sub_mod_eq_zero_of_mod_eq (Nat.mod_mod _ _).symm
  obtain ⟨y, q⟩ := quiet_all hm (c.w - r) (by omega)
  obtain ⟨y, q⟩ := quiet_stage q r hrm
  have hst : y.stage = 0 := by rw [q.stg, show c.w - r + r = c.w by omega, Nat.mod_self]
  have hix : y.index = c.w - r := by rw [q.idx, Nat.mod_eq_of_lt (by omega)]
  have h := (q.reach.step (Step.push 1 q.wr (push_room q hrm))).step (Step.pushed rfl)
  have h := h.step (Step.commit rfl)
  have h := h.step (Step.load (i := 0) (by simp [q.thrs]) (by
    simp only [hix, hst]
    rw [Nat.mod_eq_of_lt (by omega)]
    intro e
    rw [e, Nat.mod_eq_of_lt (by omega)] at hn0
    exact absurd hn0 (by decide)))
  have h := h.step (Step.pop (i := 0) (by simp [q.thrs]) rfl rfl)
  have h := h.step (Step.look (i := 0) (by simp [q.thrs]; exact ⟨rfl, rfl⟩))
  refine ⟨_, c.w - r, 1, 0, h, ?_, ?_, by decide, ?_⟩
  · apply List.mem_append_right
    rw [List.mem_singleton]
    simp [q.popped, hix, hst, hn0, q.len, hm]
  · simp only [q.pushed]
    rw [List.getElem?_append_left (by simp; omega), List.getElem?_replicate, if_pos (by omega)]
  · simp [q.pushed, q.popped]; omega

/-- Non-vacuity of the partial theorem: two consumers, a batch of two items, 4 index values and 2 slots. -/
example : ∃ y, Reach ⟨4, 2⟩ 2 y ∧ y.pushed = [7, 8, 9] ∧ y.committed = 2 ∧ y.log = [.empty 0, .pop 0, .pop 1, .look 1 (some 8), .look 0 (some 7), .empty 0] ∧ (2 ∣ 4 ∨ y.peak ≤ 4) := by
  have h := Reach.init (c := ⟨4, 2⟩) (n := 2)
  have h := h.step (Step.push 7 rfl (by intro k hk; simp [init] at hk))
  have h := h.step (Step.pushed rfl)
  have h := h.step (Step.empty (i := 0) rfl rfl)
  have h := h.step (Step.push 8 rfl (by intro k hk; simp [init] at hk))
  have h := h.step (Step.pushed rfl)
  have h := h.step (Step.commit rfl)
  have h := h.step (Step.load (i := 0) rfl (by decide))
  have h := h.step (Step.load (i := 1) rfl (by decide))
  have h := h.step (Step.pop (i := 1) rfl rfl rfl)
  have h := h.step (Step.fail (i := 0) rfl)
  have h := h.step (Step.load (i := 0) rfl (by decide))
  have h := h.step (Step.pop (i := 0) rfl rfl rfl)
  have h := h.step (Step.look (i := 0) rfl)
  have h := h.step (Step.look (i := 1) rfl)
  have h := h.step (Step.done (i := 1) rfl)
  have h := h.step (Step.empty (i := 1) rfl rfl)
  have h := h.step (Step.push 9 rfl (by
    intro k hk
    simp [init] at hk
    subst hk
    simp [init]))
  have h := h.step (Step.pushed rfl)
  exact ⟨_, h, rfl, rfl, rfl, .inl (by decide)⟩

/-- Non-vacuity of the refutation: the 32 bit index with a pool of 3 items. -/
example : ¬ 3 ∣ 2 ^ 32 := by decide

#print axioms C17_pool_partial
#print axioms C17_pool_refuted
end Verif.ConcPool
