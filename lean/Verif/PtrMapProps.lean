import Verif.PtrMapExec
import Mathlib.Data.List.Perm.Basic
import Mathlib.Data.List.Induction
/-!
# C99: large elements of the index map are neither lost nor used after they are freed
-/
namespace Verif.PtrMap
open IndexMap (Slot Res maxCount initLoop cells full)
variable {α : Type}

/-- The map stands for `l`. -/
def Rep (s : St α) (l : List α) : Prop := Own s ∧ ∃ ps, Has s ps l

theorem create_rep {c : Nat} (h : 0 < c) : ∃ s : St α, create c = some s ∧ s.chunk = c ∧ s.held = [] ∧ Rep s [] := by
  obtain ⟨b, h1, h2, h3⟩ := IndexMap.initLoop_spec c (List.replicate c (.raw : Slot Nat)) 0 (by simp)
  have hm : maxCount c 0 = c := by simp [maxCount]
  have hb : b = cells [] c := by
    apply List.ext_getElem?
    intro k
    rw [h3, IndexMap.cells_get (by simp)]
    by_cases hk : k < c
    · simp [hk]
    · simp [hk]
  have hd : (⟨0, b⟩ : Data) = dat c [] := by simp only [dat, List.length_nil, hm, hb]
  refine ⟨⟨c, [], [some ⟨0, b⟩], 0, []⟩, ?_, rfl, rfl, ⟨h, fun k d hk => ?_, fun q => ?_, fun k d hk => ?_, fun k hk => ?_, List.nodup_nil⟩, [], ?_, rfl, List.nodup_nil⟩
  · rw [create, if_neg (by omega), h1]; rfl
  · cases k with
    | zero =>
      simp only [List.getElem?_cons_zero, Option.some.injEq] at hk
      exact ⟨[], by rw [← hk, hd]⟩
    | succ k => simp at hk
  · have : refs (⟨c, [], [some ⟨0, b⟩], 0, []⟩ : St α) = [] := by
      simp only [refs, List.flatMap_cons, List.flatMap_nil, List.filterMap_nil, List.append_nil]
      rw [hd, dptrs_dat]
    rw [this]; rfl
  · cases k with
    | zero => exact .inl rfl
    | succ k => simp at hk
  · cases hk
  · simp only [List.getElem?_cons_zero, hd]

theorem exec_rep [DecidableEq α] {s : St α} {l : List α} (h : Rep s l) (o : Op α) (fs : List Bool) (hf : ∀ i x, o = .insert i x → i < l.length → ¬ Spec.Starved fs) :
    ∃ s', exec s fs o = some (s', (Spec.exec (full s.chunk) l fs o).2) ∧ Rep s' (Spec.exec (full s.chunk) l fs o).1 ∧ s'.chunk = s.chunk := by
  obtain ⟨ho, ps, hh⟩ := h
  cases o with
  | count =>
    refine ⟨s, ?_, ⟨ho, ps, hh⟩, rfl⟩
    rw [exec, data_eq hh, Spec.exec]
    simp only [Option.bind_eq_bind, Option.bind_some, dat, hh.len]; rfl
  | get i =>
    refine ⟨s, ?_, ⟨ho, ps, hh⟩, rfl⟩
    rw [exec, get_spec ho hh, Spec.exec]; rfl
  | replace i x =>
    obtain ⟨s', ps', h1, h2, h3, h4⟩ := replace_spec ho hh i x fs
    rw [exec, h1, Spec.exec]
    by_cases hc : fs.head? = some false
    · rw [if_pos hc] at h3 ⊢; rw [if_pos hc]; exact ⟨s', rfl, ⟨h2, ps', h3⟩, h4⟩
    · rw [if_neg hc] at h3 ⊢; rw [if_neg hc]; exact ⟨s', rfl, ⟨h2, ps', h3⟩, h4⟩
  | replaceExact i x old =>
    obtain ⟨s', ps', h1, h2, h3, h4⟩ := replaceExact_spec ho hh i x old fs
    rw [exec, h1, Spec.exec]
    by_cases hc : l[i]? = some old ∧ fs.head? ≠ some false
    · rw [if_pos hc] at h3 ⊢; rw [decide_eq_true hc]; exact ⟨s', rfl, ⟨h2, ps', h3⟩, h4⟩
    · rw [if_neg hc] at h3 ⊢; rw [decide_eq_false hc]; exact ⟨s', rfl, ⟨h2, ps', h3⟩, h4⟩
  | append x =>
    obtain ⟨s', ps', h1, h2, h3, h4⟩ := append_spec ho hh x fs
    rw [exec, h1, Spec.exec]
    by_cases hc : false ∈ fs.take (if full s.chunk l.length then 3 else 1)
    · rw [if_pos hc] at h3 ⊢; rw [if_pos hc]; exact ⟨s', rfl, ⟨h2, ps', h3⟩, h4⟩
    · rw [if_neg hc] at h3 ⊢; rw [if_neg hc]; exact ⟨s', rfl, ⟨h2, ps', h3⟩, h4⟩
  | remove i =>
    obtain ⟨s', ps', h1, h2, h3, h4⟩ := remove_spec ho hh i fs
    rw [exec, h1, Spec.exec]
    exact ⟨s', rfl, ⟨h2, ps', h3⟩, h4⟩
  | insert i x =>
    rw [exec, Spec.exec]
    by_cases hi : i < l.length
    · obtain ⟨s', ps', h1, h2, h3, h4⟩ := insert_spec ho hh hi x fs (hf i x rfl hi)
      rw [h1, if_pos hi]
      exact ⟨s', rfl, ⟨h2, ps', h3⟩, h4⟩
    · rw [insert_out hh hi, if_neg hi]
      exact ⟨s, rfl, ⟨ho, ps, hh⟩, rfl⟩

theorem collect_rep {s : St α} {l : List α} (h : Rep s l) (k : Nat) : ∃ s', collect s k = some s' ∧ Rep s' l ∧ s'.chunk = s.chunk ∧ s'.held = s.held.eraseIdx k := by
  obtain ⟨ho, ps, hh⟩ := h
  rw [collect]
  cases hk : s.held[k]? with
  | none =>
    refine ⟨s, rfl, ⟨ho, ps, hh⟩, rfl, ?_⟩
    rw [List.eraseIdx_of_length_le (by rw [List.getElem?_eq_none_iff] at hk; exact hk)]
  | some t =>
    obtain ⟨s', e1, e2, e3, e4, e5, e6, e7, _⟩ := ho.collect hk
    refine ⟨s', e1, ⟨e2, ps, ?_, ?_, hh.distinct⟩, e6, e7⟩
    · rw [e5, e4, e6]; exact hh.cur
    · rw [← hh.vals]; exact List.map_congr_left fun q _ => e3 q

theorem run_rep [DecidableEq α] (es : List (Ev α)) : ∀ {s : St α} {l : List α}, Rep s l → Spec.Fed (full s.chunk) l es →
    ∃ s', run s es = some (s', (Spec.run (full s.chunk) l es).2) ∧ Rep s' (Spec.run (full s.chunk) l es).1 ∧ s'.chunk = s.chunk := by
  induction es with
  | nil => intro s l h _; exact ⟨s, rfl, h, rfl⟩
  | cons e es ih =>
    intro s l h hf
    cases e with
    | collect k =>
      obtain ⟨s1, c1, c2, c3, _⟩ := collect_rep h k
      rw [Spec.Fed, ← c3] at hf
      obtain ⟨s', r1, r2, r3⟩ := ih c2 hf
      rw [c3] at r1 r2
      refine ⟨s', ?_, r2, r3.trans c3⟩
      rw [run, c1]; exact r1
    | call o fs =>
      rw [Spec.Fed] at hf
      obtain ⟨s1, c1, c2, c3⟩ := exec_rep h o fs hf.1
      have hf2 := hf.2
      rw [← c3] at hf2 c2
      obtain ⟨s', r1, r2, r3⟩ := ih c2 hf2
      rw [c3] at r1 r2
      refine ⟨s', ?_, r2, r3.trans c3⟩
      rw [run, c1]
      simp only [Option.bind_eq_bind, Option.bind_some]
      rw [r1]; rfl

theorem run_starved [DecidableEq α] (es : List (Ev α)) : ∀ {s : St α} {l : List α}, Rep s l → ¬ Spec.Fed (full s.chunk) l es → run s es = none := by
  induction es with
  | nil => intro s l _ hf; exact absurd trivial hf
  | cons e es ih =>
    intro s l h hf
    cases e with
    | collect k =>
      obtain ⟨s1, c1, c2, c3, _⟩ := collect_rep h k
      rw [Spec.Fed, ← c3] at hf
      rw [run, c1]; exact ih c2 hf
    | call o fs =>
      by_cases hok : ∀ i x, o = .insert i x → i < l.length → ¬ Spec.Starved fs
      · obtain ⟨s1, c1, c2, c3⟩ := exec_rep h o fs hok
        rw [Spec.Fed] at hf
        have hf2 : ¬ Spec.Fed (full s.chunk) (Spec.exec (full s.chunk) l fs o).1 es := fun e => hf ⟨hok, e⟩
        rw [← c3] at hf2 c2
        rw [run, c1]
        simp only [Option.bind_eq_bind, Option.bind_some]
        rw [ih c2 hf2]; rfl
      · simp only [not_forall, not_not] at hok
        obtain ⟨i, x, rfl, hi, hs⟩ := hok
        obtain ⟨ho, ps, hh⟩ := h
        rw [run, exec, insert_starved ho hh hi x fs hs]; rfl

/-! ## The properties -/

/-- C99: the calls return what they return for a list, however the allocations turn out and whenever the collector frees what it was given; nothing is used after it is freed, and nothing is freed twice.  Missing: insertions whose element cannot be allocated
(see `C99_fault_exact`). -/
theorem C99_calls_partial [DecidableEq α] (chunk : Nat) (hc : 0 < chunk) (es : List (Ev α)) (hf : Spec.Fed (full chunk) [] es) :
    ∃ s0 s, create chunk = some s0 ∧ run s0 es = some (s, (Spec.run (full chunk) [] es).2) := by
  obtain ⟨s0, h1, h2, _, h3⟩ := create_rep (α := α) hc
  rw [← h2] at hf
  obtain ⟨s, r1, _⟩ := run_rep es h3 hf
  rw [h2] at r1
  exact ⟨s0, s, h1, r1⟩

/-- The condition is exact: the first insertion into the list whose buffer can be allocated but not its element goes wrong, since the slot for the element is freed without having been set. -/
theorem C99_fault_exact [DecidableEq α] (chunk : Nat) (s0 : St α) (hs : create chunk = some s0) (es : List (Ev α)) :
    run s0 es = none ↔ ¬ Spec.Fed (full chunk) [] es := by
  have hc : 0 < chunk := by
    rcases Nat.eq_zero_or_pos chunk with h | h
    · subst h; rw [create, if_pos (by omega)] at hs; cases hs
    · exact h
  obtain ⟨s1, h1, h2, _, h3⟩ := create_rep (α := α) hc
  rw [hs] at h1; cases h1
  rw [← h2]
  constructor
  · intro hr hf
    obtain ⟨s, r1, _⟩ := run_rep es h3 hf
    rw [hr] at r1; cases r1
  · exact run_starved es h3

/-- An insertion that runs out of memory at the wrong moment goes wrong. -/
theorem C99_insert_refuted : ∃ (s0 : St Nat) (es : List (Ev Nat)), create 2 = some s0 ∧ run s0 es = none :=
  ⟨_, [.call (.append 5) [], .call (.insert 0 6) [true, false]], rfl, rfl⟩

theorem live_length (h : Heap α) (ps : List Nat) (hd : ps.Nodup) (hc : ∀ q, rc h q = ps.count q) : (h.filter (fun e => e.2 ≠ 0)).length = ps.length := by
  have h1 : ∀ h : Heap α, (h.filter (fun e => e.2 ≠ 0)).length = ((List.range h.length).filter (fun q => rc h q ≠ 0)).length := by
    intro h
    induction h using List.reverseRecOn with
    | nil => rfl
    | append_singleton h e ih =>
      rw [List.filter_append, List.length_append, ih, List.length_append, List.length_singleton, List.range_succ, List.filter_append, List.length_append]
      congr 1
      · congr 1
        apply List.filter_congr
        intro q hq
        have hq' : q < h.length := by simpa using hq
        have : rc (h ++ [e]) q = rc h q := by unfold rc; rw [List.getElem?_append_left hq']
        rw [this]
      · have : rc (h ++ [e]) h.length = e.2 := by simp [rc]
        simp only [List.filter_cons, List.filter_nil, this]
        split <;> rfl
  rw [h1]
  apply List.Perm.length_eq
  rw [List.perm_ext_iff_of_nodup (List.nodup_range.filter _) hd]
  intro q
  rw [List.mem_filter, List.mem_range]
  have hq := hc q
  constructor
  · rintro ⟨_, hne⟩
    have : 0 < ps.count q := by have : rc h q ≠ 0 := by simpa using hne
                                omega
    exact List.count_pos_iff.mp this
  · intro hm
    have : 0 < ps.count q := List.count_pos_iff.mpr hm
    exact ⟨lt_of_rc (h := h) (by omega), by simp; omega⟩

/-- C99: once the collector has freed all it was given, as many elements are allocated as the list has, and one buffer.  (`(Spec.run …).1` is the list.) -/
theorem C99_memory [DecidableEq α] (chunk : Nat) (s0 s : St α) (hs : create chunk = some s0) (es : List (Ev α)) (rs : List (Res α)) (hr : run s0 es = some (s, rs)) (hq : s.held = []) :
    (s.heap.filter (fun e => e.2 ≠ 0)).length = (Spec.run (full chunk) [] es).1.length ∧ (s.datas.filter Option.isSome).length = 1 := by
  have hf : Spec.Fed (full chunk) [] es := by
    by_contra h; rw [(C99_fault_exact chunk s0 hs es).mpr h] at hr; cases hr
  have hc : 0 < chunk := by
    rcases Nat.eq_zero_or_pos chunk with h | h
    · subst h; rw [create, if_pos (by omega)] at hs; cases hs
    · exact h
  obtain ⟨s1, h1, h2, _, h3⟩ := create_rep (α := α) hc
  rw [hs] at h1; cases h1
  rw [← h2] at hf ⊢
  obtain ⟨s', r1, ⟨ho, ps, hh⟩, _⟩ := run_rep es h3 hf
  rw [hr] at r1; cases r1
  -- the only data is the data of the map
  have honly : ∀ (k : Nat) (d : Data), s.datas[k]? = some (some d) → k = s.cur := by
    intro k d hk
    rcases ho.live k d hk with e | e
    · exact e
    · rw [hq] at e; cases e
  have hsplit : ∃ A B, s.datas = A ++ some (dat s.chunk ps) :: B ∧ (∀ o ∈ A ++ B, o = none) := by
    have hlt : s.cur < s.datas.length := by
      rcases Nat.lt_or_ge s.cur s.datas.length with a | a
      · exact a
      · have := hh.cur; rw [List.getElem?_eq_none a] at this; cases this
    have hcur : s.datas[s.cur] = some (dat s.chunk ps) := by have := hh.cur; rw [List.getElem?_eq_getElem hlt] at this; exact Option.some.inj this
    refine ⟨s.datas.take s.cur, s.datas.drop (s.cur + 1), ?_, fun o ho' => ?_⟩
    · rw [← hcur, List.getElem_cons_drop, List.take_append_drop]
    · cases o with
      | none => rfl
      | some d =>
        rcases List.mem_append.mp ho' with hm | hm
        · obtain ⟨k, hk, e⟩ := List.mem_iff_getElem.mp hm
          rw [List.getElem_take] at e
          simp only [List.length_take] at hk
          have := honly k d (by rw [List.getElem?_eq_getElem (by omega), e])
          omega
        · obtain ⟨k, hk, e⟩ := List.mem_iff_getElem.mp hm
          rw [List.getElem_drop] at e
          simp only [List.length_drop] at hk
          have := honly (s.cur + 1 + k) d (by rw [List.getElem?_eq_getElem (by omega), e])
          omega
  obtain ⟨A, B, hAB, hnone⟩ := hsplit
  have hA : ∀ L : List (Option Data), (∀ o ∈ L, o = none) → L.flatMap dptrs = [] ∧ L.filter Option.isSome = [] := by
    intro L
    induction L with
    | nil => intro _; exact ⟨rfl, rfl⟩
    | cons a L ih =>
      intro h
      have := h a (by simp); subst this
      obtain ⟨i1, i2⟩ := ih fun o ho' => h o (by simp [ho'])
      exact ⟨i1, i2⟩
  obtain ⟨a1, a2⟩ := hA A fun o h' => hnone o (List.mem_append_left _ h')
  obtain ⟨b1, b2⟩ := hA B fun o h' => hnone o (List.mem_append_right _ h')
  constructor
  · rw [← hh.len]
    apply live_length _ _ hh.distinct
    intro q
    rw [ho.count, refs, hq, hAB, List.filterMap_nil, List.append_nil, List.flatMap_append, List.flatMap_cons, a1, b1, dptrs_dat]
    simp
  · rw [hAB, List.filter_append, List.filter_cons, a2, b2]
    simp

/-- C99: the collector can free all it was given, and the map is the same list. -/
theorem C99_drain [DecidableEq α] (chunk : Nat) (s0 s : St α) (hs : create chunk = some s0) (es : List (Ev α)) (rs : List (Res α)) (hr : run s0 es = some (s, rs)) :
    ∃ s', run s (List.replicate s.held.length (.collect 0)) = some (s', []) ∧ s'.held = [] ∧ ∀ i, get s' i = some (Spec.run (full chunk) [] es).1[i]? := by
  have hf : Spec.Fed (full chunk) [] es := by
    by_contra h; rw [(C99_fault_exact chunk s0 hs es).mpr h] at hr; cases hr
  have hc : 0 < chunk := by
    rcases Nat.eq_zero_or_pos chunk with h | h
    · subst h; rw [create, if_pos (by omega)] at hs; cases hs
    · exact h
  obtain ⟨s1, h1, h2, _, h3⟩ := create_rep (α := α) hc
  rw [hs] at h1; cases h1
  rw [← h2] at hf ⊢
  obtain ⟨s', r1, hrep, _⟩ := run_rep es h3 hf
  rw [hr] at r1; cases r1
  clear hr hf
  generalize hn : s.held.length = n
  induction n generalizing s with
  | zero =>
    obtain ⟨ho, ps, hh⟩ := hrep
    exact ⟨s, rfl, List.length_eq_zero_iff.mp hn, fun i => get_spec ho hh i⟩
  | succ n ih =>
    obtain ⟨s2, c1, c2, c3, c4⟩ := collect_rep hrep 0
    have hl : s2.held.length = n := by rw [c4, List.length_eraseIdx, if_pos (by omega)]; omega
    obtain ⟨s3, e1, e2⟩ := ih s2 c2 (by rw [c3]; assumption) hl
    refine ⟨s3, ?_, e2⟩
    rw [List.replicate_succ, run, c1]
    exact e1

theorem freeItem_held (s : St α) (t : Item) (x : List Item) : freeItem { s with held := x } t = (freeItem s t).map fun s => { s with held := x } := by
  cases t with
  | elem p =>
    simp only [freeItem, Option.bind_eq_bind]
    cases free s.heap p <;> rfl
  | data k =>
    simp only [freeItem, Option.bind_eq_bind]
    cases s.datas[k]?.join with
    | none => rfl
    | some d =>
      simp only [Option.bind_some]
      cases freeData s.chunk s.heap d <;> rfl

theorem freeItems_own (ts : List Item) : ∀ {s : St α}, Own { s with held := ts } → s.datas[s.cur]? = some none →
    ∃ s', freeItems s ts = some s' ∧ Own { s' with held := [] } ∧ s'.datas[s'.cur]? = some none := by
  induction ts with
  | nil => intro s h hn; exact ⟨s, rfl, h, hn⟩
  | cons t ts ih =>
    intro s h hn
    obtain ⟨s1, e1, e2, _, e4, e5, _, e7, _⟩ := h.collect (k := 0) (t := t) rfl
    have e1 : freeItem { s with held := ts } t = some s1 := e1
    rw [freeItem_held] at e1
    cases hs : freeItem s t with
    | none => rw [hs] at e1; cases e1
    | some s2 =>
      rw [hs] at e1
      simp only [Option.map_some, Option.some.injEq] at e1
      have hcur : s1.cur = s2.cur := by rw [← e1]
      have hdat : s1.datas = s2.datas := by rw [← e1]
      have hc2 : s2.cur = s.cur := hcur.symm.trans e5
      obtain ⟨s', f1, f2⟩ := ih (s := s2) (by rw [e1]; exact e2) (by rw [← hdat, hc2]; exact e4.trans hn)
      exact ⟨s', by rw [freeItems, hs]; exact f1, f2⟩

/-- C99: when the map is destroyed, everything it has allocated is freed: every element and every buffer. -/
theorem C99_destroy [DecidableEq α] (chunk : Nat) (s0 s : St α) (hs : create chunk = some s0) (es : List (Ev α)) (rs : List (Res α)) (hr : run s0 es = some (s, rs)) :
    ∃ s', destroy s = some s' ∧ (∀ e ∈ s'.heap, e.2 = 0) ∧ (∀ d ∈ s'.datas, d = none) ∧ s'.held = [] := by
  have hf : Spec.Fed (full chunk) [] es := by
    by_contra h; rw [(C99_fault_exact chunk s0 hs es).mpr h] at hr; cases hr
  have hc : 0 < chunk := by
    rcases Nat.eq_zero_or_pos chunk with h | h
    · subst h; rw [create, if_pos (by omega)] at hs; cases hs
    · exact h
  obtain ⟨s1, h1, h2, _, h3⟩ := create_rep (α := α) hc
  rw [hs] at h1; cases h1
  rw [← h2] at hf
  obtain ⟨s', r1, ⟨ho, ps, hh⟩, _⟩ := run_rep es h3 hf
  rw [hr] at r1; cases r1
  obtain ⟨h', f1, f2, f3⟩ := freeData_spec (h := s.heap) ho.chunk (ps := ps) (fun q => by
    have := count_flat_le q hh.cur; rw [dptrs_dat] at this; rw [ho.count, refs, List.count_append]; omega)
  have hlt : s.cur < s.datas.length := by
    rcases Nat.lt_or_ge s.cur s.datas.length with a | a
    · exact a
    · have := hh.cur; rw [List.getElem?_eq_none a] at this; cases this
  have hset : ∀ i : Nat, (s.datas.set s.cur none)[i]? = if s.cur = i then some none else s.datas[i]? := by
    intro i; rw [List.getElem?_set]
    by_cases e : s.cur = i
    · subst e; rw [if_pos rfl, if_pos hlt, if_pos rfl]
    · rw [if_neg e, if_neg e]
  have hown : Own { s with heap := h', datas := s.datas.set s.cur none } := by
    refine ⟨ho.chunk, fun i d hi => ?_, fun q => ?_, fun i d hi => ?_, fun i hi => ?_, ho.nodup⟩
    · rw [show (s.datas.set s.cur none)[i]? = _ from hset i] at hi
      split at hi
      · cases hi
      · exact ho.form i d hi
    · have g1 := ho.count q; have g2 := f2 q
      have g3 := count_flat_set q s.datas s.cur _ none hh.cur
      rw [dptrs_dat] at g3
      have g4 : (dptrs none).count q = 0 := rfl
      show rc h' q = _
      simp only [refs, List.count_append] at g1 ⊢; omega
    · rw [show (s.datas.set s.cur none)[i]? = _ from hset i] at hi
      split at hi
      · cases hi
      · exact ho.live i d hi
    · obtain ⟨g1, d, g2⟩ := ho.held i hi
      refine ⟨g1, d, ?_⟩
      show (s.datas.set s.cur none)[i]? = _
      rw [hset, if_neg (fun e => g1 e.symm)]; exact g2
  obtain ⟨s2, e1, e2, e3⟩ := freeItems_own s.held (s := { s with heap := h', datas := s.datas.set s.cur none }) hown
    (by show (s.datas.set s.cur none)[s.cur]? = _; rw [hset, if_pos rfl])
  have hdn : ∀ d ∈ s2.datas, d = none := by
    intro d hd
    obtain ⟨k, hk, e⟩ := List.mem_iff_getElem.mp hd
    cases d with
    | none => rfl
    | some d =>
      have hk' : s2.datas[k]? = some (some d) := by rw [List.getElem?_eq_getElem hk, e]
      rcases e2.live k d hk' with e | e
      · simp only at e; rw [e, e3] at hk'; cases hk'
      · cases e
  refine ⟨{ s2 with held := [] }, ?_, fun e he => ?_, hdn, rfl⟩
  · rw [destroy, freeItem, hh.cur]
    simp only [Option.join, Option.bind_eq_bind, Option.bind_some, id]
    rw [f1]
    simp only [Option.bind_some, Option.pure_def]
    rw [e1]; rfl
  · obtain ⟨k, hk, e'⟩ := List.mem_iff_getElem.mp he
    have h4 : rc s2.heap k = 0 := by
      have := e2.count k
      have hz : refs ({ s2 with held := [] } : St α) = [] := by
        simp only [refs, List.filterMap_nil, List.append_nil]
        rw [List.flatMap_eq_nil_iff]
        intro d hd; rw [hdn d hd]; rfl
      rw [hz] at this; exact this
    have h5 : rc s2.heap k = e.2 := by
      show (match s2.heap[k]? with | some (_, n) => n | none => 0) = _
      have : s2.heap[k]? = some e := by rw [List.getElem?_eq_getElem hk]; exact congrArg some e'
      rw [this]
    omega

/-! ## Examples -/

/-- Two elements are appended to a map with chunks of one; the second needs a new buffer, and first finds no memory. -/
def demo : List (Ev Nat) :=
  [.call (.append 5) [], .call (.append 6) [true, true, false], .call (.append 6) [], .call (.replace 0 7) [], .collect 1, .call (.replaceExact 0 8 7) [true], .call (.insert 1 9) [false, true, true], .collect 0, .call (.remove 0) [false], .call (.get 0) []]

example : Spec.Fed (full 1) [] demo := by
  simp only [demo, Spec.Fed, and_true]
  refine ⟨?_, ?_, ?_, ?_, ?_, ?_, ?_, ?_⟩ <;> intro i x h
  all_goals first
    | (cases h; done)
    | (cases h; intro _; rintro ⟨n, rest, h⟩
       rcases n with _ | _ | n
       · cases h
       · cases h
       · cases h)

example : ((create 1).bind fun s => (run s demo).map Prod.snd) =
    some [.num (some 0), .num none, .num (some 1), .elem (some 5), .bool true, .bool true, .elem (some 8), .elem (some 9)] := by decide

example : (((create 1).bind fun s => run s demo).map fun s => s.1.held.length) = some 4 := by decide

#print axioms C99_calls_partial
#print axioms C99_fault_exact
#print axioms C99_insert_refuted
#print axioms C99_memory
#print axioms C99_drain
#print axioms C99_destroy

end Verif.PtrMap
