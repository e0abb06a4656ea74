import Verif.PtrMapLemmas
/-!
# The index map with elements stored by pointer: the invariant
-/
namespace Verif.PtrMap
open IndexMap (Slot Res maxCount write load shift initLoop appendLoop cells full)
variable {α : Type}

/-- The pointers in data that is not freed. -/
def dptrs : Option Data → List Nat
  | some d => ptrs d.buf
  | none => []

/-- The elements the collector holds. -/
def Item.ptr? : Item → Option Nat
  | .elem p => some p
  | .data _ => none

/-- The data the collector holds. -/
def Item.data? : Item → Option Nat
  | .data d => some d
  | .elem _ => none

/-- All references to elements. -/
def refs (s : St α) : List Nat := s.datas.flatMap dptrs ++ s.held.filterMap Item.ptr?

/-- Every reference is counted, and what the collector holds is what is allocated besides the data of the map. -/
structure Own (s : St α) : Prop where
  chunk : 0 < s.chunk
  form : ∀ (k : Nat) (d : Data), s.datas[k]? = some (some d) → ∃ ps, d = dat s.chunk ps
  count : ∀ q, rc s.heap q = (refs s).count q
  live : ∀ (k : Nat) (d : Data), s.datas[k]? = some (some d) → k = s.cur ∨ k ∈ s.held.filterMap Item.data?
  held : ∀ k : Nat, k ∈ s.held.filterMap Item.data? → k ≠ s.cur ∧ ∃ d, s.datas[k]? = some (some d)
  nodup : (s.held.filterMap Item.data?).Nodup

/-- The map stands for `l`, with the pointers `ps`. -/
structure Has (s : St α) (ps : List Nat) (l : List α) : Prop where
  cur : s.datas[s.cur]? = some (some (dat s.chunk ps))
  vals : ps.map (val s.heap) = l.map some
  distinct : ps.Nodup

theorem dptrs_dat (chunk : Nat) (ps : List Nat) : dptrs (some (dat chunk ps)) = ps := ptrs_cells _ _

theorem count_flat_set (q : Nat) : ∀ (ds : List (Option Data)) (k : Nat) (o o' : Option Data), ds[k]? = some o →
    ((ds.set k o').flatMap dptrs).count q + (dptrs o).count q = (ds.flatMap dptrs).count q + (dptrs o').count q := by
  intro ds
  induction ds with
  | nil => intro k o o' h; cases h
  | cons a ds ih =>
    intro k o o' h
    cases k with
    | zero =>
      simp only [List.getElem?_cons_zero, Option.some.injEq] at h
      subst h
      simp only [List.set_cons_zero, List.flatMap_cons, List.count_append]; omega
    | succ k =>
      simp only [List.getElem?_cons_succ] at h
      have := ih k o o' h
      simp only [List.set_cons_succ, List.flatMap_cons, List.count_append]; omega

theorem count_flat_le (q : Nat) {ds : List (Option Data)} {k : Nat} {o : Option Data} (h : ds[k]? = some o) : (dptrs o).count q ≤ (ds.flatMap dptrs).count q := by
  have := count_flat_set q ds k o none h
  have h2 : (dptrs none).count q = 0 := rfl
  omega

theorem Own.pos {s : St α} (h : Own s) {k : Nat} {ps : List Nat} (hk : s.datas[k]? = some (some (dat s.chunk ps))) {p : Nat} (hp : p ∈ ps) : 0 < rc s.heap p := by
  have h1 := count_flat_le p hk
  rw [dptrs_dat] at h1
  have h2 : 0 < ps.count p := List.count_pos_iff.mpr hp
  rw [h.count, refs, List.count_append]; omega

theorem Has.len {s : St α} {ps : List Nat} {l : List α} (h : Has s ps l) : ps.length = l.length := by
  have := congrArg List.length h.vals; simpa using this

theorem Has.get {s : St α} {ps : List Nat} {l : List α} (h : Has s ps l) {i : Nat} (hi : i < ps.length) : ∃ hl : i < l.length, val s.heap ps[i] = some l[i] := by
  have hl : i < l.length := by rw [← h.len]; exact hi
  have := congrArg (fun z : List (Option α) => z[i]?) h.vals
  simp only [List.getElem?_map, List.getElem?_eq_getElem hi, List.getElem?_eq_getElem hl, Option.map_some, Option.some.injEq] at this
  exact ⟨hl, this⟩

theorem data_eq {s : St α} {ps : List Nat} {l : List α} (h : Has s ps l) : s.data = some (dat s.chunk ps) := by
  rw [St.data, h.cur]; rfl

/-- A new heap in which the references are as before. -/
theorem Own.heap {s : St α} (h : Own s) {h' : Heap α} (hc : ∀ q, rc h' q = rc s.heap q) : Own { s with heap := h' } :=
  ⟨h.chunk, h.form, fun q => (hc q).trans (h.count q), h.live, h.held, h.nodup⟩

theorem Has.heap {s : St α} {ps : List Nat} {l : List α} (h : Has s ps l) {h' : Heap α} (hv : ∀ q ∈ ps, val h' q = val s.heap q) : Has { s with heap := h' } ps l :=
  ⟨h.cur, by rw [← h.vals]; exact List.map_congr_left hv, h.distinct⟩

/-- The data of the map is changed in place: the elements `ps` become `ps'`, and `t` is handed over. -/
theorem Own.inPlace {s : St α} {ps ps' : List Nat} {l : List α} (h : Own s) (hh : Has s ps l) {h' : Heap α} {t : List Nat}
    (hc : ∀ q, rc h' q + ps.count q = rc s.heap q + ps'.count q + t.count q) :
    Own { s with heap := h', datas := s.datas.set s.cur (some (dat s.chunk ps')), held := s.held ++ t.map Item.elem } := by
  have hlt : s.cur < s.datas.length := by
    rcases Nat.lt_or_ge s.cur s.datas.length with h1 | h1
    · exact h1
    · have := hh.cur; rw [List.getElem?_eq_none h1] at this; cases this
  have hg : ∀ (k : Nat) (d : Data), (s.datas.set s.cur (some (dat s.chunk ps')))[k]? = some (some d) → (k = s.cur ∧ d = dat s.chunk ps') ∨ (k ≠ s.cur ∧ s.datas[k]? = some (some d)) := by
    intro k d hk
    rw [List.getElem?_set] at hk
    by_cases e : s.cur = k
    · rw [if_pos e, if_pos (by omega)] at hk
      simp only [Option.some.injEq] at hk
      exact .inl ⟨e.symm, hk.symm⟩
    · rw [if_neg e] at hk; exact .inr ⟨fun e' => e e'.symm, hk⟩
  have hn : (t.map Item.elem).filterMap Item.data? = [] := by
    clear hc; induction t with
    | nil => rfl
    | cons a t ih => exact ih
  have hm : (t.map Item.elem).filterMap Item.ptr? = t := by
    clear hc hn; induction t with
    | nil => rfl
    | cons a t ih => rw [List.map_cons, List.filterMap_cons]; simp only [Item.ptr?]; rw [ih]
  refine ⟨h.chunk, fun k d hk => ?_, fun q => ?_, fun k d hk => ?_, fun k hk => ?_, ?_⟩
  · rcases hg k d hk with ⟨_, e⟩ | ⟨_, e⟩
    · exact ⟨ps', e⟩
    · exact h.form k d e
  · have h1 := count_flat_set q s.datas s.cur (some (dat s.chunk ps)) (some (dat s.chunk ps')) hh.cur
    rw [dptrs_dat, dptrs_dat] at h1
    have h2 := hc q
    have h3 := h.count q
    show rc h' q = _
    simp only [refs, List.filterMap_append, hm, List.count_append] at h3 ⊢
    omega
  · simp only [List.filterMap_append, hn, List.append_nil]
    rcases hg k d hk with ⟨e, _⟩ | ⟨_, e⟩
    · exact .inl e
    · exact h.live k d e
  · simp only [List.filterMap_append, hn, List.append_nil] at hk
    obtain ⟨h1, d, h2⟩ := h.held k hk
    refine ⟨h1, d, ?_⟩
    show (s.datas.set s.cur _)[k]? = _
    rw [List.getElem?_set, if_neg (fun e => h1 e.symm)]; exact h2
  · simp only [List.filterMap_append, hn, List.append_nil]; exact h.nodup

theorem Has.inPlace {s : St α} {ps ps' : List Nat} {l l' : List α} (hh : Has s ps l) {h' : Heap α} {t : List Item}
    (hv : ps'.map (val h') = l'.map some) (hd : ps'.Nodup) :
    Has { s with heap := h', datas := s.datas.set s.cur (some (dat s.chunk ps')), held := s.held ++ t } ps' l' := by
  have hlt : s.cur < s.datas.length := by
    rcases Nat.lt_or_ge s.cur s.datas.length with h1 | h1
    · exact h1
    · have := hh.cur; rw [List.getElem?_eq_none h1] at this; cases this
  refine ⟨?_, hv, hd⟩
  show (s.datas.set s.cur _)[s.cur]? = _
  rw [List.getElem?_set, if_pos rfl, if_pos hlt]

/-- New data is published, with references of its own. -/
theorem Own.publish {s : St α} {ps : List Nat} {l : List α} (h : Own s) (hh : Has s ps l) {h' : Heap α} {ps' : List Nat}
    (hc : ∀ q, rc h' q = rc s.heap q + ps'.count q) : Own (s.publish h' (dat s.chunk ps')) := by
  have hlt : s.cur < s.datas.length := by
    rcases Nat.lt_or_ge s.cur s.datas.length with h1 | h1
    · exact h1
    · have := hh.cur; rw [List.getElem?_eq_none h1] at this; cases this
  have hg : ∀ (k : Nat) (o : Option Data), (s.datas ++ [some (dat s.chunk ps')])[k]? = some o → (k = s.datas.length ∧ o = some (dat s.chunk ps')) ∨ (k < s.datas.length ∧ s.datas[k]? = some o) := by
    intro k o hk
    rcases Nat.lt_trichotomy k s.datas.length with h1 | h1 | h1
    · rw [List.getElem?_append_left h1] at hk; exact .inr ⟨h1, hk⟩
    · subst h1; simp at hk; exact .inl ⟨rfl, hk.symm⟩
    · rw [List.getElem?_eq_none (by simp; omega)] at hk; cases hk
  have hf : (s.held ++ [Item.data s.cur]).filterMap Item.data? = s.held.filterMap Item.data? ++ [s.cur] := by rw [List.filterMap_append]; rfl
  have hp : (s.held ++ [Item.data s.cur]).filterMap Item.ptr? = s.held.filterMap Item.ptr? := by rw [List.filterMap_append]; simp [Item.ptr?]
  refine ⟨h.chunk, fun k d hk => ?_, fun q => ?_, fun k d hk => ?_, fun k hk => ?_, ?_⟩
  · rcases hg k _ hk with ⟨_, e⟩ | ⟨_, e⟩
    · exact ⟨ps', Option.some.inj e⟩
    · exact h.form k d e
  · have h3 := h.count q
    have h4 := hc q
    show rc h' q = _
    simp only [refs, St.publish, hp, List.flatMap_append, List.count_append, List.flatMap_cons, List.flatMap_nil, List.append_nil, dptrs_dat] at h3 ⊢
    omega
  · show k = s.datas.length ∨ k ∈ (s.held ++ [Item.data s.cur]).filterMap Item.data?
    rw [hf]
    rcases hg k _ hk with ⟨e, _⟩ | ⟨_, e⟩
    · exact .inl e
    · rcases h.live k d e with e | e
      · subst e; exact .inr (by simp)
      · exact .inr (List.mem_append_left _ e)
  · show k ≠ s.datas.length ∧ ∃ d, (s.datas ++ [some (dat s.chunk ps')])[k]? = some (some d)
    have hk' : k ∈ (s.held ++ [Item.data s.cur]).filterMap Item.data? := hk
    rw [hf] at hk'
    have key : k < s.datas.length ∧ ∃ d, s.datas[k]? = some (some d) := by
      rcases List.mem_append.mp hk' with e | e
      · obtain ⟨_, d, h2⟩ := h.held k e
        refine ⟨?_, d, h2⟩
        rcases Nat.lt_or_ge k s.datas.length with h1 | h1
        · exact h1
        · rw [List.getElem?_eq_none h1] at h2; cases h2
      · simp only [List.mem_singleton] at e; subst e; exact ⟨hlt, _, hh.cur⟩
    obtain ⟨h1, d, h2⟩ := key
    exact ⟨by omega, d, by rw [List.getElem?_append_left h1]; exact h2⟩
  · show ((s.held ++ [Item.data s.cur]).filterMap Item.data?).Nodup
    rw [hf, List.nodup_append]
    refine ⟨h.nodup, by simp, fun a ha b hb => ?_⟩
    simp only [List.mem_singleton] at hb; subst hb
    exact (h.held a ha).1

theorem Has.publish {s : St α} {h' : Heap α} {ps' : List Nat} {l' : List α} (hv : ps'.map (val h') = l'.map some) (hd : ps'.Nodup) :
    Has (s.publish h' (dat s.chunk ps')) ps' l' := by
  refine ⟨?_, hv, hd⟩
  show (s.datas ++ [some (dat s.chunk ps')])[s.datas.length]? = _
  simp [St.publish]

theorem filterMap_eraseIdx_data {L : List Item} {k j : Nat} (h : L[k]? = some (.data j)) :
    ∃ A B, L.filterMap Item.data? = A ++ j :: B ∧ (L.eraseIdx k).filterMap Item.data? = A ++ B ∧ (L.eraseIdx k).filterMap Item.ptr? = L.filterMap Item.ptr? := by
  induction L generalizing k with
  | nil => cases h
  | cons a L ih =>
    cases k with
    | zero =>
      simp only [List.getElem?_cons_zero, Option.some.injEq] at h
      subst h
      exact ⟨[], L.filterMap Item.data?, rfl, rfl, rfl⟩
    | succ k =>
      simp only [List.getElem?_cons_succ] at h
      obtain ⟨A, B, h1, h2, h3⟩ := ih h
      rw [List.eraseIdx_cons_succ]
      cases a with
      | elem p =>
        refine ⟨A, B, h1, h2, ?_⟩
        simp only [List.filterMap_cons, Item.ptr?]; rw [h3]
      | data i =>
        refine ⟨i :: A, B, ?_, ?_, ?_⟩
        · simp only [List.filterMap_cons, Item.data?]; rw [h1]; rfl
        · simp only [List.filterMap_cons, Item.data?]; rw [h2]; rfl
        · simp only [List.filterMap_cons, Item.ptr?]; exact h3

theorem filterMap_eraseIdx_elem {L : List Item} {k p : Nat} (h : L[k]? = some (.elem p)) :
    (L.eraseIdx k).filterMap Item.data? = L.filterMap Item.data? ∧ ∀ q, ((L.eraseIdx k).filterMap Item.ptr?).count q + one p q = (L.filterMap Item.ptr?).count q := by
  induction L generalizing k with
  | nil => cases h
  | cons a L ih =>
    cases k with
    | zero =>
      simp only [List.getElem?_cons_zero, Option.some.injEq] at h
      subst h
      refine ⟨rfl, fun q => ?_⟩
      simp only [List.filterMap_cons, Item.ptr?, List.eraseIdx_cons_zero]; rw [count_cons_one]
    | succ k =>
      simp only [List.getElem?_cons_succ] at h
      obtain ⟨h1, h2⟩ := ih h
      rw [List.eraseIdx_cons_succ]
      cases a with
      | elem p' =>
        refine ⟨h1, fun q => ?_⟩
        simp only [List.filterMap_cons, Item.ptr?]; rw [count_cons_one, count_cons_one]; have := h2 q; omega
      | data i =>
        refine ⟨?_, h2⟩
        simp only [List.filterMap_cons, Item.data?]; rw [h1]

/-- The collector frees an item it holds: the other data stays, and the values of the elements. -/
theorem Own.collect {s : St α} (h : Own s) {k : Nat} {t : Item} (hk : s.held[k]? = some t) :
    ∃ s', freeItem { s with held := s.held.eraseIdx k } t = some s' ∧ Own s' ∧ (∀ q, val s'.heap q = val s.heap q) ∧
      s'.datas[s.cur]? = s.datas[s.cur]? ∧ s'.cur = s.cur ∧ s'.chunk = s.chunk ∧ s'.held = s.held.eraseIdx k ∧ (∀ j : Nat, t = .data j → s'.datas[j]? = some none) := by
  cases t with
  | elem p =>
    obtain ⟨e1, e2⟩ := filterMap_eraseIdx_elem hk
    have hp : 0 < rc s.heap p := by
      rw [h.count, refs, List.count_append]
      have := e2 p; rw [one, if_pos rfl] at this; omega
    obtain ⟨h', f1, f2, f3⟩ := free_spec hp
    refine ⟨{ s with held := s.held.eraseIdx k, heap := h' }, ?_, ⟨h.chunk, h.form, fun q => ?_, ?_, ?_, ?_⟩, f3, rfl, rfl, rfl, rfl, fun j e => by cases e⟩
    · rw [freeItem]; simp only; rw [f1]; rfl
    · have h1 := h.count q; have h2 := f2 q; have h3 := e2 q
      show rc h' q = _
      simp only [refs, List.count_append] at h1 ⊢; omega
    · show ∀ (j : Nat) (d : Data), s.datas[j]? = some (some d) → j = s.cur ∨ j ∈ (s.held.eraseIdx k).filterMap Item.data?
      rw [e1]; exact h.live
    · show ∀ j : Nat, j ∈ (s.held.eraseIdx k).filterMap Item.data? → _
      rw [e1]; exact h.held
    · show ((s.held.eraseIdx k).filterMap Item.data?).Nodup
      rw [e1]; exact h.nodup
  | data j =>
    obtain ⟨A, B, e1, e2, e3⟩ := filterMap_eraseIdx_data hk
    have hj : j ∈ s.held.filterMap Item.data? := by rw [e1]; simp
    obtain ⟨hjc, d, hd⟩ := h.held j hj
    obtain ⟨ps, rfl⟩ := h.form j d hd
    have hlt : j < s.datas.length := by
      rcases Nat.lt_or_ge j s.datas.length with h1 | h1
      · exact h1
      · rw [List.getElem?_eq_none h1] at hd; cases hd
    obtain ⟨h', f1, f2, f3⟩ := freeData_spec (h := s.heap) h.chunk (ps := ps) (fun q => by
      have := count_flat_le q hd; rw [dptrs_dat] at this; rw [h.count, refs, List.count_append]; omega)
    have hnd := h.nodup
    rw [e1] at hnd
    have hset : ∀ i : Nat, (s.datas.set j none)[i]? = if j = i then some none else s.datas[i]? := by
      intro i; rw [List.getElem?_set]
      by_cases e : j = i
      · subst e; rw [if_pos rfl, if_pos hlt, if_pos rfl]
      · rw [if_neg e, if_neg e]
    refine ⟨{ s with held := s.held.eraseIdx k, heap := h', datas := s.datas.set j none }, ?_, ⟨h.chunk, fun i d hi => ?_, fun q => ?_, fun i d hi => ?_, fun i hi => ?_, ?_⟩, f3, ?_, rfl, rfl, rfl, fun i e => ?_⟩
    · rw [freeItem]; simp only; rw [hd]; simp only [Option.join, Option.bind_some, id, Option.bind_eq_bind]; rw [f1]; rfl
    · rw [show (s.datas.set j none)[i]? = _ from hset i] at hi
      split at hi
      · cases hi
      · exact h.form i d hi
    · have h1 := h.count q; have h2 := f2 q
      have h3 := count_flat_set q s.datas j _ none hd
      rw [dptrs_dat] at h3
      have h4 : (dptrs none).count q = 0 := rfl
      show rc h' q = _
      simp only [refs, List.count_append, e3] at h1 ⊢; omega
    · show i = s.cur ∨ i ∈ (s.held.eraseIdx k).filterMap Item.data?
      rw [show (s.datas.set j none)[i]? = _ from hset i] at hi
      split at hi
      · cases hi
      · rename_i hne
        rcases h.live i d hi with e | e
        · exact .inl e
        · rw [e1] at e; rw [e2]
          refine .inr ?_
          rcases List.mem_append.mp e with e | e
          · exact List.mem_append_left _ e
          · rcases List.mem_cons.mp e with e | e
            · exact absurd e.symm hne
            · exact List.mem_append_right _ e
    · show i ≠ s.cur ∧ ∃ d, (s.datas.set j none)[i]? = some (some d)
      have hi' : i ∈ (s.held.eraseIdx k).filterMap Item.data? := hi
      rw [e2] at hi'
      have hmem : i ∈ s.held.filterMap Item.data? := by
        rw [e1]
        rcases List.mem_append.mp hi' with e | e
        · exact List.mem_append_left _ e
        · exact List.mem_append_right _ (List.mem_cons_of_mem _ e)
      have hne : j ≠ i := by
        rintro rfl
        have := (List.perm_middle (l₁ := A) (a := j) (l₂ := B)).nodup_iff.mp hnd
        exact (List.nodup_cons.mp this).1 hi'
      obtain ⟨h1, d, h2⟩ := h.held i hmem
      exact ⟨h1, d, by rw [hset, if_neg hne]; exact h2⟩
    · show ((s.held.eraseIdx k).filterMap Item.data?).Nodup
      rw [e2]
      exact (List.nodup_cons.mp ((List.perm_middle (l₁ := A) (a := j) (l₂ := B)).nodup_iff.mp hnd)).2
    · show (s.datas.set j none)[s.cur]? = _
      rw [hset, if_neg hjc]
    · cases e
      show (s.datas.set j none)[j]? = _
      rw [hset, if_pos rfl]

end Verif.PtrMap
