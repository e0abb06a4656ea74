import Verif.CollectionArrayLemmas
/-!
# C39, C40, C41: collections
-/
namespace Verif.Collection
open Spec
variable {α : Type}

section generic
variable {σ : Type} {I : Iface σ α} {relab : Ledger α → Ledger α} {fs : Bool} (L : Laws I relab fs)
include L

theorem Laws.holds {c : Coll σ α} {l} (r : L.R c.s l) : Holds I c l := by
  obtain ⟨v, h1, h2⟩ := L.fwd r
  obtain ⟨w, h3, h4⟩ := L.bwd r
  have key : ∀ {v : List (Cursor α × α)} {l : Ledger α},
      List.Forall₂ (fun (cx : Cursor α × α) p => cx.2 = p.2 ∧ I.enumeratorReference c.s cx.1 = some (c.s, p.1)) v l →
      v.map Prod.snd = l.map Prod.snd ∧ v.map (fun p => I.enumeratorReference c.s p.1) = l.map fun p => some (c.s, p.1) := by
    intro v l h
    induction h with
    | nil => exact ⟨rfl, rfl⟩
    | cons h _ ih => simp [h.1, h.2, ih.1, ih.2]
  refine ⟨L.count r, L.nz r, L.nodup r, ?_, ⟨v, h1, key h2⟩, ⟨w, h3, ?_⟩⟩
  · intro e x h
    obtain ⟨i, hi⟩ := L.idxOf r h
    exact L.getElement_ok r hi
  · have := key h4
    rwa [List.map_reverse, List.map_reverse] at this

theorem Laws.reach {k : Limits} (hf : k.mayFail = true → fs = true) (ho : k.anyOrder = true → I.removeCollection = none)
    {d c l ever} (h : Reach I relab k d c l ever) : L.R c.s l ∧ c.dtor = d ∧
      (d = true → (k.clear = true → I.removeAll = none) → ever.Perm (l.map Prod.snd ++ c.log)) := by
  induction h with
  | new => exact ⟨L.create, rfl, fun _ _ => List.Perm.refl _⟩
  | @call c l ever op c' r _ a e ih =>
    obtain ⟨ih1, ih2, ih3⟩ := ih
    obtain ⟨c2, rep, h1, -, h3, h4, h5⟩ := L.step hf ho ih1 a
    rw [e] at h1
    simp only [Option.some.injEq, Prod.mk.injEq] at h1
    obtain ⟨rfl, rfl⟩ := h1
    refine ⟨h3, h4.trans ih2, fun hd hc => ?_⟩
    obtain ⟨gone, h6, h7⟩ := h5 (ih2.trans hd) hc
    rw [h6]
    have p1 : (ever ++ added op r).Perm ((l.map Prod.snd ++ c.log) ++ added op r) := (ih3 hd hc).append_right _
    have p2 : ((l.map Prod.snd ++ c.log) ++ added op r).Perm ((l.map Prod.snd ++ added op r) ++ c.log) := by
      rw [List.append_assoc, List.append_assoc]
      exact List.perm_append_comm.append_left _
    have p3 := h7.append_right c.log
    refine p1.trans (p2.trans (p3.trans ?_))
    rw [List.append_assoc]
    exact List.perm_append_comm.append_left _

theorem Laws.script : ∀ (ops : List (Pos α)) {c : Coll σ α} {l : Ledger α}, L.R c.s l → l.length + ops.length < 2 ^ 64 →
    ∀ t, scriptList (l.map Prod.snd) ops = some t → Spec.script I c ops = some t := by
  intro ops
  induction ops with
  | nil =>
    intro c l r _ t h
    obtain ⟨v, h1, h2, -⟩ := (L.holds r).walk
    simp only [scriptList, Option.some.injEq] at h
    simp [Spec.script, h1, h2, h]
  | cons op ops ih =>
    intro c l r hl t h
    simp only [List.length_cons] at hl
    -- one step
    have one : ∀ {xs seen}, onList (l.map Prod.snd) op = some (xs, seen) →
        ∃ c' l', observe I c op = some (c', seen) ∧ L.R c'.s l' ∧ l'.map Prod.snd = xs ∧ l'.length ≤ l.length + 1 := by
      intro xs seen hs
      have at_ : ∀ i, i < l.length → ∃ e x, l[i]? = some (e, x) := fun i hi => ⟨l[i].1, l[i].2, by simp [hi]⟩
      have len : ∀ {l' : Ledger α}, (relab l').length = l'.length := fun {l'} => by
        have := congrArg List.length (L.relabSnd l'); simpa using this
      cases op with
      | insertAt x i =>
        simp only [onList, List.length_map] at hs
        split at hs
        · next hi =>
          simp only [Option.some.injEq, Prod.mk.injEq] at hs
          obtain ⟨s', e, h1, -, h3, -⟩ := L.insertAt_ok (c := c) x r (by omega) hi
          refine ⟨⟨s', c.dtor, c.log⟩, _, by simp [observe, h1, ← hs.2], h3, ?_, ?_⟩
          · rw [L.relabSnd, Fast.map_insertIdx, ← hs.1]
          · rw [len, List.length_insertIdx]; split <;> omega
        · cases hs
      | append x =>
        simp only [onList, Option.some.injEq, Prod.mk.injEq] at hs
        obtain ⟨s', e, h1, -, h3, -⟩ := L.append_ok (c := c) x r (by omega)
        refine ⟨⟨s', c.dtor, c.log⟩, _, by simp [observe, h1, ← hs.2], h3, ?_, ?_⟩
        · rw [L.relabSnd, Fast.map_insertIdx, ← hs.1]
          have := List.insertIdx_length_self (l := l.map Prod.snd) (x := x)
          rwa [List.length_map] at this
        · rw [len, List.length_insertIdx]; split <;> omega
      | prepend x =>
        simp only [onList, Option.some.injEq, Prod.mk.injEq] at hs
        obtain ⟨s', e, h1, -, h3, -⟩ := L.prepend_ok (c := c) x r (by omega)
        refine ⟨⟨s', c.dtor, c.log⟩, _, by simp [observe, h1, ← hs.2], h3, ?_, ?_⟩
        · rw [L.relabSnd, Fast.map_insertIdx, ← hs.1]; simp
        · rw [len, List.length_insertIdx]; split <;> omega
      | replaceAt x i =>
        simp only [onList, List.length_map] at hs
        split at hs
        · next hi =>
          simp only [Option.some.injEq, Prod.mk.injEq] at hs
          obtain ⟨e0, x0, h0⟩ := at_ i hi
          obtain ⟨s', e, h1, -, h3, -⟩ := L.replaceAt_ok (c := c) x r (by omega) h0
          refine ⟨⟨s', c.dtor, c.log ++ (if c.dtor then [x0] else [])⟩, _, by simp [observe, h1, ← hs.2], h3, ?_, ?_⟩
          · rw [L.relabSnd, List.map_set, ← hs.1]
          · rw [len, List.length_set]; omega
        · cases hs
      | removeAt i =>
        simp only [onList, List.length_map] at hs
        split at hs
        · next hi =>
          simp only [Option.some.injEq, Prod.mk.injEq] at hs
          obtain ⟨e0, x0, h0⟩ := at_ i hi
          obtain ⟨s', h1, h3⟩ := L.removeAt_ok (c := c) r h0
          refine ⟨⟨s', c.dtor, c.log ++ (if c.dtor then [x0] else [])⟩, _, by simp [observe, h1, ← hs.2], h3, ?_, ?_⟩
          · rw [L.relabSnd, Fast.map_eraseIdx, ← hs.1]
          · rw [len, List.length_eraseIdx]; split <;> omega
        · cases hs
      | removeLast =>
        simp only [onList, List.map_eq_nil_iff] at hs
        split at hs
        · cases hs
        · next hne =>
          simp only [Option.some.injEq, Prod.mk.injEq] at hs
          obtain ⟨⟨e, x⟩, hx⟩ : ∃ p, l.getLast? = some p := ⟨_, List.getLast?_eq_some_getLast hne⟩
          obtain ⟨s', h1, h3⟩ := L.removeLast_ok (c := c) r hx
          refine ⟨⟨s', c.dtor, c.log ++ (if c.dtor then [x] else [])⟩, _, by simp [observe, h1, ← hs.2], h3, ?_, ?_⟩
          · rw [L.relabSnd, List.map_dropLast, ← hs.1]
          · rw [len, List.length_dropLast]; omega
      | elementAt i =>
        simp only [onList, List.length_map] at hs
        split at hs
        · next hi =>
          simp only [Option.some.injEq, Prod.mk.injEq] at hs
          obtain ⟨e0, x0, h0⟩ := at_ i hi
          have h1 := L.elementAt_ok (c := c) r h0
          refine ⟨c, l, ?_, r, hs.1, by omega⟩
          simp [observe, h1, ← hs.2, h0]
        · cases hs
      | lastElement =>
        simp only [onList, Option.some.injEq, Prod.mk.injEq] at hs
        have h1 := L.lastElement_ok (c := c) r
        refine ⟨c, l, ?_, r, hs.1, by omega⟩
        simp [observe, h1, ← hs.2]
      | indexOfEntryAt i =>
        simp only [onList, List.length_map] at hs
        split at hs
        · next hi =>
          simp only [Option.some.injEq, Prod.mk.injEq] at hs
          obtain ⟨e0, x0, h0⟩ := at_ i hi
          have h1 := L.entryAt_ok (c := c) r h0
          have h2 := L.oindex r h0
          refine ⟨c, l, ?_, r, hs.1, by omega⟩
          simp [observe, h1, Collection.indexOf, h2, ← hs.2]
        · cases hs
    simp only [scriptList] at h
    cases ho : onList (l.map Prod.snd) op with
    | none => simp [ho] at h
    | some q =>
      obtain ⟨xs, seen⟩ := q
      obtain ⟨c', l', e1, r', hx, hlen⟩ := one ho
      simp only [ho, Option.bind_some] at h
      cases hq : scriptList xs ops with
      | none => simp [hq] at h
      | some q =>
        simp only [hq, Option.map_some, Option.some.injEq] at h
        subst hx
        have := ih (c := c') r' (by omega) q hq
        simp [Spec.script, e1, this, h]

end generic

/-- Array: growing is assumed to succeed. -/
abbrev arrayLimits : Limits := ⟨false, true, true⟩
/-- List: anything goes. -/
abbrev listLimits : Limits := ⟨true, true, true⟩
/-- Fast array: several entries are removed in the order of their elements. -/
abbrev fastLimits : Limits := ⟨true, false, true⟩

/-! ## C39 -/

/-- **C39, array implementation**: after any history the collection holds exactly the elements put in and not taken out, in order, every entry
handed out still denotes its element, and walking it either way meets each element once. -/
theorem C39_array {d c ever} {l : Ledger α} (h : Reach Arr.iface lasting arrayLimits d c l ever) : Holds Arr.iface c l :=
  Arr.laws.holds (Arr.laws.reach (by simp) (fun _ => rfl) h).1

/-- **C39, list implementation**: the same, allocations failing at any time. -/
theorem C39_list {d c ever} {l : Ledger α} (h : Reach CList.iface lasting listLimits d c l ever) : Holds CList.iface c l :=
  CList.laws.holds (CList.laws.reach (fun _ => rfl) (fun _ => rfl) h).1

/-- **C39, fast array**: the same, with entries renumbered to the current positions. -/
theorem C39_fast_array {d c ever} {l : Ledger α} (h : Reach Fast.iface positional fastLimits d c l ever) : Holds Fast.iface c l :=
  Fast.laws.holds (Fast.laws.reach (fun _ => rfl) (by simp) h).1

theorem positional_of_pos {l : Ledger α} (h : positional l = l) {l' : Ledger α} (hp : l' <+: l) : positional l' = l' := by
  obtain ⟨t, rfl⟩ := hp
  have := congrArg (List.take l'.length) h
  rw [List.take_left] at this
  conv => rhs; rw [← this]
  unfold positional
  rw [List.mapIdx_append, List.take_append_of_le_length (by simp), List.take_of_length_le (by simp)]

/-- **C39, fast array, stable entries**: insertions and removals at the end renumber nothing, so the entries last. -/
theorem C39_fast_array_stable {d c ever op c' r} {l : Ledger α} (h : Reach Fast.iface positional fastLimits d c l ever) (a : Allowed fastLimits l op)
    (e : exec Fast.iface c op = some (c', r)) (hend : AtEnd l op) : after positional l op r = after lasting l op r := by
  obtain ⟨hr, hd, -⟩ := Fast.laws.reach (fun _ => rfl) (by simp) h
  have hpos := Fast.laws.relabelled hr
  obtain ⟨c2, rep, h1, hexp, h3, -, -⟩ := Fast.laws.step (k := fastLimits) (fun _ => rfl) (by simp) hr a
  rw [e] at h1
  simp only [Option.some.injEq, Prod.mk.injEq] at h1
  obtain ⟨rfl, rfl⟩ := h1
  -- appending an element whose entry is its position
  have app : ∀ (l' : Ledger α) (p : Entry × α), positional l' = l' → p.1 = l'.length + 1 → positional (l' ++ [p]) = l' ++ [p] := by
    intro l' p h1 h2
    have h1' : l'.mapIdx (fun i p => (i + 1, p.2)) = l' := h1
    unfold positional
    rw [List.mapIdx_append, h1']
    simp [← h2]
  have rec' : ∀ (x : α) (e : Entry), (e ≠ 0 → (record positional l l.length x e)[l.length]? = some (e, x)) →
      record positional l l.length x e = record lasting l l.length x e := by
    intro x e hx
    unfold record at hx ⊢
    by_cases h0 : e = 0
    · simp [h0]
    · have hx := hx h0
      simp only [h0, if_false, lasting] at hx ⊢
      rw [List.insertIdx_length_self] at hx ⊢
      refine app l _ hpos ?_
      unfold positional at hx
      simp [List.getElem?_mapIdx] at hx
      exact hx.symm
  have drop : positional l.dropLast = l.dropLast := positional_of_pos hpos (List.dropLast_prefix l)
  cases op with
  | insert x ok =>
    obtain ⟨e', rfl, he, hx⟩ := hexp
    exact rec' x e' fun h0 => hx (by cases ok with | true => rfl | false => exact absurd (he.2 rfl) h0)
  | insertMany xs =>
    obtain ⟨es, rfl, he, hx⟩ := hexp
    obtain ⟨s', es', h1, h2, h3', h4⟩ := Fast.laws.insertColl_ok xs hr a
    simp only [exec, h1, Option.map_some, Option.some.injEq, Prod.mk.injEq, Reply.entries.injEq] at e
    obtain ⟨-, rfl⟩ := e
    exact Fast.laws.relabelled h4
  | remove e' =>
    have hlast : l.getLast?.map Prod.fst = some e' := hend
    have hnd := Fast.laws.nodup hr
    have : l.filter (fun p => p.1 ≠ e') = l.dropLast := by
      cases hl : l using List.reverseRecOn with
      | nil => simp [hl] at hlast
      | append_singleton l' p =>
        subst hl
        simp at hlast
        subst hlast
        simp only [List.filter_append, List.dropLast_concat]
        rw [List.map_append, List.nodup_append] at hnd
        rw [List.filter_eq_self.2, List.filter_cons_of_neg (by simp)]
        · simp
        · intro q hq
          simp only [ne_eq, decide_eq_true_eq]
          exact hnd.2.2 _ (List.mem_map.2 ⟨q, hq, rfl⟩) _ (by simp)
    show positional (l.filter fun p => p.1 ≠ e') = l.filter fun p => p.1 ≠ e'
    rw [this]; exact drop
  | removeMany es => exact absurd hend id
  | removeAll => rfl
  | insertAt x i ok =>
    obtain ⟨e', rfl, he, hx⟩ := hexp
    have hi : i = l.length := hend
    subst hi
    exact rec' x e' fun h0 => hx (by cases ok with | true => rfl | false => exact absurd (he.2 rfl) h0)
  | append x ok =>
    obtain ⟨e', rfl, he, hx⟩ := hexp
    exact rec' x e' fun h0 => hx (by cases ok with | true => rfl | false => exact absurd (he.2 rfl) h0)
  | prepend x ok => exact absurd hend id
  | replaceAt x i =>
    obtain ⟨e', rfl, he, hx⟩ := hexp
    have hi : i < l.length := a.1
    show positional (l.set i (e', x)) = l.set i (e', x)
    have he' : e' = i + 1 := by
      unfold positional at hx
      simp [List.getElem?_mapIdx, hi] at hx
      exact hx.symm
    apply List.ext_getElem?; intro j
    unfold positional
    rw [List.getElem?_mapIdx]
    by_cases hj : i = j
    · subst hj; simp [hi, he']
    · rw [List.getElem?_set_ne hj]
      conv => rhs; rw [← hpos]
      unfold positional; rw [List.getElem?_mapIdx]
  | removeAt i =>
    have hi : i + 1 = l.length := hend
    show positional (l.eraseIdx i) = l.eraseIdx i
    rw [show i = l.length - 1 by omega, eraseIdx_last]; exact drop
  | removeLast => exact drop
  | get _ => rfl
  | entryAt _ => rfl
  | indexOf _ => rfl
  | elementAt _ => rfl
  | lastEntry => rfl
  | lastElement => rfl
  | allEntries => rfl
  | find _ => rfl
  | findMany _ => rfl

/-! ## C40 -/

/-- **C40, calls with entries, array implementation**: after any history every call in range works and answers as the ledger says. -/
theorem C40_array_replies {d c ever op} {l : Ledger α} (h : Reach Arr.iface lasting arrayLimits d c l ever) (a : Allowed arrayLimits l op) :
    ∃ c' r, exec Arr.iface c op = some (c', r) ∧ Expected lasting l op r := by
  obtain ⟨c', r, h1, h2, -⟩ := Arr.laws.step (k := arrayLimits) (by simp) (fun _ => rfl) (Arr.laws.reach (by simp) (fun _ => rfl) h).1 a
  exact ⟨c', r, h1, h2⟩

/-- **C40, calls with entries, list implementation**. -/
theorem C40_list_replies {d c ever op} {l : Ledger α} (h : Reach CList.iface lasting listLimits d c l ever) (a : Allowed listLimits l op) :
    ∃ c' r, exec CList.iface c op = some (c', r) ∧ Expected lasting l op r := by
  obtain ⟨c', r, h1, h2, -⟩ := CList.laws.step (k := listLimits) (fun _ => rfl) (fun _ => rfl) (CList.laws.reach (fun _ => rfl) (fun _ => rfl) h).1 a
  exact ⟨c', r, h1, h2⟩

/-- **C40, calls with entries, fast array**. -/
theorem C40_fast_array_replies {d c ever op} {l : Ledger α} (h : Reach Fast.iface positional fastLimits d c l ever) (a : Allowed fastLimits l op) :
    ∃ c' r, exec Fast.iface c op = some (c', r) ∧ Expected positional l op r := by
  obtain ⟨c', r, h1, h2, -⟩ := Fast.laws.step (k := fastLimits) (fun _ => rfl) (by simp) (Fast.laws.reach (fun _ => rfl) (by simp) h).1 a
  exact ⟨c', r, h1, h2⟩

/-- **C40, all implementations agree**: any sequence of calls by position, every position in range, shows on each implementation what it shows on
a list, and the elements found at the end are those of the list. -/
theorem C40_same_as_list (d : Bool) (ops : List (Pos α)) (hl : ops.length < 2 ^ 64) {t} (h : scriptList [] ops = some t) :
    script Arr.iface (create Arr.iface d) ops = some t ∧ script CList.iface (create CList.iface d) ops = some t ∧
      script Fast.iface (create Fast.iface d) ops = some t :=
  ⟨Arr.laws.script ops (c := create Arr.iface d) (l := []) Arr.laws.create (by simpa using hl) t h,
    CList.laws.script ops (c := create CList.iface d) (l := []) CList.laws.create (by simpa using hl) t h,
    Fast.laws.script ops (c := create Fast.iface d) (l := []) Fast.laws.create (by simpa using hl) t h⟩

/-! ## C41 -/

/-- Everything put in is either still held or has been given to the destructor, once; destroying the collection gives the rest to it. -/
def Accounted {σ : Type} (I : Iface σ α) (c : Coll σ α) (l : Ledger α) (ever : List α) : Prop :=
  ever.Perm (l.map Prod.snd ++ c.log) ∧ ∃ log, destroyColl I c = some log ∧ log.Perm ever

theorem Laws.accounted {σ : Type} {I : Iface σ α} {relab : Ledger α → Ledger α} {fs : Bool} (L : Laws I relab fs) {k : Limits}
    (hf : k.mayFail = true → fs = true) (ho : k.anyOrder = true → I.removeCollection = none) (hc : k.clear = true → I.removeAll = none)
    {c l ever} (h : Reach I relab k true c l ever) : Accounted I c l ever := by
  obtain ⟨r, hd, hp⟩ := L.reach hf ho h
  have hp := hp rfl hc
  obtain ⟨v, h1, h2, -⟩ := (L.holds r).walk
  refine ⟨hp, c.log ++ v.map Prod.snd, ?_, ?_⟩
  · simp [destroyColl, hd, h1, L.destroy r]
  · rw [h2]; exact (hp.trans List.perm_append_comm).symm

/-- **C41, array implementation**. -/
theorem C41_array {c ever} {l : Ledger α} (h : Reach Arr.iface lasting arrayLimits true c l ever) : Accounted Arr.iface c l ever :=
  Arr.laws.accounted (k := arrayLimits) (by simp) (fun _ => rfl) (fun _ => rfl) h

/-- **C41, list implementation**. -/
theorem C41_list {c ever} {l : Ledger α} (h : Reach CList.iface lasting listLimits true c l ever) : Accounted CList.iface c l ever :=
  CList.laws.accounted (k := listLimits) (fun _ => rfl) (fun _ => rfl) (fun _ => rfl) h

/-- **C41, fast array, without `CCCollectionRemoveAllElements`**, which runs no destructor (`C41_fast_array_clear_refuted`). -/
theorem C41_fast_array_partial {c ever} {l : Ledger α} (h : Reach Fast.iface positional ⟨true, false, false⟩ true c l ever) : Accounted Fast.iface c l ever :=
  Fast.laws.accounted (k := ⟨true, false, false⟩) (fun _ => rfl) (by simp) (by simp) h

/-! ## Non-trivial cases meeting the hypotheses -/

section examples

/-- A destructor history on the array implementation: 10, 20 inserted, 30 put before 20, 10 removed through its entry. -/
theorem arrayHistory : ∃ c e1 e2 e3, Reach Arr.iface lasting arrayLimits true c [(e3, 30), (e2, 20)] [10, 20, 30] ∧ e1 ≠ e2 := by
  have h0 := Reach.new (I := Arr.iface) (α := Nat) (relab := lasting) (k := arrayLimits) (dtor := true)
  have h1 := h0.call (op := .insert 10 true) (by simp [Allowed]) rfl
  have h2 := h1.call (op := .insert 20 true) (by simp [Allowed, after, record, lasting]) rfl
  have h3 := h2.call (op := .insertAt 30 1 true) (by simp [Allowed, after, record, lasting]) rfl
  have h4 := h3.call (op := .remove 1) (by right; exact ⟨10, by decide⟩) rfl
  exact ⟨_, 1, 2, 3, h4, by decide⟩

example : ∃ c l ever, Reach Arr.iface lasting arrayLimits true c (l : Ledger Nat) ever ∧ l.length = 2 ∧ Holds Arr.iface c l ∧ Accounted Arr.iface c l ever := by
  obtain ⟨c, e1, e2, e3, h, -⟩ := arrayHistory
  exact ⟨_, _, _, h, rfl, C39_array h, C41_array h⟩

/-- The same on the list implementation, with a failed insertion in between. -/
theorem listHistory : ∃ c e2 e3, Reach CList.iface lasting listLimits true c [(e3, 30), (e2, 20)] [10, 20, 30] := by
  have h0 := Reach.new (I := CList.iface) (α := Nat) (relab := lasting) (k := listLimits) (dtor := true)
  have h1 := h0.call (op := .insert 10 true) (by simp [Allowed]) rfl
  have h2 := h1.call (op := .insert 20 true) (by simp [Allowed, after, record, lasting]) rfl
  have hf := h2.call (op := .prepend 99 false) (by simp [Allowed, after, record, lasting]) rfl
  have h3 := hf.call (op := .insertAt 30 1 true) (by simp [Allowed, after, record, lasting]) rfl
  have h4 := h3.call (op := .remove 2) (by right; exact ⟨10, by decide⟩) rfl
  exact ⟨_, 3, 4, h4⟩

example : ∃ c l ever, Reach CList.iface lasting listLimits true c (l : Ledger Nat) ever ∧ l.length = 2 ∧ Holds CList.iface c l ∧
    Accounted CList.iface c l ever := by
  obtain ⟨c, e2, e3, h⟩ := listHistory
  exact ⟨_, _, _, h, rfl, C39_list h, C41_list h⟩

/-- The same on the fast array. -/
theorem fastHistory (k : Limits) : ∃ c e2 e3, Reach Fast.iface positional k true c [(e3, 30), (e2, 20)] [10, 20, 30] := by
  have h0 := Reach.new (I := Fast.iface) (α := Nat) (relab := positional) (k := k) (dtor := true)
  have h1 := h0.call (op := .insert 10 true) (by simp [Allowed]) rfl
  have h2 := h1.call (op := .insert 20 true) ⟨by simp, by decide⟩ rfl
  have h3 := h2.call (op := .insertAt 30 1 true) ⟨by simp, by decide, by decide⟩ rfl
  have h4 := h3.call (op := .remove 1) (by right; exact ⟨10, by decide⟩) rfl
  exact ⟨_, 2, 1, h4⟩

example : ∃ c l ever, Reach Fast.iface positional fastLimits true c (l : Ledger Nat) ever ∧ l.length = 2 ∧ Holds Fast.iface c l := by
  obtain ⟨c, e2, e3, h⟩ := fastHistory fastLimits
  exact ⟨_, _, _, h, rfl, C39_fast_array h⟩

example : ∃ c l ever, Reach Fast.iface positional ⟨true, false, false⟩ true c (l : Ledger Nat) ever ∧ l.length = 2 ∧ Accounted Fast.iface c l ever := by
  obtain ⟨c, e2, e3, h⟩ := fastHistory ⟨true, false, false⟩
  exact ⟨_, _, _, h, rfl, C41_fast_array_partial h⟩

example : ∃ c ever, ∃ l : Ledger Nat, Reach Fast.iface positional fastLimits true c l ever ∧ Allowed fastLimits l (.removeAt 1) ∧ AtEnd l (.removeAt 1) := by
  obtain ⟨c, e2, e3, h⟩ := fastHistory fastLimits
  exact ⟨_, _, _, h, by simp [Allowed], by simp [AtEnd]⟩

example : ∃ c ever, ∃ l : Ledger Nat, Reach Arr.iface lasting arrayLimits true c l ever ∧ Allowed arrayLimits l (.replaceAt 5 1) := by
  obtain ⟨c, e1, e2, e3, h, -⟩ := arrayHistory
  exact ⟨_, _, _, h, by simp [Allowed]⟩

example : scriptList ([] : List Nat) [.append 1, .prepend 2, .insertAt 3 1, .replaceAt 4 0, .elementAt 1, .removeAt 2, .indexOfEntryAt 1, .lastElement] =
    some ([.nothing, .nothing, .nothing, .nothing, .element (some 3), .nothing, .index 1, .element (some 3)], [4, 3]) := rfl

end examples

/-! ## What the code does not do -/

/-- Array implementation: when the array cannot grow, the insertion still returns an entry (of index `SIZE_MAX`), which is not NULL and denotes no
element, although nothing was inserted. -/
theorem C39_array_failed_insert_refuted : ∃ c e, insertElement Arr.iface (create Arr.iface false) (5 : Nat) false = some (c, e) ∧ e ≠ 0 ∧
    getCount Arr.iface c = 0 ∧ getElement Arr.iface c e = none := ⟨_, _, rfl, by decide, rfl, rfl⟩

/-- Fast array: removing an element that is not the last one changes what the entries of later elements denote. -/
theorem C39_fast_array_unstable_refuted : ∃ c1 c2 c3 c4 e1 e2 e3, insertElement Fast.iface (create Fast.iface false) (1 : Nat) true = some (c1, e1) ∧
    insertElement Fast.iface c1 2 true = some (c2, e2) ∧ insertElement Fast.iface c2 3 true = some (c3, e3) ∧
    removeElement Fast.iface c3 e1 = some c4 ∧ getElement Fast.iface c4 e2 = some (some 3) ∧ getElement Fast.iface c4 e3 = none :=
  ⟨_, _, _, _, _, _, _, rfl, rfl, rfl, rfl, rfl, rfl⟩

/-- Fast array: removing several entries that are not in the order of their elements removes others: of 1, 2, 3 the entries of 3 and 1, in this order,
are removed; the call ends in a failed assertion, as after removing 1 there is no third element any more. -/
theorem C39_fast_array_unsorted_refuted : ∃ c es, insertColl Fast.iface (create Fast.iface false) true [(1 : Nat), 2, 3] = some (c, es) ∧
    es = [1, 2, 3] ∧ removeColl Fast.iface c [3, 1] = none ∧ (removeColl Fast.iface c [2, 1]).map (fun c => c.s) = some [2] :=
  ⟨_, _, rfl, rfl, rfl, rfl⟩

/-- List implementation: when the node for the replacement cannot be allocated, `CCOrderedCollectionReplaceElementAtIndex` returns NULL and removes
the element *after* the one to be replaced. -/
theorem C40_list_failed_replace_refuted : ∃ c es c', insertColl CList.iface (create CList.iface true) true [(1 : Nat), 2, 3] = some (c, es) ∧
    replaceAt CList.iface c 9 0 false = some (c', 0) ∧ (forward CList.iface c'.s).map (List.map Prod.snd) = some [1, 3] ∧ c'.log = [2] :=
  ⟨_, _, _, rfl, rfl, rfl, rfl⟩

/-- Fast array: `CCCollectionRemoveAllElements` drops the elements without giving them to the destructor. -/
theorem C41_fast_array_clear_refuted : ∃ c e c', insertElement Fast.iface (create Fast.iface true) (7 : Nat) true = some (c, e) ∧
    removeAllElements Fast.iface c = some c' ∧ destroyColl Fast.iface c' = some [] := ⟨_, _, _, rfl, rfl, rfl⟩

#print axioms C39_array
#print axioms C39_list
#print axioms C39_fast_array
#print axioms C39_fast_array_stable
#print axioms C40_array_replies
#print axioms C40_list_replies
#print axioms C40_fast_array_replies
#print axioms C40_same_as_list
#print axioms C41_array
#print axioms C41_list
#print axioms C41_fast_array_partial

end Verif.Collection
