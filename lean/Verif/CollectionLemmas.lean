import Verif.CollectionSpec
import Mathlib.Data.List.Forall2
import Mathlib.Data.List.Nodup
/-!
# What an implementation must provide, and what follows for `Collection.c` and `OrderedCollection.c`
-/
namespace Verif.Collection
open Spec

/-- The laws the functions of an interface obey, in terms of a relation `R` between implementation state and ledger. -/
structure Laws {σ α : Type} (I : Iface σ α) (relab : Ledger α → Ledger α) (failSafe : Bool) where
  R : σ → Ledger α → Prop
  create : R I.create []
  relabelled : ∀ {s l}, R s l → relab l = l
  relabSnd : ∀ l, (relab l).map Prod.snd = l.map Prod.snd
  lastingCollection : I.removeCollection = none → ∀ l, relab l = l
  lastingReplace : I.ordered.replace = none → ∀ l, relab l = l
  nz : ∀ {s l}, R s l → ∀ p ∈ l, p.1 ≠ 0
  nodup : ∀ {s l}, R s l → (l.map Prod.fst).Nodup
  count : ∀ {s l}, R s l → I.count s = l.length
  destroy : ∀ {s l}, R s l → I.destroy s = some ()
  element : ∀ {s l} {i : Nat} {e x}, R s l → l[i]? = some (e, x) → I.element s e = some x
  insert : ∀ {s l} x, R s l → l.length + 1 < 2 ^ 64 → ∃ s' e, I.insert s x true = some (s', e) ∧ e ≠ 0 ∧
    R s' (relab (l ++ [(e, x)])) ∧ (relab (l ++ [(e, x)]))[l.length]? = some (e, x) ∧ relab (l ++ [(e, x)]) = l ++ [(e, x)]
  insertFail : ∀ {s l} x, failSafe = true → R s l → I.insert s x false = some (s, 0)
  remove : ∀ {s l} {i : Nat} {e x}, R s l → l[i]? = some (e, x) → ∃ s', I.remove s e = some s' ∧ R s' (relab (l.eraseIdx i))
  fwd : ∀ {s l}, R s l → ∃ v, forward I s = some v ∧
    List.Forall₂ (fun (cx : Cursor α × α) p => cx.2 = p.2 ∧ I.enumeratorReference s cx.1 = some (s, p.1)) v l
  bwd : ∀ {s l}, R s l → ∃ v, backward I s = some v ∧
    List.Forall₂ (fun (cx : Cursor α × α) p => cx.2 = p.2 ∧ I.enumeratorReference s cx.1 = some (s, p.1)) v l.reverse
  oinsert : ∀ {s l} {i : Nat} x, R s l → l.length + 1 < 2 ^ 64 → i ≤ l.length → ∃ s' e, I.ordered.insert s x i true = some (s', e) ∧ e ≠ 0 ∧
    R s' (relab (l.insertIdx i (e, x))) ∧ (relab (l.insertIdx i (e, x)))[i]? = some (e, x)
  oinsertFail : ∀ {s l} {i : Nat} x, failSafe = true → R s l → i ≤ l.length → I.ordered.insert s x i false = some (s, 0)
  oentry : ∀ {s l} {i : Nat} {e x}, R s l → l[i]? = some (e, x) → I.ordered.entry s i = some (s, e)
  oindex : ∀ {s l} {i : Nat} {e x}, R s l → l[i]? = some (e, x) → I.ordered.index s e = some i
  replace : ∀ {s l} {i : Nat} x f, I.ordered.replace = some f → R s l → i < l.length → ∃ s' e, f s x i = some (s', e) ∧ e ≠ 0 ∧
    R s' (relab (l.set i (e, x))) ∧ (relab (l.set i (e, x)))[i]? = some (e, x)
  oremove : ∀ {s l} {i : Nat} f, I.ordered.remove = some f → R s l → i < l.length → ∃ s', f s i = some s' ∧ R s' (relab (l.eraseIdx i))
  removeLast : ∀ {s l} f, I.ordered.removeLast = some f → R s l → l ≠ [] → ∃ s', f s = some s' ∧ R s' (relab l.dropLast)
  append : ∀ {s l} x f, I.ordered.append = some f → R s l → l.length + 1 < 2 ^ 64 → ∃ s' e, f s x true = some (s', e) ∧ e ≠ 0 ∧
    R s' (relab (l ++ [(e, x)])) ∧ (relab (l ++ [(e, x)]))[l.length]? = some (e, x)
  appendFail : ∀ {s l} x f, I.ordered.append = some f → failSafe = true → R s l → f s x false = some (s, 0)
  prepend : ∀ {s l} x f, I.ordered.prepend = some f → R s l → l.length + 1 < 2 ^ 64 → ∃ s' e, f s x true = some (s', e) ∧ e ≠ 0 ∧
    R s' (relab ((e, x) :: l)) ∧ (relab ((e, x) :: l))[0]? = some (e, x)
  prependFail : ∀ {s l} x f, I.ordered.prepend = some f → failSafe = true → R s l → f s x false = some (s, 0)
  elementAt : ∀ {s l} {i : Nat} {e x} f, I.ordered.element = some f → R s l → l[i]? = some (e, x) → f s i = some x
  lastEntry : ∀ {s l e x} f, I.ordered.lastEntry = some f → R s l → l.getLast? = some (e, x) → f s = some e
  removeAll : ∀ {s l} f, I.removeAll = some f → R s l → ∃ s', f s = some s' ∧ R s' []
  removeCollection : ∀ {s l es} f, I.removeCollection = some f → R s l → es.Sublist (l.map Prod.fst) →
    ∃ s', f s es = some s' ∧ R s' (relab (l.filter fun p => p.1 ∉ es))

section
variable {σ α : Type} {I : Iface σ α} {relab : Ledger α → Ledger α} {fs : Bool} (L : Laws I relab fs)
include L

theorem Laws.idxOf {s l e x} (_ : L.R s l) (h : (e, x) ∈ l) : ∃ i : Nat, l[i]? = some (e, x) := List.mem_iff_getElem?.1 h

omit L in
/-- In a ledger with distinct entries, removing by entry is removing at its index. -/
theorem filter_erase {l : Ledger α} {i : Nat} {e x} (hn : (l.map Prod.fst).Nodup) (h : l[i]? = some (e, x)) :
    (l.filter fun p => p.1 ≠ e) = l.eraseIdx i := by
  induction l generalizing i with
  | nil => simp at h
  | cons p l ih =>
    simp only [List.map_cons, List.nodup_cons] at hn
    cases i with
    | zero =>
      simp at h; subst h
      simp only [List.eraseIdx_cons_zero]
      rw [List.filter_cons_of_neg (by simp), List.filter_eq_self]
      intro q hq; simp only [decide_eq_true_eq]; intro hqe
      exact hn.1 (List.mem_map.2 ⟨q, hq, hqe⟩)
    | succ i =>
      simp at h
      have hp : p.1 ≠ e := by
        rintro rfl
        exact hn.1 (List.mem_map.2 ⟨_, List.mem_of_getElem? h, rfl⟩)
      rw [List.filter_cons_of_pos (by simpa using hp), List.eraseIdx_cons_succ, ih hn.2 h]

omit L in
theorem find_at {l : Ledger α} {i : Nat} {e x} (hn : (l.map Prod.fst).Nodup) (h : l[i]? = some (e, x)) :
    (l.find? fun p => p.1 = e) = some (e, x) ∧ (l.findIdx fun p => p.1 = e) = i := by
  induction l generalizing i with
  | nil => simp at h
  | cons p l ih =>
    simp only [List.map_cons, List.nodup_cons] at hn
    cases i with
    | zero => simp at h; subst h; simp [List.findIdx_cons]
    | succ i =>
      simp at h
      have hp : p.1 ≠ e := by
        rintro rfl
        exact hn.1 (List.mem_map.2 ⟨_, List.mem_of_getElem? h, rfl⟩)
      have := ih hn.2 h
      simp only [List.find?_cons, List.findIdx_cons, hp, decide_false]
      exact ⟨this.1, by simp [this.2]⟩

omit L in
theorem perm_erase {l : Ledger α} {i : Nat} {e x} (h : l[i]? = some (e, x)) :
    (l.map Prod.snd).Perm ((l.eraseIdx i).map Prod.snd ++ [x]) := by
  induction l generalizing i with
  | nil => simp at h
  | cons p l ih =>
    cases i with
    | zero => simp at h; subst h; simpa using (List.perm_append_singleton x (l.map Prod.snd)).symm
    | succ i => simp at h; simpa using ih h

/-! ### Single functions -/

theorem Laws.insertElement_ok {c : Coll σ α} {l} (x : α) (r : L.R c.s l) (hl : l.length + 1 < 2 ^ 64) :
    ∃ s' e, insertElement I c x true = some ({ c with s := s' }, e) ∧ e ≠ 0 ∧ L.R s' (relab (l ++ [(e, x)])) ∧
      (relab (l ++ [(e, x)]))[l.length]? = some (e, x) ∧ relab (l ++ [(e, x)]) = l ++ [(e, x)] := by
  obtain ⟨s', e, h, h1, h2, h3, h4⟩ := L.insert x r hl
  exact ⟨s', e, by simp [insertElement, h], h1, h2, h3, h4⟩

theorem Laws.insertColl_ok : ∀ (xs : List α) {c : Coll σ α} {l}, L.R c.s l → l.length + xs.length < 2 ^ 64 →
    ∃ s' es, insertColl I c true xs = some ({ c with s := s' }, es) ∧ es.length = xs.length ∧ (∀ e ∈ es, e ≠ 0) ∧
      L.R s' (l ++ es.zip xs) := by
  intro xs
  induction xs with
  | nil => intro c l r _; exact ⟨c.s, [], by simp [insertColl], rfl, by simp, by simpa using r⟩
  | cons x xs ih =>
    intro c l r hl
    simp only [List.length_cons] at hl
    obtain ⟨s1, e, h1, n1, r1, -, eq1⟩ := L.insertElement_ok x r (by omega)
    rw [eq1] at r1
    obtain ⟨s2, es, h2, h3, h4, r2⟩ := ih (c := { c with s := s1 }) r1 (by simp; omega)
    refine ⟨s2, e :: es, by simp [insertColl, h1, h2], by simp [h3], by simpa using ⟨n1, h4⟩, by simpa using r2⟩

theorem Laws.removeElement_ok {c : Coll σ α} {l} {i : Nat} {e x} (r : L.R c.s l) (h : l[i]? = some (e, x)) :
    ∃ s', removeElement I c e = some ⟨s', c.dtor, c.log ++ (if c.dtor then [x] else [])⟩ ∧ L.R s' (relab (l.eraseIdx i)) := by
  obtain ⟨s', h1, r1⟩ := L.remove r h
  have hz : e ≠ 0 := L.nz r _ (List.mem_of_getElem? h)
  refine ⟨s', ?_, r1⟩
  cases hd : c.dtor <;> simp [removeElement, hz, L.element r h, dispose, hd, h1]

theorem Laws.elements_ok {c : Coll σ α} {l} (r : L.R c.s l) : ∀ es : List Entry, (∀ e ∈ es, ∃ x, (e, x) ∈ l) →
    ∃ xs, elements I c es = some xs ∧ List.Forall₂ (fun e x => (e, x) ∈ l) es xs := by
  intro es
  induction es with
  | nil => intro _; exact ⟨[], rfl, .nil⟩
  | cons e es ih =>
    intro h
    obtain ⟨x, hx⟩ := h e (by simp)
    obtain ⟨i, hi⟩ := L.idxOf r hx
    obtain ⟨xs, h1, h2⟩ := ih fun e he => h e (by simp [he])
    exact ⟨x :: xs, by simp [elements, L.element r hi, h1], .cons hx h2⟩

omit L in
theorem perm_filter {l : Ledger α} (hn : (l.map Prod.fst).Nodup) {es : List Entry} {xs} (h : List.Forall₂ (fun e x => (e, x) ∈ l) es xs) (hd : es.Nodup) :
    (l.map Prod.snd).Perm ((l.filter fun p => p.1 ∉ es).map Prod.snd ++ xs) := by
  induction es generalizing l xs with
  | nil => cases h; simp
  | cons e es ih =>
    obtain _ | ⟨hm, hf⟩ := h
    rename_i x xs
    simp only [List.nodup_cons] at hd
    obtain ⟨i, hi⟩ := List.mem_iff_getElem?.1 hm
    have hsub : (l.filter fun p => p.1 ≠ e).Sublist l := List.filter_sublist
    have := ih (l := l.filter fun p => p.1 ≠ e) (xs := xs) (hn.sublist (hsub.map _)) ?_ hd.2
    · have h2 := perm_erase hi
      rw [← filter_erase hn hi] at h2
      refine h2.trans ?_
      refine (List.Perm.append_right [x] this).trans ?_
      rw [List.filter_filter]
      have : (l.filter fun p => decide (p.1 ∉ es) && decide (p.1 ≠ e)) = l.filter fun p => decide (p.1 ∉ e :: es) := by
        congr 1; funext p; rw [← Bool.decide_and]; simp [and_comm]
      rw [this, List.append_assoc]
      exact List.Perm.append_left _ (List.perm_append_singleton _ _)
    · refine (List.forall₂_iff_get.2 ?_)
      obtain ⟨hl, hg⟩ := List.forall₂_iff_get.1 hf
      refine ⟨hl, fun j h1 h2 => List.mem_filter.2 ⟨hg j h1 h2, ?_⟩⟩
      simp only [ne_eq, decide_eq_true_eq]
      rintro rfl
      exact hd.1 (List.get_mem _ _)

theorem Laws.removeEach_ok (hid : ∀ l, relab l = l) : ∀ (es : List Entry) {c : Coll σ α} {l}, L.R c.s l → es.Nodup → (∀ e ∈ es, ∃ x, (e, x) ∈ l) →
    ∃ s' xs, removeEach I c es = some ⟨s', c.dtor, c.log ++ (if c.dtor then xs else [])⟩ ∧ L.R s' (l.filter fun p => p.1 ∉ es) ∧
      List.Forall₂ (fun e x => (e, x) ∈ l) es xs := by
  intro es
  induction es with
  | nil => intro c l r _ _; exact ⟨c.s, [], by simp [removeEach], by simpa using r, .nil⟩
  | cons e es ih =>
    intro c l r hd h
    simp only [List.nodup_cons] at hd
    obtain ⟨x, hx⟩ := h e (by simp)
    obtain ⟨i, hi⟩ := L.idxOf r hx
    obtain ⟨s1, h1, r1⟩ := L.removeElement_ok r hi
    rw [hid, ← filter_erase (L.nodup r) hi] at r1
    obtain ⟨s2, xs, h2, r2, f2⟩ := ih (c := ⟨s1, c.dtor, c.log ++ if c.dtor = true then [x] else []⟩) r1 hd.2 (by
      intro e' he'
      obtain ⟨y, hy⟩ := h e' (by simp [he'])
      exact ⟨y, List.mem_filter.2 ⟨hy, by simp; rintro rfl; exact hd.1 he'⟩⟩)
    refine ⟨s2, x :: xs, ?_, ?_, .cons hx ?_⟩
    · simp only [removeEach, h1, Option.bind_eq_bind, Option.bind_some, h2]
      cases c.dtor <;> simp
    · rw [List.filter_filter] at r2
      have : (l.filter fun p => decide (p.1 ∉ es) && decide (p.1 ≠ e)) = l.filter fun p => decide (p.1 ∉ e :: es) := by
        congr 1; funext p; rw [← Bool.decide_and]; simp [and_comm]
      rwa [this] at r2
    · exact f2.imp fun e x h => (List.mem_filter.1 h).1

theorem Laws.removeColl_ok {c : Coll σ α} {l es} (r : L.R c.s l) (hd : es.Nodup) (h : ∀ e ∈ es, ∃ x, (e, x) ∈ l)
    (hs : I.removeCollection = none ∨ es.Sublist (l.map Prod.fst)) :
    ∃ s' xs, removeColl I c es = some ⟨s', c.dtor, c.log ++ (if c.dtor then xs else [])⟩ ∧ L.R s' (relab (l.filter fun p => p.1 ∉ es)) ∧
      List.Forall₂ (fun e x => (e, x) ∈ l) es xs := by
  cases hf : I.removeCollection with
  | none =>
    obtain ⟨s', xs, h1, h2, h3⟩ := L.removeEach_ok (L.lastingCollection hf) es r hd h
    exact ⟨s', xs, by simp [removeColl, hf, h1], by rwa [L.lastingCollection hf], h3⟩
  | some f =>
    obtain ⟨s', h1, h2⟩ := L.removeCollection f hf r (hs.resolve_left (by simp [hf]))
    obtain ⟨xs, h3, h4⟩ := L.elements_ok r es h
    refine ⟨s', xs, ?_, h2, h4⟩
    cases hdt : c.dtor <;> simp [removeColl, hf, hdt, h3, h1]

omit L in
theorem entriesOf_ok {s : σ} {v : List (Cursor α × α)} {l : Ledger α}
    (h : List.Forall₂ (fun (cx : Cursor α × α) p => cx.2 = p.2 ∧ I.enumeratorReference s cx.1 = some (s, p.1)) v l) :
    entriesOf I s v = some (s, l.map Prod.fst) := by
  induction h with
  | nil => rfl
  | @cons a b v l h1 h2 ih => obtain ⟨c, x⟩ := a; simp [entriesOf, h1.2, ih]

omit L in
theorem findLoop_ok {s : σ} {v : List (Cursor α × α)} {l : Ledger α} (p : α → Bool)
    (h : List.Forall₂ (fun (cx : Cursor α × α) p => cx.2 = p.2 ∧ I.enumeratorReference s cx.1 = some (s, p.1)) v l) :
    findLoop I p s v = some (s, firstEntry l p) := by
  induction h with
  | nil => rfl
  | @cons a b v l h1 h2 ih =>
    obtain ⟨c, x⟩ := a
    obtain ⟨e, y⟩ := b
    simp only at h1
    obtain ⟨rfl, h1⟩ := h1
    cases hp : p x
    · rw [findLoop, hp]; simp only [Bool.false_eq_true, if_false, ih, firstEntry, List.find?_cons, hp]
    · rw [findLoop, hp]; simp [h1, firstEntry, hp]

theorem Laws.getAllEntries_ok {c : Coll σ α} {l} (r : L.R c.s l) : getAllEntries I c = some (c, l.map Prod.fst) := by
  obtain ⟨v, h1, h2⟩ := L.fwd r
  simp [getAllEntries, h1, entriesOf_ok h2]

theorem Laws.findElement_ok {c : Coll σ α} {l} (p : α → Bool) (r : L.R c.s l) : findElement I c p = some (c, firstEntry l p) := by
  obtain ⟨v, h1, h2⟩ := L.fwd r
  simp [findElement, h1, findLoop_ok p h2]

theorem Laws.findColl_ok {c : Coll σ α} {l} (r : L.R c.s l) : ∀ ps : List (α → Bool),
    findColl I c ps = some (c, (ps.map (firstEntry l)).filter (· ≠ 0)) := by
  intro ps
  induction ps with
  | nil => rfl
  | cons p ps ih =>
    simp only [findColl, L.findElement_ok p r, Option.bind_eq_bind, Option.bind_some, ih]
    by_cases h : firstEntry l p = 0 <;> simp [h]

theorem Laws.entryAt_ok {c : Coll σ α} {l} {i : Nat} {e x} (r : L.R c.s l) (h : l[i]? = some (e, x)) : entryAt I c i = some (c, e) := by
  have hi : i < l.length := (List.getElem?_eq_some_iff.1 h).1
  simp [entryAt, L.count r, hi, L.oentry r h]

theorem Laws.getElement_ok {c : Coll σ α} {l} {i : Nat} {e x} (r : L.R c.s l) (h : l[i]? = some (e, x)) : getElement I c e = some (some x) := by
  have hz : e ≠ 0 := L.nz r _ (List.mem_of_getElem? h)
  simp [getElement, hz, L.element r h]

theorem Laws.elementAt_ok {c : Coll σ α} {l} {i : Nat} {e x} (r : L.R c.s l) (h : l[i]? = some (e, x)) :
    Collection.elementAt I c i = some (c, some x) := by
  have hi : i < l.length := (List.getElem?_eq_some_iff.1 h).1
  unfold Collection.elementAt
  rw [if_pos (by rw [L.count r]; exact hi)]
  cases hf : I.ordered.element with
  | none => simp [L.entryAt_ok r h, L.getElement_ok r h]
  | some f => simp [L.elementAt f hf r h]

theorem Laws.disposeAt_ok {c : Coll σ α} {l} {i : Nat} {e x} (r : L.R c.s l) (h : l[i]? = some (e, x)) :
    disposeAt I c i = some ⟨c.s, c.dtor, c.log ++ (if c.dtor then [x] else [])⟩ := by
  unfold disposeAt
  by_cases hd : c.dtor = true
  · simp [L.elementAt_ok r h, dispose, hd]
  · obtain ⟨s, d, lg⟩ := c
    simp only at hd
    simp [hd]

theorem Laws.removeAt_ok {c : Coll σ α} {l} {i : Nat} {e x} (r : L.R c.s l) (h : l[i]? = some (e, x)) :
    ∃ s', removeAt I c i = some ⟨s', c.dtor, c.log ++ (if c.dtor then [x] else [])⟩ ∧ L.R s' (relab (l.eraseIdx i)) := by
  have hi : i < l.length := (List.getElem?_eq_some_iff.1 h).1
  unfold removeAt
  rw [if_pos (by rw [L.count r]; exact hi)]
  cases hf : I.ordered.remove with
  | none => simpa [L.entryAt_ok r h] using L.removeElement_ok r h
  | some f =>
    obtain ⟨s', h1, r1⟩ := L.oremove f hf r hi
    exact ⟨s', by simp [L.disposeAt_ok r h, h1], r1⟩

theorem Laws.insertAt_ok {c : Coll σ α} {l} {i : Nat} (x : α) (r : L.R c.s l) (hl : l.length + 1 < 2 ^ 64) (hi : i ≤ l.length) :
    ∃ s' e, Collection.insertAt I c x i true = some ({ c with s := s' }, e) ∧ e ≠ 0 ∧ L.R s' (relab (l.insertIdx i (e, x))) ∧
      (relab (l.insertIdx i (e, x)))[i]? = some (e, x) := by
  obtain ⟨s', e, h, h1, h2, h3⟩ := L.oinsert x r hl hi
  exact ⟨s', e, by simp [Collection.insertAt, L.count r, hi, h], h1, h2, h3⟩

theorem Laws.insertAt_fail {c : Coll σ α} {l} {i : Nat} (x : α) (hs : fs = true) (r : L.R c.s l) (hi : i ≤ l.length) :
    Collection.insertAt I c x i false = some (c, 0) := by
  simp [Collection.insertAt, L.count r, hi, L.oinsertFail x hs r hi]

theorem Laws.append_ok {c : Coll σ α} {l} (x : α) (r : L.R c.s l) (hl : l.length + 1 < 2 ^ 64) :
    ∃ s' e, Collection.append I c x true = some ({ c with s := s' }, e) ∧ e ≠ 0 ∧ L.R s' (relab (l.insertIdx l.length (e, x))) ∧
      (relab (l.insertIdx l.length (e, x)))[l.length]? = some (e, x) := by
  unfold Collection.append
  cases hf : I.ordered.append with
  | none => simpa [L.count r] using L.insertAt_ok x r hl (Nat.le_refl _)
  | some f =>
    obtain ⟨s', e, h, h1, h2, h3⟩ := L.append x f hf r hl
    refine ⟨s', e, by simp [h], h1, ?_, ?_⟩ <;> simpa [List.insertIdx_length_self] using by assumption

theorem Laws.append_fail {c : Coll σ α} {l} (x : α) (hs : fs = true) (r : L.R c.s l) : Collection.append I c x false = some (c, 0) := by
  unfold Collection.append
  cases hf : I.ordered.append with
  | none => simpa [L.count r] using L.insertAt_fail x hs r (Nat.le_refl _)
  | some f => simp [L.appendFail x f hf hs r]

theorem Laws.prepend_ok {c : Coll σ α} {l} (x : α) (r : L.R c.s l) (hl : l.length + 1 < 2 ^ 64) :
    ∃ s' e, Collection.prepend I c x true = some ({ c with s := s' }, e) ∧ e ≠ 0 ∧ L.R s' (relab (l.insertIdx 0 (e, x))) ∧
      (relab (l.insertIdx 0 (e, x)))[0]? = some (e, x) := by
  unfold Collection.prepend
  cases hf : I.ordered.prepend with
  | none => exact L.insertAt_ok x r hl (Nat.zero_le _)
  | some f =>
    obtain ⟨s', e, h, h1, h2, h3⟩ := L.prepend x f hf r hl
    exact ⟨s', e, by simp [h], h1, by simpa using h2, by simpa using h3⟩

theorem Laws.prepend_fail {c : Coll σ α} {l} (x : α) (hs : fs = true) (r : L.R c.s l) : Collection.prepend I c x false = some (c, 0) := by
  unfold Collection.prepend
  cases hf : I.ordered.prepend with
  | none => simpa using L.insertAt_fail x hs r (Nat.zero_le _)
  | some f => simp [L.prependFail x f hf hs r]

theorem Laws.replaceAt_ok {c : Coll σ α} {l} {i : Nat} {e0 x0} (x : α) (r : L.R c.s l) (hl : l.length + 1 < 2 ^ 64) (h : l[i]? = some (e0, x0)) :
    ∃ s' e, replaceAt I c x i true = some (⟨s', c.dtor, c.log ++ (if c.dtor then [x0] else [])⟩, e) ∧ e ≠ 0 ∧
      L.R s' (relab (l.set i (e, x))) ∧ (relab (l.set i (e, x)))[i]? = some (e, x) := by
  have hi : i < l.length := (List.getElem?_eq_some_iff.1 h).1
  unfold replaceAt
  rw [if_pos (by rw [L.count r]; exact hi)]
  cases hf : I.ordered.replace with
  | some f =>
    obtain ⟨s', e, h1, h2, h3, h4⟩ := L.replace x f hf r hi
    exact ⟨s', e, by simp [L.disposeAt_ok r h, h1], h2, h3, h4⟩
  | none =>
    have hid := L.lastingReplace hf
    obtain ⟨s1, e, h1, h2, r1, h3⟩ := L.insertAt_ok x r hl (Nat.le_of_lt hi)
    rw [hid] at r1 h3
    have hg : (l.insertIdx i (e, x))[i + 1]? = some (e0, x0) := by
      rw [List.getElem?_insertIdx_of_gt (by omega)]; simpa using h
    obtain ⟨s2, h4, r2⟩ := L.removeAt_ok (c := { c with s := s1 }) r1 hg
    rw [hid] at r2
    have he : (l.insertIdx i (e, x)).eraseIdx (i + 1) = l.set i (e, x) := by
      clear * - hi
      induction l generalizing i with
      | nil => simp at hi
      | cons p l ih => cases i with
        | zero => simp
        | succ i => simp at hi; simpa using ih hi
    rw [he] at r2
    refine ⟨s2, e, by simp [h1, h4], h2, by rwa [hid], ?_⟩
    rw [hid]; simp [hi]

omit L in
theorem eraseIdx_last {l : Ledger α} : l.eraseIdx (l.length - 1) = l.dropLast := by
  cases l with
  | nil => rfl
  | cons p l => rw [List.dropLast_eq_eraseIdx (i := l.length) (by simp)]; simp

theorem Laws.removeLast_ok {c : Coll σ α} {l e x} (r : L.R c.s l) (h : l.getLast? = some (e, x)) :
    ∃ s', Collection.removeLast I c = some ⟨s', c.dtor, c.log ++ (if c.dtor then [x] else [])⟩ ∧ L.R s' (relab l.dropLast) := by
  have hne : l ≠ [] := by rintro rfl; simp at h
  have hpos : 0 < l.length := List.length_pos_iff.2 hne
  have hg : l[l.length - 1]? = some (e, x) := by rwa [← List.getLast?_eq_getElem?]
  unfold Collection.removeLast
  rw [if_neg (by rw [L.count r]; omega), L.count r]
  cases hf : I.ordered.removeLast with
  | none =>
    obtain ⟨s', h1, r1⟩ := L.removeAt_ok r hg
    rw [eraseIdx_last] at r1
    exact ⟨s', by simp [h1], r1⟩
  | some f =>
    obtain ⟨s', h1, r1⟩ := L.removeLast f hf r hne
    exact ⟨s', by simp [L.disposeAt_ok r hg, h1], r1⟩

theorem Laws.lastEntry_ok {c : Coll σ α} {l} (r : L.R c.s l) :
    Collection.lastEntry I c = some (c, (l.getLast?.map Prod.fst).getD 0) := by
  unfold Collection.lastEntry
  rw [L.count r]
  cases hl : l.getLast? with
  | none => have : l = [] := by simpa using hl
            simp [this]
  | some p =>
    obtain ⟨e, x⟩ := p
    have hne : l ≠ [] := by rintro rfl; simp at hl
    have hpos : 0 < l.length := List.length_pos_iff.2 hne
    have hg : l[l.length - 1]? = some (e, x) := by rwa [← List.getLast?_eq_getElem?]
    rw [if_neg (by omega)]
    cases hf : I.ordered.lastEntry with
    | none => simpa using L.entryAt_ok r hg
    | some f => simp [L.lastEntry f hf r hl]

theorem Laws.lastElement_ok {c : Coll σ α} {l} (r : L.R c.s l) :
    lastElement I c = some (c, l.getLast?.map Prod.snd) := by
  simp only [lastElement, L.lastEntry_ok r, Option.bind_eq_bind, Option.bind_some]
  cases hl : l.getLast? with
  | none => simp [getElement]
  | some p =>
    obtain ⟨e, x⟩ := p
    have hg : l[l.length - 1]? = some (e, x) := by rwa [← List.getLast?_eq_getElem?]
    simp [L.getElement_ok r hg]

/-- The elements a call takes out of the collection, as the destructor must see them: the balance every call keeps. -/
def Balance (l l' : Ledger α) (add gone : List α) : Prop := (l.map Prod.snd ++ add).Perm (l'.map Prod.snd ++ gone)

omit L in
theorem perm_insertIdx {l : Ledger α} {i : Nat} {p : Entry × α} (h : i ≤ l.length) :
    (l.map Prod.snd ++ [p.2]).Perm ((l.insertIdx i p).map Prod.snd) := by
  have : (l ++ [p]).Perm (l.insertIdx i p) := (List.perm_append_singleton p l).trans (List.perm_insertIdx p l h).symm
  simpa using this.map Prod.snd

/-- Every allowed call works, gives the expected reply and keeps state, ledger and destructor log in step. -/
theorem Laws.step {k : Limits} (hf : k.mayFail = true → fs = true) (ho : k.anyOrder = true → I.removeCollection = none)
    {c : Coll σ α} {l op} (r : L.R c.s l) (a : Allowed k l op) :
    ∃ c' rep, exec I c op = some (c', rep) ∧ Expected relab l op rep ∧ L.R c'.s (after relab l op rep) ∧ c'.dtor = c.dtor ∧
      (c.dtor = true → (k.clear = true → I.removeAll = none) → ∃ gone, c'.log = c.log ++ gone ∧
        Balance l (after relab l op rep) (added op rep) gone) := by
  have fo : ∀ ok : Bool, (k.mayFail = false → ok = true) → ok = false → fs = true := by
    intro ok h1 h2
    cases hk : k.mayFail
    · simp [h1 hk] at h2
    · exact hf hk
  have at_ : ∀ i, i < l.length → ∃ e x, l[i]? = some (e, x) := fun i hi => ⟨l[i].1, l[i].2, by simp [hi]⟩
  cases op with
  | insert x ok =>
    obtain ⟨a1, a2⟩ := a
    cases ok with
    | false =>
      refine ⟨c, .entry 0, ?_, ⟨0, rfl, by simp, by simp⟩, by simpa [after, record] using r, rfl, fun _ _ => ⟨[], by simp, ?_⟩⟩
      · simp [exec, insertElement, L.insertFail x (fo _ a1 rfl) r]
      · simp [Balance, after, record, added]
    | true =>
      obtain ⟨s', e, h1, h2, h3, h4, h5⟩ := L.insertElement_ok x r a2
      have hr : record relab l l.length x e = relab (l ++ [(e, x)]) := by simp [record, h2]
      refine ⟨{ c with s := s' }, .entry e, by simp [exec, h1], ⟨e, rfl, by simp [h2], fun _ => by rw [hr]; exact h4⟩, by simpa [after, hr] using h3, rfl,
        fun _ _ => ⟨[], by simp, ?_⟩⟩
      simp [Balance, after, hr, added, h2, L.relabSnd]
  | insertMany xs =>
    obtain ⟨s', es, h1, h2, h3, h4⟩ := L.insertColl_ok xs r a
    have hrl : relab (l ++ es.zip xs) = l ++ es.zip xs := L.relabelled h4
    refine ⟨{ c with s := s' }, .entries es, by simp [exec, h1], ⟨es, rfl, h2, h3⟩, by simpa [after, hrl] using h4, rfl, fun _ _ => ⟨[], by simp, ?_⟩⟩
    simp [Balance, after, hrl, added, List.map_snd_zip, h2]
  | remove e =>
    by_cases hz : e = 0
    · subst hz
      have hl : (l.filter fun p => p.1 ≠ 0) = l := List.filter_eq_self.2 fun p hp => by simpa using L.nz r p hp
      have hl' : after relab l (.remove 0) .nothing = l := by simp only [after]; rw [hl, L.relabelled r]
      refine ⟨c, .nothing, by simp [exec, removeElement], rfl, by rw [hl']; exact r, rfl, fun _ _ => ⟨[], by simp, ?_⟩⟩
      rw [hl']; simp [Balance, added]
    · obtain ⟨x, hx⟩ := (show _ ∨ _ from a).resolve_left hz
      obtain ⟨i, hi⟩ := L.idxOf r hx
      obtain ⟨s', h1, r1⟩ := L.removeElement_ok r hi
      have hl' : after relab l (.remove e) .nothing = relab (l.eraseIdx i) := by simp only [after]; rw [filter_erase (L.nodup r) hi]
      refine ⟨⟨s', c.dtor, c.log ++ if c.dtor = true then [x] else []⟩, .nothing, by simp [exec, h1], rfl, by rw [hl']; exact r1, rfl, fun hd _ => ⟨[x], by simp [hd], ?_⟩⟩
      rw [hl']; simp only [Balance, added, L.relabSnd, List.append_nil]; exact perm_erase hi
  | removeMany es =>
    obtain ⟨a1, a2, a3⟩ := a
    obtain ⟨s', xs, h1, r1, f1⟩ := L.removeColl_ok r a1 a2 (by
      cases hk : k.anyOrder
      · exact Or.inr (a3 hk)
      · exact Or.inl (ho hk))
    refine ⟨⟨s', c.dtor, c.log ++ if c.dtor = true then xs else []⟩, .nothing, by simp [exec, h1], rfl, r1, rfl, fun hd _ => ⟨xs, by simp [hd], ?_⟩⟩
    simp only [Balance, added, after, L.relabSnd, List.append_nil]; exact perm_filter (L.nodup r) f1 a1
  | removeAll =>
    simp only [exec, removeAllElements]
    cases hr : I.removeAll with
    | some f =>
      obtain ⟨s', h1, r1⟩ := L.removeAll f hr r
      exact ⟨{ c with s := s' }, .nothing, by simp [h1], rfl, r1, rfl, fun _ h => absurd (h a) (by simp)⟩
    | none =>
      obtain ⟨s', xs, h1, r1, f1⟩ := L.removeColl_ok (es := l.map Prod.fst) r (L.nodup r) (by
        intro e he; obtain ⟨p, hp, rfl⟩ := List.mem_map.1 he; exact ⟨p.2, hp⟩) (Or.inr (List.Sublist.refl _))
      have hn : (l.filter fun p => p.1 ∉ l.map Prod.fst) = [] := by
        rw [List.filter_eq_nil_iff]; intro p hp; simp only [decide_eq_true_eq, Classical.not_not]; exact List.mem_map_of_mem hp
      have hr0 : relab ([] : Ledger α) = [] := by simpa using L.relabSnd []
      have hb := perm_filter (L.nodup r) f1 (L.nodup r)
      rw [hn, hr0] at r1
      rw [hn] at hb
      refine ⟨⟨s', c.dtor, c.log ++ if c.dtor = true then xs else []⟩, .nothing, by simp [L.getAllEntries_ok r, h1], rfl, r1, rfl, fun hd _ => ⟨xs, by simp [hd], ?_⟩⟩
      simpa [Balance, added, after] using hb
  | insertAt x i ok =>
    obtain ⟨a1, a2, a3⟩ := a
    cases ok with
    | false =>
      refine ⟨c, .entry 0, ?_, ⟨0, rfl, by simp, by simp⟩, by simpa [after, record] using r, rfl, fun _ _ => ⟨[], by simp, ?_⟩⟩
      · simp [exec, L.insertAt_fail x (fo _ a1 rfl) r a3]
      · simp [Balance, after, record, added]
    | true =>
      obtain ⟨s', e, h1, h2, h3, h4⟩ := L.insertAt_ok x r a2 a3
      have hr : record relab l i x e = relab (l.insertIdx i (e, x)) := by simp [record, h2]
      refine ⟨{ c with s := s' }, .entry e, by simp [exec, h1], ⟨e, rfl, by simp [h2], fun _ => by rw [hr]; exact h4⟩, by simpa [after, hr] using h3, rfl,
        fun _ _ => ⟨[], by simp, ?_⟩⟩
      simp only [Balance, after, hr, added, h2, L.relabSnd, List.append_nil, if_false]; exact perm_insertIdx (p := (e, x)) a3
  | append x ok =>
    obtain ⟨a1, a2⟩ := a
    cases ok with
    | false =>
      refine ⟨c, .entry 0, ?_, ⟨0, rfl, by simp, by simp⟩, by simpa [after, record] using r, rfl, fun _ _ => ⟨[], by simp, ?_⟩⟩
      · simp [exec, L.append_fail x (fo _ a1 rfl) r]
      · simp [Balance, after, record, added]
    | true =>
      obtain ⟨s', e, h1, h2, h3, h4⟩ := L.append_ok x r a2
      have hr : record relab l l.length x e = relab (l.insertIdx l.length (e, x)) := by simp only [record, h2, if_false]
      refine ⟨{ c with s := s' }, .entry e, by simp [exec, h1], ⟨e, rfl, by simp [h2], fun _ => by rw [hr]; exact h4⟩, by simpa only [after, hr] using h3, rfl,
        fun _ _ => ⟨[], by simp, ?_⟩⟩
      simp only [Balance, after, hr, added, h2, L.relabSnd, List.append_nil, if_false]; exact perm_insertIdx (p := (e, x)) (Nat.le_refl _)
  | prepend x ok =>
    obtain ⟨a1, a2⟩ := a
    cases ok with
    | false =>
      refine ⟨c, .entry 0, ?_, ⟨0, rfl, by simp, by simp⟩, by simpa [after, record] using r, rfl, fun _ _ => ⟨[], by simp, ?_⟩⟩
      · simp [exec, L.prepend_fail x (fo _ a1 rfl) r]
      · simp [Balance, after, record, added]
    | true =>
      obtain ⟨s', e, h1, h2, h3, h4⟩ := L.prepend_ok x r a2
      have hr : record relab l 0 x e = relab (l.insertIdx 0 (e, x)) := by simp only [record, h2, if_false]
      refine ⟨{ c with s := s' }, .entry e, by simp [exec, h1], ⟨e, rfl, by simp [h2], fun _ => by rw [hr]; exact h4⟩, by simpa only [after, hr] using h3, rfl,
        fun _ _ => ⟨[], by simp, ?_⟩⟩
      simp only [Balance, after, hr, added, h2, L.relabSnd, List.append_nil, if_false]; exact perm_insertIdx (p := (e, x)) (Nat.zero_le _)
  | replaceAt x i =>
    obtain ⟨a1, a2⟩ := a
    obtain ⟨e0, x0, h0⟩ := at_ i a1
    obtain ⟨s', e, h1, h2, h3, h4⟩ := L.replaceAt_ok x r a2 h0
    refine ⟨⟨s', c.dtor, c.log ++ if c.dtor = true then [x0] else []⟩, .entry e, by simp [exec, h1], ⟨e, rfl, h2, h4⟩, h3, rfl, fun hd _ => ⟨[x0], by simp [hd], ?_⟩⟩
    simp only [Balance, after, added, L.relabSnd]
    have p1 := perm_erase h0
    have p2 := perm_erase (l := l.set i (e, x)) (i := i) (e := e) (x := x) (by simp [a1])
    rw [List.eraseIdx_set_eq] at p2
    refine (p1.append_right [x]).trans (List.Perm.trans ?_ (p2.append_right [x0]).symm)
    rw [List.append_assoc, List.append_assoc]
    exact List.Perm.append_left _ (List.Perm.swap _ _ _)
  | removeAt i =>
    obtain ⟨e0, x0, h0⟩ := at_ i a
    obtain ⟨s', h1, r1⟩ := L.removeAt_ok r h0
    refine ⟨⟨s', c.dtor, c.log ++ if c.dtor = true then [x0] else []⟩, .nothing, by simp [exec, h1], rfl, r1, rfl, fun hd _ => ⟨[x0], by simp [hd], ?_⟩⟩
    simp only [Balance, after, added, L.relabSnd, List.append_nil]; exact perm_erase h0
  | removeLast =>
    have hg : ∃ p, l.getLast? = some p := ⟨l.getLast a, List.getLast?_eq_getLast_of_ne_nil a⟩
    obtain ⟨⟨e0, x0⟩, hg⟩ := hg
    obtain ⟨s', h1, r1⟩ := L.removeLast_ok r hg
    refine ⟨⟨s', c.dtor, c.log ++ if c.dtor = true then [x0] else []⟩, .nothing, by simp [exec, h1], rfl, r1, rfl, fun hd _ => ⟨[x0], by simp [hd], ?_⟩⟩
    simp only [Balance, after, added, L.relabSnd, List.append_nil]
    rw [List.getLast?_eq_getElem?] at hg
    have := perm_erase hg
    rwa [eraseIdx_last] at this
  | get e =>
    refine ⟨c, .element (if e = 0 then none else ((l.find? fun (p : Entry × α) => p.1 = e)).map Prod.snd), ?_, rfl, r, rfl, fun _ _ => ⟨[], by simp, by simp [Balance, after, added]⟩⟩
    by_cases hz : e = 0
    · simp [exec, getElement, hz]
    · obtain ⟨x, hx⟩ := (show _ ∨ _ from a).resolve_left hz
      obtain ⟨i, hi⟩ := L.idxOf r hx
      simp [exec, L.getElement_ok r hi, hz, (find_at (L.nodup r) hi).1]
  | entryAt i =>
    obtain ⟨e0, x0, h0⟩ := at_ i a
    exact ⟨c, _, by simp [exec, L.entryAt_ok r h0]; rfl, by simp [Expected, h0], r, rfl, fun _ _ => ⟨[], by simp, by simp [Balance, after, added]⟩⟩
  | indexOf e =>
    obtain ⟨x, hx⟩ := a
    obtain ⟨i, hi⟩ := L.idxOf r hx
    exact ⟨c, _, by simp [exec, indexOf, L.oindex r hi]; rfl, by simp only [Expected]; rw [(find_at (L.nodup r) hi).2], r, rfl, fun _ _ => ⟨[], by simp, by simp [Balance, after, added]⟩⟩
  | elementAt i =>
    obtain ⟨e0, x0, h0⟩ := at_ i a
    exact ⟨c, _, by simp [exec, L.elementAt_ok r h0]; rfl, by simp [Expected, h0], r, rfl, fun _ _ => ⟨[], by simp, by simp [Balance, after, added]⟩⟩
  | lastEntry => exact ⟨c, _, by simp [exec, L.lastEntry_ok r], rfl, r, rfl, fun _ _ => ⟨[], by simp, by simp [Balance, after, added]⟩⟩
  | lastElement => exact ⟨c, _, by simp [exec, L.lastElement_ok r], rfl, r, rfl, fun _ _ => ⟨[], by simp, by simp [Balance, after, added]⟩⟩
  | allEntries => exact ⟨c, _, by simp [exec, L.getAllEntries_ok r], rfl, r, rfl, fun _ _ => ⟨[], by simp, by simp [Balance, after, added]⟩⟩
  | find p => exact ⟨c, _, by simp [exec, L.findElement_ok p r], rfl, r, rfl, fun _ _ => ⟨[], by simp, by simp [Balance, after, added]⟩⟩
  | findMany ps => exact ⟨c, _, by simp only [exec, L.findColl_ok r ps, Option.map_some], rfl, r, rfl, fun _ _ => ⟨[], by simp, by simp [Balance, after, added]⟩⟩

end
end Verif.Collection
