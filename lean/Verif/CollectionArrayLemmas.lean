import Verif.CollectionListLemmas
/-!
# The array implementation obeys the laws
-/
namespace Verif.Collection.Arr
open Spec LinkedList LinkedList.Spec
open CList (lab lab_get drop_at insert_split split_at lab_eraseIdx lab_insertIdx lab_length)
variable {α : Type}

/-- State, elements in order with their entry nodes, and the chain of entry nodes agree. -/
structure RelA (s : St α) (ns : List (Nat × α)) (chain : List Nat) : Prop where
  ok : Ok s.h (add chain [])
  entries : s.entries = chain.head?
  perm : chain.Perm (ns.map Prod.fst)
  idx : ∀ (i : Nat) p, ns[i]? = some p → s.idx p.1 = i
  arr : s.arr = ns.map Prod.snd
  len : ns.length + 1 ≤ 2 ^ 64

/-- State and ledger agree. -/
def Rel (s : St α) (l : Ledger α) : Prop := ∃ ns chain, l = lab ns ∧ RelA s ns chain

section
variable {h : Heap} {chain : List Nat} (o : Ok h (add chain []))
include o

theorem chain_mem (hne : chain ≠ []) : chain ∈ add chain [] := by simp [Spec.add, hne]

theorem chain_nodup : chain.Nodup := by have := o.nodup; rwa [flatten_add, List.flatten_nil, List.append_nil] at this

theorem chain_live {n} (hn : n ∈ chain) : h.live n = true := o.lv (chain_mem o (mem_ne_nil hn)) hn

theorem chain_len : chain.length ≤ h.size := by
  by_cases h0 : chain = []
  · simp [h0]
  · exact o.len (chain_mem o h0)

theorem chain_next {a b n} (hc : chain = a ++ n :: b) : nextOf h n = some b.head? := by
  have hn : n ∈ chain := by simp [hc]
  rw [nextOf_ok (chain_live o hn), seg_next o (a := a) (b := b) (by rw [← hc]; exact chain_mem o (mem_ne_nil hn))]

theorem chain_prev {a b n} (hc : chain = a ++ n :: b) : prevOf h n = some a.getLast? := by
  have hn : n ∈ chain := by simp [hc]
  rw [prevOf_ok (chain_live o hn), seg_prev o (a := a) (b := b) (by rw [← hc]; exact chain_mem o (mem_ne_nil hn))]

theorem findLoop_ok (idx : Nat → Nat) (i : Nat) : ∀ b a f, chain = a ++ b → b.length ≤ f →
    findLoop h idx i f b.head? = some (b.find? fun n => idx n = i) := by
  intro b
  induction b with
  | nil => intro a f _ _; cases f <;> rfl
  | cons n b ih =>
    intro a f hc hf
    obtain ⟨f, rfl⟩ : ∃ g, f = g + 1 := ⟨f - 1, by simp at hf; omega⟩
    simp only [List.head?_cons, findLoop, chain_next o hc, Option.bind_eq_bind, Option.bind_some, List.find?_cons]
    by_cases hi : idx n = i
    · simp [hi]
    · simp only [hi, if_false, decide_false]
      exact ih (a ++ [n]) f (by simp [hc]) (by simp at hf; omega)

theorem shiftLoop_ok (f : Nat → Nat) (i : Nat) : ∀ b a k idx, chain = a ++ b → b.length ≤ k →
    shiftLoop h f i k idx b.head? = some fun m => if m ∈ b ∧ i ≤ idx m then f (idx m) else idx m := by
  intro b
  induction b with
  | nil => intro a k idx _ _; cases k <;> simp [shiftLoop]
  | cons n b ih =>
    intro a k idx hc hk
    obtain ⟨k, rfl⟩ : ∃ g, k = g + 1 := ⟨k - 1, by simp at hk; omega⟩
    simp only [List.head?_cons, shiftLoop, chain_next o hc, Option.bind_eq_bind, Option.bind_some]
    rw [ih (a ++ [n]) k _ (by simp [hc]) (by simp at hk; omega)]
    have hnd := chain_nodup o
    rw [hc, List.nodup_append, List.nodup_cons] at hnd
    have hnb := hnd.2.1.1
    congr 1
    funext m
    by_cases hm : m = n
    · subst hm
      by_cases hi : i ≤ idx m <;> simp [hnb, hi]
    · by_cases hi : i ≤ idx n <;> simp [hm, hi]

end

theorem find_ok {s : St α} {chain} (o : Ok s.h (add chain [])) (he : s.entries = chain.head?) (i : Nat) :
    find s i = some (chain.find? fun n => s.idx n = i) := by
  unfold find; rw [he]; exact findLoop_ok o s.idx i chain [] _ rfl (chain_len o)

/-- No entry has the index: one is created. -/
theorem entryOf_miss {s : St α} {chain} {i : Nat} (o : Ok s.h (add chain [])) (he : s.entries = chain.head?) (hm : ∀ n ∈ chain, s.idx n ≠ i) :
    ∃ s' chain', entryOf s i = some (s', s.h.size + 1) ∧ Ok s'.h (add chain' []) ∧ s'.entries = chain'.head? ∧ chain'.Perm (s.h.size :: chain) ∧
      s'.arr = s.arr ∧ s'.idx = fun m => if m = s.h.size then i else s.idx m := by
  have hf : find s i = some none := by
    rw [find_ok o he, List.find?_eq_none.2]; simpa using hm
  have oc := (create_ok o).2
  unfold entryOf
  rw [hf]
  simp only [Option.bind_eq_bind, Option.bind_some]
  cases chain with
  | nil =>
    simp only [List.head?_nil] at he
    rw [he]
    exact ⟨_, [s.h.size], rfl, oc, rfl, List.Perm.refl _, rfl, rfl⟩
  | cons l b =>
    simp only [List.head?_cons] at he
    rw [he]
    have hins := insert_ok (h := (createNode s.h).1) (rest := []) (a := []) (b := b) (c := [s.h.size]) (l := l) (n := s.h.size)
      (by simpa [Spec.add] using oc.perm (List.Perm.swap _ _ _)) (by simp)
    rw [if_pos (by simp)] at hins
    obtain ⟨h', e', o'⟩ := hins
    simp only [e', Option.bind_some]
    exact ⟨_, s.h.size :: l :: b, rfl, by simpa [Spec.add] using o', rfl, List.Perm.refl _, rfl, rfl⟩

section
variable {s : St α} {ns : List (Nat × α)} {chain : List Nat} (r : RelA s ns chain)
include r

theorem RelA.mem_iff {n} : n ∈ chain ↔ ∃ (i : Nat) (x : α), ns[i]? = some (n, x) := by
  rw [r.perm.mem_iff]
  constructor
  · intro h
    obtain ⟨⟨m, x⟩, hp, rfl⟩ := List.mem_map.1 h
    obtain ⟨i, hi⟩ := List.mem_iff_getElem?.1 hp
    exact ⟨i, x, hi⟩
  · rintro ⟨i, x, h⟩
    exact List.mem_map.2 ⟨_, List.mem_of_getElem? h, rfl⟩

theorem RelA.nodup : (ns.map Prod.fst).Nodup := r.perm.nodup_iff.1 (chain_nodup r.ok)

theorem RelA.live {i : Nat} {n x} (h : ns[i]? = some (n, x)) : s.h.live n = true := chain_live r.ok (r.mem_iff.2 ⟨i, x, h⟩)

theorem RelA.find {i : Nat} {n x} (h : ns[i]? = some (n, x)) : Arr.find s i = some (some n) := by
  rw [find_ok r.ok r.entries]
  congr 1
  cases hf : chain.find? fun n => s.idx n = i with
  | none =>
    rw [List.find?_eq_none] at hf
    exact absurd (by simpa using r.idx i _ h) (hf n (r.mem_iff.2 ⟨i, x, h⟩))
  | some m =>
    have h1 := List.mem_of_find?_eq_some hf
    have h2 : s.idx m = i := by simpa using List.find?_some hf
    obtain ⟨j, y, h3⟩ := r.mem_iff.1 h1
    have h4 := r.idx j _ h3
    simp only at h4
    have : j = i := by omega
    subst this
    rw [h] at h3
    simp at h3; rw [h3.1]

theorem RelA.entryOf {i : Nat} {n x} (h : ns[i]? = some (n, x)) : Arr.entryOf s i = some (s, n + 1) := by
  simp [Arr.entryOf, r.find h]

theorem RelA.indexOf {i : Nat} {n x} (h : ns[i]? = some (n, x)) : Arr.indexOf s (n + 1) = some i := by
  have := r.idx i _ h
  simp only at this
  simp [Arr.indexOf, r.live h, this]

theorem RelA.fresh : s.h.size ∉ chain := by
  intro h
  have := chain_live r.ok h
  simp [Heap.live] at this

theorem RelA.bound {n} (hn : n ∈ chain) : s.idx n < ns.length := by
  obtain ⟨i, x, h⟩ := r.mem_iff.1 hn
  have h1 := r.idx i _ h
  simp only at h1
  rw [h1]
  exact (List.getElem?_eq_some_iff.1 h).1

theorem shiftUp_law {i : Nat} (hl : ns.length + 1 < 2 ^ 64) {a : List α} : shiftUp { s with arr := a } i = some { s with
    arr := a, idx := fun m => if m ∈ chain ∧ i ≤ s.idx m then s.idx m + 1 else s.idx m } := by
  unfold shiftUp
  have := shiftLoop_ok r.ok Fast.up i chain [] s.h.size s.idx rfl (chain_len r.ok)
  simp only [r.entries]
  rw [this]
  simp only [Option.bind_eq_bind, Option.bind_some, pure, Option.some.injEq, St.mk.injEq, true_and, and_true]
  funext m
  by_cases hm : m ∈ chain ∧ i ≤ s.idx m
  · have := r.bound hm.1
    rw [if_pos hm, if_pos hm, Fast.up_eq (by omega)]
  · rw [if_neg hm, if_neg hm]

/-- Insertion of a new entry at position `i`. -/
theorem place_law {i : Nat} (x : α) (hl : ns.length + 1 < 2 ^ 64) (hi : i ≤ ns.length) {s1 : St α} (hh : s1.h = s.h) (he : s1.entries = s.entries)
    (hx : s1.idx = fun m => if m ∈ chain ∧ i ≤ s.idx m then s.idx m + 1 else s.idx m) (ha : s1.arr = s.arr.insertIdx i x) :
    ∃ s' chain', Arr.entryOf s1 i = some (s', s.h.size + 1) ∧ RelA s' (ns.insertIdx i (s.h.size, x)) chain' := by
  obtain ⟨s', chain', e1, o1, en1, p1, a1, i1⟩ := entryOf_miss (s := s1) (i := i) (by rw [hh]; exact r.ok) (he.trans r.entries) (by
    intro n hn
    rw [hx]; simp only [hn, true_and]
    split <;> omega)
  rw [hh] at e1 p1 i1
  refine ⟨s', chain', e1, o1, en1, ?_, ?_, ?_, ?_⟩
  · refine p1.trans ?_
    rw [Fast.map_insertIdx]
    exact ((r.perm.cons _).trans (List.perm_insertIdx _ _ (by simpa using hi)).symm)
  · intro j p hp
    rw [i1, hx]
    have hold : ∀ (k : Nat), ns[k]? = some p → p.1 ≠ s.h.size ∧ p.1 ∈ chain ∧ s.idx p.1 = k := by
      intro k hk
      have hm : p.1 ∈ chain := r.mem_iff.2 ⟨k, p.2, hk⟩
      exact ⟨fun h => r.fresh (h ▸ hm), hm, r.idx k p hk⟩
    by_cases h1 : j < i
    · rw [List.getElem?_insertIdx_of_lt h1] at hp
      obtain ⟨h2, h3, h4⟩ := hold j hp
      simp only [h2, h3, h4, if_false, true_and]
      rw [if_neg (by omega)]
    · by_cases h2 : j = i
      · subst h2
        rw [List.getElem?_insertIdx_self, if_pos hi] at hp
        simp only [Option.some.injEq] at hp
        subst hp
        simp
      · rw [List.getElem?_insertIdx_of_gt (by omega)] at hp
        obtain ⟨h2, h3, h4⟩ := hold (j - 1) hp
        simp only [h2, h3, h4, if_false, true_and]
        rw [if_pos (by omega)]; omega
  · rw [a1, ha, r.arr, Fast.map_insertIdx]
  · rw [List.length_insertIdx, if_pos hi]; omega

theorem insertAt_law {i : Nat} (x : α) (hl : ns.length + 1 < 2 ^ 64) (hi : i ≤ ns.length) :
    ∃ s' chain', insertAt s x i true = some (s', s.h.size + 1) ∧ RelA s' (ns.insertIdx i (s.h.size, x)) chain' := by
  have hlen : s.arr.length = ns.length := by simp [r.arr]
  have hp : place s.arr x i true = some (s.arr.insertIdx i x, i) := by
    unfold place
    by_cases h : i = s.arr.length
    · rw [if_pos h]; subst h; simp [Fast.arrayAppend, List.insertIdx_length_self]
    · rw [if_neg h]; have : i < s.arr.length := by omega
      simp [Fast.arrayInsert, this]
  unfold insertAt
  rw [hp]
  simp only [Option.bind_eq_bind, Option.bind_some]
  rw [shiftUp_law r hl]
  simp only [Option.bind_some]
  exact place_law r x hl hi rfl rfl rfl rfl

theorem insert_law (x : α) (hl : ns.length + 1 < 2 ^ 64) :
    ∃ s' chain', insert s x true = some (s', s.h.size + 1) ∧ RelA s' (ns ++ [(s.h.size, x)]) chain' := by
  have hlen : s.arr.length = ns.length := by simp [r.arr]
  unfold insert
  simp only [Fast.arrayAppend, if_true, hlen]
  have := place_law r (i := ns.length) x hl (Nat.le_refl _) (s1 := { s with arr := s.arr ++ [x] }) rfl rfl (by
    funext m
    by_cases hm : m ∈ chain
    · have := r.bound hm
      rw [if_neg (by omega)]
    · simp [hm]) (by rw [← hlen, List.insertIdx_length_self])
  rwa [List.insertIdx_length_self] at this

theorem removeEntry_law {i : Nat} {n x} (h : ns[i]? = some (n, x)) : ∃ s' chain', removeEntry { s with arr := s.arr.eraseIdx i } (n + 1) = some s' ∧
    RelA s' (ns.eraseIdx i) chain' := by
  have hi : i < ns.length := (List.getElem?_eq_some_iff.1 h).1
  have hn := r.mem_iff.2 ⟨i, x, h⟩
  obtain ⟨a, b, hc⟩ := List.append_of_mem hn
  have o := r.ok
  have hne : chain ≠ [] := mem_ne_nil hn
  rw [Spec.add, if_neg hne, hc] at o
  obtain ⟨h', e1, hs1, o1⟩ := destroyNode_ok o
  have hidx := r.idx i _ h
  simp only at hidx
  have hnd := chain_nodup r.ok
  rw [hc, List.nodup_append, List.nodup_cons] at hnd
  have hnab : n ∉ a ++ b := by
    intro hm
    rcases List.mem_append.1 hm with hm | hm
    · exact hnd.2.2 n hm n (by simp) rfl
    · exact hnd.2.1.1 hm
  have hhead : headAfter { s with arr := s.arr.eraseIdx i } n = some (a ++ b).head? := by
    unfold headAfter
    simp only [chain_prev r.ok hc, Option.bind_eq_bind, Option.bind_some]
    cases a with
    | nil => simpa using chain_next r.ok hc
    | cons y a =>
      rw [List.getLast?_cons]
      simp [r.entries, hc]
  unfold removeEntry
  simp only [Nat.add_eq_zero_iff, Nat.succ_ne_self, and_false, if_false, Nat.add_sub_cancel, Option.bind_eq_bind]
  have hix : Arr.indexOf { s with arr := s.arr.eraseIdx i } (n + 1) = some i := r.indexOf h
  rw [hix, hhead]
  simp only [Option.bind_some, e1]
  unfold shiftDown
  have hlen := chain_len o1
  simp only []
  rw [shiftLoop_ok o1 Fast.down i (a ++ b) [] h'.size s.idx rfl hlen]
  simp only [Option.bind_eq_bind, Option.bind_some, pure]
  have hmem : ∀ (j : Nat) p, ns[j]? = some p → j ≠ i → p.1 ∈ a ++ b := by
    intro j p hp hj
    have hm : p.1 ∈ chain := r.mem_iff.2 ⟨j, p.2, hp⟩
    rw [hc] at hm
    have hpn : p.1 ≠ n := by
      intro e; have := r.idx j p hp; rw [e, hidx] at this; exact hj this.symm
    simp only [List.mem_append, List.mem_cons] at hm ⊢
    rcases hm with hm | hm | hm
    exacts [Or.inl hm, absurd hm hpn, Or.inr hm]
  refine ⟨_, a ++ b, rfl, o1, rfl, ?_, ?_, ?_, ?_⟩
  · have hp : (n :: (a ++ b)).Perm (n :: (ns.eraseIdx i).map Prod.fst) := by
      refine List.Perm.trans ?_ (r.perm.trans ?_)
      · rw [hc]; exact List.perm_middle.symm
      · conv => lhs; rw [(split_at h).1]
        rw [List.eraseIdx_eq_take_drop_succ]
        simp only [List.map_append, List.map_cons]
        exact List.perm_middle
    exact hp.cons_inv
  · intro j p hp
    show (if p.1 ∈ a ++ b ∧ i ≤ s.idx p.1 then Fast.down (s.idx p.1) else s.idx p.1) = j
    have hlen := r.len
    by_cases hj : j < i
    · rw [List.getElem?_eraseIdx_of_lt hj] at hp
      have h1 := r.idx j p hp
      rw [h1, if_neg (by omega)]
    · rw [List.getElem?_eraseIdx_of_ge (by omega)] at hp
      have h1 := r.idx (j + 1) p hp
      have h2 : j + 1 < ns.length := (List.getElem?_eq_some_iff.1 hp).1
      have hm := hmem (j + 1) p hp (by omega)
      rw [h1, if_pos ⟨hm, by omega⟩, Fast.down_eq (by omega)]
  · show s.arr.eraseIdx i = _
    rw [Fast.map_eraseIdx, r.arr]
  · rw [List.length_eraseIdx, if_pos hi]; have := r.len; omega

end

/-- The laws of the array implementation. -/
def laws : Laws (iface : Iface (St α) α) lasting false where
  R := Rel
  create := ⟨[], [], rfl, by simpa [Spec.add, iface, create] using ok_empty, rfl, List.Perm.refl _, by simp, rfl, by simp⟩
  relabelled _ := rfl
  relabSnd _ := rfl
  lastingCollection _ _ := rfl
  lastingReplace _ _ := rfl
  nz := by
    rintro s l ⟨ns, chain, rfl, r⟩ p hp
    obtain ⟨q, -, rfl⟩ := List.mem_map.1 hp
    exact Nat.succ_ne_zero _
  nodup := by
    rintro s l ⟨ns, chain, rfl, r⟩
    have : (lab ns).map Prod.fst = (ns.map Prod.fst).map (· + 1) := by simp [lab]
    rw [this]
    exact r.nodup.map fun a b h => by simpa using h
  count := by rintro s l ⟨ns, chain, rfl, r⟩; simp [iface, r.arr, lab]
  destroy := by
    rintro s l ⟨ns, chain, rfl, r⟩
    simp only [iface, destroy, r.entries]
    cases chain with
    | nil => rfl
    | cons n b =>
      obtain ⟨h', e, -⟩ := destroy_ok (h := s.h) (rest := []) (a := []) (b := b) (n := n) (by simpa [Spec.add] using r.ok)
      simp [e]
  element := by
    rintro s l i e x ⟨ns, chain, rfl, r⟩ h
    obtain ⟨n, rfl, h1⟩ := lab_get h
    simp [iface, element, r.indexOf h1, r.arr, h1]
  insert := by
    rintro s l x ⟨ns, chain, rfl, r⟩ hl
    rw [lab_length] at hl
    obtain ⟨s', chain', e, r'⟩ := insert_law r x hl
    refine ⟨s', _, e, Nat.succ_ne_zero _, ⟨_, _, ?_, r'⟩, ?_, rfl⟩
    · simp [lab, lasting]
    · simp [lasting]
  insertFail := by rintro s l x h; cases h
  remove := by
    rintro s l i e x ⟨ns, chain, rfl, r⟩ h
    obtain ⟨n, rfl, h1⟩ := lab_get h
    have hi : i < ns.length := (List.getElem?_eq_some_iff.1 h1).1
    obtain ⟨s', chain', e, r'⟩ := removeEntry_law r h1
    refine ⟨s', ?_, _, _, lab_eraseIdx _ _, r'⟩
    have hlen : i < s.arr.length := by simpa [r.arr] using hi
    simp only [iface, remove, r.indexOf h1, Fast.arrayRemove, if_pos hlen, Option.bind_eq_bind, Option.bind_some]
    exact e
  fwd := by
    rintro s l ⟨ns, chain, rfl, r⟩
    have hf : forward (iface : Iface (St α) α) s = visit (next iface s) (s.arr.length + 1) (.batch s.arr 0) s.arr[0]? := by
      simp [forward, first, iface, enumerator]
    have hlen : (lab ns).length = s.arr.length := by simp [r.arr, lab]
    rw [hf]
    have := visit_fwd (adv := next iface s) (a := s.arr) (l := lab ns)
      (P := fun (cx : Cursor α × α) p => cx.2 = p.2 ∧ (iface : Iface (St α) α).enumeratorReference s cx.1 = some (s, p.1)) hlen ?_ ?_ ?_
        s.arr.length 0 (s.arr.length + 1) (by omega) (by omega)
    · simpa using this
    · rintro i x ⟨e, y⟩ h1 h2
      obtain ⟨n, rfl, h3⟩ := lab_get h2
      refine ⟨?_, ?_⟩
      · rw [r.arr] at h1; simp [h3] at h1; exact h1.symm
      · exact r.entryOf h3
    · intro i hi
      have : s.arr ≠ [] := by intro h; simp [h] at hi
      simp [next, this, hi]
    · intro i hi
      have : s.arr ≠ [] := by intro h; simp [h] at hi
      refine ⟨.batch s.arr i, ?_⟩
      have h2 : ¬ (i + 1 < s.arr.length) := by omega
      simp [next, this, h2, iface, enumerator]
  bwd := by
    rintro s l ⟨ns, chain, rfl, r⟩
    have hlen : (lab ns).length = s.arr.length := by simp [r.arr, lab]
    by_cases h0 : s.arr = []
    · have hn : ns = [] := by have := r.arr; rw [h0] at this; simpa using this.symm
      subst hn
      refine ⟨[], ?_, .nil⟩
      simp [backward, last, iface, enumerator, visit, h0]
    · have hpos : 0 < s.arr.length := List.length_pos_iff.2 h0
      have hd : Fast.down s.arr.length = s.arr.length - 1 := by
        have h1 := r.len
        rw [lab_length] at hlen
        have := Fast.down_eq (n := s.arr.length - 1) (by omega)
        rwa [show s.arr.length - 1 + 1 = s.arr.length by omega] at this
      have hf : backward (iface : Iface (St α) α) s =
          visit (previous iface s) (s.arr.length + 1) (.batch s.arr (s.arr.length - 1)) s.arr[s.arr.length - 1]? := by
        simp [backward, last, iface, enumerator, h0, hd]
      rw [hf]
      have := visit_bwd (adv := previous iface s) (a := s.arr) (l := lab ns)
        (P := fun (cx : Cursor α × α) p => cx.2 = p.2 ∧ (iface : Iface (St α) α).enumeratorReference s cx.1 = some (s, p.1)) hlen ?_ ?_ ?_
          (s.arr.length - 1) (s.arr.length + 1) (by omega) (by omega)
      · rwa [show s.arr.length - 1 + 1 = s.arr.length by omega, List.take_of_length_le (by omega)] at this
      · rintro i x ⟨e, y⟩ h1 h2
        obtain ⟨n, rfl, h3⟩ := lab_get h2
        refine ⟨?_, ?_⟩
        · rw [r.arr] at h1; simp [h3] at h1; exact h1.symm
        · exact r.entryOf h3
      · intro i hi _
        simp [previous, h0, hi]
      · intro _
        exact ⟨.batch s.arr 0, by simp [previous, h0, iface, enumerator]⟩
  oinsert := by
    rintro s l i x ⟨ns, chain, rfl, r⟩ hl hi
    rw [lab_length] at hi hl
    obtain ⟨s', chain', e, r'⟩ := insertAt_law r x hl hi
    refine ⟨s', _, e, Nat.succ_ne_zero _, ⟨_, _, ?_, r'⟩, ?_⟩
    · exact lab_insertIdx _ _ _ _
    · show ((lab ns).insertIdx i (s.h.size + 1, x))[i]? = _
      rw [List.getElem?_insertIdx_self]; simp [lab_length, hi]
  oinsertFail := by rintro s l i x h; cases h
  oentry := by
    rintro s l i e x ⟨ns, chain, rfl, r⟩ h
    obtain ⟨n, rfl, h1⟩ := lab_get h
    exact r.entryOf h1
  oindex := by
    rintro s l i e x ⟨ns, chain, rfl, r⟩ h
    obtain ⟨n, rfl, h1⟩ := lab_get h
    exact r.indexOf h1
  replace := by
    rintro s l i x f hf ⟨ns, chain, rfl, r⟩ hi
    simp only [iface, Option.some.injEq] at hf
    subst hf
    rw [lab_length] at hi
    obtain ⟨⟨n, y⟩, hg⟩ : ∃ p, ns[i]? = some p := ⟨_, List.getElem?_eq_getElem hi⟩
    have hlen : i < s.arr.length := by simpa [r.arr] using hi
    have r' : RelA { s with arr := s.arr.set i x } (ns.set i (n, x)) chain := by
      have hfst : (ns.set i (n, x)).map Prod.fst = ns.map Prod.fst := by
        rw [List.map_set]
        apply List.ext_getElem?; intro j
        by_cases hj : i = j
        · subst hj
          rw [List.getElem?_set_self (by simpa using hi), List.getElem?_map, hg]; rfl
        · rw [List.getElem?_set_ne hj]
      refine ⟨r.ok, r.entries, by rw [hfst]; exact r.perm, ?_, ?_, by simpa using r.len⟩
      · intro j p hp
        by_cases hj : i = j
        · subst hj
          rw [List.getElem?_set_self hi] at hp
          simp only [Option.some.injEq] at hp
          subst hp
          exact r.idx i (n, y) hg
        · rw [List.getElem?_set_ne hj] at hp; exact r.idx j p hp
      · show s.arr.set i x = _
        rw [List.map_set, r.arr]
    refine ⟨{ s with arr := s.arr.set i x }, n + 1, ?_, Nat.succ_ne_zero _, ⟨_, _, ?_, r'⟩, ?_⟩
    · simp only [replace, Fast.arrayReplace, if_pos hlen, Option.bind_eq_bind, Option.bind_some]
      exact r'.entryOf (x := x) (by rw [List.getElem?_set_self hi])
    · simp [lasting, lab, List.map_set]
    · simp [lasting, lab_length, hi]
  oremove := by
    rintro s l i f hf ⟨ns, chain, rfl, r⟩ hi
    simp only [iface, Option.some.injEq] at hf
    subst hf
    rw [lab_length] at hi
    obtain ⟨⟨n, y⟩, hg⟩ : ∃ p, ns[i]? = some p := ⟨_, List.getElem?_eq_getElem hi⟩
    have hlen : i < s.arr.length := by simpa [r.arr] using hi
    obtain ⟨s', chain', e, r'⟩ := removeEntry_law r hg
    refine ⟨s', ?_, _, _, lab_eraseIdx _ _, r'⟩
    have hfind : Arr.find { s with arr := s.arr.eraseIdx i } i = some (some n) := r.find hg
    simp only [removeAt, Fast.arrayRemove, if_pos hlen, Option.bind_eq_bind, Option.bind_some, removeEntryForIndex, hfind]
    exact e
  removeLast := by intro s l f hf; simp [iface] at hf
  append := by intro s l x f hf; simp [iface] at hf
  appendFail := by intro s l x f hf; simp [iface] at hf
  prepend := by intro s l x f hf; simp [iface] at hf
  prependFail := by intro s l x f hf; simp [iface] at hf
  elementAt := by
    rintro s l i e x f hf ⟨ns, chain, rfl, r⟩ h
    simp only [iface, Option.some.injEq] at hf
    subst hf
    obtain ⟨n, rfl, h1⟩ := lab_get h
    simp [r.arr, h1]
  lastEntry := by intro s l e x f hf; simp [iface] at hf
  removeAll := by intro s l f hf; simp [iface] at hf
  removeCollection := by intro s l es f hf; simp [iface] at hf

end Verif.Collection.Arr
