import Verif.CollectionFastLemmas
import Verif.LinkedListLemmas
/-!
# The linked list implementation obeys the laws
-/
namespace Verif.Collection.CList
open Spec LinkedList LinkedList.Spec
variable {α : Type}

/-- Ledger of a list of (node, element). -/
def lab (ns : List (Nat × α)) : Ledger α := ns.map fun p => (p.1 + 1, p.2)

/-- State and node list agree. -/
structure RelN (s : St α) (ns : List (Nat × α)) : Prop where
  ok : Ok s.h [s.root :: ns.map Prod.fst]
  data : ∀ p ∈ ns, s.data p.1 = some p.2
  tail : s.tail = (ns.map Prod.fst).getLast?
  count : s.count = ns.length

/-- State and ledger agree. -/
def Rel (s : St α) (l : Ledger α) : Prop := ∃ ns, l = lab ns ∧ RelN s ns

theorem lab_get {ns : List (Nat × α)} {i : Nat} {e x} (h : (lab ns)[i]? = some (e, x)) : ∃ n, e = n + 1 ∧ ns[i]? = some (n, x) := by
  simp only [lab, List.getElem?_map, Option.map_eq_some_iff, Prod.mk.injEq] at h
  obtain ⟨⟨n, y⟩, h1, rfl, rfl⟩ := h
  exact ⟨n, rfl, h1⟩

theorem drop_at {ns : List (Nat × α)} {i : Nat} {p} (h : ns[i]? = some p) : ns.drop i = p :: ns.drop (i + 1) := by
  obtain ⟨hi, h⟩ := List.getElem?_eq_some_iff.1 h
  rw [← h, List.drop_eq_getElem_cons hi]

theorem insert_split : ∀ (ns : List (Nat × α)) (i : Nat) (p : Nat × α), i ≤ ns.length → ns.insertIdx i p = ns.take i ++ p :: ns.drop i
  | _, 0, _, _ => rfl
  | [], i + 1, _, h => by simp at h
  | a :: ns, i + 1, p, h => by
    rw [List.insertIdx_succ_cons, insert_split ns i p (by simpa using h)]; rfl

theorem split_at {ns : List (Nat × α)} {i : Nat} {p} (h : ns[i]? = some p) : ns = ns.take i ++ p :: ns.drop (i + 1) ∧ (ns.take i).length = i := by
  obtain ⟨hi, h⟩ := List.getElem?_eq_some_iff.1 h
  refine ⟨?_, by simp; omega⟩
  rw [← h, ← List.drop_eq_getElem_cons hi, List.take_append_drop]

section
variable {s : St α} {ns : List (Nat × α)} (r : RelN s ns)
include r

theorem RelN.live {p} (hp : p ∈ ns) : s.h.live p.1 = true :=
  r.ok.lv (c := s.root :: ns.map Prod.fst) (by simp) (by simp; exact Or.inr ⟨p.2, hp⟩)

theorem RelN.rootLive : s.h.live s.root = true := r.ok.lv (c := s.root :: ns.map Prod.fst) (by simp) (by simp)

theorem RelN.nodup : (s.root :: ns.map Prod.fst).Nodup := by simpa using r.ok.nodup

theorem RelN.payload {p} (hp : p ∈ ns) : payload s p.1 = some p.2 := by simp [CList.payload, r.live hp, r.data p hp]

theorem RelN.mem_chain {i : Nat} {n x} (h : ns[i]? = some (n, x)) :
    (s.root :: (ns.map Prod.fst).take i) ++ n :: (ns.map Prod.fst).drop (i + 1) = s.root :: ns.map Prod.fst := by
  have := (split_at h).1
  have h2 := congrArg (List.map Prod.fst) this
  simp only [List.map_append, List.map_cons, List.map_take, List.map_drop] at h2
  rw [List.cons_append, ← h2]

theorem RelN.next {i : Nat} {n x} (h : ns[i]? = some (n, x)) : nextOf s.h n = some ((ns.map Prod.fst)[i + 1]?) := by
  rw [nextOf_ok (r.live (List.mem_of_getElem? h)), seg_next r.ok (a := s.root :: (ns.map Prod.fst).take i) (b := (ns.map Prod.fst).drop (i + 1)) (l := n)
    (by rw [r.mem_chain h]; simp), List.head?_drop]

theorem RelN.rootNext : nextOf s.h s.root = some ((ns.map Prod.fst)[0]?) := by
  rw [nextOf_ok r.rootLive, seg_next r.ok (a := []) (b := ns.map Prod.fst) (l := s.root) (by simp)]
  rw [List.head?_eq_getElem?]

theorem RelN.prev {i : Nat} {n x} (h : ns[i]? = some (n, x)) :
    prevOf s.h n = some (if i = 0 then some s.root else (ns.map Prod.fst)[i - 1]?) := by
  rw [prevOf_ok (r.live (List.mem_of_getElem? h)), seg_prev r.ok (a := s.root :: (ns.map Prod.fst).take i) (b := (ns.map Prod.fst).drop (i + 1)) (l := n)
    (by rw [r.mem_chain h]; simp)]
  have hi : i < ns.length := (List.getElem?_eq_some_iff.1 h).1
  cases i with
  | zero => simp
  | succ i =>
    rw [List.getLast?_cons]
    simp only [Nat.add_eq_zero_iff, Nat.succ_ne_self, and_false, if_false, Nat.add_sub_cancel]
    rw [List.getLast?_eq_getElem?]
    have : ((List.map Prod.fst ns).take (i + 1)).length = i + 1 := by simp; omega
    rw [this, Nat.add_sub_cancel, List.getElem?_take_of_lt (by omega)]
    have h2 : i < (ns.map Prod.fst).length := by simp; omega
    rw [List.getElem?_eq_getElem h2]; rfl

theorem RelN.rootPrev : prevOf s.h s.root = some none := by
  rw [prevOf_ok r.rootLive, seg_prev r.ok (a := []) (b := ns.map Prod.fst) (l := s.root) (by simp)]
  simp

theorem RelN.ne_root {i : Nat} {n x} (h : ns[i]? = some (n, x)) : n ≠ s.root := by
  have := r.nodup
  simp only [List.nodup_cons] at this
  rintro rfl
  exact this.1 (List.mem_map.2 ⟨_, List.mem_of_getElem? h, rfl⟩)

theorem RelN.at' {i : Nat} : at' s (ns.map Prod.fst)[i]? = some (.internal (ns.map Prod.fst)[i]?, (ns.map Prod.snd)[i]?) := by
  cases h : ns[i]? with
  | none => simp [CList.at', h]
  | some p => simp [CList.at', h, r.payload (List.mem_of_getElem? h)]

theorem RelN.fresh : s.h.size ∉ s.root :: ns.map Prod.fst := by
  intro h
  have := (r.ok.live s.h.size).2 (by simpa using h)
  simp [Heap.live] at this

/-- After creating a node: the chain and the loose new node. -/
theorem RelN.newNode (x : α) : ∃ s', CList.newNode s x = (s', s.h.size) ∧ Ok s'.h [s.root :: ns.map Prod.fst, [s.h.size]] ∧ s'.root = s.root ∧ s'.tail = s.tail ∧
    s'.count = s.count ∧ s'.data s.h.size = some x ∧ ∀ p ∈ ns, s'.data p.1 = some p.2 := by
  refine ⟨_, rfl, (create_ok r.ok).2.perm (List.Perm.swap _ _ _), rfl, rfl, rfl, by simp, fun p hp => ?_⟩
  have : p.1 ≠ s.h.size := by
    intro h; exact r.fresh (by rw [← h]; simp; exact Or.inr ⟨p.2, hp⟩)
  simp [this, r.data p hp]

theorem RelN.endOf_mem : endOf s ∈ s.root :: ns.map Prod.fst := by
  unfold endOf
  rw [r.tail]
  cases h : (ns.map Prod.fst).getLast? with
  | none => simp
  | some n => simp only [Option.getD_some, List.mem_cons]; exact Or.inr (List.mem_of_getLast? h)

theorem insert_law (x : α) : ∃ s', insert s x true = some (s', s.h.size + 1) ∧ RelN s' (ns ++ [(s.h.size, x)]) := by
  obtain ⟨s1, e1, o1, hr, ht, hc, d1, d2⟩ := r.newNode x
  have hm : endOf s1 ∈ s.root :: ns.map Prod.fst := by unfold endOf; rw [hr, ht]; exact r.endOf_mem
  obtain ⟨h', e2, o2⟩ := append_ok (rest := []) (n := s.h.size) o1 hm (by simp)
  refine ⟨{ s1 with h := h', tail := some s.h.size, count := s1.count + 1 }, by simp [insert, e1, e2], ?_, ?_, ?_, ?_⟩
  · simpa [hr] using o2
  · intro p hp
    rcases List.mem_append.1 hp with hp | hp
    · exact d2 p hp
    · simp at hp; subst hp; exact d1
  · simp
  · simp [hc, r.count]

theorem RelN.fwdN : ∀ i j : Nat, forwardN s.h i (ns.map Prod.fst)[j]? = some (ns.map Prod.fst)[j + i]? := by
  intro i
  induction i with
  | zero => intro j; simp [forwardN]
  | succ i ih =>
    intro j
    cases h : ns[j]? with
    | none =>
      have : ns.length ≤ j := by simpa using h
      have h2 : ns[j + (i + 1)]? = none := List.getElem?_eq_none (by omega)
      simp [h, h2, forwardN]
    | some p =>
      simp only [List.getElem?_map, h, Option.map_some, forwardN, r.next h, Option.bind_eq_bind, Option.bind_some]
      have := ih (j + 1)
      simp only [List.getElem?_map] at this
      rw [this]; congr 2; congr 1; omega

theorem RelN.bwdN : ∀ k j : Nat, j < ns.length → k ≤ j → backwardN s.h k (ns.map Prod.fst)[j]? = some (ns.map Prod.fst)[j - k]? := by
  intro k
  induction k with
  | zero => intro j _ _; simp [backwardN]
  | succ k ih =>
    intro j hj hk
    obtain ⟨p, h⟩ : ∃ p, ns[j]? = some p := ⟨_, List.getElem?_eq_getElem hj⟩
    simp only [List.getElem?_map, h, Option.map_some, backwardN, r.prev h, Option.bind_eq_bind, Option.bind_some]
    rw [if_neg (by omega)]
    have := ih (j - 1) (by omega) (by omega)
    simp only [List.getElem?_map] at this ⊢
    rw [this]; congr 2; congr 1; omega

theorem RelN.nodeAt {i : Nat} (hi : i ≤ ns.length) : nodeAt s i = some (ns.map Prod.fst)[i]? := by
  unfold CList.nodeAt
  rw [r.count]
  split
  · rw [r.rootNext]; simp only [Option.bind_eq_bind, Option.bind_some]; rw [r.fwdN i 0]; simp
  · split
    · next h1 h2 =>
      rw [r.tail, List.getLast?_eq_getElem?]
      have h3 := r.bwdN (ns.length - 1 - i) (ns.length - 1) (by omega) (by omega)
      rw [List.length_map, h3]; congr 2; omega
    · next h1 h2 => rw [List.getElem?_eq_none (by simp; omega)]

/-- `CCOrderedCollectionListEntry` only looks at the header, the chain and the count; the new node of an insertion is not seen. -/
theorem nodeAt_new {s' : St α} {n : Nat} {i : Nat} (o : Ok s'.h [s.root :: ns.map Prod.fst, [n]]) (hr : s'.root = s.root) (ht : s'.tail = s.tail)
    (hc : s'.count = s.count) (hi : i ≤ ns.length) : CList.nodeAt s' i = some (ns.map Prod.fst)[i]? := by
  have r2 : ∀ j : Nat, ∀ m x, ns[j]? = some (m, x) → nextOf s'.h m = some ((ns.map Prod.fst)[j + 1]?) ∧
      prevOf s'.h m = some (if j = 0 then some s.root else (ns.map Prod.fst)[j - 1]?) := by
    intro j m x h
    have hm : (s.root :: (ns.map Prod.fst).take j) ++ m :: (ns.map Prod.fst).drop (j + 1) ∈ [s.root :: ns.map Prod.fst, [n]] := by
      rw [r.mem_chain h]; simp
    have hl : s'.h.live m = true := o.lv (c := s.root :: ns.map Prod.fst) (by simp) (by simp; exact Or.inr ⟨x, List.mem_of_getElem? h⟩)
    refine ⟨?_, ?_⟩
    · rw [nextOf_ok hl, seg_next o hm, List.head?_drop]
    · have h1 := seg_prev r.ok (a := s.root :: (ns.map Prod.fst).take j) (b := (ns.map Prod.fst).drop (j + 1)) (l := m) (by rw [r.mem_chain h]; simp)
      have h2 := r.prev h
      rw [prevOf_ok (r.live (List.mem_of_getElem? h)), h1] at h2
      rw [prevOf_ok hl, seg_prev o hm, h2]
  have hroot : nextOf s'.h s.root = some ((ns.map Prod.fst)[0]?) := by
    have hl : s'.h.live s.root = true := o.lv (c := s.root :: ns.map Prod.fst) (by simp) (by simp)
    rw [nextOf_ok hl, seg_next o (a := []) (b := ns.map Prod.fst) (l := s.root) (by simp)]; rw [List.head?_eq_getElem?]
  have hf : ∀ i j : Nat, forwardN s'.h i (ns.map Prod.fst)[j]? = some (ns.map Prod.fst)[j + i]? := by
    intro i
    induction i with
    | zero => intro j; simp [forwardN]
    | succ i ih =>
      intro j
      cases h : ns[j]? with
      | none =>
        have : ns.length ≤ j := by simpa using h
        have h2 : ns[j + (i + 1)]? = none := List.getElem?_eq_none (by omega)
        simp [h, h2, forwardN]
      | some p =>
        simp only [List.getElem?_map, h, Option.map_some, forwardN, (r2 j _ _ h).1, Option.bind_eq_bind, Option.bind_some]
        have := ih (j + 1)
        simp only [List.getElem?_map] at this
        rw [this]; congr 2; congr 1; omega
  have hb : ∀ k j : Nat, j < ns.length → k ≤ j → backwardN s'.h k (ns.map Prod.fst)[j]? = some (ns.map Prod.fst)[j - k]? := by
    intro k
    induction k with
    | zero => intro j _ _; simp [backwardN]
    | succ k ih =>
      intro j hj hk
      obtain ⟨p, h⟩ : ∃ p, ns[j]? = some p := ⟨_, List.getElem?_eq_getElem hj⟩
      simp only [List.getElem?_map, h, Option.map_some, backwardN, (r2 j _ _ h).2, Option.bind_eq_bind, Option.bind_some]
      rw [if_neg (by omega)]
      have := ih (j - 1) (by omega) (by omega)
      simp only [List.getElem?_map] at this ⊢
      rw [this]; congr 2; congr 1; omega
  unfold CList.nodeAt
  rw [hc, hr, ht, r.count]
  split
  · rw [hroot]; simp only [Option.bind_eq_bind, Option.bind_some]; rw [hf i 0]; simp
  · split
    · next h1 h2 =>
      rw [r.tail, List.getLast?_eq_getElem?]
      have h3 := hb (ns.length - 1 - i) (ns.length - 1) (by omega) (by omega)
      rw [List.length_map, h3]; congr 2; omega
    · next h1 h2 => rw [List.getElem?_eq_none (by simp; omega)]

theorem insertAt_law {i : Nat} (x : α) (hi : i ≤ ns.length) :
    ∃ s', insertAt s x i true = some (s', s.h.size + 1) ∧ RelN s' (ns.insertIdx i (s.h.size, x)) := by
  obtain ⟨s1, e1, o1, hr, ht, hc, d1, d2⟩ := r.newNode x
  have hna := nodeAt_new r o1 hr ht hc hi
  have hmem : ∀ p ∈ ns.insertIdx i (s.h.size, x), s1.data p.1 = some p.2 := by
    intro p hp
    rcases (List.mem_insertIdx hi).1 hp with rfl | hp
    · exact d1
    · exact d2 p hp
  by_cases hlast : i = ns.length
  · have hm : endOf s1 ∈ s.root :: ns.map Prod.fst := by unfold endOf; rw [hr, ht]; exact r.endOf_mem
    obtain ⟨h', e2, o2⟩ := append_ok (rest := []) (n := s.h.size) o1 hm (by simp)
    have hn : (ns.map Prod.fst)[i]? = none := List.getElem?_eq_none (by simp; omega)
    rw [hn] at hna
    refine ⟨{ s1 with h := h', tail := some s.h.size, count := s1.count + 1 }, ?_, ?_, hmem, ?_, ?_⟩
    · simp [insertAt, e1, hna, e2]
    · subst hlast; simpa [hr, List.insertIdx_length_self] using o2
    · subst hlast; simp [List.insertIdx_length_self]
    · subst hlast; simp [List.insertIdx_length_self, hc, r.count]
  · have hlt : i < ns.length := by omega
    obtain ⟨⟨m, y⟩, hm⟩ : ∃ p, ns[i]? = some p := ⟨_, List.getElem?_eq_getElem hlt⟩
    have hn : (ns.map Prod.fst)[i]? = some m := by simp [hm]
    rw [hn] at hna
    have hch := r.mem_chain hm
    rw [← hch] at o1
    obtain ⟨h', e2, o2⟩ := insertBefore_ok (rest := []) (n := s.h.size) o1 (by simp)
    have hsplit := (split_at hm).1
    have hins : ns.insertIdx i (s.h.size, x) = ns.take i ++ (s.h.size, x) :: (m, y) :: ns.drop (i + 1) := by
      rw [insert_split _ _ _ hi, drop_at hm]
    refine ⟨{ s1 with h := h', count := s1.count + 1 }, ?_, ?_, hmem, ?_, ?_⟩
    · simp [insertAt, e1, hna, e2]
    · rw [hins]; simpa [hr, List.map_take, List.map_drop] using o2
    · show s1.tail = _
      rw [hins, ht, r.tail]
      conv => lhs; rw [hsplit]
      simp
    · show s1.count + 1 = _
      rw [List.length_insertIdx, if_pos hi, hc, r.count]

theorem removeNode_law {i : Nat} {n x} (h : ns[i]? = some (n, x)) : ∃ s', CList.removeNode s n = some s' ∧ RelN s' (ns.eraseIdx i) := by
  have hi : i < ns.length := (List.getElem?_eq_some_iff.1 h).1
  have o := r.ok
  rw [← r.mem_chain h] at o
  obtain ⟨h', e1, -, o1⟩ := destroyNode_ok o
  have hE : ns.eraseIdx i = ns.take i ++ ns.drop (i + 1) := List.eraseIdx_eq_take_drop_succ _ _
  have htail : newTail s n = some ((ns.eraseIdx i).map Prod.fst).getLast? := by
    unfold newTail
    rw [r.next h]
    simp only [Option.bind_eq_bind, Option.bind_some]
    by_cases hl : i + 1 < ns.length
    · have h2 : (ns.map Prod.fst)[i + 1]? = some ns[i + 1].1 := by simp [hl]
      rw [h2]; simp only []
      show some s.tail = _
      rw [r.tail, hE]
      conv => lhs; rw [(split_at h).1]
      have hd : ns.drop (i + 1) ≠ [] := by simp; omega
      congr 1
      rw [List.map_append, List.map_append, List.map_cons, List.getLast?_append, List.getLast?_append, List.getLast?_cons]
      cases hq : (List.map Prod.fst (ns.drop (i + 1))).getLast? with
      | none => simp at hq; omega
      | some q => simp
    · have h2 : (ns.map Prod.fst)[i + 1]? = none := List.getElem?_eq_none (by simp; omega)
      have hd : ns.drop (i + 1) = [] := List.drop_eq_nil_of_le (by omega)
      rw [h2]; simp only []
      rw [r.prev h, hE, hd, List.append_nil]
      simp only [Option.bind_some]
      by_cases h0 : i = 0
      · subst h0; simp [r.rootPrev]
      · obtain ⟨⟨m, y⟩, hm⟩ : ∃ p, ns[i - 1]? = some p := ⟨_, List.getElem?_eq_getElem (by omega)⟩
        have hm' : (ns.map Prod.fst)[i - 1]? = some m := by simp [hm]
        rw [if_neg h0, hm']
        simp only []
        rw [r.prev hm]
        have hlast : (List.map Prod.fst (ns.take i)).getLast? = some m := by
          rw [List.getLast?_eq_getElem?]
          have : (List.map Prod.fst (ns.take i)).length = i := by simp; omega
          rw [this, List.map_take, List.getElem?_take_of_lt (by omega), hm']
        rw [hlast]
        by_cases h1 : i - 1 = 0
        · simp [h1]
        · have h3 : (ns.map Prod.fst)[i - 1 - 1]? = some ns[i - 1 - 1].1 := by
            rw [List.getElem?_map, List.getElem?_eq_getElem (by omega)]; rfl
          rw [if_neg h1, h3]; simp
  refine ⟨_, by simp only [CList.removeNode, htail, e1, Option.bind_eq_bind, Option.bind_some]; rfl, ?_, ?_, rfl, ?_⟩
  · have : (s.root :: List.map Prod.fst (ns.eraseIdx i)) = (s.root :: (ns.map Prod.fst).take i) ++ (ns.map Prod.fst).drop (i + 1) := by
      rw [hE]; simp [List.map_take, List.map_drop]
    show Ok h' [s.root :: List.map Prod.fst (ns.eraseIdx i)]
    rw [this]
    simpa [Spec.add] using o1
  · intro p hp; exact r.data p (List.mem_of_mem_eraseIdx hp)
  · show s.count - 1 = _
    rw [List.length_eraseIdx, if_pos hi, r.count]

theorem indexLoop_ok {i : Nat} {n x} (h : ns[i]? = some (n, x)) : ∀ k f j, j + k = i → k < f →
    indexLoop s.h n f j (ns.map Prod.fst)[j]? = some i := by
  intro k
  induction k with
  | zero =>
    intro f j hj hf
    obtain ⟨f, rfl⟩ : ∃ g, f = g + 1 := ⟨f - 1, by omega⟩
    have : j = i := by omega
    subst this
    simp [h, indexLoop]
  | succ k ih =>
    intro f j hj hf
    obtain ⟨f, rfl⟩ : ∃ g, f = g + 1 := ⟨f - 1, by omega⟩
    have hi : i < ns.length := (List.getElem?_eq_some_iff.1 h).1
    obtain ⟨⟨m, y⟩, hm⟩ : ∃ p, ns[j]? = some p := ⟨_, List.getElem?_eq_getElem (by omega)⟩
    have hne : m ≠ n := by
      rintro rfl
      have hnd := (List.nodup_cons.1 r.nodup).2
      have e1 : (ns.map Prod.fst)[j]? = some m := by simp [hm]
      have e2 : (ns.map Prod.fst)[i]? = some m := by simp [h]
      have h1 : j < (ns.map Prod.fst).length := (List.getElem?_eq_some_iff.1 e1).1
      have := (List.getElem?_inj h1 hnd).1 (e1.trans e2.symm)
      omega
    simp only [List.getElem?_map, hm, Option.map_some, indexLoop, if_neg hne, r.next hm, Option.bind_eq_bind, Option.bind_some]
    have := ih f (j + 1) (by omega) (by omega)
    simpa using this

theorem index_law {i : Nat} {n x} (h : ns[i]? = some (n, x)) : index s (n + 1) = some i := by
  have hi : i < ns.length := (List.getElem?_eq_some_iff.1 h).1
  simp only [index, Nat.add_eq_zero_iff, Nat.succ_ne_self, and_false, if_false, Nat.add_sub_cancel, r.next h, Option.bind_eq_bind, Option.bind_some]
  by_cases hl : i + 1 < ns.length
  · have h2 : (ns.map Prod.fst)[i + 1]? = some ns[i + 1].1 := by simp [hl]
    rw [h2]; simp only []
    rw [r.rootNext]; simp only [Option.bind_some]
    have hsz := r.ok.len (c := s.root :: ns.map Prod.fst) (by simp)
    simp at hsz
    exact indexLoop_ok r h i s.h.size 0 (by omega) (by omega)
  · have h2 : (ns.map Prod.fst)[i + 1]? = none := List.getElem?_eq_none (by simp; omega)
    rw [h2]; simp only []
    show some (s.count - 1) = some i
    rw [r.count]; congr 1; omega

/-- Visiting forwards from position `i`. -/
theorem visitF : ∀ k i f, i + k = ns.length → k ≤ f →
    visit (next iface s) f (.internal (ns.map Prod.fst)[i]?) (ns.map Prod.snd)[i]? =
      some ((ns.drop i).map fun p => (.internal (some p.1), p.2)) := by
  intro k
  induction k with
  | zero =>
    intro i f h _
    rw [List.drop_eq_nil_of_le (by omega), List.getElem?_eq_none (l := ns.map Prod.snd) (by simp; omega)]
    cases f <;> simp [visit]
  | succ k ih =>
    intro i f h hf
    obtain ⟨f, rfl⟩ : ∃ g, f = g + 1 := ⟨f - 1, by omega⟩
    have hi : i < ns.length := by omega
    obtain ⟨p, hg⟩ : ∃ p, ns[i]? = some p := ⟨_, List.getElem?_eq_getElem hi⟩
    rw [drop_at hg]
    have h3 := ih (i + 1) f (by omega) (by omega)
    have h4 : next iface s (.internal (some p.1)) = some (.internal (ns.map Prod.fst)[i + 1]?, (ns.map Prod.snd)[i + 1]?) := by
      simp only [Collection.next, iface, enumerator, r.next hg, Option.bind_eq_bind, Option.bind_some]
      exact r.at'
    simp only [List.getElem?_map, hg, Option.map_some, visit]
    rw [h4]
    simp only [Option.bind_eq_bind, Option.bind_some]
    rw [h3]; rfl

/-- Visiting backwards from position `i`. -/
theorem visitB : ∀ i f, i < ns.length → i < f →
    visit (previous iface s) f (.internal (ns.map Prod.fst)[i]?) (ns.map Prod.snd)[i]? =
      some (((ns.take (i + 1)).map fun p => (Cursor.internal (some p.1), p.2)).reverse) := by
  intro i
  induction i with
  | zero =>
    intro f hi hf
    obtain ⟨f, rfl⟩ : ∃ g, f = g + 1 := ⟨f - 1, by omega⟩
    obtain ⟨p, hg⟩ : ∃ p, ns[0]? = some p := ⟨_, List.getElem?_eq_getElem hi⟩
    have h4 : previous iface s (.internal (some p.1)) = some (.internal none, none) := by
      simp only [Collection.previous, iface, enumerator, r.prev hg, Option.bind_eq_bind, Option.bind_some]
      simp [CList.at']
    simp only [List.getElem?_map, hg, Option.map_some, visit]
    rw [h4, List.take_succ, hg]
    cases f <;> simp [visit]
  | succ i ih =>
    intro f hi hf
    obtain ⟨f, rfl⟩ : ∃ g, f = g + 1 := ⟨f - 1, by omega⟩
    obtain ⟨p, hg⟩ : ∃ p, ns[i + 1]? = some p := ⟨_, List.getElem?_eq_getElem hi⟩
    obtain ⟨q, hg0⟩ : ∃ p, ns[i]? = some p := ⟨_, List.getElem?_eq_getElem (by omega)⟩
    have h4 : previous iface s (.internal (some p.1)) = some (.internal (ns.map Prod.fst)[i]?, (ns.map Prod.snd)[i]?) := by
      simp only [Collection.previous, iface, enumerator, r.prev hg, Option.bind_eq_bind, Option.bind_some]
      have hne := r.ne_root hg0
      have h5 : (if (if i + 1 = 0 then some s.root else (ns.map Prod.fst)[i + 1 - 1]?) = some s.root then none
          else if i + 1 = 0 then some s.root else (ns.map Prod.fst)[i + 1 - 1]?) = (ns.map Prod.fst)[i]? := by
        simp [hg0, hne]
      rw [h5]; exact r.at'
    simp only [List.getElem?_map, hg, Option.map_some, visit]
    rw [h4]
    simp only [Option.bind_eq_bind, Option.bind_some]
    rw [ih f (by omega) (by omega), List.take_succ (i := i + 1), hg]
    simp

end

theorem lab_eraseIdx (ns : List (Nat × α)) (i : Nat) : (lab ns).eraseIdx i = lab (ns.eraseIdx i) := by
  unfold lab; rw [Fast.map_eraseIdx]

theorem lab_insertIdx (ns : List (Nat × α)) (i n : Nat) (x : α) : (lab ns).insertIdx i (n + 1, x) = lab (ns.insertIdx i (n, x)) := by
  unfold lab; rw [Fast.map_insertIdx]

theorem lab_length (ns : List (Nat × α)) : (lab ns).length = ns.length := by simp [lab]

/-- The laws of the list implementation. -/
def laws : Laws (iface : Iface (St α) α) lasting true where
  R := Rel
  create := by
    refine ⟨[], rfl, ?_, by simp, rfl, rfl⟩
    have := (create_ok ok_empty).2
    exact this
  relabelled _ := rfl
  relabSnd _ := rfl
  lastingCollection _ _ := rfl
  lastingReplace _ _ := rfl
  nz := by
    rintro s l ⟨ns, rfl, r⟩ p hp
    obtain ⟨q, -, rfl⟩ := List.mem_map.1 hp
    exact Nat.succ_ne_zero _
  nodup := by
    rintro s l ⟨ns, rfl, r⟩
    have h := (List.nodup_cons.1 r.nodup).2
    have : (lab ns).map Prod.fst = (ns.map Prod.fst).map (· + 1) := by simp [lab]
    rw [this]
    exact h.map fun a b h => by simpa using h
  count := by rintro s l ⟨ns, rfl, r⟩; simpa [iface, lab] using r.count
  destroy := by
    rintro s l ⟨ns, rfl, r⟩
    obtain ⟨h', e, -⟩ := destroy_ok (h := s.h) (rest := []) (a := []) (b := ns.map Prod.fst) (n := s.root) (by simpa using r.ok)
    simp [iface, e]
  element := by
    rintro s l i e x ⟨ns, rfl, r⟩ h
    obtain ⟨n, rfl, h1⟩ := lab_get h
    simp [iface, element, r.payload (List.mem_of_getElem? h1)]
  insert := by
    rintro s l x ⟨ns, rfl, r⟩ _
    obtain ⟨s', e, r'⟩ := insert_law r x
    refine ⟨s', _, e, Nat.succ_ne_zero _, ⟨_, ?_, r'⟩, ?_, rfl⟩
    · simp [lab, lasting]
    · simp [lasting]
  insertFail := by rintro s l x - ⟨ns, rfl, r⟩; rfl
  remove := by
    rintro s l i e x ⟨ns, rfl, r⟩ h
    obtain ⟨n, rfl, h1⟩ := lab_get h
    obtain ⟨s', e, r'⟩ := removeNode_law r h1
    exact ⟨s', by simp [iface, remove, e], _, lab_eraseIdx _ _, r'⟩
  fwd := by
    rintro s l ⟨ns, rfl, r⟩
    have h1 : first (iface : Iface (St α) α) s = some (.internal (ns.map Prod.fst)[0]?, (ns.map Prod.snd)[0]?) := by
      simp only [first, iface, enumerator, r.rootNext, Option.bind_eq_bind, Option.bind_some]
      rw [r.at']
      simp only [Option.bind_some]
      exact r.at'
    have hc : (iface : Iface (St α) α).count s = ns.length := r.count
    refine ⟨_, by
      simp only [forward, h1, Option.bind_eq_bind, Option.bind_some, hc]
      exact visitF r ns.length 0 (ns.length + 1) (by omega) (by omega), ?_⟩
    simp only [List.drop_zero, lab]
    rw [List.forall₂_map_left_iff, List.forall₂_map_right_iff, List.forall₂_same]
    intro p _
    exact ⟨rfl, rfl⟩
  bwd := by
    rintro s l ⟨ns, rfl, r⟩
    have hc : (iface : Iface (St α) α).count s = ns.length := r.count
    have h1 : last (iface : Iface (St α) α) s = some (.internal (ns.map Prod.fst)[ns.length - 1]?, (ns.map Prod.snd)[ns.length - 1]?) := by
      simp only [last, iface, enumerator, r.tail]
      rw [List.getLast?_eq_getElem?, List.length_map]
      exact r.at'
    by_cases h0 : ns = []
    · subst h0
      refine ⟨[], ?_, .nil⟩
      simp only [backward, h1, Option.bind_eq_bind, Option.bind_some, hc]
      simp [visit]
    · have hpos : 0 < ns.length := List.length_pos_iff.2 h0
      refine ⟨_, by
        simp only [backward, h1, Option.bind_eq_bind, Option.bind_some, hc]
        exact visitB r (ns.length - 1) (ns.length + 1) (by omega) (by omega), ?_⟩
      rw [show ns.length - 1 + 1 = ns.length by omega, List.take_of_length_le (by omega)]
      simp only [lab, ← List.map_reverse]
      rw [List.forall₂_map_left_iff, List.forall₂_map_right_iff, List.forall₂_same]
      intro p _
      exact ⟨rfl, rfl⟩
  oinsert := by
    rintro s l i x ⟨ns, rfl, r⟩ _ hi
    rw [lab_length] at hi
    obtain ⟨s', e, r'⟩ := insertAt_law r x hi
    refine ⟨s', _, e, Nat.succ_ne_zero _, ⟨_, ?_, r'⟩, ?_⟩
    · exact lab_insertIdx _ _ _ _
    · show ((lab ns).insertIdx i (s.h.size + 1, x))[i]? = _
      rw [List.getElem?_insertIdx_self]; simp [lab_length, hi]
  oinsertFail := by rintro s l i x - ⟨ns, rfl, r⟩ _; rfl
  oentry := by
    rintro s l i e x ⟨ns, rfl, r⟩ h
    obtain ⟨n, rfl, h1⟩ := lab_get h
    have hi : i < ns.length := (List.getElem?_eq_some_iff.1 h1).1
    simp [iface, entry, r.nodeAt (Nat.le_of_lt hi), h1, ptr]
  oindex := by
    rintro s l i e x ⟨ns, rfl, r⟩ h
    obtain ⟨n, rfl, h1⟩ := lab_get h
    exact index_law r h1
  replace := by intro s l i x f hf; simp [iface] at hf
  oremove := by intro s l i f hf; simp [iface] at hf
  removeLast := by
    rintro s l f hf ⟨ns, rfl, r⟩ hne
    simp only [iface, Option.some.injEq] at hf
    subst hf
    have hpos : 0 < ns.length := by
      rw [← lab_length]; exact List.length_pos_iff.2 hne
    obtain ⟨⟨n, x⟩, hg⟩ : ∃ p, ns[ns.length - 1]? = some p := ⟨_, List.getElem?_eq_getElem (by omega)⟩
    have ht : s.tail = some n := by rw [r.tail, List.getLast?_eq_getElem?, List.length_map, List.getElem?_map, hg]; rfl
    obtain ⟨s', e, r'⟩ := removeNode_law r hg
    refine ⟨s', by simp [removeLast, ht, e], _, ?_, r'⟩
    rw [← lab_eraseIdx]
    have := eraseIdx_last (l := lab ns)
    rw [lab_length] at this
    exact this.symm
  append := by intro s l x f hf; simp [iface] at hf
  appendFail := by intro s l x f hf; simp [iface] at hf
  prepend := by intro s l x f hf; simp [iface] at hf
  prependFail := by intro s l x f hf; simp [iface] at hf
  elementAt := by intro s l i e x f hf; simp [iface] at hf
  lastEntry := by
    rintro s l e x f hf ⟨ns, rfl, r⟩ h
    simp only [iface, Option.some.injEq] at hf
    subst hf
    rw [List.getLast?_eq_getElem?, lab_length] at h
    obtain ⟨n, rfl, h1⟩ := lab_get h
    have ht : s.tail = some n := by rw [r.tail, List.getLast?_eq_getElem?, List.length_map, List.getElem?_map, h1]; rfl
    simp [ht, ptr]
  removeAll := by intro s l f hf; simp [iface] at hf
  removeCollection := by intro s l es f hf; simp [iface] at hf

end Verif.Collection.CList
