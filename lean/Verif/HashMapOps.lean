import Verif.HashMapInv
/-!
# Effect of the hash map operations
-/
namespace Verif.HashMap
open Verif.BitTricks (U64)
variable {K V : Type}

/-- Setting: consistent callbacks, a positive bucket count, and `L` slots per bucket have handles. -/
structure Setting (cfg : Cfg K) (L : Nat) : Prop where
  cons : Spec.Consistent cfg.eq cfg.hash
  pos : 1 ≤ cfg.c
  enc : ∀ b i, b < cfg.c → i < L → ∃ e, toEntry cfg b i = some e ∧ e ≠ 0 ∧ toIndex cfg e = some (some (b, i))

def Updated (cfg : Cfg K) (m m' : Map K V) (k : K) (w : Option V) (b i : Nat) : Prop :=
  ∃ it, at' (rows cfg m) b i = some it ∧ isEmpty it.tag = false ∧ cfg.eq k it.key = true ∧
    Edit (rows cfg m) (rows cfg m') b i (some it) { it with tag := it.tag ||| initBit, value := w } ∧ m'.count = m.count

def Added (cfg : Cfg K) (m m' : Map K V) (k : K) (v : Option (Option V)) (b i : Nat) : Prop :=
  (∀ p ∈ contents (rows cfg m), cfg.eq k p.1 = false) ∧
  ∃ x old, b = (mh cfg k).toNat % cfg.c ∧ Edit (rows cfg m) (rows cfg m') b i x (newItem (mh cfg k) k v old) ∧
    ((∃ x0, x = some x0 ∧ isEmpty x0.tag = true) ∨ (x = none ∧ ∃ row ∈ rows cfg m, i = row.length ∧ ∀ it ∈ row, isEmpty it.tag = false)) ∧
    m'.count = m.count + 1

def Removed (cfg : Cfg K) (m m' : Map K V) (k : K) (b i : Nat) : Prop :=
  ∃ it, at' (rows cfg m) b i = some it ∧ isEmpty it.tag = false ∧ cfg.eq k it.key = true ∧
    Edit (rows cfg m) (rows cfg m') b i (some it) { it with tag := (it.tag ||| emptyBit) &&& ~~~initBit } ∧ m'.count = m.count - 1

theorem at_bounds {cfg : Cfg K} {m : Map K V} {L : Nat} (h : WF cfg m L) {b i : Nat} {it : Item K V} (ha : at' (rows cfg m) b i = some it) : b < cfg.c ∧ i < L := by
  simp only [at', Option.bind_eq_some_iff] at ha
  obtain ⟨row, h1, h2⟩ := ha
  have hb := (List.getElem?_eq_some_iff.1 h1).1
  have hi := (List.getElem?_eq_some_iff.1 h2).1
  have := h.small _ (List.mem_of_getElem? h1)
  rw [h.len] at hb
  exact ⟨hb, by omega⟩

theorem toPair_live {it : Item K V} (h : isEmpty it.tag = false) : toPair it = some (it.key, if isInit it.tag then it.value else none) := by
  simp [toPair, h]

theorem or_init_empty (t : U64) : isEmpty (t ||| initBit) = isEmpty t := by
  rw [isEmpty_eq, isEmpty_eq, BitVec.getLsbD_or, lsb_init]; simp

/-! ### preservation -/

theorem Updated.pair {cfg : Cfg K} {m m' : Map K V} {k : K} {w : Option V} {b i : Nat} {it : Item K V} (he : isEmpty it.tag = false) :
    toPair { it with tag := it.tag ||| initBit, value := w } = some (it.key, w) := by
  simp only [toPair, or_init_empty, he, isInit_or]; rfl

theorem Updated.wf {cfg : Cfg K} {L : Nat} (s : Setting cfg L) {m m' : Map K V} {k : K} {w : Option V} {b i : Nat} (h : WF cfg m L)
    (u : Updated cfg m m' k w b i) : WF cfg m' L := by
  obtain ⟨it, h1, h2, h3, h4, h5⟩ := u
  have hp : toPair { it with tag := it.tag ||| initBit, value := w } = some (it.key, w) := Updated.pair (cfg := cfg) (m := m) (m' := m') (k := k) (b := b) (i := i) h2
  refine wf_edit s.cons h (Nat.le_refl _) h4 (.inr ?_) ?_ ?_ (by simp)
  · rcases h.items _ _ _ h1 with h0 | h0
    · rw [h2] at h0; cases h0
    · simpa only [tag_or_init] using h0
  · intro k' v' hy
    rw [hp] at hy; cases hy
    exact .inl ⟨it, _, rfl, toPair_live h2⟩
  · rw [hp, Option.bind_some, toPair_live h2, h5]; rfl

theorem Added.pair {cfg : Cfg K} {k : K} {v : Option (Option V)} {old : Option V} :
    toPair (newItem (mh cfg k) k v old) = some (k, v.getD none) := by
  have h0 : isEmpty (mh cfg k) = false := by rw [isEmpty_eq]; exact mh_bit cfg k 63 (by omega)
  cases v with
  | none => simp [toPair, newItem, h0, isInit_mh]
  | some v => simp [toPair, newItem, or_init_empty, h0, isInit_or]

theorem full_row {r : Rows K V} {row : List (Item K V)} (hr : row ∈ r) (hf : ∀ it ∈ row, isEmpty it.tag = false) : row.length ≤ (contents r).length := by
  have h1 : (row.filterMap toPair).length = row.length := by
    clear hr
    induction row with
    | nil => rfl
    | cons a t ih =>
      rw [filterMap_cons', toPair_live (hf a (by simp))]
      simp [ih (fun it hit => hf it (by simp [hit]))]
  obtain ⟨P, Q, rfl⟩ := List.append_of_mem hr
  rw [contents_append, contents_cons, List.length_append, List.length_append, h1]; omega

theorem Added.wf {cfg : Cfg K} {L : Nat} (s : Setting cfg L) {m m' : Map K V} {k : K} {v : Option (Option V)} {b i : Nat} (h : WF cfg m L)
    (hL : (contents (rows cfg m)).length + 1 ≤ L) (u : Added cfg m m' k v b i) : WF cfg m' L := by
  obtain ⟨h1, x, old, h2, h3, h4, h5⟩ := u
  have hx : x.bind toPair = none := by
    rcases h4 with ⟨x0, rfl, hx0⟩ | ⟨rfl, -⟩
    · simp [toPair, hx0]
    · rfl
  refine wf_edit s.cons h (Nat.le_refl _) h3 (.inr ⟨?_, h2.symm⟩) ?_ ?_ ?_
  · show (newItem (mh cfg k) k v old).tag &&& ~~~initBit = mh cfg k
    simp only [newItem]
    split
    · rw [tag_or_init, tag_plain]
    · rw [tag_plain]
  · intro k' v' hy
    rw [Added.pair] at hy; cases hy
    exact .inr ⟨hx, h1⟩
  · rw [hx, Added.pair, h5]; rfl
  · intro hn
    rcases h4 with ⟨x0, rfl, -⟩ | ⟨-, row, hr, rfl, hf⟩
    · cases hn
    · have := full_row hr hf; omega

theorem Removed.wf {cfg : Cfg K} {L : Nat} (s : Setting cfg L) {m m' : Map K V} {k : K} {b i : Nat} (h : WF cfg m L)
    (u : Removed cfg m m' k b i) : WF cfg m' L := by
  obtain ⟨it, h1, h2, h3, h4, h5⟩ := u
  have hp : toPair { it with tag := (it.tag ||| emptyBit) &&& ~~~initBit } = none := by
    simp only [toPair, isEmpty_removed]; rfl
  refine wf_edit s.cons h (Nat.le_refl _) h4 (.inl (isEmpty_removed _)) ?_ ?_ (by simp)
  · intro k' v' hy; rw [hp] at hy; cases hy
  · have hpos : 1 ≤ m.count := by
      rw [h.count]; exact List.length_pos_of_mem (mem_contents.2 ⟨b, i, it, h1, toPair_live h2⟩)
    rw [hp, Option.bind_some, toPair_live h2, h5]
    simp; omega

/-! ### contents -/

theorem distinct_other {cfg : Cfg K} (hs : Spec.Consistent cfg.eq cfg.hash) {k : K} {p : K × Option V} {rest : List (K × Option V)}
    (hd : (p :: rest).Pairwise (fun p q => cfg.eq p.1 q.1 = false)) (hk : cfg.eq k p.1 = true) : ∀ q ∈ rest, cfg.eq k q.1 = false := by
  intro q hq
  have h1 := (List.pairwise_cons.1 hd).1 q hq
  cases h : cfg.eq k q.1
  · rfl
  · rw [hs.trans _ _ _ (hs.symm _ _ hk) h] at h1; cases h1

theorem Updated.contents {cfg : Cfg K} {L : Nat} (s : Setting cfg L) {m m' : Map K V} {k : K} {w : Option V} {b i : Nat} (h : WF cfg m L)
    (u : Updated cfg m m' k w b i) {l : List (K × Option V)} (hl : (contents (rows cfg m)).Perm l) :
    (HashMap.contents (rows cfg m')).Perm (Spec.update cfg.eq l k w) ∧ Spec.has cfg.eq l k = true := by
  obtain ⟨it, h1, h2, h3, h4, h5⟩ := u
  obtain ⟨rest, p1, p2⟩ := h4.perm
  rw [Updated.pair (cfg := cfg) (m := m) (m' := m') (k := k) (b := b) (i := i) h2] at p2
  rw [Option.bind_some, toPair_live h2] at p1
  simp only [Option.toList_some, List.singleton_append] at p1 p2
  have hr := distinct_other s.cons (pairwise_perm s.cons p1 h.distinct) h3
  have q : l.Perm ((it.key, if isInit it.tag then it.value else none) :: rest) := hl.symm.trans p1
  refine ⟨p2.trans ?_, ?_⟩
  · have := q.map (fun p => if cfg.eq k p.1 then (p.1, w) else p)
    refine List.Perm.trans ?_ this.symm
    rw [List.map_cons, if_pos h3]
    refine List.Perm.cons _ ?_
    have e : rest.map (fun p => if cfg.eq k p.1 then (p.1, w) else p) = rest := by
      conv => rhs; rw [← List.map_id rest]
      apply List.map_congr_left
      intro p hp; rw [hr p hp]; rfl
    rw [e]
  · rw [Spec.has, List.any_eq_true]
    exact ⟨_, q.symm.subset (List.mem_cons_self), h3⟩

theorem not_has {cfg : Cfg K} {r : Rows K V} {k : K} (h : ∀ p ∈ contents r, cfg.eq k p.1 = false) {l : List (K × Option V)} (hl : (contents r).Perm l) :
    Spec.has cfg.eq l k = false := by
  rw [Spec.has, List.any_eq_false]
  intro p hp; rw [h p (hl.symm.subset hp)]; simp

theorem Added.contents {cfg : Cfg K} {m m' : Map K V} {k : K} {v : Option (Option V)} {b i : Nat}
    (u : Added cfg m m' k v b i) {l : List (K × Option V)} (hl : (contents (rows cfg m)).Perm l) :
    (HashMap.contents (rows cfg m')).Perm (l ++ [(k, v.getD none)]) ∧ Spec.has cfg.eq l k = false := by
  obtain ⟨h1, x, old, h2, h3, h4, h5⟩ := u
  obtain ⟨rest, p1, p2⟩ := h3.perm
  have hx : x.bind toPair = none := by
    rcases h4 with ⟨x0, rfl, hx0⟩ | ⟨rfl, -⟩
    · simp [toPair, hx0]
    · rfl
  rw [hx] at p1; rw [Added.pair] at p2
  simp only [Option.toList_none, List.nil_append, Option.toList_some, List.singleton_append] at p1 p2
  refine ⟨p2.trans (((p1.symm.trans hl).cons _).trans ?_), not_has h1 hl⟩
  exact (List.perm_append_comm (l₁ := [(k, v.getD none)]) (l₂ := l))

theorem Removed.contents {cfg : Cfg K} {L : Nat} (s : Setting cfg L) {m m' : Map K V} {k : K} {b i : Nat} (h : WF cfg m L)
    (u : Removed cfg m m' k b i) {l : List (K × Option V)} (hl : (contents (rows cfg m)).Perm l) :
    (HashMap.contents (rows cfg m')).Perm (Spec.erase cfg.eq l k) := by
  obtain ⟨it, h1, h2, h3, h4, h5⟩ := u
  obtain ⟨rest, p1, p2⟩ := h4.perm
  have hp : toPair { it with tag := (it.tag ||| emptyBit) &&& ~~~initBit } = none := by
    simp only [toPair, isEmpty_removed]; rfl
  rw [hp] at p2
  rw [Option.bind_some, toPair_live h2] at p1
  simp only [Option.toList_some, List.singleton_append, Option.toList_none, List.nil_append] at p1 p2
  have hr := distinct_other s.cons (pairwise_perm s.cons p1 h.distinct) h3
  have q := (hl.symm.trans p1).filter (fun p => !cfg.eq k p.1)
  refine p2.trans (List.Perm.trans ?_ q.symm)
  rw [List.filter_cons_of_neg (by simp [h3]), List.filter_eq_self.2 (fun p hp => by simp [hr p hp])]

theorem erase_none {cfg : Cfg K} {r : Rows K V} {k : K} (h : ∀ p ∈ contents r, cfg.eq k p.1 = false) {l : List (K × Option V)} (hl : (contents r).Perm l) :
    Spec.erase cfg.eq l k = l := by
  rw [Spec.erase, List.filter_eq_self]
  intro p hp; rw [h p (hl.symm.subset hp)]; rfl

/-! ### the operations -/

theorem putItem_updated {cfg : Cfg K} {m : Map K V} {k : K} {w : Option V} {b i : Nat} {it : Item K V} (h1 : at' (rows cfg m) b i = some it)
    (h2 : isEmpty it.tag = false) (h3 : cfg.eq k it.key = true) :
    Updated cfg m (putItem m b i { it with tag := it.tag ||| initBit, value := w }) k w b i :=
  ⟨it, h1, h2, h3, rows_putItem cfg m h1 m.count, rfl⟩

theorem addValue_added {cfg : Cfg K} {m : Map K V} {k : K} {v : Option (Option V)} {b : Nat} {row : List (Item K V)}
    (hb : b = (mh cfg k).toNat % cfg.c) (hrow : (rows cfg m)[b]? = some row) (hn : ∀ p ∈ contents (rows cfg m), cfg.eq k p.1 = false) :
    ∃ m' i, addValue cfg m b (mh cfg k) k v = some (m', i) ∧ Added cfg m m' k v b i := by
  obtain ⟨m', h1, h2, h3⟩ := rows_addValue cfg m (hh := mh cfg k) (k := k) (v := v) hrow
  obtain ⟨x, old, e1, e2⟩ := addRow_edit hrow (mh cfg k) k v
  rw [← h3] at e1
  refine ⟨m', _, h1, hn, x, old, hb, e1, ?_, h2⟩
  rcases e2 with e2 | ⟨e2, e3, e4⟩
  · exact .inl e2
  · exact .inr ⟨e2, row, List.mem_of_getElem? hrow, e3, e4⟩

theorem setValue_effect {cfg : Cfg K} {L : Nat} (s : Setting cfg L) {m : Map K V} (h : WF cfg m L) (k : K) (w : Option V) :
    ∃ m' b i, setValue cfg m k w = some m' ∧ (Updated cfg m m' k w b i ∨ Added cfg m m' k (some w) b i) := by
  obtain ⟨b, row, r, hb, hbe, hrow, hg, hf, hn⟩ := getKeyIndex_spec s.cons s.pos h k
  cases r with
  | some i =>
    obtain ⟨it, h1, h2, h3, -⟩ := hf i rfl
    refine ⟨putItem m b i { it with tag := it.tag ||| initBit, value := w }, b, i, ?_, .inl (putItem_updated h1 h2 h3)⟩
    have hi := isInit_mh cfg k
    rw [← itemAt_eq] at h1
    rw [setValue, hg, Option.bind_eq_bind, Option.bind_some]
    simp only [h1, Option.bind_eq_bind, Option.bind_some]
    rw [hi]; simp only [Bool.false_eq_true, if_false]; rfl
  | none =>
    obtain ⟨m', i, e1, e2⟩ := addValue_added (v := some w) hbe hrow (hn rfl)
    exact ⟨m', b, i, by simp [setValue, hg, e1], .inr e2⟩

theorem find1 {cfg : Cfg K} {m : Map K V} {k : K} {h : U64} {b i : Nat} {e : U64} (hg : getKeyIndex cfg m k = some (h, b, some i)) (e1 : toEntry cfg b i = some e) :
    findKey cfg m k = some e := by
  rw [findKey, hg, Option.bind_eq_bind, Option.bind_some]; exact e1
theorem find2 {cfg : Cfg K} {m : Map K V} {k : K} {h : U64} {b i : Nat} {e : U64} (hg : getKeyIndex cfg m k = some (h, b, some i)) (e1 : toEntry cfg b i = some e) :
    entryForKey cfg m k = some (m, e, false) := by
  rw [entryForKey, hg, Option.bind_eq_bind, Option.bind_some]; simp only [e1]; rfl
theorem find3 {cfg : Cfg K} {m : Map K V} {k : K} {h : U64} {b i : Nat} {it : Item K V} (hg : getKeyIndex cfg m k = some (h, b, some i)) (e1 : at' (rows cfg m) b i = some it) :
    getValue cfg m k = some (some it.value) := by
  rw [getValue, hg, Option.bind_eq_bind, Option.bind_some]; rw [← itemAt_eq] at e1; simp only [e1]; rfl
theorem find4 {cfg : Cfg K} {m : Map K V} {k : K} {h : U64} {b i : Nat} {e : U64} (hg : getKeyIndex cfg m k = some (h, b, some i)) (e1 : toEntry cfg b i = some e) :
    removeValue cfg m k = removeAt cfg m e := by
  rw [removeValue, hg, Option.bind_eq_bind, Option.bind_some]; simp only [e1]; rw [Option.bind_eq_bind, Option.bind_some]
theorem find5 {cfg : Cfg K} {m : Map K V} {k : K} {h : U64} {b : Nat} (hg : getKeyIndex cfg m k = some (h, b, none)) :
    findKey cfg m k = some 0 ∧ getValue cfg m k = some none ∧ removeValue cfg m k = some m := by
  refine ⟨?_, ?_, ?_⟩
  · rw [findKey, hg]; rfl
  · rw [getValue, hg]; rfl
  · rw [removeValue, hg]; rfl
theorem find6 {cfg : Cfg K} {m m' : Map K V} {k : K} {h : U64} {b i : Nat} {e : U64} (hg : getKeyIndex cfg m k = some (h, b, none))
    (e1 : addValue cfg m b h k none = some (m', i)) (f1 : toEntry cfg b i = some e) : entryForKey cfg m k = some (m', e, true) := by
  rw [entryForKey, hg, Option.bind_eq_bind, Option.bind_some]; simp only [e1]; rw [Option.bind_eq_bind, Option.bind_some]; simp only [f1]; rfl

theorem find_effect {cfg : Cfg K} {L : Nat} (s : Setting cfg L) {m : Map K V} (h : WF cfg m L) (k : K) :
    (∃ b i it e, at' (rows cfg m) b i = some it ∧ isEmpty it.tag = false ∧ cfg.eq k it.key = true ∧ toEntry cfg b i = some e ∧ e ≠ 0 ∧
      toIndex cfg e = some (some (b, i)) ∧ findKey cfg m k = some e ∧ entryForKey cfg m k = some (m, e, false) ∧ getValue cfg m k = some (some it.value) ∧
      removeValue cfg m k = removeAt cfg m e) ∨
    ((∀ p ∈ contents (rows cfg m), cfg.eq k p.1 = false) ∧ findKey cfg m k = some 0 ∧ getValue cfg m k = some none ∧ removeValue cfg m k = some m ∧
      ∃ m' b i, Added cfg m m' k none b i ∧ ((∃ e, toEntry cfg b i = some e ∧ e ≠ 0 ∧
        toIndex cfg e = some (some (b, i))) → ∃ e, toEntry cfg b i = some e ∧ e ≠ 0 ∧
        toIndex cfg e = some (some (b, i)) ∧ entryForKey cfg m k = some (m', e, true))) := by
  obtain ⟨b, row, r, hb, hbe, hrow, hg, hf, hn⟩ := getKeyIndex_spec s.cons s.pos h k
  cases r with
  | some i =>
    obtain ⟨it, h1, h2, h3, -⟩ := hf i rfl
    obtain ⟨e, e1, e2, e3⟩ := s.enc b i hb (at_bounds h h1).2
    refine .inl ⟨b, i, it, e, h1, h2, h3, e1, e2, e3, find1 hg e1, find2 hg e1, find3 hg h1, find4 hg e1⟩
  | none =>
    obtain ⟨m', i, e1, e2⟩ := addValue_added (v := none) hbe hrow (hn rfl)
    obtain ⟨g1, g2, g3⟩ := find5 hg
    refine .inr ⟨hn rfl, g1, g2, g3, m', b, i, e2, ?_⟩
    rintro ⟨e, f1, f2, f3⟩
    exact ⟨e, f1, f2, f3, find6 hg e1 f1⟩

theorem setEntry_effect {cfg : Cfg K} {m : Map K V} {b i : Nat} {it : Item K V} {e : U64} (h1 : at' (rows cfg m) b i = some it) (h2 : isEmpty it.tag = false)
    (he : toIndex cfg e = some (some (b, i))) (k : K) (h3 : cfg.eq k it.key = true) (w : Option V) :
    ∃ m', setEntry cfg m e w = some m' ∧ Updated cfg m m' k w b i :=
  ⟨_, by simp [setEntry, he, itemAt_eq cfg, h1, h2], putItem_updated h1 h2 h3⟩

theorem removeAt_effect {cfg : Cfg K} {m : Map K V} {b i : Nat} {it : Item K V} {e : U64} (h1 : at' (rows cfg m) b i = some it) (h2 : isEmpty it.tag = false)
    (he : toIndex cfg e = some (some (b, i))) (k : K) (h3 : cfg.eq k it.key = true) :
    ∃ m', removeAt cfg m e = some m' ∧ Removed cfg m m' k b i := by
  refine ⟨_, by simp [removeAt, he, itemAt_eq cfg, h1, h2], it, h1, h2, h3, rows_putItem cfg m h1 (m.count - 1), rfl⟩

theorem wf_create (cfg : Cfg K) (L : Nat) : WF cfg (create : Map K V) L := by
  have hr : rows cfg (create : Map K V) = List.replicate cfg.c [] := by simp [rows, create]
  have hcn : contents (rows cfg (create : Map K V)) = [] := by
    rw [hr, contents, List.flatMap_eq_nil_iff]
    intro x hx
    rw [(List.mem_replicate.1 hx).2]; rfl
  refine ⟨by simp [hr], ?_, by rw [hcn]; exact List.Pairwise.nil, by rw [hcn]; rfl, ?_⟩
  · intro b i it hit
    rw [hr] at hit
    simp only [at', List.getElem?_replicate] at hit
    split at hit <;> simp at hit
  · intro row hrow
    rw [hr] at hrow
    rw [(List.mem_replicate.1 hrow).2]; simp

theorem contents_create (cfg : Cfg K) : contents (rows cfg (create : Map K V)) = [] := by
  have := (wf_create cfg 0 (V := V)).count
  rw [show (create : Map K V).count = 0 from rfl] at this
  exact List.eq_nil_of_length_eq_zero this.symm

end Verif.HashMap
