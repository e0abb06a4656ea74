import Verif.HashMapLemmas
/-!
# Invariant of the hash map and effect of each operation
-/
namespace Verif.HashMap
open Verif.BitTricks (U64)
variable {K V : Type}

structure WF (cfg : Cfg K) (m : Map K V) (L : Nat) : Prop where
  len : (rows cfg m).length = cfg.c
  items : ∀ b i it, at' (rows cfg m) b i = some it →
    isEmpty it.tag = true ∨ (it.tag &&& ~~~initBit = mh cfg it.key ∧ (mh cfg it.key).toNat % cfg.c = b)
  distinct : (contents (rows cfg m)).Pairwise (fun p q => cfg.eq p.1 q.1 = false)
  count : m.count = (contents (rows cfg m)).length
  small : ∀ row ∈ rows cfg m, row.length ≤ L

theorem itemAt_eq (cfg : Cfg K) (m : Map K V) (b i : Nat) : itemAt m b i = at' (rows cfg m) b i := by
  obtain ⟨n, bs⟩ := m
  cases bs with
  | none =>
    simp only [itemAt, at', rows, Option.getD_none, List.map_replicate, List.getElem?_replicate]
    split <;> rfl
  | some bs =>
    simp only [itemAt, at', rows, Option.getD_some, List.getElem?_map, Option.bind_eq_bind, Option.bind_some]
    cases h : bs[b]? with
    | none => rfl
    | some bkt => cases bkt <;> rfl

theorem rows_putItem (cfg : Cfg K) (m : Map K V) {b i : Nat} {it y : Item K V} (h : at' (rows cfg m) b i = some it) (n : Nat) :
    Edit (rows cfg m) (rows cfg { putItem m b i y with count := n }) b i (some it) y := by
  obtain ⟨c0, bs⟩ := m
  have h0 := h
  simp only [at', Option.bind_eq_some_iff] at h
  obtain ⟨row, h1, h2⟩ := h
  have : rows cfg { putItem ⟨c0, bs⟩ b i y with count := n } = (rows cfg ⟨c0, bs⟩).set b (row.set i y) := by
    cases bs with
    | none =>
      rw [← itemAt_eq] at h0; simp [itemAt] at h0
    | some bs =>
      simp only [rows, Option.getD_some, List.getElem?_map, Option.map_eq_some_iff] at h1
      obtain ⟨bkt, hb, rfl⟩ := h1
      cases bkt with
      | none => simp at h2
      | some row =>
        simp only [rows, putItem, Option.map_some, Option.getD_some]
        apply List.ext_getElem?
        intro j
        simp only [List.getElem?_map, List.getElem?_modify, List.getElem?_set, List.length_map]
        by_cases e : b = j
        · subst e; simp only [hb]; simp [(List.getElem?_eq_some_iff.1 hb).1]
        · simp [e]
  rw [this]; exact Edit.set h1 h2

theorem rows_addValue (cfg : Cfg K) (m : Map K V) {b : Nat} {row : List (Item K V)} {hh : U64} {k : K} {v : Option (Option V)}
    (h1 : (rows cfg m)[b]? = some row) :
    ∃ m', addValue cfg m b hh k v = some (m', (addRow row hh k v).2) ∧ m'.count = m.count + 1 ∧
      rows cfg m' = (rows cfg m).set b (addRow row hh k v).1 := by
  simp only [rows, List.getElem?_map, Option.map_eq_some_iff] at h1
  obtain ⟨bkt, hb, rfl⟩ := h1
  refine ⟨⟨m.count + 1, some ((m.buckets.getD (List.replicate cfg.c none)).set b (some (addRow (bkt.getD []) hh k v).1))⟩, by simp [addValue, hb], rfl, ?_⟩
  simp [rows, List.map_set]

/-- `addRow` writes one slot: an empty one or a new one; in the latter case the row has no empty slot. -/
theorem addRow_edit {r : Rows K V} {b : Nat} {row : List (Item K V)} (h1 : r[b]? = some row) (hh : U64) (k : K) (v : Option (Option V)) :
    ∃ x old, Edit r (r.set b (addRow row hh k v).1) b (addRow row hh k v).2 x (newItem hh k v old) ∧
      ((∃ x0, x = some x0 ∧ isEmpty x0.tag = true) ∨ (x = none ∧ (addRow row hh k v).2 = row.length ∧ ∀ it ∈ row, isEmpty it.tag = false)) := by
  unfold addRow
  cases hf : row.findIdx? (fun it => isEmpty it.tag) with
  | none =>
    refine ⟨none, none, Edit.app h1, .inr ⟨rfl, rfl, fun it hit => ?_⟩⟩
    have := List.findIdx?_eq_none_iff.1 hf it hit
    simpa using this
  | some i =>
    obtain ⟨hi, h2, -⟩ := List.findIdx?_eq_some_iff_getElem.1 hf
    refine ⟨some row[i], row[i].value, ?_, .inl ⟨_, rfl, h2⟩⟩
    have : row.modify i (fun it => newItem hh k v it.value) = row.set i (newItem hh k v row[i].value) := by
      apply List.ext_getElem?
      intro j
      simp only [List.getElem?_modify, List.getElem?_set]
      by_cases e : i = j
      · subst e; simp [hi]
      · simp [e]
    simp only [this]
    exact Edit.set h1 (List.getElem?_eq_getElem hi)

theorem eqFalse_symm {cfg : Cfg K} (hs : Spec.Consistent cfg.eq cfg.hash) {a b : K} (h : cfg.eq a b = false) : cfg.eq b a = false := by
  cases h' : cfg.eq b a
  · rfl
  · rw [hs.symm _ _ h'] at h; cases h

theorem pairwise_perm {cfg : Cfg K} (hs : Spec.Consistent cfg.eq cfg.hash) {l l' : List (K × Option V)} (h : l.Perm l')
    (hp : l.Pairwise (fun p q => cfg.eq p.1 q.1 = false)) : l'.Pairwise (fun p q => cfg.eq p.1 q.1 = false) :=
  (List.Perm.pairwise_iff (fun {_ _} h => eqFalse_symm hs h) h).1 hp

theorem wf_edit {cfg : Cfg K} (hs : Spec.Consistent cfg.eq cfg.hash) {m m' : Map K V} {L L' : Nat} (h : WF cfg m L) (hL : L ≤ L')
    {b i : Nat} {x : Option (Item K V)} {y : Item K V} (he : Edit (rows cfg m) (rows cfg m') b i x y)
    (hok : isEmpty y.tag = true ∨ (y.tag &&& ~~~initBit = mh cfg y.key ∧ (mh cfg y.key).toNat % cfg.c = b))
    (hkey : ∀ k v, toPair y = some (k, v) → (∃ x0 v0, x = some x0 ∧ toPair x0 = some (k, v0)) ∨
      (x.bind toPair = none ∧ ∀ p ∈ contents (rows cfg m), cfg.eq k p.1 = false))
    (hcount : m'.count + (x.bind toPair).toList.length = m.count + (toPair y).toList.length)
    (hsmall : x = none → i + 1 ≤ L') : WF cfg m' L' := by
  obtain ⟨rest, p1, p2⟩ := he.perm
  refine ⟨by rw [he.length, h.len], ?_, ?_, ?_, ?_⟩
  · intro b' i' it hit
    by_cases e : b' = b ∧ i' = i
    · obtain ⟨rfl, rfl⟩ := e
      rw [he.at_self.1] at hit; cases hit; exact hok
    · rw [he.at_other e] at hit; exact h.items _ _ _ hit
  · have d1 := pairwise_perm hs p1 h.distinct
    apply pairwise_perm hs p2.symm
    cases hy : toPair y with
    | none =>
      exact (List.pairwise_append.1 d1).2.1
    | some kv =>
      obtain ⟨k, v⟩ := kv
      rcases hkey k v hy with ⟨x0, v0, rfl, hx⟩ | ⟨hx, hn⟩
      · simp only [Option.bind_some, hx, Option.toList_some, List.singleton_append, List.pairwise_cons] at d1 ⊢
        exact d1
      · rw [hx] at d1 p1
        simp only [Option.toList_some, List.singleton_append, List.pairwise_cons]
        exact ⟨fun q hq => hn q (p1.symm.subset (by simpa using hq)), by simpa using d1⟩
  · have l1 := p1.length_eq
    have l2 := p2.length_eq
    rw [List.length_append] at l1 l2
    have := h.count
    omega
  · intro row hrow
    rcases he.row_length hrow with ⟨row0, hr0, e⟩ | ⟨rfl, e, -⟩
    · have := h.small _ hr0; omega
    · have := hsmall rfl; omega

/-- Two live places with equal keys are the same place. -/
theorem place_unique {cfg : Cfg K} (hs : Spec.Consistent cfg.eq cfg.hash) {r : Rows K V} (hd : (contents r).Pairwise (fun p q => cfg.eq p.1 q.1 = false))
    {b i b' i' : Nat} {it it' : Item K V} (h1 : at' r b i = some it) (h2 : at' r b' i' = some it') (e1 : isEmpty it.tag = false)
    (e2 : isEmpty it'.tag = false) (he : cfg.eq it.key it'.key = true) : b' = b ∧ i' = i := by
  apply Classical.byContradiction
  intro hne
  simp only [at', Option.bind_eq_some_iff] at h1
  obtain ⟨row, g1, g2⟩ := h1
  have ed := Edit.set (y := ⟨emptyBit, it.key, none⟩) g1 g2
  obtain ⟨rest, p1, p2⟩ := ed.perm
  have hy : toPair (⟨emptyBit, it.key, none⟩ : Item K V) = none := by
    simp only [toPair]; rw [if_pos (by decide)]
  rw [hy] at p2
  have h2' := ed.at_other hne
  rw [h2] at h2'
  have hm : (it'.key, if isInit it'.tag then it'.value else none) ∈ rest := by
    have := p2.subset (mem_contents.2 ⟨b', i', it', h2', by simp [toPair, e2]; rfl⟩)
    simpa using this
  have d1 := pairwise_perm hs p1 hd
  simp only [Option.bind_some, toPair, e1, Bool.false_eq_true, if_false, Option.toList_some, List.singleton_append, List.pairwise_cons] at d1
  have := d1.1 _ hm
  simp only at this
  rw [he] at this; cases this

theorem getKeyIndex_spec {cfg : Cfg K} (hs : Spec.Consistent cfg.eq cfg.hash) (hc : 1 ≤ cfg.c) {m : Map K V} {L : Nat} (h : WF cfg m L) (k : K) :
    ∃ b row r, b < cfg.c ∧ b = (mh cfg k).toNat % cfg.c ∧ (rows cfg m)[b]? = some row ∧ getKeyIndex cfg m k = some (mh cfg k, b, r) ∧
      (∀ i, r = some i → ∃ it, at' (rows cfg m) b i = some it ∧ isEmpty it.tag = false ∧ cfg.eq k it.key = true ∧ i < row.length) ∧
      (r = none → ∀ p ∈ contents (rows cfg m), cfg.eq k p.1 = false) := by
  have hb : (mh cfg k).toNat % cfg.c < cfg.c := Nat.mod_lt _ hc
  have hrow : ∃ row, (rows cfg m)[(mh cfg k).toNat % cfg.c]? = some row :=
    ⟨_, List.getElem?_eq_getElem (by rw [h.len]; exact hb)⟩
  obtain ⟨row, hrow⟩ := hrow
  have hg : getKeyIndex cfg m k = some (mh cfg k, (mh cfg k).toNat % cfg.c, row.findIdx? fun it => mh cfg k == (it.tag &&& ~~~initBit) && cfg.eq k it.key) := by
    have hc0 : cfg.c ≠ 0 := by omega
    obtain ⟨n, bs⟩ := m
    cases bs with
    | none =>
      simp only [rows, Option.getD_none, List.map_replicate, List.getElem?_replicate, hb, if_true, Option.some.injEq] at hrow
      subst hrow
      simp [getKeyIndex, hc0, mh]
    | some bs =>
      simp only [rows, Option.getD_some, List.getElem?_map, Option.map_eq_some_iff] at hrow
      obtain ⟨bkt, hb', rfl⟩ := hrow
      simp only [getKeyIndex, hc0, if_false]
      show (do let bkt ← bs[(mh cfg k).toNat % cfg.c]?; _) = _
      rw [hb']; rfl
  refine ⟨_, row, _, hb, rfl, hrow, hg, ?_, ?_⟩
  · intro i hi
    obtain ⟨hlt, h2, -⟩ := List.findIdx?_eq_some_iff_getElem.1 hi
    simp only [Bool.and_eq_true, beq_iff_eq] at h2
    refine ⟨row[i], ?_, not_empty_of_tag h2.1.symm, h2.2, hlt⟩
    simp [at', hrow, List.getElem?_eq_getElem hlt]
  · intro hn p hp
    obtain ⟨b', i', it, ha, hpair⟩ := mem_contents.1 hp
    cases hq : cfg.eq k p.1
    · rfl
    · exfalso
      simp only [toPair] at hpair
      split at hpair
      · cases hpair
      · next hne =>
        cases hpair
        rcases h.items _ _ _ ha with he | ⟨t1, t2⟩
        · exact hne he
        · have hmh : mh cfg k = mh cfg it.key := by simp only [mh]; rw [hs.hash _ _ hq]
          rw [← hmh] at t2 t1
          subst t2
          simp only [at', hrow, Option.bind_some] at ha
          have := List.findIdx?_eq_none_iff.1 hn it (List.mem_of_getElem? ha)
          simp [t1] at this
          simp only at hq
          rw [this] at hq; cases hq

end Verif.HashMap
