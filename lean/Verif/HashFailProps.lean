import Verif.HashFail
import Verif.HashLayoutLemmas
import Verif.HashMapSpec
/-!
# C127: hash maps when memory runs out while an entry is added
-/
namespace Verif.HashFail
open Verif.BitTricks (U64)
open Verif.HashMap (Cfg toEntry toIndex isEmpty isInit initBit emptyBit reservedMask)
open Verif.HashLayout
open Verif.HashMap.Spec (Consistent)

variable {K V P : Type}

/-! ## The plain map -/

theorem openRow_some {α : Type} {c : Nat} {a : Cells α} {b : Nat} {r : Avail} {bs : List (Option (List α))} {row : List α} (h : openRow c a b r = some (bs, row)) :
    bs = a.getD (List.replicate c none) ∧ ∃ bkt, bs[b]? = some bkt ∧ bkt.getD [] = row := by
  unfold openRow at h
  split at h
  · split at h
    · cases hb : (List.replicate c (none : Option (List α)))[b]? with
      | none => rw [hb] at h; cases h
      | some x =>
        rw [hb] at h; cases h
        refine ⟨rfl, x, hb, ?_⟩
        have := List.mem_of_getElem? hb
        rw [List.mem_replicate] at this
        rw [this.2]; rfl
    · cases h
  · next bs' =>
    split at h
    · cases h
    · next hb => split at h <;> cases h; exact ⟨rfl, none, hb, rfl⟩
    · next hb => cases h; exact ⟨rfl, _, hb, rfl⟩

theorem addPlain_ok {cfg : Cfg K} {m : HashMap.Map K V} {b : Nat} {h : U64} {k : K} {v : Option (Option V)} {r : Avail} {x : HashMap.Map K V × Nat}
    (e : addPlain cfg m b h k v r = some x) : HashMap.addValue cfg m b h k v = some x := by
  unfold addPlain at e
  split at e
  · cases e
  · next bs row ho =>
    obtain ⟨e1, bkt, e2, e3⟩ := openRow_some ho
    subst e1
    unfold HashMap.addValue
    simp only [bind, Option.bind, e2, e3, pure, HashMap.addRow]
    split at e
    · next i hi => rw [hi]; exact e
    · next hi =>
      rw [hi]
      split at e
      · exact e
      · cases e

/-- **C127**, the plain map: when memory runs out the call stops at an assertion; if it does not stop, it has done what it does with plenty of memory. -/
theorem C127_plain (cfg : Cfg K) (m : HashMap.Map K V) (k : K) (r : Avail) :
    (∀ w m', setPlain cfg m k w r = some m' → HashMap.setValue cfg m k w = some m') ∧
    ∀ x, entryPlain cfg m k r = some x → HashMap.entryForKey cfg m k = some x := by
  constructor
  · intro w m' h
    unfold setPlain at h
    split at h
    · cases h
    · exact h
    · next h' b hg =>
      unfold HashMap.setValue
      simp only [bind, Option.bind, hg, pure]
      cases ha : addPlain cfg m b h' k (some w) r with
      | none => rw [ha] at h; cases h
      | some x => rw [ha] at h; cases h; rw [addPlain_ok ha]
  · intro x h
    cases hg : HashMap.getKeyIndex cfg m k with
    | none => simp only [entryPlain, hg] at h; cases h
    | some y =>
      obtain ⟨h', b, i⟩ := y
      cases i with
      | some i => simp only [entryPlain, hg] at h; exact h
      | none =>
        cases ha : addPlain cfg m b h' k none r with
        | none => simp only [entryPlain, hg, ha] at h; cases h
        | some z =>
          obtain ⟨m', i⟩ := z
          cases ht : toEntry cfg b i with
          | none => simp only [entryPlain, hg, ha, ht, Option.map_none] at h; cases h
          | some e =>
            simp only [entryPlain, hg, ha, ht, Option.map_some] at h
            rw [base_new hg (addPlain_ok ha) ht]; exact h

/-! ## The data oriented maps with plenty of memory -/

theorem openRow_plenty {α : Type} (c : Nat) (a : Cells α) (b : Nat) :
    openRow c a b plenty = ((a.getD (List.replicate c none))[b]?).map fun bkt => (a.getD (List.replicate c none), bkt.getD []) := by
  unfold openRow
  split
  · rw [if_pos (show plenty.create = true from rfl)]
    show _ = Option.map _ (List.replicate c none)[b]?
    cases hb : (List.replicate c (none : Option (List α)))[b]? with
    | none => rfl
    | some x =>
      have := List.mem_of_getElem? hb
      rw [List.mem_replicate] at this
      rw [this.2]; rfl
  · next bs =>
    show _ = Option.map _ bs[b]?
    split
    · next h => rw [h]; rfl
    · next h => rw [h]; rfl
    · next h => rw [h]; rfl

theorem appendCellF_plenty {α : Type} (c : Nat) (a : Cells α) (b : Nat) (x : α) : appendCellF c a b x plenty = appendCell c a b x := by
  unfold appendCellF appendCell
  rw [openRow_plenty]
  simp only [bind, Option.bind, pure]
  cases (a.getD (List.replicate c none))[b]? <;> rfl

theorem addValueF_plenty {pl : Payload K V P} {ap : AppendF K V P} (hap : ∀ c p b k v, ap c p b k v plenty plenty = pl.append c p b k v) (cfg : Cfg K) (m : Split P) (b : Nat) (h : U64) (k : K)
    (v : Option (Option V)) : addValueF pl ap cfg m b h k v plenty plenty plenty = addValue pl cfg m b h k v := by
  unfold addValueF addValue
  rw [openRow_plenty]
  simp only [bind, Option.bind, pure, hap]
  cases (m.hashes.getD (List.replicate cfg.c none))[b]? with
  | none => rfl
  | some bkt =>
    simp only [Option.map]
    cases firstEmpty (bkt.getD []) with
    | some i => simp only; cases pl.reuse m.load b i k v <;> rfl
    | none => simp only; cases pl.append cfg.c m.load b k v <;> rfl

theorem allF_plenty (c : Nat) (p : Cells K × Cells (Option V)) (b : Nat) (k : K) (v : Option (Option V)) : allF c p b k v plenty plenty = (all K V).append c p b k v := by
  unfold allF all
  simp only [appendCellF_plenty, bind, Option.bind, pure]
  cases appendCell c p.1 b k with
  | none => rfl
  | some x => simp only; cases appendCell c p.2 b (v.getD none) <;> rfl

theorem hashF_plenty (c : Nat) (p : Cells (K × Option V)) (b : Nat) (k : K) (v : Option (Option V)) : hashF c p b k v plenty plenty = (HashLayout.hash K V).append c p b k v := by
  unfold hashF HashLayout.hash
  simp only [appendCellF_plenty]
  cases appendCell c p b (k, v.getD none) <;> rfl

theorem setValueF_plenty {pl : Payload K V P} {ap : AppendF K V P} (hap : ∀ c p b k v, ap c p b k v plenty plenty = pl.append c p b k v) (cfg : Cfg K) (m : Split P) (k : K) (w : Option V) :
    setValueF pl ap cfg m k w plenty plenty plenty = setValue pl cfg m k w := by
  unfold setValueF
  cases hg : getKeyIndex pl cfg m k with
  | none => simp [setValue, hg]
  | some x =>
    obtain ⟨h, b, i⟩ := x
    cases i with
    | some i => rfl
    | none =>
      simp only [setValue, hg, bind, Option.bind, pure, addValueF_plenty hap]
      cases addValue pl cfg m b h k (some w) <;> rfl

theorem entryForKeyF_plenty {pl : Payload K V P} {ap : AppendF K V P} (hap : ∀ c p b k v, ap c p b k v plenty plenty = pl.append c p b k v) (cfg : Cfg K) (m : Split P) (k : K) :
    entryForKeyF pl ap cfg m k plenty plenty plenty = entryForKey pl cfg m k := by
  cases hg : getKeyIndex pl cfg m k with
  | none => rw [split_fail pl hg]; simp only [entryForKeyF, hg]
  | some x =>
    obtain ⟨h, b, i⟩ := x
    cases i with
    | some i => simp only [entryForKeyF, hg]
    | none =>
      cases ha : addValue pl cfg m b h k none with
      | none => rw [split_new_fail pl hg ha]; simp only [entryForKeyF, hg, addValueF_plenty hap, ha]
      | some y =>
        obtain ⟨m', i⟩ := y
        cases ht : toEntry cfg b i with
        | none => rw [split_new_none pl hg ha ht]; simp only [entryForKeyF, hg, addValueF_plenty hap, ha, ht, Option.map_none]
        | some e => rw [split_new pl hg ha ht]; simp only [entryForKeyF, hg, addValueF_plenty hap, ha, ht, Option.map_some]

/-- With plenty of memory the calls are those of C62. -/
theorem C127_plenty (cfg : Cfg K) (k : K) :
    (∀ m w, setValueF (all K V) allF cfg m k w plenty plenty plenty = setValue (all K V) cfg m k w) ∧
    (∀ m w, setValueF (HashLayout.hash K V) hashF cfg m k w plenty plenty plenty = setValue (HashLayout.hash K V) cfg m k w) ∧
    (∀ m, entryForKeyF (all K V) allF cfg m k plenty plenty plenty = entryForKey (all K V) cfg m k) ∧
    (∀ m, entryForKeyF (HashLayout.hash K V) hashF cfg m k plenty plenty plenty = entryForKey (HashLayout.hash K V) cfg m k) :=
  ⟨fun m w => setValueF_plenty allF_plenty cfg m k w, fun m w => setValueF_plenty hashF_plenty cfg m k w, fun m => entryForKeyF_plenty allF_plenty cfg m k,
    fun m => entryForKeyF_plenty hashF_plenty cfg m k⟩

/-! ## What is kept -/

theorem cellAt_eq {α : Type} {a : Cells α} {b i : Nat} {x : α} : cellAt a b i = some x ↔ ∃ bs row, a = some bs ∧ bs[b]? = some (some row) ∧ row[i]? = some x := by
  unfold cellAt
  simp only [bind, Option.bind]
  constructor
  · intro h
    cases a with
    | none => cases h
    | some bs =>
      cases hb : bs[b]? with
      | none => simp [hb] at h
      | some bkt =>
        cases bkt with
        | none => simp [hb] at h
        | some row => simp [hb] at h; exact ⟨bs, row, rfl, hb, h⟩
  · rintro ⟨bs, row, rfl, hb, hr⟩
    simp [hb, hr]

theorem set_row {α : Type} {bs : List (Option (List α))} {b b' i : Nat} {x : α} {row new : List α} (hb : bs[b]? = some (some row)) (hi : row[i]? = some x)
    (hn : b = b' → new[i]? = some x) : cellAt (some (bs.set b' (some new))) b i = some x := by
  rw [cellAt_eq]
  by_cases e : b' = b
  · subst e
    have := (List.getElem?_eq_some_iff.1 hb).1
    exact ⟨_, new, rfl, by rw [List.getElem?_set_self this], hn rfl⟩
  · exact ⟨_, row, rfl, by rw [List.getElem?_set_ne e]; exact hb, hi⟩

/-- Appending, successfully or not, keeps every element. -/
theorem appendCellF_keeps {α : Type} {c : Nat} {a : Cells α} {b : Nat} {x : α} {r : Avail} {a' : Cells α} {i : Nat} (h : appendCellF c a b x r = some (a', i)) {b' n : Nat} {y : α}
    (hc : cellAt a b' n = some y) : cellAt a' b' n = some y := by
  obtain ⟨bs, row, rfl, hb, hr⟩ := cellAt_eq.1 hc
  unfold appendCellF at h
  split at h
  · cases h
  · next bs' row' ho =>
    obtain ⟨q, bkt, e2, e3⟩ := openRow_some ho
    have q : bs' = bs := q
    subst q
    have key : b' = b → row' = row := by
      rintro rfl
      rw [hb] at e2; cases e2; exact e3.symm
    split at h <;> cases h
    · refine set_row hb hr fun e => ?_
      rw [key e, List.getElem?_append_left (List.getElem?_eq_some_iff.1 hr).1]; exact hr
    · exact set_row hb hr fun e => by rw [key e]; exact hr

theorem cellAt_put {α : Type} {a : Cells α} {b i : Nat} {x y : α} (h : cellAt a b i = some y) : cellAt (putCell a b i x) b i = some x := by
  obtain ⟨bs, row, rfl, hb, hr⟩ := cellAt_eq.1 h
  rw [cellAt_eq]
  refine ⟨bs.modify b fun bkt => bkt.map fun row => row.set i x, row.set i x, rfl, ?_, ?_⟩
  · rw [List.getElem?_modify, hb]; simp
  · rw [List.getElem?_set_self (List.getElem?_eq_some_iff.1 hr).1]

theorem cellAt_put_ne {α : Type} {a : Cells α} {b i b' n : Nat} {x y : α} (h : cellAt a b' n = some y) (ne : ¬ (b' = b ∧ n = i)) : cellAt (putCell a b i x) b' n = some y := by
  obtain ⟨bs, row, rfl, hb, hr⟩ := cellAt_eq.1 h
  rw [cellAt_eq]
  by_cases e : b' = b
  · subst e
    refine ⟨_, row.set i x, rfl, ?_, ?_⟩
    · rw [List.getElem?_modify, hb]; simp
    · rw [List.getElem?_set_ne (fun q => ne ⟨rfl, q.symm⟩)]; exact hr
  · refine ⟨_, row, rfl, ?_, hr⟩
    rw [List.getElem?_modify, hb]; simp [Ne.symm e]

/-- What is needed of a layout. -/
structure LawfulF (pl : Payload K V P) (ap : AppendF K V P) : Prop where
  appendKey : ∀ {c p b k v r1 r2 p' i}, ap c p b k v r1 r2 = some (p', i) → ∀ {b' n x}, pl.key p b' n = some x → pl.key p' b' n = some x
  appendValue : ∀ {c p b k v r1 r2 p' i}, ap c p b k v r1 r2 = some (p', i) → ∀ {b' n x}, pl.value p b' n = some x → pl.value p' b' n = some x
  reuseSelf : ∀ {p b j k v p'}, pl.reuse p b j k v = some p' → pl.key p' b j = some k
  reuseKey : ∀ {p b j k v p'}, pl.reuse p b j k v = some p' → ∀ {b' n x}, ¬ (b' = b ∧ n = j) → pl.key p b' n = some x → pl.key p' b' n = some x
  reuseValue : ∀ {p b j k v p'}, pl.reuse p b j k v = some p' → ∀ {b' n x}, ¬ (b' = b ∧ n = j) → pl.value p b' n = some x → pl.value p' b' n = some x
  setKey : ∀ {p b j w p'}, pl.setValue p b j w = some p' → ∀ {b' n x}, pl.key p b' n = some x → pl.key p' b' n = some x
  setValue : ∀ {p b j w p'}, pl.setValue p b j w = some p' → ∀ {b' n x}, ¬ (b' = b ∧ n = j) → pl.value p b' n = some x → pl.value p' b' n = some x

theorem replaceCell_eq {α : Type} {a : Cells α} {b i : Nat} {x : Option α} {a' : Cells α} (h : replaceCell a b i x = some a') :
    ∃ y, cellAt a b i = some y ∧ a' = x.elim a (putCell a b i) := by
  unfold replaceCell at h
  simp only [bind, Option.bind, pure] at h
  cases hc : cellAt a b i with
  | none => simp [hc] at h
  | some y => simp only [hc] at h; cases x <;> exact ⟨y, rfl, (Option.some.inj h).symm⟩

theorem replaceCell_ne {α : Type} {a : Cells α} {b i : Nat} {x : Option α} {a' : Cells α} (h : replaceCell a b i x = some a') {b' n : Nat} {y : α} (hc : cellAt a b' n = some y)
    (ne : ¬ (b' = b ∧ n = i)) : cellAt a' b' n = some y := by
  obtain ⟨_, _, rfl⟩ := replaceCell_eq h
  cases x with
  | none => exact hc
  | some x => exact cellAt_put_ne hc ne

theorem lawfulF_all : LawfulF (all K V) allF := by
  have ap : ∀ {c : Nat} {p : Cells K × Cells (Option V)} {b : Nat} {k : K} {v : Option (Option V)} {r1 r2 : Avail} {p' : Cells K × Cells (Option V)} {i : Nat},
      allF c p b k v r1 r2 = some (p', i) → (∃ j, appendCellF c p.1 b k r1 = some (p'.1, j)) ∧ ∃ j, appendCellF c p.2 b (v.getD none) r2 = some (p'.2, j) := by
    intro c p b k v r1 r2 p' i h
    unfold allF at h
    split at h
    · cases h
    · next hk =>
      split at h
      · cases h
      · next hv => cases h; exact ⟨⟨_, hk⟩, ⟨_, hv⟩⟩
  have re : ∀ {p : Cells K × Cells (Option V)} {b j : Nat} {k : K} {v : Option (Option V)} {p' : Cells K × Cells (Option V)}, (all K V).reuse p b j k v = some p' →
      replaceCell p.1 b j (some k) = some p'.1 ∧ replaceCell p.2 b j v = some p'.2 := by
    intro p b j k v p' h
    simp only [all, bind, Option.bind, pure] at h
    cases h1 : replaceCell p.1 b j (some k) with
    | none => simp [h1] at h
    | some x =>
      cases h2 : replaceCell p.2 b j v with
      | none => simp [h1, h2] at h
      | some z => simp only [h1, h2] at h; cases h; exact ⟨rfl, rfl⟩
  refine ⟨?_, ?_, ?_, ?_, ?_, ?_, ?_⟩
  · intro c p b k v r1 r2 p' i h b' n x hx
    obtain ⟨⟨j, h1⟩, _⟩ := ap h
    exact appendCellF_keeps h1 hx
  · intro c p b k v r1 r2 p' i h b' n x hx
    obtain ⟨_, j, h1⟩ := ap h
    exact appendCellF_keeps h1 hx
  · intro p b j k v p' h
    obtain ⟨y, hy, e⟩ := replaceCell_eq (re h).1
    show cellAt p'.1 b j = _
    rw [e]; exact cellAt_put hy
  · intro p b j k v p' h b' n x ne hx
    exact replaceCell_ne (re h).1 hx ne
  · intro p b j k v p' h b' n x ne hx
    exact replaceCell_ne (re h).2 hx ne
  · intro p b j w p' h b' n x hx
    simp only [all, bind, Option.bind, pure] at h
    cases h2 : replaceCell p.2 b j (some w) with
    | none => simp [h2] at h
    | some z => simp only [h2] at h; cases h; exact hx
  · intro p b j w p' h b' n x ne hx
    simp only [all, bind, Option.bind, pure] at h
    cases h2 : replaceCell p.2 b j (some w) with
    | none => simp [h2] at h
    | some z => simp only [h2] at h; cases h; exact replaceCell_ne h2 hx ne

theorem lawfulF_hash : LawfulF (HashLayout.hash K V) hashF := by
  have ap : ∀ {c : Nat} {p : Cells (K × Option V)} {b : Nat} {k : K} {v : Option (Option V)} {r1 r2 : Avail} {p' : Cells (K × Option V)} {i : Nat},
      hashF c p b k v r1 r2 = some (p', i) → appendCellF c p b (k, v.getD none) r1 = some (p', i) := by
    intro c p b k v r1 r2 p' i h
    unfold hashF at h
    split at h
    · cases h
    · next hk => split at h <;> cases h; exact hk
  have re : ∀ {p : Cells (K × Option V)} {b j : Nat} {k : K} {v : Option (Option V)} {p' : Cells (K × Option V)}, (HashLayout.hash K V).reuse p b j k v = some p' →
      ∃ x, cellAt p b j = some x ∧ p' = putCell p b j (k, v.getD x.2) := by
    intro p b j k v p' h
    simp only [HashLayout.hash, bind, Option.bind, pure] at h
    cases h1 : cellAt p b j with
    | none => simp [h1] at h
    | some x => simp only [h1] at h; exact ⟨x, rfl, (Option.some.inj h).symm⟩
  have se : ∀ {p : Cells (K × Option V)} {b j : Nat} {w : Option V} {p' : Cells (K × Option V)}, (HashLayout.hash K V).setValue p b j w = some p' →
      ∃ x, cellAt p b j = some x ∧ p' = putCell p b j (x.1, w) := by
    intro p b j w p' h
    simp only [HashLayout.hash, bind, Option.bind, pure] at h
    cases h1 : cellAt p b j with
    | none => simp [h1] at h
    | some x => simp only [h1] at h; exact ⟨x, rfl, (Option.some.inj h).symm⟩
  have ck : ∀ {p : Cells (K × Option V)} {b n : Nat} {x : K}, (HashLayout.hash K V).key p b n = some x ↔ ∃ y, cellAt p b n = some y ∧ y.1 = x := by
    intro p b n x; simp [HashLayout.hash]
  have cv : ∀ {p : Cells (K × Option V)} {b n : Nat} {x : Option V}, (HashLayout.hash K V).value p b n = some x ↔ ∃ y, cellAt p b n = some y ∧ y.2 = x := by
    intro p b n x; simp [HashLayout.hash]
  refine ⟨?_, ?_, ?_, ?_, ?_, ?_, ?_⟩
  · intro c p b k v r1 r2 p' i h b' n x hx
    obtain ⟨y, hy, e⟩ := ck.1 hx
    exact ck.2 ⟨y, appendCellF_keeps (ap h) hy, e⟩
  · intro c p b k v r1 r2 p' i h b' n x hx
    obtain ⟨y, hy, e⟩ := cv.1 hx
    exact cv.2 ⟨y, appendCellF_keeps (ap h) hy, e⟩
  · intro p b j k v p' h
    obtain ⟨x, hx, rfl⟩ := re h
    exact ck.2 ⟨_, cellAt_put hx, rfl⟩
  · intro p b j k v p' h b' n x ne hx
    obtain ⟨z, hz, rfl⟩ := re h
    obtain ⟨y, hy, e⟩ := ck.1 hx
    exact ck.2 ⟨y, cellAt_put_ne hy ne, e⟩
  · intro p b j k v p' h b' n x ne hx
    obtain ⟨z, hz, rfl⟩ := re h
    obtain ⟨y, hy, e⟩ := cv.1 hx
    exact cv.2 ⟨y, cellAt_put_ne hy ne, e⟩
  · intro p b j w p' h b' n x hx
    obtain ⟨z, hz, rfl⟩ := se h
    obtain ⟨y, hy, e⟩ := ck.1 hx
    by_cases q : b' = b ∧ n = j
    · obtain ⟨rfl, rfl⟩ := q
      rw [hz] at hy; cases hy
      exact ck.2 ⟨_, cellAt_put hz, e⟩
    · exact ck.2 ⟨y, cellAt_put_ne hy q, e⟩
  · intro p b j w p' h b' n x ne hx
    obtain ⟨z, hz, rfl⟩ := se h
    obtain ⟨y, hy, e⟩ := cv.1 hx
    exact cv.2 ⟨y, cellAt_put_ne hy ne, e⟩

/-- What one call leaves of the entries whose keys are not its own. -/
structure Keeps (pl : Payload K V P) (cfg : Cfg K) (k' : K) (m m' : Split P) : Prop where
  bucket : ∀ {bs : List (Option (List U64))} {b : Nat} {row : List U64}, m.hashes = some bs → bs[b]? = some (some row) →
    ∃ bs' row', m'.hashes = some bs' ∧ bs'[b]? = some (some row') ∧ ∀ (n : Nat) (t : U64), row[n]? = some t → ∃ t', row'[n]? = some t' ∧
      ((t' &&& ~~~initBit = t &&& ~~~initBit ∧ ∀ x, pl.key m.load b n = some x → pl.key m'.load b n = some x) ∨ (isEmpty t = true ∧ pl.key m'.load b n = some k'))
  value : ∀ {b n : Nat} {t : U64} {x : K} {w : Option V}, cellAt m.hashes b n = some t → isEmpty t = false → pl.key m.load b n = some x → cfg.eq k' x = false →
    pl.value m.load b n = some w → pl.value m'.load b n = some w

theorem reserved_not_empty {a t : U64} (h : (a &&& reservedMask) = (t &&& ~~~initBit)) : isEmpty t = false := by
  unfold isEmpty
  have e : t &&& emptyBit = (t &&& ~~~initBit) &&& emptyBit := by
    rw [BitVec.and_assoc]; congr 1
  have z : (a &&& reservedMask) &&& emptyBit = 0#64 := by
    rw [BitVec.and_assoc]
    show a &&& (reservedMask &&& emptyBit) = 0#64
    have : reservedMask &&& emptyBit = 0#64 := by decide
    rw [this]; simp
  rw [e, ← h, z]; rfl

theorem findLoop_keeps {pl : Payload K V P} {cfg : Cfg K} {p p' : P} {b : Nat} {a : U64} {k k' : K} (ne : cfg.eq k k' = false) : ∀ (row row' : List U64) (i0 i : Nat),
    (∀ (n : Nat) (t : U64), row[n]? = some t → ∃ t', row'[n]? = some t' ∧
      ((t' &&& ~~~initBit = t &&& ~~~initBit ∧ ∀ x, pl.key p b (i0 + n) = some x → pl.key p' b (i0 + n) = some x) ∨ (isEmpty t = true ∧ pl.key p' b (i0 + n) = some k'))) →
    findLoop pl cfg p b (a &&& reservedMask) k row i0 = some (some i) → findLoop pl cfg p' b (a &&& reservedMask) k row' i0 = some (some i)
  | [], _, _, _, _, h => by simp [findLoop] at h
  | t :: ts, row', i0, i, hr, h => by
    obtain ⟨t', ht', alt⟩ := hr 0 t rfl
    cases row' with
    | nil => simp at ht'
    | cons t'' ts' =>
      simp at ht'
      subst ht'
      have tail := findLoop_keeps (pl := pl) (p := p) (p' := p') (b := b) (a := a) ne ts ts' (i0 + 1) i (fun n u hu => by
        obtain ⟨u', h1, h2⟩ := hr (n + 1) u (by simpa using hu)
        refine ⟨u', by simpa using h1, ?_⟩
        have e : i0 + (n + 1) = i0 + 1 + n := by omega
        rw [e] at h2; exact h2)
      rw [findLoop] at h ⊢
      rcases alt with ⟨e, hk⟩ | ⟨em, hk⟩
      · rw [e]
        split at h
        · next c =>
          rw [if_pos c]
          simp only [bind, Option.bind] at h ⊢
          cases hx : pl.key p b i0 with
          | none => simp [hx] at h
          | some x =>
            have := hk x (by simpa using hx)
            simp only [Nat.add_zero] at this
            simp only [hx] at h
            simp only [this]
            split at h
            · next c => rw [if_pos c]; exact h
            · next c => rw [if_neg c]; exact tail h
        · next c => rw [if_neg c]; exact tail h
      · have c : ¬ ((a &&& reservedMask) == t &&& ~~~initBit) = true := by
          intro q
          have := reserved_not_empty (beq_iff_eq.1 q)
          rw [em] at this; cases this
        rw [if_neg c] at h
        split
        · simp only [Nat.add_zero] at hk
          simp only [bind, Option.bind, hk, ne]
          exact tail h
        · exact tail h

/-- What a found key is found at. -/
theorem findLoop_found {pl : Payload K V P} {cfg : Cfg K} {p : P} {b : Nat} {h : U64} {k : K} : ∀ (row : List U64) (i0 i : Nat), findLoop pl cfg p b h k row i0 = some (some i) →
    ∃ n t x, i = i0 + n ∧ row[n]? = some t ∧ h = t &&& ~~~initBit ∧ pl.key p b i = some x ∧ cfg.eq k x = true
  | [], _, _, e => by simp [findLoop] at e
  | t :: ts, i0, i, e => by
    have tail : findLoop pl cfg p b h k ts (i0 + 1) = some (some i) → ∃ n u x, i = i0 + n ∧ (t :: ts)[n]? = some u ∧ h = u &&& ~~~initBit ∧ pl.key p b i = some x ∧ cfg.eq k x = true := by
      intro q
      obtain ⟨n, u, x, h1, h2, h3⟩ := findLoop_found ts (i0 + 1) i q
      exact ⟨n + 1, u, x, by omega, by simpa using h2, h3⟩
    rw [findLoop] at e
    split at e
    · next c =>
      simp only [bind, Option.bind] at e
      cases hx : pl.key p b i0 with
      | none => simp [hx] at e
      | some x =>
        simp only [hx] at e
        split at e
        · next q => cases e; exact ⟨0, t, x, rfl, rfl, beq_iff_eq.1 c, hx, q⟩
        · exact tail e
    · exact tail e

/-- A lookup that succeeded, in detail. -/
theorem getKeyIndex_found {pl : Payload K V P} {cfg : Cfg K} {m : Split P} {k : K} {h : U64} {b i : Nat} (e : getKeyIndex pl cfg m k = some (h, b, some i)) :
    h = cfg.hash k &&& reservedMask ∧ cfg.c ≠ 0 ∧ b = h.toNat % cfg.c ∧ ∃ bs row, m.hashes = some bs ∧ bs[b]? = some (some row) ∧ findLoop pl cfg m.load b h k row 0 = some (some i) := by
  unfold getKeyIndex at e
  dsimp only at e
  split at e
  · cases e
  · next hc =>
    split at e
    · cases e
    · next bs hbs =>
      rw [Option.bind_eq_bind] at e
      obtain ⟨bkt, hb, e⟩ := Option.bind_eq_some_iff.1 e
      rw [Option.bind_eq_bind] at e
      obtain ⟨r, hf, e⟩ := Option.bind_eq_some_iff.1 e
      cases e
      cases bkt with
      | none => simp [findLoop] at hf
      | some row => exact ⟨rfl, hc, rfl, bs, row, hbs, hb, hf⟩

theorem Keeps.get {pl : Payload K V P} {cfg : Cfg K} {k' : K} {m m' : Split P} (hs : Consistent cfg.eq cfg.hash) (H : Keeps pl cfg k' m m') {k : K} (ne : cfg.eq k k' = false) {w : Option V}
    (h : getValue pl cfg m k = some (some w)) : getValue pl cfg m' k = some (some w) := by
  unfold getValue at h ⊢
  simp only [bind, Option.bind, pure] at h ⊢
  cases hg : getKeyIndex pl cfg m k with
  | none => simp [hg] at h
  | some r =>
    obtain ⟨u, b, i⟩ := r
    simp only [hg] at h
    cases i with
    | none => simp at h
    | some i =>
      simp only at h
      cases hv : pl.value m.load b i with
      | none => simp [hv] at h
      | some w' =>
        simp only [hv] at h
        cases h
        obtain ⟨rfl, hc, hb', bs, row, e1, e2, e3⟩ := getKeyIndex_found hg
        obtain ⟨bs', row', f1, f2, f3⟩ := H.bucket e1 e2
        have l := findLoop_keeps ne row row' 0 i (by simpa using f3) e3
        obtain ⟨n, t, x, q1, q2, q3, q4, q5⟩ := findLoop_found row 0 i e3
        have q1 : i = n := by omega
        subst q1
        have kx : cfg.eq k' x = false := by
          apply Decidable.byContradiction; intro q
          have q : cfg.eq k' x = true := by simpa using q
          have := hs.trans _ _ _ q5 (hs.symm _ _ q)
          rw [ne] at this; cases this
        have v := H.value (cellAt_eq.2 ⟨bs, row, e1, e2, q2⟩) (reserved_not_empty q3) q4 kx hv
        have g : getKeyIndex pl cfg m' k = some (cfg.hash k &&& reservedMask, b, some i) := by
          unfold getKeyIndex
          simp only
          rw [if_neg hc, f1]
          simp only [bind, Option.bind, pure, ← hb', f2, Option.getD, l]
        rw [g]
        simp only [v]

theorem Keeps.refl {pl : Payload K V P} {cfg : Cfg K} {k' : K} (m : Split P) : Keeps pl cfg k' m m :=
  ⟨fun {bs _ row} h1 h2 => ⟨bs, row, h1, h2, fun _ t ht => ⟨t, ht, .inl ⟨rfl, fun _ hx => hx⟩⟩⟩, fun _ _ _ _ h => h⟩

theorem firstEmpty_some {row : List U64} {i : Nat} (h : firstEmpty row = some i) : ∃ t, row[i]? = some t ∧ isEmpty t = true := by
  unfold firstEmpty at h
  obtain ⟨hi, he, _⟩ := List.findIdx?_eq_some_iff_getElem.1 h
  exact ⟨row[i], List.getElem?_eq_getElem hi, he⟩

theorem addValueF_keeps {pl : Payload K V P} {ap : AppendF K V P} (L : LawfulF pl ap) {cfg : Cfg K} {m m' : Split P} {b' : Nat} {h : U64} {k' : K} {v : Option (Option V)} {rh r1 r2 : Avail} {i : Nat}
    (e : addValueF pl ap cfg m b' h k' v rh r1 r2 = some (m', i)) : Keeps pl cfg k' m m' := by
  unfold addValueF at e
  dsimp only at e
  split at e
  · cases e
  · next bs0 row0 ho =>
    obtain ⟨q1, bkt, q2, q3⟩ := openRow_some ho
    have same : ∀ {bs : List (Option (List U64))} {row : List U64}, m.hashes = some bs → bs[b']? = some (some row) → row0 = row := by
      intro bs row h1 h2
      rw [h1] at q1
      have q1 : bs0 = bs := q1
      subst q1
      rw [h2] at q2; cases q2; exact q3.symm
    have base : ∀ {bs : List (Option (List U64))}, m.hashes = some bs → bs0 = bs := by
      intro bs h1; rw [h1] at q1; exact q1
    split at e
    · next j hj =>
      obtain ⟨tj, hj1, hj2⟩ := firstEmpty_some hj
      split at e
      · cases e
      · next p hp =>
        cases e
        constructor
        · intro bs b row h1 h2
          have := base h1; subst this
          by_cases c : b = b'
          · subst c
            have := same h1 h2; subst this
            refine ⟨_, _, rfl, List.getElem?_set_self (List.getElem?_eq_some_iff.1 h2).1, fun n t ht => ?_⟩
            by_cases d : n = i
            · subst d
              rw [hj1] at ht; cases ht
              exact ⟨_, List.getElem?_set_self (List.getElem?_eq_some_iff.1 hj1).1, .inr ⟨hj2, L.reuseSelf hp⟩⟩
            · exact ⟨t, by rw [List.getElem?_set_ne (Ne.symm d)]; exact ht, .inl ⟨rfl, fun x hx => L.reuseKey hp (fun q => d q.2) hx⟩⟩
          · exact ⟨_, row, rfl, by rw [List.getElem?_set_ne (Ne.symm c)]; exact h2, fun n t ht => ⟨t, ht, .inl ⟨rfl, fun x hx => L.reuseKey hp (fun q => c q.1) hx⟩⟩⟩
        · intro b n t x w ht he hx _ hw
          refine L.reuseValue hp (fun q => ?_) hw
          obtain ⟨rfl, rfl⟩ := q
          obtain ⟨bs, row, h1, h2, h3⟩ := cellAt_eq.1 ht
          have := same h1 h2; subst this
          rw [hj1] at h3; cases h3
          rw [hj2] at he; cases he
    · split at e
      · cases e
      · next p j hp =>
        cases e
        constructor
        · intro bs b row h1 h2
          have := base h1; subst this
          by_cases c : b = b'
          · subst c
            have := same h1 h2; subst this
            refine ⟨_, _, rfl, List.getElem?_set_self (List.getElem?_eq_some_iff.1 h2).1, fun n t ht => ⟨t, ?_, .inl ⟨rfl, fun x hx => L.appendKey hp hx⟩⟩⟩
            split
            · rw [List.getElem?_append_left (List.getElem?_eq_some_iff.1 ht).1]; exact ht
            · exact ht
          · exact ⟨_, row, rfl, by rw [List.getElem?_set_ne (Ne.symm c)]; exact h2, fun n t ht => ⟨t, ht, .inl ⟨rfl, fun x hx => L.appendKey hp hx⟩⟩⟩
        · intro b n t x w _ _ _ _ hw
          exact L.appendValue hp hw

theorem setValue_keeps {pl : Payload K V P} {ap : AppendF K V P} (L : LawfulF pl ap) {cfg : Cfg K} {m m' : Split P} {k' : K} {w : Option V} {h : U64} {b' i : Nat}
    (hg : getKeyIndex pl cfg m k' = some (h, b', some i)) (e : setValue pl cfg m k' w = some m') : Keeps pl cfg k' m m' := by
  unfold setValue at e
  rw [hg, Option.bind_eq_bind, Option.bind_some] at e
  dsimp only at e
  rw [Option.bind_eq_bind] at e
  obtain ⟨t0, ht0, e⟩ := Option.bind_eq_some_iff.1 e
  rw [Option.bind_eq_bind] at e
  obtain ⟨p, hp, e⟩ := Option.bind_eq_some_iff.1 e
  cases e
  obtain ⟨_, _, _, bs0, row0, e1, e2, e3⟩ := getKeyIndex_found hg
  obtain ⟨n0, t1, x0, q1, q2, q3, q4, q5⟩ := findLoop_found row0 0 i e3
  have q1 : i = n0 := by omega
  subst q1
  constructor
  · intro bs b row h1 h2
    dsimp only
    split
    · exact ⟨bs, row, h1, h2, fun n t ht => ⟨t, ht, .inl ⟨rfl, fun x hx => L.setKey hp hx⟩⟩⟩
    · rw [h1]
      refine ⟨bs.modify b' fun bkt => bkt.map fun row => row.set i (t0 ||| initBit), if b = b' then row.set i (t0 ||| initBit) else row, rfl, ?_, ?_⟩
      · rw [List.getElem?_modify, h2]
        by_cases c : b = b'
        · simp [c]
        · simp [c, Ne.symm c]
      · intro n t ht
        by_cases c : b = b' ∧ n = i
        · obtain ⟨rfl, rfl⟩ := c
          have : t0 = t := by
            rw [cellAt_eq.2 ⟨bs, row, h1, h2, ht⟩] at ht0; exact (Option.some.inj ht0).symm
          subst this
          refine ⟨t0 ||| initBit, ?_, .inl ⟨?_, fun x hx => L.setKey hp hx⟩⟩
          · rw [if_pos rfl, List.getElem?_set_self (List.getElem?_eq_some_iff.1 ht).1]
          · ext j hj
            simp only [BitVec.getElem_and, BitVec.getElem_or, BitVec.getElem_not]
            cases initBit[j] <;> simp
        · refine ⟨t, ?_, .inl ⟨rfl, fun x hx => L.setKey hp hx⟩⟩
          split
          · next d => rw [List.getElem?_set_ne (fun q => c ⟨d, q.symm⟩)]; exact ht
          · exact ht
  · intro b n t x w' _ _ hx ne hw
    refine L.setValue hp (fun q => ?_) hw
    obtain ⟨rfl, rfl⟩ := q
    rw [hx] at q4; cases q4
    rw [q5] at ne; cases ne

theorem setValueF_keeps {pl : Payload K V P} {ap : AppendF K V P} (L : LawfulF pl ap) {cfg : Cfg K} {m m' : Split P} {k' : K} {w : Option V} {rh r1 r2 : Avail}
    (e : setValueF pl ap cfg m k' w rh r1 r2 = some m') : Keeps pl cfg k' m m' := by
  cases hg : getKeyIndex pl cfg m k' with
  | none => simp only [setValueF, hg] at e; cases e
  | some x =>
    obtain ⟨h, b, i⟩ := x
    cases i with
    | some i => simp only [setValueF, hg] at e; exact setValue_keeps L hg e
    | none =>
      simp only [setValueF, hg] at e
      cases ha : addValueF pl ap cfg m b h k' (some w) rh r1 r2 with
      | none => rw [ha] at e; cases e
      | some y => rw [ha] at e; cases e; exact addValueF_keeps L ha

theorem entryForKeyF_keeps {pl : Payload K V P} {ap : AppendF K V P} (L : LawfulF pl ap) {cfg : Cfg K} {m : Split P} {k' : K} {rh r1 r2 : Avail} {x : Split P × U64 × Bool}
    (e : entryForKeyF pl ap cfg m k' rh r1 r2 = some x) : Keeps pl cfg k' m x.1 := by
  cases hg : getKeyIndex pl cfg m k' with
  | none => simp only [entryForKeyF, hg] at e; cases e
  | some y =>
    obtain ⟨h, b, i⟩ := y
    cases i with
    | some i =>
      simp only [entryForKeyF, hg] at e
      cases ht : toEntry cfg b i with
      | none => rw [split_found_none pl hg ht] at e; cases e
      | some t => rw [split_found pl hg ht] at e; cases e; exact Keeps.refl m
    | none =>
      cases ha : addValueF pl ap cfg m b h k' none rh r1 r2 with
      | none => simp only [entryForKeyF, hg, ha] at e; cases e
      | some y =>
        obtain ⟨m', i⟩ := y
        cases ht : toEntry cfg b i with
        | none => simp only [entryForKeyF, hg, ha, ht, Option.map_none] at e; cases e
        | some t => simp only [entryForKeyF, hg, ha, ht, Option.map_some] at e; cases e; exact addValueF_keeps L ha

theorem run_keeps {pl : Payload K V P} {ap : AppendF K V P} (L : LawfulF pl ap) {cfg : Cfg K} (hs : Consistent cfg.eq cfg.hash) {k : K} {w : Option V} : ∀ (l : List (Add K V)) (m m' : Split P),
    (∀ a ∈ l, cfg.eq k a.key = false) → run pl ap cfg m l = some m' → getValue pl cfg m k = some (some w) → getValue pl cfg m' k = some (some w)
  | [], m, m', _, e, h => by rw [run] at e; cases e; exact h
  | .set k' v rh r1 r2 :: l, m, m', hl, e, h => by
    rw [run] at e
    split at e
    · cases e
    · next m1 e1 =>
      exact run_keeps L hs l m1 m' (fun a ha => hl a (List.mem_cons_of_mem _ ha)) e ((setValueF_keeps L e1).get hs (hl _ List.mem_cons_self) h)
  | .entry k' rh r1 r2 :: l, m, m', hl, e, h => by
    rw [run] at e
    split at e
    · cases e
    · next m1 x e1 =>
      exact run_keeps L hs l m1 m' (fun a ha => hl a (List.mem_cons_of_mem _ ha)) e ((entryForKeyF_keeps L e1).get hs (hl _ List.mem_cons_self) h)

/-- **C127**, the data oriented maps: a key that has a value keeps it through any calls that add other keys, whatever memory they meet, as long as none stops at an assertion.  Missing: what
becomes of the keys added when memory runs out, and after (`C127_wrong_value_refuted`, `C127_lost_refuted`). -/
theorem C127_others_keep_partial (cfg : Cfg K) (hs : Consistent cfg.eq cfg.hash) (k : K) (w : Option V) (calls : List (Add K V)) (other : ∀ a ∈ calls, cfg.eq k a.key = false) :
    (∀ m m', run (all K V) allF cfg m calls = some m' → getValue (all K V) cfg m k = some (some w) → getValue (all K V) cfg m' k = some (some w)) ∧
    (∀ m m', run (HashLayout.hash K V) hashF cfg m calls = some m' → getValue (HashLayout.hash K V) cfg m k = some (some w) → getValue (HashLayout.hash K V) cfg m' k = some (some w)) :=
  ⟨fun m m' => run_keeps lawfulF_all hs calls m m' other, fun m m' => run_keeps lawfulF_hash hs calls m m' other⟩

/-! ## What goes wrong -/

/-- One bucket, numbers as keys which are their own hashes. -/
def oneBucket : Cfg Nat := ⟨fun k => BitVec.ofNat 64 k, fun a b => a == b, 1⟩

/-- Memory for everything but another element in an array that has some. -/
def full : Avail := ⟨true, false⟩

theorem oneBucket_consistent : Consistent oneBucket.eq oneBucket.hash :=
  ⟨by simp [oneBucket], by simp only [oneBucket, beq_iff_eq]; omega, by simp only [oneBucket, beq_iff_eq]; omega, by simp only [oneBucket, beq_iff_eq]; rintro a b rfl; rfl⟩

/-- Where there is no memory for the value of key 2 (All), no error is reported; after the next key is added, the value of key 2 is that of key 3, and asking for key 3 fails an assertion. -/
theorem C127_wrong_value_refuted :
    ∃ m, run (all Nat Nat) allF oneBucket (HashLayout.split (all Nat Nat)).create
      [.set 1 (some 50) plenty plenty plenty, .set 2 (some 60) plenty plenty full, .set 3 (some 70) plenty plenty plenty] = some m ∧
    getValue (all Nat Nat) oneBucket m 1 = some (some (some 50)) ∧ getValue (all Nat Nat) oneBucket m 2 = some (some (some 70)) ∧ getValue (all Nat Nat) oneBucket m 3 = none := by
  have h : ((run (all Nat Nat) allF oneBucket (HashLayout.split (all Nat Nat)).create
      [.set 1 (some 50) plenty plenty plenty, .set 2 (some 60) plenty plenty full, .set 3 (some 70) plenty plenty plenty]).map fun m =>
        (getValue (all Nat Nat) oneBucket m 1, getValue (all Nat Nat) oneBucket m 2, getValue (all Nat Nat) oneBucket m 3)) = some (some (some (some 50)), some (some (some 70)), none) := by
    decide +kernel
  obtain ⟨m, e, q⟩ := Option.map_eq_some_iff.1 h
  simp only [Prod.mk.injEq] at q
  exact ⟨m, e, q⟩

/-- Where there is no memory for the hash of key 2 (Hash and All), no error is reported; the key is counted but not found, and neither is the key added next. -/
theorem C127_lost_refuted :
    (∃ m, run (all Nat Nat) allF oneBucket (HashLayout.split (all Nat Nat)).create
        [.set 1 (some 50) plenty plenty plenty, .set 2 (some 60) full plenty plenty, .set 3 (some 70) plenty plenty plenty] = some m ∧
      m.count = 3 ∧ getValue (all Nat Nat) oneBucket m 2 = some none ∧ getValue (all Nat Nat) oneBucket m 3 = some none) ∧
    ∃ m, run (HashLayout.hash Nat Nat) hashF oneBucket (HashLayout.split (HashLayout.hash Nat Nat)).create
        [.set 1 (some 50) plenty plenty plenty, .set 2 (some 60) full plenty plenty, .set 3 (some 70) plenty plenty plenty] = some m ∧
      m.count = 3 ∧ getValue (HashLayout.hash Nat Nat) oneBucket m 2 = some none ∧ getValue (HashLayout.hash Nat Nat) oneBucket m 3 = some none := by
  constructor
  · have h : ((run (all Nat Nat) allF oneBucket (HashLayout.split (all Nat Nat)).create
        [.set 1 (some 50) plenty plenty plenty, .set 2 (some 60) full plenty plenty, .set 3 (some 70) plenty plenty plenty]).map fun m =>
          (m.count, getValue (all Nat Nat) oneBucket m 2, getValue (all Nat Nat) oneBucket m 3)) = some (3, some none, some none) := by
      decide +kernel
    obtain ⟨m, e, q⟩ := Option.map_eq_some_iff.1 h
    simp only [Prod.mk.injEq] at q
    exact ⟨m, e, q⟩
  · have h : ((run (HashLayout.hash Nat Nat) hashF oneBucket (HashLayout.split (HashLayout.hash Nat Nat)).create
        [.set 1 (some 50) plenty plenty plenty, .set 2 (some 60) full plenty plenty, .set 3 (some 70) plenty plenty plenty]).map fun m =>
          (m.count, getValue (HashLayout.hash Nat Nat) oneBucket m 2, getValue (HashLayout.hash Nat Nat) oneBucket m 3)) = some (3, some none, some none) := by
      decide +kernel
    obtain ⟨m, e, q⟩ := Option.map_eq_some_iff.1 h
    simp only [Prod.mk.injEq] at q
    exact ⟨m, e, q⟩

/-- The hypotheses of `C127_others_keep_partial` are met by such a run. -/
example : Consistent oneBucket.eq oneBucket.hash ∧ (∀ a ∈ [Add.set 2 (some 7) plenty plenty full, .entry 3 full plenty full], oneBucket.eq 1 a.key = false) := by
  refine ⟨oneBucket_consistent, ?_⟩
  intro a ha
  simp at ha
  rcases ha with rfl | rfl <;> rfl

/-- The plain map stops where there is no memory, and goes on where it needs none. -/
example : setPlain oneBucket ⟨1, some [some [⟨1#64 ||| initBit, 1, some 5⟩]]⟩ 2 (some 6) full = none ∧
    (setPlain oneBucket ⟨0, some [some [⟨1#64 ||| emptyBit, 1, some 5⟩]]⟩ 2 (some 6) full).isSome = true := by
  refine ⟨rfl, rfl⟩

#print axioms C127_plain
#print axioms C127_plenty
#print axioms C127_others_keep_partial
#print axioms C127_wrong_value_refuted
#print axioms C127_lost_refuted

end Verif.HashFail
