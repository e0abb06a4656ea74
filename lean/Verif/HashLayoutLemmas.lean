import Verif.HashLayout
/-!
# The data oriented layouts and the plain one, call by call
-/
namespace Verif.HashLayout
open Verif.BitTricks (U64)
open Verif.HashMap (Cfg Item Map toEntry toIndex foundEntry isEmpty isInit initBit emptyBit reservedMask)

variable {K V P α β : Type}

/-- One field of all items. -/
def proj (f : α → β) (B : Cells α) : Cells β := B.map (·.map (·.map (·.map f)))

theorem cellAt_proj (f : α → β) (B : Cells α) (b i : Nat) : cellAt (proj f B) b i = (cellAt B b i).map f := by
  cases B with
  | none => rfl
  | some bs =>
    simp only [cellAt, proj, Option.map_some, Option.bind_eq_bind, Option.bind_some, List.getElem?_map]
    cases bs[b]? with
    | none => rfl
    | some bkt =>
      cases bkt with
      | none => rfl
      | some row => simp only [Option.map_some, Option.bind_some, List.getElem?_map]

theorem putCell_proj (f : α → β) (B : Cells α) (b i : Nat) (x : α) : putCell (proj f B) b i (f x) = proj f (putCell B b i x) := by
  cases B with
  | none => rfl
  | some bs =>
    simp only [putCell, proj, Option.map_some, Option.some.injEq]
    apply List.ext_getElem?
    intro j
    simp only [List.getElem?_modify, List.getElem?_map]
    cases bs[j]? with
    | none => rfl
    | some bkt =>
      by_cases e : b = j
      · cases bkt with
        | none => simp [e]
        | some row => simp [e, List.map_set]
      · simp [e]

theorem appendCell_proj (f : α → β) (c : Nat) (B : Cells α) (b : Nat) (x : α) :
    appendCell c (proj f B) b (f x) = (appendCell c B b x).map fun r => (proj f r.1, r.2) := by
  have e : (proj f B).getD (List.replicate c none) = (B.getD (List.replicate c none)).map (·.map (·.map f)) := by
    cases B with
    | none => simp [proj]
    | some bs => simp [proj]
  simp only [appendCell, e, List.getElem?_map, Option.bind_eq_bind]
  cases (B.getD (List.replicate c none))[b]? with
  | none => rfl
  | some bkt =>
    cases bkt with
    | none => simp [proj, List.map_set]
    | some row => simp [proj, List.map_set]

theorem replaceCell_some {B : Cells α} {b i : Nat} {y : α} (h : cellAt B b i = some y) (x : α) :
    replaceCell B b i (some x) = some (putCell B b i x) := by simp [replaceCell, h]

theorem replaceCell_none {B : Cells α} {b i : Nat} {y : α} (h : cellAt B b i = some y) :
    replaceCell B b i none = some B := by simp [replaceCell, h]

/-- Writing what is there changes nothing. -/
theorem putCell_self {B : Cells α} {b i : Nat} {y : α} (h : cellAt B b i = some y) : putCell B b i y = B := by
  cases B with
  | none => rfl
  | some bs =>
    simp only [cellAt, Option.bind_eq_bind, Option.bind_some, Option.bind_eq_some_iff] at h
    obtain ⟨bkt, h1, row, rfl, h3⟩ := h
    simp only [putCell, Option.map_some, Option.some.injEq]
    apply List.ext_getElem?
    intro j
    simp only [List.getElem?_modify]
    by_cases e : b = j
    · subst e
      simp only [h1, Option.map_some, if_true, Option.some.injEq, Option.map_eq_map]
      apply List.ext_getElem?
      intro l
      simp only [List.getElem?_set]
      by_cases e : i = l
      · subst e; rw [h3]; simp [(List.getElem?_eq_some_iff.1 h3).1]
      · simp [e]
    · simp [e]

/-! ## Layouts that keep what the items have -/

/-- The layout keeps keys and values of items `B` in `rep B`. -/
structure Lawful (pl : Payload K V P) (rep : Cells (Item K V) → P) : Prop where
  empty : pl.empty = rep none
  key : ∀ B b i, pl.key (rep B) b i = (cellAt B b i).map (·.key)
  value : ∀ B b i, pl.value (rep B) b i = (cellAt B b i).map (·.value)
  reuse : ∀ B b i it, cellAt B b i = some it → ∀ t k v, pl.reuse (rep B) b i k v = some (rep (putCell B b i ⟨t, k, v.getD it.value⟩))
  append : ∀ c B b t k v, pl.append c (rep B) b k v = (appendCell c B b ⟨t, k, v.getD none⟩).map fun r => (rep r.1, r.2)
  setValue : ∀ B b i it, cellAt B b i = some it → ∀ t w, pl.setValue (rep B) b i w = some (rep (putCell B b i ⟨t, it.key, w⟩))

theorem lawful_all : Lawful (all K V) (fun B => (proj (·.key) B, proj (·.value) B)) where
  empty := rfl
  key B b i := cellAt_proj _ B b i
  value B b i := cellAt_proj _ B b i
  reuse B b i it h t k v := by
    have h1 : cellAt (proj (·.key) B) b i = some it.key := by rw [cellAt_proj, h]; rfl
    have h2 : cellAt (proj (·.value) B) b i = some it.value := by rw [cellAt_proj, h]; rfl
    simp only [all, replaceCell_some h1, Option.bind_eq_bind, Option.bind_some]
    rw [← putCell_proj (fun x : Item K V => x.key), ← putCell_proj (fun x : Item K V => x.value)]
    cases v with
    | none => simp only [replaceCell_none h2, Option.bind_some, Option.getD_none, putCell_self h2]; rfl
    | some v => simp only [replaceCell_some h2, Option.bind_some, Option.getD_some]; rfl
  append c B b t k v := by
    have e1 := appendCell_proj (fun x : Item K V => x.key) c B b ⟨t, k, v.getD none⟩
    have e2 := appendCell_proj (fun x : Item K V => x.value) c B b ⟨t, k, v.getD none⟩
    dsimp only at e1 e2
    simp only [all, Option.bind_eq_bind]
    rw [e1, e2]
    cases appendCell c B b ⟨t, k, v.getD none⟩ <;> rfl
  setValue B b i it h t w := by
    have h1 : cellAt (proj (·.key) B) b i = some it.key := by rw [cellAt_proj, h]; rfl
    have h2 : cellAt (proj (·.value) B) b i = some it.value := by rw [cellAt_proj, h]; rfl
    simp only [all, replaceCell_some h2, Option.bind_eq_bind, Option.bind_some]
    rw [← putCell_proj (fun x : Item K V => x.key), ← putCell_proj (fun x : Item K V => x.value)]
    dsimp only
    rw [putCell_self h1]
    rfl

theorem lawful_hash : Lawful (hash K V) (fun B => proj (fun x => (x.key, x.value)) B) where
  empty := rfl
  key B b i := by
    simp only [hash]; rw [cellAt_proj]; cases cellAt B b i <;> rfl
  value B b i := by
    simp only [hash]; rw [cellAt_proj]; cases cellAt B b i <;> rfl
  reuse B b i it h t k v := by
    simp only [hash, cellAt_proj, h, Option.map_some, Option.bind_eq_bind, Option.bind_some]
    rw [← putCell_proj (fun x : Item K V => (x.key, x.value))]
    rfl
  append c B b t k v := appendCell_proj (fun x : Item K V => (x.key, x.value)) c B b ⟨t, k, v.getD none⟩
  setValue B b i it h t w := by
    simp only [hash, cellAt_proj, h, Option.map_some, Option.bind_eq_bind, Option.bind_some]
    rw [← putCell_proj (fun x : Item K V => (x.key, x.value))]
    rfl

/-- The state of the split map that corresponds to one of the plain map. -/
def view (rep : Cells (Item K V) → P) (m : Map K V) : Split P := ⟨m.count, proj (·.tag) m.buckets, rep m.buckets⟩

section
variable {pl : Payload K V P} {rep : Cells (Item K V) → P} (L : Lawful pl rep) (cfg : Cfg K) (m : Map K V)

theorem hashes_at (b i : Nat) : cellAt (view rep m).hashes b i = (HashMap.itemAt m b i).map (·.tag) := cellAt_proj _ _ _ _

theorem view_put (b i : Nat) (x : Item K V) : proj (·.tag) (HashMap.putItem m b i x).buckets = putCell (view rep m).hashes b i x.tag :=
  (putCell_proj (fun x : Item K V => x.tag) m.buckets b i x).symm

theorem firstEmpty_map (row : List (Item K V)) : firstEmpty (row.map (·.tag)) = row.findIdx? (fun it => isEmpty it.tag) := by
  unfold firstEmpty
  rw [List.findIdx?_map]
  rfl

include L

theorem addValue_view (b : Nat) (h : U64) (k : K) (v : Option (Option V)) :
    addValue pl cfg (view rep m) b h k v = (HashMap.addValue cfg m b h k v).map fun r => (view rep r.1, r.2) := by
  have e : (proj (fun x : Item K V => x.tag) m.buckets).getD (List.replicate cfg.c none) =
      (m.buckets.getD (List.replicate cfg.c none)).map (·.map (·.map (·.tag))) := by
    cases m.buckets with
    | none => simp [proj]
    | some bs => simp [proj]
  simp only [addValue, HashMap.addValue, view, e, List.getElem?_map, Option.bind_eq_bind]
  cases hb : (m.buckets.getD (List.replicate cfg.c none))[b]? with
  | none => rfl
  | some bkt =>
    simp only [Option.map_some, Option.bind_some]
    have er : (bkt.map (·.map (fun x : Item K V => x.tag))).getD [] = (bkt.getD []).map (·.tag) := by cases bkt <;> rfl
    rw [er, firstEmpty_map]
    cases hf : (bkt.getD []).findIdx? (fun it => isEmpty it.tag) with
    | none =>
      simp only [HashMap.addRow, hf]
      rw [L.append cfg.c m.buckets b (if v.isSome then h ||| initBit else h) k v]
      simp only [appendCell, hb, Option.bind_eq_bind, Option.bind_some, Option.map_some, HashMap.newItem, pure, Option.some.injEq, Prod.mk.injEq,
        Split.mk.injEq, true_and, and_true]
      simp [proj, List.map_set]
    | some i =>
      obtain ⟨hi, _, _⟩ := List.findIdx?_eq_some_iff_getElem.1 hf
      have hbk : bkt = some (bkt.getD []) := by
        cases bkt with
        | none => simp at hi
        | some row => rfl
      have hB : ∃ bs, m.buckets = some bs := by
        cases hB : m.buckets with
        | none =>
          rw [hB] at hb
          simp only [Option.getD_none, List.getElem?_replicate] at hb
          split at hb
          · injection hb with hb; rw [← hb] at hbk; cases hbk
          · cases hb
        | some bs => exact ⟨bs, rfl⟩
      obtain ⟨bs, hB⟩ := hB
      rw [hB, Option.getD_some] at hb ⊢
      generalize hrow : bkt.getD [] = row at *
      subst hbk
      have hc : cellAt m.buckets b i = some row[i] := by
        rw [hB]; simp [cellAt, hb, hi]
      simp only [HashMap.addRow, hf]
      rw [← hB, L.reuse m.buckets b i row[i] hc (if v.isSome then h ||| initBit else h) k v]
      have em : row.modify i (fun it => HashMap.newItem h k v it.value) = row.set i (HashMap.newItem h k v row[i].value) := by
        apply List.ext_getElem?
        intro j
        simp only [List.getElem?_modify, List.getElem?_set]
        by_cases e : i = j
        · subst e; simp [hi]
        · simp [e]
      have ep : putCell m.buckets b i (HashMap.newItem h k v row[i].value) = some (bs.set b (some (row.set i (HashMap.newItem h k v row[i].value)))) := by
        rw [hB]
        simp only [putCell, Option.map_some, Option.some.injEq]
        apply List.ext_getElem?
        intro j
        simp only [List.getElem?_modify, List.getElem?_set]
        by_cases e : b = j
        · subst e
          simp only [hb, (List.getElem?_eq_some_iff.1 hb).1, if_true, Option.map_some, Option.map_eq_map]
        · simp [e]
      simp only [Option.bind_some, Option.map_some, pure, Option.some.injEq, Prod.mk.injEq, Split.mk.injEq, true_and, and_true, em]
      rw [show (⟨if v.isSome then h ||| initBit else h, k, v.getD row[i].value⟩ : Item K V) = HashMap.newItem h k v row[i].value from rfl, ep]
      refine ⟨?_, rfl⟩
      simp only [proj, Option.map_some, List.map_set, HashMap.newItem]

theorem findLoop_view (b : Nat) (h : U64) (k : K) (row : List (Item K V)) : ∀ i0, (∀ i it, row[i]? = some it → cellAt m.buckets b (i0 + i) = some it) →
    findLoop pl cfg (rep m.buckets) b h k (row.map (·.tag)) i0 =
      some ((row.findIdx? fun it => h == (it.tag &&& ~~~initBit) && cfg.eq k it.key).map (i0 + ·)) := by
  induction row with
  | nil => intro i0 _; rfl
  | cons it row ih =>
    intro i0 hr
    have hk : pl.key (rep m.buckets) b i0 = some it.key := by
      rw [L.key]
      have := hr 0 it rfl
      rw [Nat.add_zero] at this
      rw [this]; rfl
    have ih := ih (i0 + 1) (fun i x hx => by
      have := hr (i + 1) x (by simpa using hx)
      rw [show i0 + 1 + i = i0 + (i + 1) by omega]; exact this)
    have hshift : ((row.findIdx? fun it => h == (it.tag &&& ~~~initBit) && cfg.eq k it.key).map (· + 1)).map (i0 + ·) =
        (row.findIdx? fun it => h == (it.tag &&& ~~~initBit) && cfg.eq k it.key).map (i0 + 1 + ·) := by
      rw [Option.map_map]
      congr 1
      funext x
      simp only [Function.comp]
      omega
    rw [List.map_cons, findLoop, List.findIdx?_cons]
    by_cases h1 : (h == (it.tag &&& ~~~initBit)) = true
    · rw [if_pos h1, hk]
      simp only [Option.bind_eq_bind, Option.bind_some, h1, Bool.true_and]
      cases h2 : cfg.eq k it.key with
      | true => simp
      | false => simp only [Bool.false_eq_true, if_false]; rw [ih, ← hshift]
    · rw [if_neg h1]
      have h1 : (h == (it.tag &&& ~~~initBit)) = false := by simpa using h1
      simp only [h1, Bool.false_and, Bool.false_eq_true, if_false]
      rw [ih, ← hshift]

theorem getKeyIndex_view (k : K) : getKeyIndex pl cfg (view rep m) k = HashMap.getKeyIndex cfg m k := by
  unfold getKeyIndex HashMap.getKeyIndex
  dsimp only
  split
  · rfl
  · cases hB : m.buckets with
    | none => simp [view, proj, hB]
    | some bs =>
      simp only [view, proj, hB, Option.map_some, List.getElem?_map, Option.bind_eq_bind]
      cases hb : bs[(cfg.hash k &&& reservedMask).toNat % cfg.c]? with
      | none => rfl
      | some bkt =>
        simp only [Option.map_some, Option.bind_some]
        have er : (bkt.map (·.map (fun x : Item K V => x.tag))).getD [] = (bkt.getD []).map (·.tag) := by cases bkt <;> rfl
        rw [er, ← hB, findLoop_view L cfg m _ _ _ (bkt.getD []) 0]
        · simp
        · intro i it hit
          rw [hB, Nat.zero_add]
          cases bkt with
          | none => simp at hit
          | some row =>
            simp only [cellAt, hb, Option.bind_eq_bind, Option.bind_some]
            exact hit

theorem key_view (b i : Nat) : pl.key (view rep m).load b i = (HashMap.itemAt m b i).map (·.key) := L.key _ _ _
theorem value_view (b i : Nat) : pl.value (view rep m).load b i = (HashMap.itemAt m b i).map (·.value) := L.value _ _ _

end

/-- The layout does not read keys and values through the hash words: only tags matter for `rep`. -/
def Untagged (rep : Cells (Item K V) → P) : Prop := ∀ B b i it t, cellAt B b i = some it → rep (putCell B b i { it with tag := t }) = rep B

theorem untagged_all : Untagged (fun B : Cells (Item K V) => (proj (·.key) B, proj (·.value) B)) := by
  intro B b i it t h
  have h1 : cellAt (proj (·.key) B) b i = some it.key := by rw [cellAt_proj, h]; rfl
  have h2 : cellAt (proj (·.value) B) b i = some it.value := by rw [cellAt_proj, h]; rfl
  dsimp only
  rw [← putCell_proj (fun x : Item K V => x.key), ← putCell_proj (fun x : Item K V => x.value)]
  dsimp only
  rw [putCell_self h1, putCell_self h2]

theorem untagged_hash : Untagged (fun B : Cells (Item K V) => proj (fun x => (x.key, x.value)) B) := by
  intro B b i it t h
  have h1 : cellAt (proj (fun x : Item K V => (x.key, x.value)) B) b i = some (it.key, it.value) := by rw [cellAt_proj, h]; rfl
  dsimp only
  rw [← putCell_proj (fun x : Item K V => (x.key, x.value))]
  dsimp only
  rw [putCell_self h1]

/-! ## The calls that make handles, case by case -/

theorem split_found (pl : Payload K V P) {cfg : Cfg K} {m : Split P} {k : K} {h : U64} {b : Nat} {i : Nat} (hg : getKeyIndex pl cfg m k = some (h, b, some i)) {e : U64} (e1 : toEntry cfg b i = some e) :
    entryForKey pl cfg m k = some (m, e, false) := by
  rw [entryForKey, hg, Option.bind_eq_bind, Option.bind_some]; simp only [e1]; rfl
theorem split_found_none (pl : Payload K V P) {cfg : Cfg K} {m : Split P} {k : K} {h : U64} {b : Nat} {i : Nat} (hg : getKeyIndex pl cfg m k = some (h, b, some i)) (e1 : toEntry cfg b i = none) :
    entryForKey pl cfg m k = none := by
  rw [entryForKey, hg, Option.bind_eq_bind, Option.bind_some]; simp only [e1]; rfl
theorem split_new (pl : Payload K V P) {cfg : Cfg K} {m : Split P} {k : K} {h : U64} {b : Nat} (hg : getKeyIndex pl cfg m k = some (h, b, none)) {m' : Split P} {i : Nat} (e1 : addValue pl cfg m b h k none = some (m', i)) {e : U64}
    (f1 : toEntry cfg b i = some e) : entryForKey pl cfg m k = some (m', e, true) := by
  rw [entryForKey, hg, Option.bind_eq_bind, Option.bind_some]; simp only [e1]; rw [Option.bind_eq_bind, Option.bind_some]; simp only [f1]; rfl
theorem split_new_none (pl : Payload K V P) {cfg : Cfg K} {m : Split P} {k : K} {h : U64} {b : Nat} (hg : getKeyIndex pl cfg m k = some (h, b, none)) {m' : Split P} {i : Nat} (e1 : addValue pl cfg m b h k none = some (m', i))
    (f1 : toEntry cfg b i = none) : entryForKey pl cfg m k = none := by
  rw [entryForKey, hg, Option.bind_eq_bind, Option.bind_some]; simp only [e1]; rw [Option.bind_eq_bind, Option.bind_some]; simp only [f1]; rfl
theorem split_new_fail (pl : Payload K V P) {cfg : Cfg K} {m : Split P} {k : K} {h : U64} {b : Nat} (hg : getKeyIndex pl cfg m k = some (h, b, none)) (e1 : addValue pl cfg m b h k none = none) : entryForKey pl cfg m k = none := by
  rw [entryForKey, hg, Option.bind_eq_bind, Option.bind_some]; simp only [e1]; rfl
theorem split_fail (pl : Payload K V P) {cfg : Cfg K} {m : Split P} {k : K} (hg : getKeyIndex pl cfg m k = none) : entryForKey pl cfg m k = none := by
  rw [entryForKey, hg]; rfl
theorem split_remove (pl : Payload K V P) {cfg : Cfg K} {m : Split P} {k : K} {h : U64} {b : Nat} {i : Nat} (hg : getKeyIndex pl cfg m k = some (h, b, some i)) {e : U64} (e1 : toEntry cfg b i = some e) :
    removeValue pl cfg m k = removeAt cfg m e := by
  rw [removeValue, hg, Option.bind_eq_bind, Option.bind_some]; simp only [e1]; rw [Option.bind_eq_bind, Option.bind_some]
theorem split_remove_none (pl : Payload K V P) {cfg : Cfg K} {m : Split P} {k : K} {h : U64} {b : Nat} {i : Nat} (hg : getKeyIndex pl cfg m k = some (h, b, some i)) (e1 : toEntry cfg b i = none) :
    removeValue pl cfg m k = none := by
  rw [removeValue, hg, Option.bind_eq_bind, Option.bind_some]; simp only [e1]; rfl
theorem split_remove_absent (pl : Payload K V P) {cfg : Cfg K} {m : Split P} {k : K} {h : U64} {b : Nat} (hg : getKeyIndex pl cfg m k = some (h, b, none)) : removeValue pl cfg m k = some m := by
  rw [removeValue, hg]; rfl
theorem split_remove_fail (pl : Payload K V P) {cfg : Cfg K} {m : Split P} {k : K} (hg : getKeyIndex pl cfg m k = none) : removeValue pl cfg m k = none := by
  rw [removeValue, hg]; rfl

theorem base_found {cfg : Cfg K} {m : Map K V} {k : K} {h : U64} {b : Nat} {i : Nat} (hg : HashMap.getKeyIndex cfg m k = some (h, b, some i)) {e : U64} (e1 : toEntry cfg b i = some e) :
    HashMap.entryForKey cfg m k = some (m, e, false) := by
  rw [HashMap.entryForKey, hg, Option.bind_eq_bind, Option.bind_some]; simp only [e1]; rfl
theorem base_found_none {cfg : Cfg K} {m : Map K V} {k : K} {h : U64} {b : Nat} {i : Nat} (hg : HashMap.getKeyIndex cfg m k = some (h, b, some i)) (e1 : toEntry cfg b i = none) :
    HashMap.entryForKey cfg m k = none := by
  rw [HashMap.entryForKey, hg, Option.bind_eq_bind, Option.bind_some]; simp only [e1]; rfl
theorem base_new {cfg : Cfg K} {m : Map K V} {k : K} {h : U64} {b : Nat} (hg : HashMap.getKeyIndex cfg m k = some (h, b, none)) {m' : Map K V} {i : Nat} (e1 : HashMap.addValue cfg m b h k none = some (m', i)) {e : U64}
    (f1 : toEntry cfg b i = some e) : HashMap.entryForKey cfg m k = some (m', e, true) := by
  rw [HashMap.entryForKey, hg, Option.bind_eq_bind, Option.bind_some]; simp only [e1]; rw [Option.bind_eq_bind, Option.bind_some]; simp only [f1]; rfl
theorem base_new_none {cfg : Cfg K} {m : Map K V} {k : K} {h : U64} {b : Nat} (hg : HashMap.getKeyIndex cfg m k = some (h, b, none)) {m' : Map K V} {i : Nat} (e1 : HashMap.addValue cfg m b h k none = some (m', i))
    (f1 : toEntry cfg b i = none) : HashMap.entryForKey cfg m k = none := by
  rw [HashMap.entryForKey, hg, Option.bind_eq_bind, Option.bind_some]; simp only [e1]; rw [Option.bind_eq_bind, Option.bind_some]; simp only [f1]; rfl
theorem base_new_fail {cfg : Cfg K} {m : Map K V} {k : K} {h : U64} {b : Nat} (hg : HashMap.getKeyIndex cfg m k = some (h, b, none)) (e1 : HashMap.addValue cfg m b h k none = none) : HashMap.entryForKey cfg m k = none := by
  rw [HashMap.entryForKey, hg, Option.bind_eq_bind, Option.bind_some]; simp only [e1]; rfl
theorem base_fail {cfg : Cfg K} {m : Map K V} {k : K} (hg : HashMap.getKeyIndex cfg m k = none) : HashMap.entryForKey cfg m k = none := by
  rw [HashMap.entryForKey, hg]; rfl
theorem base_remove {cfg : Cfg K} {m : Map K V} {k : K} {h : U64} {b : Nat} {i : Nat} (hg : HashMap.getKeyIndex cfg m k = some (h, b, some i)) {e : U64} (e1 : toEntry cfg b i = some e) :
    HashMap.removeValue cfg m k = HashMap.removeAt cfg m e := by
  rw [HashMap.removeValue, hg, Option.bind_eq_bind, Option.bind_some]; simp only [e1]; rw [Option.bind_eq_bind, Option.bind_some]
theorem base_remove_none {cfg : Cfg K} {m : Map K V} {k : K} {h : U64} {b : Nat} {i : Nat} (hg : HashMap.getKeyIndex cfg m k = some (h, b, some i)) (e1 : toEntry cfg b i = none) :
    HashMap.removeValue cfg m k = none := by
  rw [HashMap.removeValue, hg, Option.bind_eq_bind, Option.bind_some]; simp only [e1]; rfl
theorem base_remove_absent {cfg : Cfg K} {m : Map K V} {k : K} {h : U64} {b : Nat} (hg : HashMap.getKeyIndex cfg m k = some (h, b, none)) : HashMap.removeValue cfg m k = some m := by
  rw [HashMap.removeValue, hg]; rfl
theorem base_remove_fail {cfg : Cfg K} {m : Map K V} {k : K} (hg : HashMap.getKeyIndex cfg m k = none) : HashMap.removeValue cfg m k = none := by
  rw [HashMap.removeValue, hg]; rfl

section
variable {pl : Payload K V P} {rep : Cells (Item K V) → P} (L : Lawful pl rep) (U : Untagged rep) (cfg : Cfg K) (m : Map K V)

include U in
theorem removeAt_view (e : U64) : removeAt cfg (view rep m) e = (HashMap.removeAt cfg m e).map (view rep) := by
  simp only [removeAt, HashMap.removeAt, Option.bind_eq_bind]
  cases toIndex cfg e with
  | none => rfl
  | some r =>
    cases r with
    | none => rfl
    | some p =>
      obtain ⟨b, i⟩ := p
      simp only [Option.bind_some, hashes_at]
      cases hit : HashMap.itemAt m b i with
      | none => rfl
      | some it =>
        simp only [Option.map_some, Option.bind_some]
        split
        · rfl
        · simp only [pure, Option.map_some, Option.some.injEq]
          have hU := U m.buckets b i it ((it.tag ||| emptyBit) &&& ~~~initBit) hit
          have hp := view_put (rep := rep) m b i { it with tag := (it.tag ||| emptyBit) &&& ~~~initBit }
          simp only [view, HashMap.putItem, Split.mk.injEq, true_and] at hp hU ⊢
          exact ⟨hp.symm, hU.symm⟩

theorem initialized_view (e : U64) : entryIsInitialized cfg (view rep m) e = HashMap.entryIsInitialized cfg m e := by
  simp only [entryIsInitialized, HashMap.entryIsInitialized, Option.bind_eq_bind]
  cases toIndex cfg e with
  | none => rfl
  | some r =>
    cases r with
    | none => rfl
    | some p =>
      simp only [Option.bind_some, hashes_at]
      cases HashMap.itemAt m p.1 p.2 <;> rfl

include L

theorem findKey_view (k : K) : findKey pl cfg (view rep m) k = HashMap.findKey cfg m k := by
  unfold findKey HashMap.findKey
  rw [getKeyIndex_view L]
  generalize HashMap.getKeyIndex cfg m k = g
  generalize toEntry cfg = te
  cases g with
  | none => rfl
  | some r =>
    obtain ⟨h, b, r⟩ := r
    cases r <;> rfl

theorem entryForKey_view (k : K) : entryForKey pl cfg (view rep m) k = (HashMap.entryForKey cfg m k).map fun r => (view rep r.1, r.2) := by
  have hv := getKeyIndex_view L cfg m k
  cases hg : HashMap.getKeyIndex cfg m k with
  | none => rw [split_fail pl (hv.trans hg), base_fail hg]; rfl
  | some r =>
    obtain ⟨h, b, r⟩ := r
    cases r with
    | some i =>
      cases ht : toEntry cfg b i with
      | none => rw [split_found_none pl (hv.trans hg) ht, base_found_none hg ht]; rfl
      | some e => rw [split_found pl (hv.trans hg) ht, base_found hg ht]; rfl
    | none =>
      have hw := addValue_view L cfg m b h k none
      cases ha : HashMap.addValue cfg m b h k none with
      | none =>
        rw [ha] at hw
        rw [split_new_fail pl (hv.trans hg) hw, base_new_fail hg ha]; rfl
      | some r =>
        obtain ⟨m', i⟩ := r
        rw [ha] at hw
        cases ht : toEntry cfg b i with
        | none => rw [split_new_none pl (hv.trans hg) hw ht, base_new_none hg ha ht]; rfl
        | some e => rw [split_new pl (hv.trans hg) hw ht, base_new hg ha ht]; rfl

theorem getKey_view (e : U64) : getKey pl cfg (view rep m) e = HashMap.getKey cfg m e := by
  simp only [getKey, HashMap.getKey, Option.bind_eq_bind]
  cases toIndex cfg e with
  | none => rfl
  | some r =>
    cases r with
    | none => rfl
    | some p =>
      simp only [Option.bind_some, hashes_at, key_view L]
      cases HashMap.itemAt m p.1 p.2 <;> rfl

theorem getEntry_view (e : U64) : getEntry pl cfg (view rep m) e = HashMap.getEntry cfg m e := by
  simp only [getEntry, HashMap.getEntry, Option.bind_eq_bind]
  cases toIndex cfg e with
  | none => rfl
  | some r =>
    cases r with
    | none => rfl
    | some p =>
      simp only [Option.bind_some, hashes_at, value_view L]
      cases HashMap.itemAt m p.1 p.2 <;> rfl

theorem setEntry_view (e : U64) (w : Option V) : setEntry pl cfg (view rep m) e w = (HashMap.setEntry cfg m e w).map (view rep) := by
  simp only [setEntry, HashMap.setEntry, Option.bind_eq_bind]
  cases toIndex cfg e with
  | none => rfl
  | some r =>
    cases r with
    | none => rfl
    | some p =>
      obtain ⟨b, i⟩ := p
      simp only [Option.bind_some, hashes_at]
      cases hit : HashMap.itemAt m b i with
      | none => rfl
      | some it =>
        simp only [Option.map_some, Option.bind_some]
        split
        · rfl
        · have hs := L.setValue m.buckets b i it hit (it.tag ||| initBit) w
          have hp := view_put (rep := rep) m b i ⟨it.tag ||| initBit, it.key, w⟩
          simp only [view, HashMap.putItem, hs, Option.bind_some, pure, Option.map_some, Option.some.injEq, Split.mk.injEq, true_and] at hp ⊢
          exact ⟨hp.symm, rfl⟩

theorem getValue_view (k : K) : getValue pl cfg (view rep m) k = HashMap.getValue cfg m k := by
  simp only [getValue, HashMap.getValue, getKeyIndex_view L, Option.bind_eq_bind]
  cases HashMap.getKeyIndex cfg m k with
  | none => rfl
  | some r =>
    obtain ⟨h, b, r⟩ := r
    cases r with
    | none => rfl
    | some i =>
      simp only [Option.bind_some, value_view L]
      cases HashMap.itemAt m b i <;> rfl

theorem setValue_view (k : K) (w : Option V) : setValue pl cfg (view rep m) k w = (HashMap.setValue cfg m k w).map (view rep) := by
  simp only [setValue, HashMap.setValue, getKeyIndex_view L, Option.bind_eq_bind]
  cases HashMap.getKeyIndex cfg m k with
  | none => rfl
  | some r =>
    obtain ⟨h, b, r⟩ := r
    cases r with
    | none =>
      simp only [Option.bind_some, addValue_view L]
      cases HashMap.addValue cfg m b h k (some w) <;> rfl
    | some i =>
      simp only [Option.bind_some, hashes_at]
      cases hit : HashMap.itemAt m b i with
      | none => rfl
      | some it =>
        simp only [Option.map_some, Option.bind_some]
        by_cases hi : isInit h = true
        · have hs := L.setValue m.buckets b i it hit it.tag w
          have hp := view_put (rep := rep) m b i ⟨it.tag, it.key, w⟩
          have hc : cellAt (view rep m).hashes b i = some it.tag := by rw [hashes_at, hit]; rfl
          simp only [if_pos hi]
          rw [putCell_self hc] at hp
          simp only [view, HashMap.putItem, hs, Option.bind_some, pure, Option.map_some, Option.some.injEq, Split.mk.injEq, true_and] at hp ⊢
          exact ⟨hp.symm, rfl⟩
        · have hs := L.setValue m.buckets b i it hit (it.tag ||| initBit) w
          have hp := view_put (rep := rep) m b i ⟨it.tag ||| initBit, it.key, w⟩
          simp only [if_neg hi]
          simp only [view, HashMap.putItem, hs, Option.bind_some, pure, Option.map_some, Option.some.injEq, Split.mk.injEq, true_and] at hp ⊢
          exact ⟨hp.symm, rfl⟩

include U in
theorem removeValue_view (k : K) : removeValue pl cfg (view rep m) k = (HashMap.removeValue cfg m k).map (view rep) := by
  have hv := getKeyIndex_view L cfg m k
  cases hg : HashMap.getKeyIndex cfg m k with
  | none => rw [split_remove_fail pl (hv.trans hg), base_remove_fail hg]; rfl
  | some r =>
    obtain ⟨h, b, r⟩ := r
    cases r with
    | none => rw [split_remove_absent pl (hv.trans hg), base_remove_absent hg]; rfl
    | some i =>
      cases ht : toEntry cfg b i with
      | none => rw [split_remove_none pl (hv.trans hg) ht, base_remove_none hg ht]; rfl
      | some e => rw [split_remove pl (hv.trans hg) ht, base_remove hg ht, removeAt_view U]

omit L in
theorem gatherRow_eq {get : Nat → Option α} (f : Item K V → α) (row : List (Item K V)) : ∀ i0, (∀ i it, row[i]? = some it → get (i0 + i) = some (f it)) →
    gatherRow get (row.map (·.tag)) i0 = some (row.flatMap fun it => if isEmpty it.tag then [] else [f it]) := by
  induction row with
  | nil => intro i0 _; rfl
  | cons it row ih =>
    intro i0 h
    have ih := ih (i0 + 1) (fun i x hx => by
      have := h (i + 1) x (by simpa using hx)
      rw [show i0 + 1 + i = i0 + (i + 1) by omega]; exact this)
    have h0 := h 0 it rfl
    rw [Nat.add_zero] at h0
    simp only [List.map_cons, gatherRow, ih, h0, Option.bind_eq_bind, Option.bind_some, List.flatMap_cons, pure]
    split <;> rfl

omit L in
theorem gather_eq {get : Nat → Nat → Option α} (f : Item K V → α) (bs : List (Option (List (Item K V)))) : ∀ b0,
    (∀ b row, bs[b]? = some (some row) → ∀ i it, row[i]? = some it → get (b0 + b) i = some (f it)) →
    gather get (bs.map (·.map (·.map (·.tag)))) b0 = some (bs.flatMap fun bkt => match bkt with
      | none => []
      | some row => row.flatMap fun it => if isEmpty it.tag then [] else [f it]) := by
  induction bs with
  | nil => intro b0 _; rfl
  | cons bkt bs ih =>
    intro b0 h
    have ih := ih (b0 + 1) (fun b row hb i it hi => by
      have := h (b + 1) row (by simpa using hb) i it hi
      rw [show b0 + 1 + b = b0 + (b + 1) by omega]; exact this)
    cases bkt with
    | none => simp only [List.map_cons, Option.map_none, gather, ih, List.flatMap_cons, List.nil_append]
    | some row =>
      have hr := gatherRow_eq (get := get b0) f row 0 (fun i it hi => by
        rw [Nat.zero_add]
        have := h 0 row rfl i it hi
        rwa [Nat.add_zero] at this)
      simp only [List.map_cons, Option.map_some, gather, hr, ih, Option.bind_eq_bind, Option.bind_some, List.flatMap_cons, pure]

theorem keys_view : getKeys pl (view rep m) = some (HashMap.getKeys m) := by
  unfold getKeys HashMap.getKeys
  cases hB : m.buckets with
  | none => simp [view, proj, hB]
  | some bs =>
    simp only [view, proj, hB, Option.map_some]
    rw [gather_eq (fun it : Item K V => it.key) bs 0]
    · rfl
    · intro b row hb i it hi
      rw [L.key, Nat.zero_add]
      simp [cellAt, hb, hi]

theorem values_view : getValues pl (view rep m) = some (HashMap.getValues m) := by
  unfold getValues HashMap.getValues
  cases hB : m.buckets with
  | none => simp [view, proj, hB]
  | some bs =>
    simp only [view, proj, hB, Option.map_some]
    rw [gather_eq (fun it : Item K V => it.value) bs 0]
    · rfl
    · intro b row hb i it hi
      rw [L.value, Nat.zero_add]
      simp [cellAt, hb, hi]

omit L

theorem scanUp_view (row : List (Item K V)) : ∀ i, scanUp (row.map (·.tag)) i = HashMap.scanUp row i := by
  induction row with
  | nil => intro i; rfl
  | cons it row ih => intro i; simp only [List.map_cons, scanUp, HashMap.scanUp, ih]

theorem scanBucketsUp_view (bs : List (Option (List (Item K V)))) : ∀ b i,
    scanBucketsUp (bs.map (·.map (·.map (·.tag)))) b i = HashMap.scanBucketsUp bs b i := by
  induction bs with
  | nil => intro b i; rfl
  | cons bkt bs ih =>
    intro b i
    cases bkt with
    | none => simp only [List.map_cons, Option.map_none, scanBucketsUp, HashMap.scanBucketsUp, ih]
    | some row =>
      simp only [List.map_cons, Option.map_some, scanBucketsUp, HashMap.scanBucketsUp, ih]
      rw [← List.map_drop, scanUp_view]
      rfl

theorem scanDown_view (row : List (Item K V)) : ∀ n, scanDown (row.map (·.tag)) n = HashMap.scanDown row n := by
  intro n
  induction n with
  | zero => rfl
  | succ n ih =>
    simp only [scanDown, HashMap.scanDown, ih, List.getElem?_map, Option.bind_eq_bind]
    cases row[n]? <;> rfl

theorem scanBucketsDown_view (bs : List (Option (List (Item K V)))) : ∀ n i,
    scanBucketsDown (bs.map (·.map (·.map (·.tag)))) n i = HashMap.scanBucketsDown bs n i := by
  intro n
  induction n with
  | zero => intro i; rfl
  | succ n ih =>
    intro i
    simp only [scanBucketsDown, HashMap.scanBucketsDown, ih, List.getElem?_map, Option.bind_eq_bind]
    cases bs[n]? with
    | none => rfl
    | some bkt =>
      cases bkt with
      | none => rfl
      | some row => simp only [Option.map_some, Option.bind_some, List.length_map, scanDown_view]; rfl

theorem head_view : headEntry cfg (view rep m) = HashMap.headEntry cfg m := by
  unfold headEntry HashMap.headEntry
  cases hB : m.buckets with
  | none => simp [view, proj, hB]
  | some bs => simp only [view, proj, hB, Option.map_some, scanBucketsUp_view]

theorem next_view (e : U64) : nextEntry cfg (view rep m) e = HashMap.nextEntry cfg m e := by
  unfold nextEntry HashMap.nextEntry
  cases hB : m.buckets with
  | none => simp [view, proj, hB]
  | some bs =>
    simp only [view, proj, hB, Option.map_some, ← List.map_drop, scanBucketsUp_view]
    rfl

theorem tail_view : tailEntry cfg (view rep m) = HashMap.tailEntry cfg m := by
  unfold tailEntry HashMap.tailEntry
  cases hB : m.buckets with
  | none => simp [view, proj, hB]
  | some bs => simp only [view, proj, hB, Option.map_some, scanBucketsDown_view, List.length_map]

theorem prev_view (e : U64) : prevEntry cfg (view rep m) e = HashMap.prevEntry cfg m e := by
  unfold prevEntry HashMap.prevEntry
  cases hB : m.buckets with
  | none => simp [view, proj, hB]
  | some bs =>
    simp only [view, proj, hB, Option.map_some, scanBucketsDown_view]
    rfl

end

end Verif.HashLayout
