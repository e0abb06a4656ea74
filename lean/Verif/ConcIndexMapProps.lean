import Verif.ConcIndexMapLemmas
/-!
# C89: the concurrent index map, used by any number of threads
-/
namespace Verif.ConcIndexMap
open IndexMap (maxCount le_maxCount maxCount_succ)
open Conc
variable {α : Type} [DecidableEq α]

theorem Good.slot_set {chunk : Nat} {B : Blk α} {l : List α} {lag j : Nat} {v : α} (G : Good chunk B l lag) (h : B.slots[j]? = some (some v)) : l[j]? = some v := by
  have := G.slot j (List.getElem?_eq_some_iff.1 h).1
  rw [h] at this
  exact (Option.some.inj this).symm

theorem Good.slot_eq {chunk : Nat} {B : Blk α} {l : List α} {lag j : Nat} {v : Option α} (G : Good chunk B l lag) (h : B.slots[j]? = some v) : l[j]? = v := by
  have := G.slot j (List.getElem?_eq_some_iff.1 h).1
  rw [h] at this
  exact (Option.some.inj this).symm

theorem Good.none {chunk : Nat} {B : Blk α} {l : List α} {lag j : Nat} (G : Good chunk B l lag) (h : ¬ j < maxCount chunk B.count) : l[j]? = none := by
  have h1 := G.max
  have h2 := G.le
  exact List.getElem?_eq_none (by omega)

/-- A stored element. -/
theorem Good.set {chunk : Nat} {B : Blk α} {l : List α} {lag j : Nat} (G : Good chunk B l lag) (x : α) (h : j < l.length) : Good chunk { B with slots := B.slots.set j (some x) } (l.set j x) lag := by
  have hle := G.le
  refine ⟨by simpa using G.le, fun j' hj' => ?_, by simpa using G.count, by simpa using G.max⟩
  simp only [List.length_set] at hj'
  show (B.slots.set j (some x))[j']? = _
  rw [List.getElem?_set, List.getElem?_set, G.slot j' hj']
  by_cases e : j = j'
  · subst e
    rw [if_pos rfl, if_pos rfl, if_pos hj', if_pos h]
  · rw [if_neg e, if_neg e]

theorem Good.push {chunk : Nat} {B : Blk α} {l : List α} {lag : Nat} (G : Good chunk B l lag) (x : α) (h : l.length < B.slots.length) :
    Good chunk { B with slots := B.slots.set l.length (some x) } (l ++ [x]) (lag + 1) := by
  refine ⟨by simpa using (Nat.succ_le_of_lt h), fun j' hj' => ?_, by simpa [← Nat.add_assoc] using G.count, by simpa using G.max⟩
  simp only [List.length_set] at hj'
  show (B.slots.set l.length (some x))[j']? = _
  rw [List.getElem?_set, G.slot j' hj']
  by_cases e : l.length = j'
  · subst e
    rw [if_pos rfl, if_pos hj', List.getElem?_concat_length]
  · rw [if_neg e]
    rcases Nat.lt_or_ge j' l.length with hl | hl
    · rw [List.getElem?_append_left hl]
    · rw [List.getElem?_eq_none hl, List.getElem?_eq_none (by simp; omega)]

/-- A call that observed the list. -/
theorem RecOk.observed {ops : List (Call α)} {c : Call α} {r : Res α} {t0 lag k : Nat} (h1 : t0 ≤ k) (h2 : k ≤ ops.length) (h : spec (content ops k) c = (content ops k, r)) :
    RecOk ops ⟨c, r, t0, ops.length, none, lag⟩ := ⟨Nat.le_refl _, .inl ⟨k, h1, h2, h⟩⟩

theorem RecOk.late {ops : List (Call α)} {c : Call α} {r : Res α} {t0 lag k : Nat} (h1 : t0 ≤ k) (h2 : k ≤ ops.length) (h : Rec.Late (content ops k) ⟨c, r, t0, ops.length, none, lag⟩) :
    RecOk ops ⟨c, r, t0, ops.length, none, lag⟩ := ⟨Nat.le_refl _, .inr (.inr ⟨k, h1, h2, h⟩)⟩

theorem RecOk.failed {ops : List (Call α)} {x : α} {t0 lag : Nat} : RecOk ops ⟨.append x, .num none, t0, ops.length, none, lag⟩ := ⟨Nat.le_refl _, .inr (.inl ⟨x, rfl, rfl⟩)⟩

theorem RecOk.changed {ops : List (Call α)} {c : Call α} {r : Res α} {t0 lag k : Nat} (h1 : t0 ≤ k) (h2 : k < ops.length) (h3 : ops[k]? = some c) (h4 : r = (spec (content ops k) c).2) :
    RecOk ops ⟨c, r, t0, ops.length, some k, lag⟩ := ⟨Nat.le_refl _, h1, h2, h3, h4⟩

theorem Inv.step {chunk w : Nat} (hc : 0 < chunk) {y y' : Sys α} (I : Inv chunk w y) (C : Calm w y) (st : Step chunk w y y') : Inv chunk w y' := by
  cases st with
  | @start i c hi =>
    refine I.move hi (p' := begin ⟨y.secs, y.ops.length⟩ c) (M := y.modify) (D := y.done) ?_ ?_ ?_ ?_ I.recs ?_ <;> cases c <;> simp [begin, TInv, PC.lag, PC.dirty, PC.hold, PC.kc, PC.k?, Call.isMod, Call.isWr]
  | @rdPtr i g c hi =>
    exact I.go hi (p' := .rd1 g c y.data) ⟨I.thr i _ hi, I.seen_data g⟩ rfl rfl rfl rfl
  | @rdCount i g b B hi hB =>
    obtain ⟨h0, s⟩ := I.thr i _ hi
    obtain ⟨k, k1, k2, G⟩ := I.seen h0 s (blk?_eq hB).2
    exact I.return hi (M := y.modify) (RecOk.late (c := .count) (r := .num (some B.count)) k1 k2 G.count) rfl rfl rfl rfl
  | @rdMax i g b j B hi hB hj =>
    obtain ⟨h0, s⟩ := I.thr i _ hi
    obtain ⟨k, k1, k2, G⟩ := I.seen h0 s (blk?_eq hB).2
    refine I.go hi (p' := .rd2 g j b) ⟨h0, s, fun B' h => ?_⟩ rfl rfl rfl rfl
    rw [(blk?_eq hB).2] at h
    cases h
    rw [← G.max]
    exact hj
  | @rdNone i g b j B hi hB hj =>
    obtain ⟨h0, s⟩ := I.thr i _ hi
    obtain ⟨k, k1, k2, G⟩ := I.seen h0 s (blk?_eq hB).2
    exact I.return hi (M := y.modify) (RecOk.observed k1 k2 (by simp only [spec, G.none hj])) rfl rfl rfl rfl
  | @rdSlot i g b j B v hi hB hv =>
    obtain ⟨h0, s, -⟩ := I.thr i _ hi
    obtain ⟨k, k1, k2, G⟩ := I.seen h0 s (blk?_eq hB).2
    exact I.return hi (M := y.modify) (RecOk.observed k1 k2 (by simp only [spec, G.slot_eq hv])) rfl rfl rfl rfl
  | @mdInc i g c hi =>
    exact I.move hi (p' := .md1 g c) (show TInv chunk y (.md0 g c) from I.thr i _ hi) rfl rfl (M := y.modify + 1) (S := y.secs) (D := y.done) rfl I.recs fun k => rfl
  | @mdPtr i g c hi =>
    obtain ⟨h0, h1⟩ := I.thr i _ hi
    exact I.go hi (p' := .md2 g c y.data y.mutate) ⟨h0, h1, rfl, Nat.le_refl _⟩ rfl rfl rfl rfl
  | @mdCount i g c b m B hi hB =>
    obtain ⟨h0, h1, h2, h3⟩ := I.thr i _ hi
    have G := I.good h2 hB
    have hlen : ∀ B', y.blks[b]? = some B' → B' = B := fun B' h => by rw [(blk?_eq hB).2] at h; cases h; rfl
    cases c with
    | replace j x =>
      by_cases hj : j < maxCount chunk B.count
      · rw [counted, if_pos hj]
        exact I.go hi (p' := .rp3 g j x b) ⟨h0, h2, fun B' h => by rw [hlen B' h, ← G.max]; exact hj⟩ rfl rfl rfl rfl
      · rw [counted, if_neg hj]
        refine I.go hi (p' := .fi g (.replace j x) (.elem none) none) ⟨y.ops.length, h0, Nat.le_refl _, ?_⟩ rfl rfl rfl rfl
        have := G.none hj
        change spec y.cur _ = (y.cur, _)
        rw [spec, this, List.set_eq_of_length_le (List.getElem?_eq_none_iff.1 this)]
    | exact j x old =>
      by_cases hj : j < maxCount chunk B.count
      · rw [counted, if_pos hj]
        exact I.go hi (p' := .rx3 g j x old b) ⟨h0, h2, fun B' h => by rw [hlen B' h, ← G.max]; exact hj⟩ rfl rfl rfl rfl
      · rw [counted, if_neg hj]
        refine I.go hi (p' := .fi g (.exact j x old) (.bool false) none) ⟨y.ops.length, h0, Nat.le_refl _, ?_⟩ rfl rfl rfl rfl
        have := G.none hj
        change spec y.cur _ = (y.cur, _)
        rw [spec, this, if_neg (by simp)]
    | append x =>
      refine I.go hi (p' := .ap3 g x b m B.count (maxCount chunk B.count)) ⟨h0, h2, h3, ?_, fun B' h => by rw [hlen B' h]; exact G.max⟩ rfl rfl rfl rfl
      have := G.count
      omega
    | count | get | remove | insert => exact h1.elim
  | @rpSet i g j x b B v hi hB hv =>
    obtain ⟨h0, h1, h2⟩ := I.thr i _ hi
    have := (I.good h1 hB).slot_set hv
    exact I.go hi (p' := .rp4 g j x b) ⟨h0, h1, (List.getElem?_eq_some_iff.1 this).1⟩ rfl rfl rfl rfl
  | @rpUnset i g j x b B hi hB hv =>
    obtain ⟨h0, h1, h2⟩ := I.thr i _ hi
    have := (I.good h1 hB).slot_eq hv
    refine I.go hi (p' := .fi g (.replace j x) (.elem none) none) ⟨y.ops.length, h0, Nat.le_refl _, ?_⟩ rfl rfl rfl rfl
    change spec y.cur _ = (y.cur, _)
    rw [spec, this, List.set_eq_of_length_le (List.getElem?_eq_none_iff.1 this)]
  | @rpXchg i g j x b B v hi hB hv =>
    obtain ⟨h0, h1, h2⟩ := I.thr i _ hi
    have G := I.good h1 hB
    have hj := G.slot_set hv
    refine I.store hi h1 hB (p' := .up g (.replace j x) (.elem (some v)) y.ops.length) ?_ ?_ ⟨rfl, rfl, rfl, rfl⟩ ⟨rfl, rfl, rfl⟩ ⟨h0, ?_, ?_⟩
    · exact G.set x h2
    · simp [spec]
    · show (y.ops ++ [_])[y.ops.length]? = _
      simp
    · show _ = (spec (content (y.ops ++ [_]) y.ops.length) _).2
      rw [content_append (Nat.le_refl _)]
      show _ = Res.elem y.cur[j]?
      rw [hj]
  | @rpLost i g j x b B hi hB hv =>
    obtain ⟨h0, h1, h2⟩ := I.thr i _ hi
    have := (I.good h1 hB).slot_eq hv
    have := List.getElem?_eq_none_iff.1 this
    omega
  | @rxCas i g j x old b B hi hB hv =>
    obtain ⟨h0, h1, h2⟩ := I.thr i _ hi
    have G := I.good h1 hB
    have hj := G.slot_set hv
    have e : spec y.cur (.exact j x old) = (y.cur.set j x, .bool true) := by rw [spec, if_pos hj]
    refine I.store hi h1 hB (p' := .up g (.exact j x old) (.bool true) y.ops.length) ?_ ?_ ⟨rfl, rfl, rfl, rfl⟩ ⟨rfl, rfl, rfl⟩ ⟨h0, ?_, ?_⟩
    · rw [e]
      exact G.set x (List.getElem?_eq_some_iff.1 hj).1
    · rw [e]; simp
    · show (y.ops ++ [_])[y.ops.length]? = _
      simp
    · show _ = (spec (content (y.ops ++ [_]) y.ops.length) _).2
      rw [content_append (Nat.le_refl _)]
      show _ = (spec y.cur _).2
      rw [e]
  | @rxFail i g j x old b B v hi hB hv hne =>
    obtain ⟨h0, h1, h2⟩ := I.thr i _ hi
    have := (I.good h1 hB).slot_eq hv
    refine I.go hi (p' := .fi g (.exact j x old) (.bool false) none) ⟨y.ops.length, h0, Nat.le_refl _, ?_⟩ rfl rfl rfl rfl
    change spec y.cur _ = (y.cur, _)
    rw [spec, this, if_neg hne]
  | @apNext i g x b m idx max B v hi hlt hB hv =>
    obtain ⟨h0, h1, h2, h3, h4⟩ := I.thr i _ hi
    have := (List.getElem?_eq_some_iff.1 ((I.good h1 hB).slot_set hv)).1
    exact I.go hi (p' := .ap3 g x b m (idx + 1) max) ⟨h0, h1, h2, this, h4⟩ rfl rfl rfl rfl
  | @apStore i g x b m idx max B hi hlt hB hv =>
    obtain ⟨h0, h1, h2, h3, h4⟩ := I.thr i _ hi
    have G := I.good h1 hB
    have hn := List.getElem?_eq_none_iff.1 (G.slot_eq hv)
    have e : idx = y.cur.length := by omega
    subst e
    refine I.store hi h1 hB (p' := .ap4 g x b y.cur.length y.ops.length) ?_ ?_ ⟨rfl, rfl, rfl, rfl⟩ ⟨rfl, rfl, rfl⟩ ⟨h1, h0, ?_, ?_⟩
    · exact G.push x (List.getElem?_eq_some_iff.1 hv).1
    · simp [spec]
    · show (y.ops ++ [_])[y.ops.length]? = _
      simp
    · show _ = (spec (content (y.ops ++ [_]) y.ops.length) _).2
      rw [content_append (Nat.le_refl _)]
      rfl
  | @apFull i g x b m idx max hi hlt =>
    obtain ⟨h0, h1, h2, h3, h4⟩ := I.thr i _ hi
    refine I.go hi (p' := .af g x b m idx max) ⟨h0, h1, h2, ?_, h4⟩ rfl rfl rfl rfl
    obtain ⟨B, n1, n2⟩ := I.now
    have := h4 B (h1 ▸ n1)
    have := n2.le
    omega
  | @apCount i g x b idx k B hi hB => exact I.counts hc hi hB
  | @upInc i g c r k hi => exact I.mutates hi
  | @fiDec i g c r k hi =>
    have h1 := le_sumBy PC.hold hi
    have h2 := I.modi
    simp only [PC.hold] at h1
    refine I.return hi (M := y.modify - 1) ?_ rfl rfl (by simp only [PC.hold]; omega) rfl
    have hT := I.thr i _ hi
    cases k with
    | some k =>
      obtain ⟨a, b, d⟩ := hT
      exact ⟨Nat.le_refl _, a, (List.getElem?_eq_some_iff.1 b).1, b, d⟩
    | none =>
      obtain ⟨k, a, b, d⟩ := hT
      exact RecOk.observed a b d
  | @afDec i g x b m idx max hi =>
    have h1 := le_sumBy PC.hold hi
    have h2 := I.modi
    simp only [PC.hold] at h1
    obtain ⟨h0, h1', h2', h3, h4⟩ := I.thr i _ hi
    exact I.move hi (p' := .ag g x b m idx max) ⟨h0, h1' ▸ I.seen_data g, h2', h3, h4⟩ rfl rfl (M := y.modify - 1) (S := y.secs) (D := y.done) (by simp only [PC.hold]; omega) I.recs
      fun k => rfl
  | @agSame i g x b m idx max B hi hB he =>
    obtain ⟨h0, s, h2, h3, h4⟩ := I.thr i _ hi
    obtain ⟨k, k1, k2, G⟩ := I.seen h0 s (blk?_eq hB).2
    have hlen := h4 B (blk?_eq hB).2
    have g1 := G.count
    have g2 := G.le
    have g3 := G.max
    refine I.go hi (p' := .cp g (.append x) b m idx (max + chunk) []) ⟨h0, trivial, s, h2, fun B' h j hj => ?_, fun q => ?_⟩ rfl rfl rfl rfl
    · rw [(blk?_eq hB).2] at h
      cases h
      show j < B.slots.length
      omega
    · have hl : sumBy PC.lag y.thrs = 0 := by
        have h1 : ∀ p : PC α, p.lag ≤ p.dirty := fun p => by cases p <;> simp [PC.lag, PC.dirty]
        have h2 := sumBy_le h1 y.thrs
        have := q.2.2
        omega
      have G' := I.good q.1 hB
      have c1 := G'.count
      refine ⟨?_, Nat.zero_le _, fun j hj => absurd hj (Nat.not_lt_zero _), ?_, fun h => h.elim⟩
      · show idx = y.cur.length
        omega
      · show max + chunk = maxCount chunk (y.cur ++ [x]).length
        rw [List.length_append, List.length_singleton, ← c1, hl, Nat.add_zero, maxCount_succ hc, if_pos (by omega)]
        omega
  | @agFail i g x b m idx max B hi hB he =>
    exact I.return hi (M := y.modify) RecOk.failed rfl rfl rfl rfl
  | @agDiff i g x b m idx max B hi hB he =>
    exact I.go hi (p' := .md0 g (.append x)) ⟨(I.thr i _ hi).1, trivial⟩ rfl rfl rfl rfl
  | @wrPtr i g c hi =>
    obtain ⟨h0, h1⟩ := I.thr i _ hi
    exact I.go hi (p' := .wr1 g c y.data y.mutate) ⟨h0, h1, I.seen_data g, Nat.le_refl _⟩ rfl rfl rfl rfl
  | @wrRefuse i g c b m B hi hB hr =>
    obtain ⟨h0, h1, s, h3⟩ := I.thr i _ hi
    obtain ⟨k, k1, k2, G⟩ := I.seen h0 s (blk?_eq hB).2
    refine I.return hi (M := y.modify) (RecOk.late k1 k2 ?_) rfl rfl rfl rfl
    have := G.count
    cases c with
    | remove j =>
      simp only [Call.index] at hr
      show _ ≤ j + y.lag b
      omega
    | insert j x =>
      simp only [Call.index] at hr
      show _ ≤ j + y.lag b
      omega
    | count | get | replace | exact | append => exact h1.elim
  | @wrCopy i g c b m B hi hB hr =>
    obtain ⟨h0, h1, s, h3⟩ := I.thr i _ hi
    obtain ⟨k, k1, k2, G⟩ := I.seen h0 s (blk?_eq hB).2
    have g1 := G.count
    have g2 := G.le
    have quiet : Quiet y b m → B.count = y.cur.length := fun q => by
      have h1 : ∀ p : PC α, p.lag ≤ p.dirty := fun p => by cases p <;> simp [PC.lag, PC.dirty]
      have h2 := sumBy_le h1 y.thrs
      have := q.2.2
      have := (I.good q.1 hB).count
      omega
    have hblk : ∀ B', y.blks[b]? = some B' → B' = B := fun B' h => by rw [(blk?_eq hB).2] at h; cases h; rfl
    cases c with
    | remove j =>
      simp only [Call.index] at hr
      refine I.go hi (p' := .cp g (.remove j) b m _ _ []) ⟨h0, trivial, s, h3, fun B' h j' hj => ?_, fun q => ⟨?_, Nat.zero_le _, fun j hj => absurd hj (Nat.not_lt_zero _), ?_, fun _ => ?_⟩⟩ rfl rfl rfl rfl
      · rw [hblk B' h]
        change j' < B.count - 1 at hj
        simp only [Call.from]
        split <;> omega
      · have := quiet q
        show B.count - 1 = (y.cur.eraseIdx j).length
        rw [List.length_eraseIdx_of_lt (by omega)]
        omega
      · have := quiet q
        show maxCount chunk (B.count - 1) = maxCount chunk (y.cur.eraseIdx j).length
        rw [List.length_eraseIdx_of_lt (by omega), this]
      · have := quiet q
        show j < y.cur.length
        omega
    | insert j x =>
      simp only [Call.index] at hr
      refine I.go hi (p' := .cp g (.insert j x) b m _ _ []) ⟨h0, trivial, s, h3, fun B' h j' hj => ?_, fun q => ⟨?_, Nat.zero_le _, fun j hj => absurd hj (Nat.not_lt_zero _), ?_, fun _ => ?_⟩⟩ rfl rfl rfl rfl
      · rw [hblk B' h]
        change j' < B.count at hj
        show j' < B.slots.length
        omega
      · exact quiet q
      · have := quiet q
        have hj : j < y.cur.length := by omega
        show maxCount chunk (B.count + 1) = maxCount chunk (spec y.cur (.insert j x)).1.length
        rw [spec, if_pos hj, List.length_insertIdx_of_le_length (Nat.le_of_lt hj), this]
      · have := quiet q
        show j < y.cur.length
        omega
    | count | get | replace | exact | append => exact h1.elim
  | @wrFail i g c b m B hi hB hr =>
    obtain ⟨h0, h1, s, h3⟩ := I.thr i _ hi
    exact I.go hi (p' := .wr0 g c) ⟨h0, h1⟩ rfl rfl rfl rfl
  | @cpLoad i g c b m n max got B v hi hlt hB hv =>
    obtain ⟨h0, h1, s, h3, h4, h5⟩ := I.thr i _ hi
    refine I.go hi (p' := .cp g c b m n max (got ++ [v])) ⟨h0, h1, s, h3, h4, fun q => ?_⟩ rfl rfl rfl rfl
    obtain ⟨c1, c2, c3, c4⟩ := h5 q
    have G := I.good q.1 hB
    refine ⟨c1, by simp; omega, fun j hj => ?_, c4⟩
    rcases Nat.lt_or_ge j got.length with hl | hl
    · rw [List.getElem?_append_left hl]
      exact c3 j hl
    · have e : j = got.length := by simp at hj; omega
      subst e
      rw [List.getElem?_concat_length, ← G.slot_eq hv]
      congr 1
      cases c with
      | remove i =>
        show _ = (y.cur.eraseIdx i)[got.length]?
        rw [List.getElem?_eraseIdx]
        simp only [Call.from]
        split <;> rfl
      | insert | append => rfl
      | count | get | replace | exact => exact h1.elim
  | @cpCas i g c b m n max got hi hn hcas =>
    obtain ⟨h0, h1, s, h3, h4, h5⟩ := I.thr i _ hi
    have recs : ∀ r : Res α, (CopyOk chunk c y.cur n max got → r = (spec y.cur c).2) → CopyOk chunk c y.cur n max got →
        ∀ r' ∈ y.done ++ [⟨c, r, g.t0, (y.ops ++ [c]).length, some y.ops.length, 0⟩], RecOk (y.ops ++ [c]) r' := by
      intro r hr ok r' hr'
      rw [List.mem_append, List.mem_singleton] at hr'
      rcases hr' with hr' | rfl
      · exact (I.recs r' hr').mono
      · refine ⟨Nat.le_refl _, h0, by simp, by simp, ?_⟩
        show r = (spec (content (y.ops ++ [c]) y.ops.length) c).2
        rw [content_append (Nat.le_refl _)]
        exact hr ok
    have cnt : ∀ (r : Rec α) (k : Nat), r.k = some y.ops.length → sumBy (Rec.kc k) (y.done ++ [r]) + (PC.idle : PC α).kc k = sumBy (Rec.kc k) y.done + if k = y.ops.length then 1 else 0 := by
      intro r k hr
      rw [sumBy_append, sumBy_cons, sumBy_nil]
      unfold Rec.kc PC.kc
      rw [hr]
      by_cases e : k = y.ops.length
      · subst e; simp [PC.k?]
      · simp [PC.k?, e, show ¬ y.ops.length = k from fun h => e h.symm]
    cases c with
    | append x =>
      exact I.swaps hc C hi hn hcas (p' := .idle) ⟨rfl, rfl, rfl⟩ (fun _ _ _ _ _ => trivial) (recs (.num (some n)) fun ok => by rw [ok.1]; rfl) fun k => cnt _ k rfl
    | insert j x =>
      refine I.swaps hc C hi hn hcas (p' := .idle) ⟨rfl, rfl, rfl⟩ (fun _ _ _ _ _ => trivial) (recs (.bool true) fun ok => ?_) fun k => cnt _ k rfl
      have hj : j < y.cur.length := ok.2.2.2.2 trivial
      rw [spec, if_pos hj]
    | remove j =>
      refine I.swaps hc C hi hn hcas (p' := .rm g j b y.ops.length) ⟨rfl, rfl, rfl⟩ (fun y' e1 e2 s' h' => ⟨h0, s', ?_, ?_, h' trivial⟩) (fun _ r hr => (I.recs r hr).mono) fun k => ?_
      · rw [e2, ← hcas.2.2, ← I.tlen, List.getElem?_concat_length]
      · rw [e1, List.getElem?_concat_length]
      · show sumBy (Rec.kc k) y.done + _ = _
        congr 1
        unfold PC.kc
        by_cases e : k = y.ops.length
        · subst e; simp [PC.k?]
        · simp [PC.k?, e, show ¬ y.ops.length = k from fun h => e h.symm]
    | count | get | replace | exact => exact h1.elim
  | @cpFail i g c b m n max got hi hn hcas =>
    obtain ⟨h0, h1, s, h3, h4, h5⟩ := I.thr i _ hi
    cases c with
    | append x => exact I.go hi (p' := .md0 g (.append x)) ⟨h0, trivial⟩ rfl rfl rfl rfl
    | remove j => exact I.go hi (p' := .wr0 g (.remove j)) ⟨h0, trivial⟩ rfl rfl rfl rfl
    | insert j x => exact I.go hi (p' := .wr0 g (.insert j x)) ⟨h0, trivial⟩ rfl rfl rfl rfl
    | count | get | replace | exact => exact h1.elim
  | @rmGet i g j b k B v hi hB hv =>
    obtain ⟨h0, s, h2, h3, h4⟩ := I.thr i _ hi
    have hk := (List.getElem?_eq_some_iff.1 h3).1
    refine I.return hi (M := y.modify) (RecOk.changed h0 hk h3 ?_) rfl rfl rfl rfl
    have hb : b < y.data := by rw [← I.tlen]; exact (List.getElem?_eq_some_iff.1 h2).1
    obtain ⟨B', k', a1, a2, a3, a4⟩ := I.old b hb
    rw [(blk?_eq hB).2] at a1
    cases a1
    rw [h2] at a2
    cases a2
    show _ = Res.elem (content y.ops k)[j]?
    rw [a4.slot_eq hv]
  | @useFreed i b p hi hu hn =>
    exfalso
    have hT := I.thr i _ hi
    have nope : b ≤ y.data → b ∉ y.freed → False := fun h1 h2 => by
      unfold Sys.blk? at hn
      rw [if_neg h2] at hn
      have := List.getElem?_eq_none_iff.1 hn
      have := I.data
      omega
    have seen : ∀ g, Seen y g b → False := fun g s => nope s.le s.nf
    have dat : b = y.data → False := fun e => by subst e; exact seen ⟨0, 0⟩ (I.seen_data _)
    cases p with
    | rd1 => cases hu; exact seen _ hT.2
    | rd2 => cases hu; exact seen _ hT.2.1
    | md2 => cases hu; exact dat hT.2.2.1
    | rp3 | rx3 | rp4 => cases hu; exact dat hT.2.1
    | ap4 => cases hu; exact dat hT.1
    | ag => cases hu; exact seen _ hT.2.1
    | wr1 => cases hu; exact seen _ hT.2.2.1
    | rm => cases hu; exact seen _ hT.2.1
    | ap3 =>
      simp only [PC.uses?] at hu
      split at hu
      · cases hu; exact dat hT.2.1
      · cases hu
    | cp =>
      simp only [PC.uses?] at hu
      split at hu
      · cases hu; exact seen _ hT.2.2.1
      · cases hu
    | idle | rd0 | md0 | md1 | up | fi | af | wr0 | fault => cases hu
  | @useSlot i b j p B hi hu hs hB hn =>
    exfalso
    have hT := I.thr i _ hi
    have hB' := (blk?_eq hB).2
    have hn := List.getElem?_eq_none_iff.1 hn
    cases p with
    | rd2 => cases hu; cases hs; have := hT.2.2 _ hB'; omega
    | rp3 | rx3 => cases hu; cases hs; have := hT.2.2 _ hB'; omega
    | rp4 =>
      cases hu; cases hs
      have h1 := hT.2.2
      have h2 := (I.good hT.2.1 hB).le
      omega
    | rm => cases hu; cases hs; have := hT.2.2.2.2 _ hB'; omega
    | ap3 =>
      simp only [PC.uses?, PC.slot?] at hu hs
      split at hu
      · rename_i hlt
        rw [if_pos hlt] at hs
        cases hu; cases hs
        have := hT.2.2.2.2 _ hB'
        omega
      · cases hu
    | cp =>
      simp only [PC.uses?, PC.slot?] at hu hs
      split at hu
      · rename_i hlt
        rw [if_pos hlt] at hs
        cases hu; cases hs
        have := hT.2.2.2.2.1 _ hB' _ hlt
        omega
      · cases hu
    | rd1 | md2 | ap4 | ag | wr1 | idle | rd0 | md0 | md1 | up | fi | af | wr0 | fault => cases hs
  | @free j l hj _ hl => exact I.frees hj hl

theorem inv_init {chunk w n : Nat} (hc : 0 < chunk) (hw : n < w) : Inv chunk w (init chunk n : Sys α) := by
  have z : ∀ f : PC α → Nat, f .idle = 0 → sumBy f (List.replicate n .idle) = 0 := fun f h => by rw [sumBy_replicate, h, Nat.mul_zero]
  refine ⟨by simpa [init] using hw, rfl, rfl, rfl, fun j h => by simp [init] at h, ⟨_, rfl, ?_⟩, fun j h => absurd h (Nat.not_lt_zero _), (z _ rfl).symm, ?_, fun r h => by simp [init] at h, fun k => ?_⟩
  · show Good chunk ⟨0, List.replicate chunk none⟩ [] (sumBy PC.lag (List.replicate n .idle))
    rw [z _ rfl]
    refine ⟨by simp, fun j hj => ?_, rfl, ?_⟩
    · simp at hj
      simp [hj]
    · simp [maxCount]
  · intro i p hi
    have := List.mem_iff_getElem?.2 ⟨i, hi⟩
    rw [(List.mem_replicate.1 this).2]
    trivial
  · show sumBy (Rec.kc k) [] + sumBy (PC.kc k) (List.replicate n .idle) = _
    rw [z _ rfl]
    simp [init]

theorem Reach.inv {chunk w n : Nat} (hc : 0 < chunk) (hw : n < w) {y : Sys α} (h : Reach chunk w n y) : Inv chunk w y ∧ Calm w y := by
  induction h with
  | init =>
    refine ⟨inv_init hc hw, fun p hp m hm => ?_⟩
    have hp := (List.mem_replicate.1 hp).2
    rw [hp] at hm
    cases hm
  | step _ st c ih => exact ⟨ih.1.step hc ih.2 st, c⟩


/-! ## C89 -/

theorem sumBy_countP {β : Type} (q : β → Bool) (l : List β) : sumBy (fun b => if q b then 1 else 0) l = l.countP q := by
  induction l with
  | nil => rfl
  | cons b l ih =>
    rw [sumBy_cons, ih, List.countP_cons]
    omega

theorem Rec.Late.observed {ops : List (Call α)} {r : Rec α} {k : Nat} (h1 : r.t0 ≤ k) (h2 : k ≤ r.t1) (h : r.Late (content ops k)) (hl : r.lag = 0) : r.Observed ops := by
  refine ⟨k, h1, h2, ?_⟩
  unfold Rec.Late at h
  split at h
  · rename_i n e1 e2
    rw [e1, e2, spec, ← h, hl, Nat.add_zero]
  · rename_i i e1 e2
    rw [hl, Nat.add_zero] at h
    rw [e1, e2, spec, List.eraseIdx_of_length_le h, List.getElem?_eq_none h]
  · rename_i i x e1 e2
    rw [hl, Nat.add_zero] at h
    rw [e1, e2, spec, if_neg (by omega)]
  · exact h.elim

/-- **C89**, what is true: fewer than `w` threads, no `w` changes during one try of a call (`w = 2^32`; see `Reach`), any chunk size.  There is one sequence of changes, each made by one call that has returned or is in progress, such that every call that has returned
either made one of them while it was in progress and returned what it should on the list as it was just before; or made none, and what it returned is right for the list as it was at some moment while it was in progress.  That makes the calls linearisable.  It does
not hold (`C89_count_refuted`) for the calls that use the count, which are `count`, and `remove` and `insert` of an index that is refused, if at the moment they load it another call has stored an element but not yet counted it: they then miss as many elements.
An append may also return `SIZE_MAX`, without a change, if an allocation fails. -/
theorem C89_linearisable_partial (chunk w n : Nat) (hc : 0 < chunk) (hw : n < w) (y : Sys α) (h : Reach chunk w n y) :
    (∀ k, k < y.ops.length → y.done.countP (fun r => r.k = some k) + y.thrs.countP (fun p => p.k? = some k) = 1) ∧
    ∀ r ∈ y.done, r.t1 ≤ y.ops.length ∧
      (∀ k, r.k = some k → r.Changed y.ops k) ∧
      (r.k = none → r.lag = 0 → r.res ≠ .num none → r.Observed y.ops) ∧
      (r.k = none → r.Observed y.ops ∨ (∃ x, r.call = .append x ∧ r.res = .num none) ∨ ∃ k, r.t0 ≤ k ∧ k ≤ r.t1 ∧ r.Late (content y.ops k)) := by
  have I := (h.inv hc hw).1
  refine ⟨fun k hk => ?_, fun r hr => ?_⟩
  · have := I.uniq k
    rw [if_pos hk] at this
    rw [← sumBy_countP, ← sumBy_countP]
    refine Eq.trans ?_ this
    congr 1
    · exact sumBy_congr fun r _ => by simp [Rec.kc]
    · exact sumBy_congr fun r _ => by simp [PC.kc]
  · obtain ⟨h1, h2⟩ := I.recs r hr
    refine ⟨h1, fun k hk => ?_, fun hk hl hres => ?_, fun hk => ?_⟩
    · rw [hk] at h2
      exact h2
    · rw [hk] at h2
      rcases h2 with h2 | ⟨x, -, h2⟩ | ⟨k, a, b, d⟩
      · exact h2
      · exact absurd h2 hres
      · exact d.observed a b hl
    · rw [hk] at h2
      exact h2

/-- **C89**, memory: no call uses data that is freed, or a slot that does not exist. -/
theorem C89_memory (chunk w n : Nat) (hc : 0 < chunk) (hw : n < w) (y : Sys α) (h : Reach chunk w n y) : .fault ∉ y.thrs := by
  intro hf
  obtain ⟨i, hi⟩ := List.mem_iff_getElem?.1 hf
  exact ((h.inv hc hw).1.thr i _ hi)

/-- **C89**, afterwards: when no call is in progress, the map holds the list after all the changes, all of it is counted, and there is room for it. -/
theorem C89_settled (chunk w n : Nat) (hc : 0 < chunk) (hw : n < w) (y : Sys α) (h : Reach chunk w n y) (hi : ∀ p ∈ y.thrs, p = .idle) :
    y.modify = 0 ∧ ∃ B, y.blk? y.data = some B ∧ B.count = (content y.ops y.ops.length).length ∧ B.slots.length = maxCount chunk B.count ∧ B.count ≤ B.slots.length ∧
      ∀ j, j < B.slots.length → B.slots[j]? = some (content y.ops y.ops.length)[j]? := by
  have I := (h.inv hc hw).1
  obtain ⟨B, h1, G⟩ := I.now
  have hl : sumBy PC.lag y.thrs = 0 := sumBy_eq_zero _ fun p hp => by rw [hi p hp]; rfl
  have hh : sumBy PC.hold y.thrs = 0 := sumBy_eq_zero _ fun p hp => by rw [hi p hp]; rfl
  have c := G.count
  have l := G.le
  rw [hl, Nat.add_zero] at c
  refine ⟨I.modi.trans hh, B, ?_, c, G.max.symm, by omega, G.slot⟩
  unfold Sys.blk?
  rw [if_neg fun h => Nat.lt_irrefl _ (I.freed _ h)]
  exact h1

/-- Writes the state out. -/
local macro "nf" h:ident : tactic => `(tactic| simp [Sys.go, Sys.ret, Sys.put, Sys.publish, Sys.swapped, Sys.active, PC.g?, Sys.lag, PC.lag, init, begin, counted, maxCount, Call.build, Call.resize, Call.refused, retry,
  List.replicate] at $h:ident)

/-- **C89** does not hold for the count: thread 1's append returns index 1, its next call says there is 1 element, and removing index 1 is refused; thread 0's append has stored its element and not counted it. -/
theorem C89_count_refuted : ∃ (y : Sys Nat) (r1 r2 r3 : Rec Nat), Reach 2 (2 ^ 32) 2 y ∧ y.done = [r1, r2, r3] ∧
    r1.call = .append 20 ∧ r1.res = .num (some 1) ∧ r2.call = .count ∧ r2.res = .num (some 1) ∧ ¬ r2.Observed y.ops ∧ r3.call = .remove 1 ∧ r3.res = .elem none ∧ ¬ r3.Observed y.ops := by
  have c0 : ∀ {y : Sys Nat}, y.mutate < 2 ^ 32 → Calm (2 ^ 32) y := fun h p _ m _ => by omega
  have h := Reach.init (α := Nat) (chunk := 2) (w := 2 ^ 32) (n := 2)
  have h := h.step (Step.start (i := 0) (.append 10) rfl) (c0 (by decide))
  nf h
  have h := h.step (Step.mdInc (i := 0) rfl) (c0 (by decide))
  nf h
  have h := h.step (Step.mdPtr (i := 0) rfl) (c0 (by decide))
  nf h
  have h := h.step (Step.mdCount (i := 0) rfl rfl) (c0 (by decide))
  nf h
  have h := h.step (Step.apStore (i := 0) rfl (by decide) rfl rfl) (c0 (by decide))
  nf h
  have h := h.step (Step.start (i := 1) (.append 20) rfl) (c0 (by decide))
  nf h
  have h := h.step (Step.mdInc (i := 1) rfl) (c0 (by decide))
  nf h
  have h := h.step (Step.mdPtr (i := 1) rfl) (c0 (by decide))
  nf h
  have h := h.step (Step.mdCount (i := 1) rfl rfl) (c0 (by decide))
  nf h
  have h := h.step (Step.apNext (i := 1) rfl (by decide) rfl rfl) (c0 (by decide))
  nf h
  have h := h.step (Step.apStore (i := 1) rfl (by decide) rfl rfl) (c0 (by decide))
  nf h
  have h := h.step (Step.apCount (i := 1) rfl rfl) (c0 (by decide))
  nf h
  have h := h.step (Step.upInc (i := 1) rfl) (c0 (by decide))
  nf h
  have h := h.step (Step.fiDec (i := 1) rfl) (c0 (by decide))
  nf h
  have h := h.step (Step.start (i := 1) .count rfl) (c0 (by decide))
  nf h
  have h := h.step (Step.rdPtr (i := 1) rfl) (c0 (by decide))
  nf h
  have h := h.step (Step.rdCount (i := 1) rfl rfl) (c0 (by decide))
  nf h
  have h := h.step (Step.start (i := 1) (.remove 1) rfl) (c0 (by decide))
  nf h
  have h := h.step (Step.wrPtr (i := 1) rfl) (c0 (by decide))
  nf h
  have h := h.step (Step.wrRefuse (i := 1) rfl rfl (by decide)) (c0 (by decide))
  nf h
  refine ⟨_, ⟨.append 20, .num (some 1), 1, 2, some 1, 0⟩, ⟨.count, .num (some 1), 2, 2, none, 1⟩, ⟨.remove 1, .elem none, 2, 2, none, 1⟩, h, rfl, rfl, rfl, rfl, rfl, ?_, rfl, rfl, ?_⟩
  · rintro ⟨k, h1, h2, h3⟩
    have e : k = 2 := Nat.le_antisymm h2 h1
    subst e
    exact absurd h3 (by decide)
  · rintro ⟨k, h1, h2, h3⟩
    have e : k = 2 := Nat.le_antisymm h2 h1
    subst e
    exact absurd h3 (by decide)

/-- Thread 0 appends 10, 20 and 30, growing the map; it begins to remove index 0 and copies; thread 1 replaces index 1 by 25 meanwhile, so the exchange fails; the second try succeeds.  Then the first and second data are freed, and nobody is in a call. -/
example : ∃ y : Sys Nat, Reach 2 (2 ^ 32) 2 y ∧ y.ops = [.append 10, .append 20, .append 30, .replace 1 25, .remove 0] ∧ y.freed = [1, 0] ∧ y.thrs = [.idle, .idle] ∧
    y.done.map (fun r => (r.res, r.k)) = [(.num (some 0), some 0), (.num (some 1), some 1), (.num (some 2), some 2), (.elem (some 20), some 3), (.elem (some 10), some 4)] ∧
    content y.ops y.ops.length = [25, 30] := by
  have c0 : ∀ {y : Sys Nat}, y.mutate < 2 ^ 32 → Calm (2 ^ 32) y := fun h p _ m _ => by omega
  have h := Reach.init (α := Nat) (chunk := 2) (w := 2 ^ 32) (n := 2)
  have h := h.step (Step.start (i := 0) (.append 10) rfl) (c0 (by decide))
  nf h
  have h := h.step (Step.mdInc (i := 0) rfl) (c0 (by decide))
  nf h
  have h := h.step (Step.mdPtr (i := 0) rfl) (c0 (by decide))
  nf h
  have h := h.step (Step.mdCount (i := 0) rfl rfl) (c0 (by decide))
  nf h
  have h := h.step (Step.apStore (i := 0) rfl (by decide) rfl rfl) (c0 (by decide))
  nf h
  have h := h.step (Step.apCount (i := 0) rfl rfl) (c0 (by decide))
  nf h
  have h := h.step (Step.upInc (i := 0) rfl) (c0 (by decide))
  nf h
  have h := h.step (Step.fiDec (i := 0) rfl) (c0 (by decide))
  nf h
  have h := h.step (Step.start (i := 0) (.append 20) rfl) (c0 (by decide))
  nf h
  have h := h.step (Step.mdInc (i := 0) rfl) (c0 (by decide))
  nf h
  have h := h.step (Step.mdPtr (i := 0) rfl) (c0 (by decide))
  nf h
  have h := h.step (Step.mdCount (i := 0) rfl rfl) (c0 (by decide))
  nf h
  have h := h.step (Step.apStore (i := 0) rfl (by decide) rfl rfl) (c0 (by decide))
  nf h
  have h := h.step (Step.apCount (i := 0) rfl rfl) (c0 (by decide))
  nf h
  have h := h.step (Step.upInc (i := 0) rfl) (c0 (by decide))
  nf h
  have h := h.step (Step.fiDec (i := 0) rfl) (c0 (by decide))
  nf h
  have h := h.step (Step.start (i := 0) (.append 30) rfl) (c0 (by decide))
  nf h
  have h := h.step (Step.mdInc (i := 0) rfl) (c0 (by decide))
  nf h
  have h := h.step (Step.mdPtr (i := 0) rfl) (c0 (by decide))
  nf h
  have h := h.step (Step.mdCount (i := 0) rfl rfl) (c0 (by decide))
  nf h
  have h := h.step (Step.apFull (i := 0) rfl (by decide)) (c0 (by decide))
  nf h
  have h := h.step (Step.afDec (i := 0) rfl) (c0 (by decide))
  nf h
  have h := h.step (Step.agSame (i := 0) rfl rfl rfl) (c0 (by decide))
  nf h
  have h := h.step (Step.cpLoad (i := 0) rfl (by decide) rfl rfl) (c0 (by decide))
  nf h
  have h := h.step (Step.cpLoad (i := 0) rfl (by decide) rfl rfl) (c0 (by decide))
  nf h
  have h := h.step (Step.cpCas (i := 0) rfl (by decide) (by decide)) (c0 (by decide))
  nf h
  have h := h.step (Step.start (i := 0) (.remove 0) rfl) (c0 (by decide))
  nf h
  have h := h.step (Step.wrPtr (i := 0) rfl) (c0 (by decide))
  nf h
  have h := h.step (Step.wrCopy (i := 0) rfl rfl (by decide)) (c0 (by decide))
  nf h
  have h := h.step (Step.cpLoad (i := 0) rfl (by decide) rfl rfl) (c0 (by decide))
  nf h
  have h := h.step (Step.start (i := 1) (.replace 1 25) rfl) (c0 (by decide))
  nf h
  have h := h.step (Step.mdInc (i := 1) rfl) (c0 (by decide))
  nf h
  have h := h.step (Step.mdPtr (i := 1) rfl) (c0 (by decide))
  nf h
  have h := h.step (Step.mdCount (i := 1) rfl rfl) (c0 (by decide))
  nf h
  have h := h.step (Step.rpSet (i := 1) rfl rfl rfl) (c0 (by decide))
  nf h
  have h := h.step (Step.rpXchg (i := 1) rfl rfl rfl) (c0 (by decide))
  nf h
  have h := h.step (Step.upInc (i := 1) rfl) (c0 (by decide))
  nf h
  have h := h.step (Step.fiDec (i := 1) rfl) (c0 (by decide))
  nf h
  have h := h.step (Step.cpLoad (i := 0) rfl (by decide) rfl rfl) (c0 (by decide))
  nf h
  have h := h.step (Step.cpFail (i := 0) rfl (by decide) (by decide)) (c0 (by decide))
  nf h
  have h := h.step (Step.wrPtr (i := 0) rfl) (c0 (by decide))
  nf h
  have h := h.step (Step.wrCopy (i := 0) rfl rfl (by decide)) (c0 (by decide))
  nf h
  have h := h.step (Step.cpLoad (i := 0) rfl (by decide) rfl rfl) (c0 (by decide))
  nf h
  have h := h.step (Step.cpLoad (i := 0) rfl (by decide) rfl rfl) (c0 (by decide))
  nf h
  have h := h.step (Step.cpCas (i := 0) rfl (by decide) (by decide)) (c0 (by decide))
  nf h
  have h := h.step (Step.free (j := 0) rfl (by decide) (by decide)) (c0 (by decide))
  nf h
  have h := h.step (Step.rmGet (i := 0) rfl rfl rfl) (c0 (by decide))
  nf h
  have h := h.step (Step.free (j := 1) rfl (by decide) (by decide)) (c0 (by decide))
  nf h
  exact ⟨_, h, rfl, rfl, rfl, rfl, rfl⟩

#print axioms C89_linearisable_partial
#print axioms C89_memory
#print axioms C89_settled
#print axioms C89_count_refuted
end Verif.ConcIndexMap
