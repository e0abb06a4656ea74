import Verif.ConcIndexMap
import Verif.IndexMapProps
/-!
# The concurrent index map: what holds in every reachable state
-/
namespace Verif.ConcIndexMap
open IndexMap (maxCount le_maxCount maxCount_succ)
open Conc
variable {α : Type} [DecidableEq α]

/-! ## The list -/

theorem content_append {ops e : List (Call α)} {k : Nat} (h : k ≤ ops.length) : content (ops ++ e) k = content ops k := by
  unfold content
  rw [List.take_append_of_le_length h]

theorem content_snoc (ops : List (Call α)) (c : Call α) : content (ops ++ [c]) (ops.length + 1) = (spec (content ops ops.length) c).1 := by
  unfold content
  rw [List.take_of_length_le (by simp), List.take_length, List.foldl_append]
  rfl

/-- The list now. -/
def Sys.cur (y : Sys α) : List α := content y.ops y.ops.length

/-! ## What the threads do -/

/-- Is `modify` incremented for the thread? -/
def PC.hold : PC α → Nat
  | .md1 _ _ | .md2 _ _ _ _ | .rp3 _ _ _ _ | .rp4 _ _ _ _ | .rx3 _ _ _ _ _ | .ap3 _ _ _ _ _ _ | .ap4 _ _ _ _ _ | .up _ _ _ _ | .fi _ _ _ _ | .af _ _ _ _ _ _ => 1
  | _ => 0

/-- Has the thread changed the data without having incremented `mutate`? -/
def PC.dirty : PC α → Nat
  | .ap4 _ _ _ _ _ | .up _ _ _ _ => 1
  | _ => 0

/-- The change the thread has made. -/
def PC.k? : PC α → Option Nat
  | .ap4 _ _ _ _ k | .up _ _ _ k | .rm _ _ _ k => some k
  | .fi _ _ _ k => k
  | _ => none

def PC.kc (k : Nat) (p : PC α) : Nat := if p.k? = some k then 1 else 0
def Rec.kc (k : Nat) (r : Rec α) : Nat := if r.k = some k then 1 else 0

def Call.isMod : Call α → Prop
  | .replace _ _ | .exact _ _ _ | .append _ => True
  | _ => False

def Call.isWr : Call α → Prop
  | .remove _ | .insert _ _ => True
  | _ => False

def Call.isCp : Call α → Prop
  | .remove _ | .insert _ _ | .append _ => True
  | _ => False

/-! ## The invariant -/

/-- The data holds the list `l`, `lag` elements of which are not yet counted. -/
structure Good (chunk : Nat) (B : Blk α) (l : List α) (lag : Nat) : Prop where
  le : l.length ≤ B.slots.length
  slot : ∀ j, j < B.slots.length → B.slots[j]? = some l[j]?
  count : B.count + lag = l.length
  max : maxCount chunk B.count = B.slots.length

/-- The thread may use the data: it will not be freed, and it was in the map at some moment during the call. -/
structure Seen (y : Sys α) (g : G) (b : Nat) : Prop where
  le : b ≤ y.data
  nf : b ∉ y.freed
  sec : ∀ l, y.retired[b]? = some l → g.s ∈ l
  till : ∀ k, y.till[b]? = some k → g.t0 ≤ k

/-- The data is in the map, and no change was made or begun since `mutate` was `m`. -/
def Quiet (y : Sys α) (b m : Nat) : Prop := b = y.data ∧ y.mutate = m ∧ sumBy PC.dirty y.thrs = 0

/-- The elements that are copied. -/
def Call.kept (c : Call α) (l : List α) : List α := match c with
  | .remove i => l.eraseIdx i
  | _ => l

/-- The copy is right so far. -/
def CopyOk (chunk : Nat) (c : Call α) (l : List α) (n max : Nat) (got : List (Option α)) : Prop :=
  n = (c.kept l).length ∧ got.length ≤ n ∧ (∀ j, j < got.length → got[j]? = some (c.kept l)[j]?) ∧ max = maxCount chunk (spec l c).1.length ∧ (c.isWr → c.index < l.length)

/-- The thread has made change `k`, and returns `r`. -/
def Com (y : Sys α) (g : G) (c : Call α) (r : Res α) (k : Nat) : Prop := g.t0 ≤ k ∧ y.ops[k]? = some c ∧ r = (spec (content y.ops k) c).2

/-- What a thread knows. -/
def TInv (chunk : Nat) (y : Sys α) : PC α → Prop
  | .idle => True
  | .fault => False
  | .rd0 g _ => g.t0 ≤ y.ops.length
  | .rd1 g _ b => g.t0 ≤ y.ops.length ∧ Seen y g b
  | .rd2 g i b => g.t0 ≤ y.ops.length ∧ Seen y g b ∧ ∀ B, y.blks[b]? = some B → i < B.slots.length
  | .md0 g c | .md1 g c => g.t0 ≤ y.ops.length ∧ c.isMod
  | .md2 g c b m => g.t0 ≤ y.ops.length ∧ c.isMod ∧ b = y.data ∧ m ≤ y.mutate
  | .rp3 g i _ b | .rx3 g i _ _ b => g.t0 ≤ y.ops.length ∧ b = y.data ∧ ∀ B, y.blks[b]? = some B → i < B.slots.length
  | .rp4 g i _ b => g.t0 ≤ y.ops.length ∧ b = y.data ∧ i < y.cur.length
  | .ap3 g _ b m idx max => g.t0 ≤ y.ops.length ∧ b = y.data ∧ m ≤ y.mutate ∧ idx ≤ y.cur.length ∧ ∀ B, y.blks[b]? = some B → max = B.slots.length
  | .ap4 g x b idx k => b = y.data ∧ Com y g (.append x) (.num (some idx)) k
  | .up g c r k => Com y g c r k
  | .fi g c r (some k) => Com y g c r k
  | .fi g c r none => ∃ k, g.t0 ≤ k ∧ k ≤ y.ops.length ∧ spec (content y.ops k) c = (content y.ops k, r)
  | .af g _ b m idx max => g.t0 ≤ y.ops.length ∧ b = y.data ∧ m ≤ y.mutate ∧ idx = max ∧ ∀ B, y.blks[b]? = some B → max = B.slots.length
  | .ag g _ b m idx max => g.t0 ≤ y.ops.length ∧ Seen y g b ∧ m ≤ y.mutate ∧ idx = max ∧ ∀ B, y.blks[b]? = some B → max = B.slots.length
  | .wr0 g c => g.t0 ≤ y.ops.length ∧ c.isWr
  | .wr1 g c b m => g.t0 ≤ y.ops.length ∧ c.isWr ∧ Seen y g b ∧ m ≤ y.mutate
  | .cp g c b m n max got => g.t0 ≤ y.ops.length ∧ c.isCp ∧ Seen y g b ∧ m ≤ y.mutate ∧ (∀ B, y.blks[b]? = some B → ∀ j, j < n → c.from j < B.slots.length) ∧
      (Quiet y b m → CopyOk chunk c y.cur n max got)
  | .rm g i b k => g.t0 ≤ k ∧ Seen y g b ∧ y.till[b]? = some k ∧ y.ops[k]? = some (.remove i) ∧ ∀ B, y.blks[b]? = some B → i < B.slots.length

/-- A call that has returned. -/
def RecOk (ops : List (Call α)) (r : Rec α) : Prop := r.t1 ≤ ops.length ∧ match r.k with
  | some k => r.Changed ops k
  | none => r.Observed ops ∨ (∃ x, r.call = .append x ∧ r.res = .num none) ∨ ∃ k, r.t0 ≤ k ∧ k ≤ r.t1 ∧ r.Late (content ops k)

structure Inv (chunk w : Nat) (y : Sys α) : Prop where
  len : y.thrs.length < w
  data : y.data + 1 = y.blks.length
  ret : y.retired.length = y.data
  tlen : y.till.length = y.data
  freed : ∀ j ∈ y.freed, j < y.data
  now : ∃ B, y.blks[y.data]? = some B ∧ Good chunk B y.cur (sumBy PC.lag y.thrs)
  old : ∀ j, j < y.data → ∃ B k, y.blks[j]? = some B ∧ y.till[j]? = some k ∧ k ≤ y.ops.length ∧ Good chunk B (content y.ops k) 0
  modi : y.modify = sumBy PC.hold y.thrs
  thr : ∀ (i : Nat) (p : PC α), y.thrs[i]? = some p → TInv chunk y p
  recs : ∀ r ∈ y.done, RecOk y.ops r
  uniq : ∀ k, sumBy (Rec.kc k) y.done + sumBy (PC.kc k) y.thrs = if k < y.ops.length then 1 else 0

/-! ## What a thread knows stays true -/

structure Mono (y y' : Sys α) (p : PC α) : Prop where
  ops : ∃ e, y'.ops = y.ops ++ e
  data : y.data ≤ y'.data
  hold : p.hold = 1 → y'.data = y.data ∧ y.cur.length ≤ y'.cur.length
  blks : ∀ (b : Nat) B', b ≤ y.data → y'.blks[b]? = some B' → ∃ B, y.blks[b]? = some B ∧ B.slots.length = B'.slots.length
  mutt : y.mutate ≤ y'.mutate
  seen : ∀ g b, p.g? = some g → Seen y g b → Seen y' g b
  quiet : ∀ b m, m ≤ y.mutate → b ≤ y.data → Quiet y' b m → Quiet y b m ∧ y'.cur = y.cur
  till : ∀ b k : Nat, y.till[b]? = some k → y'.till[b]? = some k

theorem Com.mono {y y' : Sys α} (h : ∃ e, y'.ops = y.ops ++ e) {g : G} {c : Call α} {r : Res α} {k : Nat} (hc : Com y g c r k) : Com y' g c r k := by
  obtain ⟨e, he⟩ := h
  obtain ⟨h1, h2, h3⟩ := hc
  have hk := (List.getElem?_eq_some_iff.1 h2).1
  refine ⟨h1, ?_, ?_⟩
  · rw [he, List.getElem?_append_left hk, h2]
  · rw [he, content_append (Nat.le_of_lt hk), h3]

theorem Mono.opsLen {y y' : Sys α} {p : PC α} (M : Mono y y' p) {t : Nat} (h : t ≤ y.ops.length) : t ≤ y'.ops.length := by
  obtain ⟨e, he⟩ := M.ops
  rw [he, List.length_append]
  omega

theorem Mono.all {y y' : Sys α} {p : PC α} (M : Mono y y' p) {b : Nat} (hb : b ≤ y.data) {P : Nat → Prop} (h : ∀ B, y.blks[b]? = some B → P B.slots.length) :
    ∀ B, y'.blks[b]? = some B → P B.slots.length := by
  intro B' h'
  obtain ⟨B, h1, h2⟩ := M.blks b B' hb h'
  rw [← h2]
  exact h B h1

theorem TInv.mono {chunk : Nat} {y y' : Sys α} {p : PC α} (h : TInv chunk y p) (M : Mono y y' p) : TInv chunk y' p := by
  cases p with
  | idle => trivial
  | fault => exact h
  | rd0 g c => exact M.opsLen h
  | rd1 g c b => exact ⟨M.opsLen h.1, M.seen g b rfl h.2⟩
  | rd2 g i b => exact ⟨M.opsLen h.1, M.seen g b rfl h.2.1, M.all (P := fun n => i < n) h.2.1.le h.2.2⟩
  | md0 g c => exact ⟨M.opsLen h.1, h.2⟩
  | md1 g c => exact ⟨M.opsLen h.1, h.2⟩
  | md2 g c b m =>
    have hd := (M.hold rfl).1
    exact ⟨M.opsLen h.1, h.2.1, h.2.2.1.trans hd.symm, Nat.le_trans h.2.2.2 M.mutt⟩
  | rp3 g i x b | rx3 g i x old b =>
    have hd := (M.hold rfl).1
    exact ⟨M.opsLen h.1, h.2.1.trans hd.symm, M.all (P := fun n => i < n) (Nat.le_of_eq h.2.1) h.2.2⟩
  | rp4 g i x b =>
    have hd := M.hold rfl
    exact ⟨M.opsLen h.1, h.2.1.trans hd.1.symm, Nat.lt_of_lt_of_le h.2.2 hd.2⟩
  | ap3 g x b m idx max =>
    have hd := M.hold rfl
    exact ⟨M.opsLen h.1, h.2.1.trans hd.1.symm, Nat.le_trans h.2.2.1 M.mutt, Nat.le_trans h.2.2.2.1 hd.2, M.all (P := fun n => max = n) (Nat.le_of_eq h.2.1) h.2.2.2.2⟩
  | ap4 g x b idx k =>
    have hd := M.hold rfl
    exact ⟨h.1.trans hd.1.symm, h.2.mono M.ops⟩
  | up g c r k => exact Com.mono M.ops h
  | fi g c r k =>
    cases k with
    | some k => exact Com.mono M.ops h
    | none =>
      obtain ⟨k, h1, h2, h3⟩ := h
      refine ⟨k, h1, M.opsLen h2, ?_⟩
      obtain ⟨e, he⟩ := M.ops
      rw [he, content_append h2, h3]
  | af g x b m idx max =>
    have hd := M.hold rfl
    exact ⟨M.opsLen h.1, h.2.1.trans hd.1.symm, Nat.le_trans h.2.2.1 M.mutt, h.2.2.2.1, M.all (P := fun n => max = n) (Nat.le_of_eq h.2.1) h.2.2.2.2⟩
  | ag g x b m idx max =>
    exact ⟨M.opsLen h.1, M.seen g b rfl h.2.1, Nat.le_trans h.2.2.1 M.mutt, h.2.2.2.1, M.all (P := fun n => max = n) h.2.1.le h.2.2.2.2⟩
  | wr0 g c => exact ⟨M.opsLen h.1, h.2⟩
  | wr1 g c b m => exact ⟨M.opsLen h.1, h.2.1, M.seen g b rfl h.2.2.1, Nat.le_trans h.2.2.2 M.mutt⟩
  | cp g c b m n max got =>
    obtain ⟨h1, h2, h3, h4, h5, h6⟩ := h
    refine ⟨M.opsLen h1, h2, M.seen g b rfl h3, Nat.le_trans h4 M.mutt, M.all (P := fun L => ∀ j, j < n → c.from j < L) h3.le h5, fun q => ?_⟩
    obtain ⟨q1, q2⟩ := M.quiet b m h4 h3.le q
    rw [q2]
    exact h6 q1
  | rm g i b k =>
    obtain ⟨h1, h2, h3, h4, h5⟩ := h
    refine ⟨h1, M.seen g b rfl h2, M.till b k h3, ?_, M.all (P := fun L => i < L) h2.le h5⟩
    obtain ⟨e, he⟩ := M.ops
    rw [he, List.getElem?_append_left (List.getElem?_eq_some_iff.1 h4).1, h4]

theorem RecOk.mono {ops e : List (Call α)} {r : Rec α} (h : RecOk ops r) : RecOk (ops ++ e) r := by
  obtain ⟨h1, h2⟩ := h
  refine ⟨by rw [List.length_append]; omega, ?_⟩
  cases hk : r.k with
  | some k =>
    rw [hk] at h2
    obtain ⟨a, b, c, d⟩ := h2
    exact ⟨a, b, by rw [List.getElem?_append_left (by omega), c], by rw [content_append (by omega), d]⟩
  | none =>
    rw [hk] at h2
    rcases h2 with ⟨k, a, b, c⟩ | h2 | ⟨k, a, b, c⟩
    · exact .inl ⟨k, a, b, by rw [content_append (by omega), c]⟩
    · exact .inr (.inl h2)
    · exact .inr (.inr ⟨k, a, b, by rw [content_append (by omega)]; exact c⟩)

theorem thr_set {l : List (PC α)} {i j : Nat} {t t' : PC α} (h : (l.set i t)[j]? = some t') : (j = i ∧ t' = t) ∨ (j ≠ i ∧ l[j]? = some t') := by
  by_cases e : j = i
  · subst e
    rw [List.getElem?_set] at h
    simp at h
    exact .inl ⟨rfl, h.2.symm⟩
  · rw [List.getElem?_set_ne (fun h => e h.symm)] at h
    exact .inr ⟨e, h⟩

theorem mem_active {y : Sys α} {i : Nat} {p : PC α} {g : G} (h : y.thrs[i]? = some p) (hg : p.g? = some g) : g.s ∈ y.active := by
  unfold Sys.active
  rw [List.mem_filterMap]
  exact ⟨p, List.mem_iff_getElem?.2 ⟨i, h⟩, by rw [hg]; rfl⟩

theorem Inv.seen_data {chunk w : Nat} {y : Sys α} (I : Inv chunk w y) (g : G) : Seen y g y.data := by
  refine ⟨Nat.le_refl _, fun h => Nat.lt_irrefl _ (I.freed _ h), fun l h => ?_, fun k h => ?_⟩
  · have := (List.getElem?_eq_some_iff.1 h).1
    rw [I.ret] at this; omega
  · have := (List.getElem?_eq_some_iff.1 h).1
    rw [I.tlen] at this; omega

/-- The data a thread uses held the list at some moment during the call. -/
theorem Inv.seen {chunk w : Nat} {y : Sys α} (I : Inv chunk w y) {g : G} {b : Nat} {B : Blk α} (ht : g.t0 ≤ y.ops.length) (s : Seen y g b) (hB : y.blks[b]? = some B) :
    ∃ k, g.t0 ≤ k ∧ k ≤ y.ops.length ∧ Good chunk B (content y.ops k) (y.lag b) := by
  unfold Sys.lag
  by_cases h : b = y.data
  · subst h
    obtain ⟨B', h1, h2⟩ := I.now
    rw [hB] at h1
    cases h1
    exact ⟨y.ops.length, ht, Nat.le_refl _, by rw [if_pos rfl]; exact h2⟩
  · have hb := s.le
    obtain ⟨B', k, h1, h2, h3, h4⟩ := I.old b (by omega)
    rw [hB] at h1
    cases h1
    exact ⟨k, s.till k h2, h3, by rw [if_neg h]; exact h4⟩

theorem blk?_eq {y : Sys α} {b : Nat} {B : Blk α} (h : y.blk? b = some B) : b ∉ y.freed ∧ y.blks[b]? = some B := by
  unfold Sys.blk? at h
  split at h
  · cases h
  · exact ⟨by assumption, h⟩

theorem Inv.good {chunk w : Nat} {y : Sys α} (I : Inv chunk w y) {b : Nat} {B : Blk α} (hb : b = y.data) (h : y.blk? b = some B) : Good chunk B y.cur (sumBy PC.lag y.thrs) := by
  subst hb
  obtain ⟨B', h1, h2⟩ := I.now
  rw [(blk?_eq h).2] at h1
  cases h1
  exact h2

/-! ## Steps -/

/-- A thread moves; nothing it or another thread knows changes. -/
theorem Inv.move {chunk w : Nat} {y : Sys α} (I : Inv chunk w y) {i : Nat} {p p' : PC α} (hi : y.thrs[i]? = some p) (ht : TInv chunk y p') (hl : p'.lag = p.lag) (hd : p'.dirty = p.dirty)
    {M S : Nat} (hm : M + p.hold = y.modify + p'.hold) {D : List (Rec α)} (hD : ∀ r ∈ D, RecOk y.ops r) (hk : ∀ k, sumBy (Rec.kc k) D + p'.kc k = sumBy (Rec.kc k) y.done + p.kc k) :
    Inv chunk w { y with modify := M, thrs := y.thrs.set i p', secs := S, done := D } := by
  have hL : sumBy PC.lag (y.thrs.set i p') = sumBy PC.lag y.thrs := by have := sumBy_set PC.lag hi p'; omega
  have hDi : sumBy PC.dirty (y.thrs.set i p') = sumBy PC.dirty y.thrs := by have := sumBy_set PC.dirty hi p'; omega
  have mono : ∀ q : PC α, Mono y { y with modify := M, thrs := y.thrs.set i p', secs := S, done := D } q := fun q =>
    ⟨⟨[], by simp⟩, Nat.le_refl _, fun _ => ⟨rfl, Nat.le_refl _⟩, fun b B' _ h => ⟨B', h, rfl⟩, Nat.le_refl _, fun g b _ s => ⟨s.le, s.nf, s.sec, s.till⟩,
      fun b m _ _ q => ⟨⟨q.1, q.2.1, hDi ▸ q.2.2⟩, rfl⟩, fun _ _ h => h⟩
  refine ⟨by simpa using I.len, I.data, I.ret, I.tlen, I.freed, ?_, I.old, ?_, ?_, hD, ?_⟩
  · obtain ⟨B, h1, h2⟩ := I.now
    exact ⟨B, h1, by show Good chunk B y.cur (sumBy PC.lag (y.thrs.set i p')); rw [hL]; exact h2⟩
  · show M = sumBy PC.hold (y.thrs.set i p')
    have := sumBy_set PC.hold hi p'
    have := I.modi
    omega
  · intro j q hj
    rcases thr_set hj with ⟨-, rfl⟩ | ⟨-, hj⟩
    · exact ht.mono (mono _)
    · exact (I.thr j q hj).mono (mono _)
  · intro k
    show sumBy (Rec.kc k) D + sumBy (PC.kc k) (y.thrs.set i p') = _
    have h1 := sumBy_set (PC.kc k) hi p'
    have h2 := I.uniq k
    have h3 := hk k
    show _ = if k < y.ops.length then 1 else 0
    omega

theorem Inv.go {chunk w : Nat} {y : Sys α} (I : Inv chunk w y) {i : Nat} {p p' : PC α} (hi : y.thrs[i]? = some p) (ht : TInv chunk y p') (hl : p'.lag = p.lag) (hd : p'.dirty = p.dirty)
    (hh : p'.hold = p.hold) (hk : p'.k? = p.k?) : Inv chunk w (y.go i p') :=
  I.move hi ht hl hd (M := y.modify) (S := y.secs) (D := y.done) (by omega) I.recs fun k => by unfold PC.kc; rw [hk]

theorem Inv.return {chunk w : Nat} {y : Sys α} (I : Inv chunk w y) {i : Nat} {p : PC α} (hi : y.thrs[i]? = some p) {g : G} {c : Call α} {r : Res α} {k : Option Nat} {lag : Nat}
    (hr : RecOk y.ops ⟨c, r, g.t0, y.ops.length, k, lag⟩) (hl : p.lag = 0) (hd : p.dirty = 0) {M : Nat} (hm : M + p.hold = y.modify) (hk : p.k? = k) :
    Inv chunk w { y with modify := M, thrs := y.thrs.set i .idle, done := y.done ++ [⟨c, r, g.t0, y.ops.length, k, lag⟩] } := by
  refine I.move hi (p' := .idle) trivial hl.symm hd.symm (M := M) (S := y.secs) (by show _ = _ + 0; omega) ?_ ?_
  · intro r' hr'
    rw [List.mem_append, List.mem_singleton] at hr'
    rcases hr' with hr' | rfl
    · exact I.recs r' hr'
    · exact hr
  · intro k'
    rw [sumBy_append, sumBy_cons, sumBy_nil]
    unfold Rec.kc PC.kc
    rw [hk]
    simp [PC.k?]

/-- A slot of the data is stored to, and a change made. -/
theorem Inv.store {chunk w : Nat} {y : Sys α} (I : Inv chunk w y) {i : Nat} {p p' : PC α} {b j : Nat} {x : α} {B : Blk α} {c : Call α} (hi : y.thrs[i]? = some p) (hb : b = y.data)
    (hB : y.blk? b = some B) (hG : Good chunk { B with slots := B.slots.set j (some x) } (spec y.cur c).1 (sumBy PC.lag y.thrs + p'.lag)) (hle : y.cur.length ≤ (spec y.cur c).1.length)
    (hp : p.hold = 1 ∧ p.dirty = 0 ∧ p.lag = 0 ∧ p.k? = none) (hp' : p'.hold = 1 ∧ p'.dirty = 1 ∧ p'.k? = some y.ops.length) (ht : TInv chunk ((y.put b j x B c).go i p') p') :
    Inv chunk w ((y.put b j x B c).go i p') := by
  subst hb
  have hB := (blk?_eq hB).2
  have hlt := (List.getElem?_eq_some_iff.1 hB).1
  have hcur : ((y.put y.data j x B c).go i p').cur = (spec y.cur c).1 := by
    show content (y.ops ++ [c]) (y.ops ++ [c]).length = _
    rw [List.length_append]
    exact content_snoc _ _
  have hDi : sumBy PC.dirty (y.thrs.set i p') ≠ 0 := by
    have := sumBy_set PC.dirty hi p'
    omega
  have mono : ∀ q : PC α, Mono y ((y.put y.data j x B c).go i p') q := fun q => by
    refine ⟨⟨[c], rfl⟩, Nat.le_refl _, fun _ => ⟨rfl, by rw [hcur]; exact hle⟩, fun b B' _ h => ?_, Nat.le_refl _, fun g b _ s => ⟨s.le, s.nf, s.sec, s.till⟩,
      fun b m _ _ q => absurd q.2.2 hDi, fun _ _ h => h⟩
    change (y.blks.set y.data _)[b]? = some B' at h
    by_cases e : b = y.data
    · subst e
      rw [List.getElem?_set_self hlt] at h
      cases h
      exact ⟨B, hB, by simp⟩
    · rw [List.getElem?_set_ne (fun h => e h.symm)] at h
      exact ⟨B', h, rfl⟩
  refine ⟨by simpa [Sys.go, Sys.put] using I.len, by simpa [Sys.go, Sys.put] using I.data, I.ret, I.tlen, I.freed, ?_, ?_, ?_, ?_, ?_, ?_⟩
  · refine ⟨{ B with slots := B.slots.set j (some x) }, ?_, ?_⟩
    · show (y.blks.set y.data _)[y.data]? = _
      rw [List.getElem?_set_self hlt]
    · rw [hcur]
      show Good chunk _ _ (sumBy PC.lag (y.thrs.set i p'))
      have := sumBy_set PC.lag hi p'
      have e : sumBy PC.lag (y.thrs.set i p') = sumBy PC.lag y.thrs + p'.lag := by omega
      rw [e]
      exact hG
  · intro j' hj'
    obtain ⟨B', k, h1, h2, h3, h4⟩ := I.old j' hj'
    refine ⟨B', k, ?_, h2, ?_, ?_⟩
    · show (y.blks.set y.data _)[j']? = _
      rw [List.getElem?_set_ne (by have : j' < y.data := hj'; omega)]
      exact h1
    · show k ≤ (y.ops ++ [c]).length
      simp; omega
    · show Good chunk B' (content (y.ops ++ [c]) k) 0
      rw [content_append h3]; exact h4
  · show y.modify = sumBy PC.hold (y.thrs.set i p')
    have := sumBy_set PC.hold hi p'
    have := I.modi
    omega
  · intro j' q hj
    rcases thr_set hj with ⟨-, rfl⟩ | ⟨-, hj⟩
    · exact ht
    · exact (I.thr j' q hj).mono (mono q)
  · intro r hr
    exact (I.recs r hr).mono
  · intro k
    show sumBy (Rec.kc k) y.done + sumBy (PC.kc k) (y.thrs.set i p') = if k < (y.ops ++ [c]).length then 1 else 0
    have h1 := sumBy_set (PC.kc k) hi p'
    have h2 := I.uniq k
    have h3 : p.kc k = 0 := by unfold PC.kc; rw [hp.2.2.2]; rfl
    have h4 : p'.kc k = if k = y.ops.length then 1 else 0 := by
      unfold PC.kc; rw [hp'.2.2]
      by_cases e : k = y.ops.length
      · rw [if_pos (by rw [e]), if_pos e]
      · rw [if_neg (fun h => e (Option.some.inj h).symm), if_neg e]
    rw [h3, h4] at h1
    rw [List.length_append, List.length_singleton]
    by_cases e : k = y.ops.length
    · subst e
      simp at h1 h2 ⊢
      omega
    · rw [if_neg e] at h1
      by_cases e' : k < y.ops.length
      · rw [if_pos e'] at h2; rw [if_pos (by omega)]; omega
      · rw [if_neg e'] at h2; rw [if_neg (by omega)]; omega

/-- `AppendElement` counts its element. -/
theorem Inv.counts {chunk w : Nat} (hc : 0 < chunk) {y : Sys α} (I : Inv chunk w y) {i : Nat} {g : G} {x : α} {b idx k : Nat} {B : Blk α} (hi : y.thrs[i]? = some (.ap4 g x b idx k))
    (hB : y.blk? b = some B) :
    Inv chunk w ({ y with blks := y.blks.set b { B with count := B.count + 1 } }.go i (.up g (.append x) (.num (some idx)) k)) := by
  obtain ⟨hb, hcom⟩ := I.thr i _ hi
  have hG := I.good hb hB
  subst hb
  have hB := (blk?_eq hB).2
  have hlt := (List.getElem?_eq_some_iff.1 hB).1
  generalize hp' : PC.up g (.append x) (.num (some idx)) k = p'
  have e1 : p'.lag = 0 := by subst hp'; rfl
  have e2 : p'.dirty = 1 := by subst hp'; rfl
  have e3 : p'.hold = 1 := by subst hp'; rfl
  have e4 : p'.k? = some k := by subst hp'; rfl
  have hl := sumBy_set PC.lag hi p'
  have hd := sumBy_set PC.dirty hi p'
  have hh := sumBy_set PC.hold hi p'
  have hl1 := le_sumBy PC.lag hi
  rw [e1] at hl
  rw [e2] at hd
  rw [e3] at hh
  simp only [PC.lag, PC.dirty, PC.hold] at hl hd hh hl1
  have mono : ∀ q : PC α, Mono y ({ y with blks := y.blks.set y.data { B with count := B.count + 1 } }.go i p') q := fun q => by
    refine ⟨⟨[], by simp [Sys.go]⟩, Nat.le_refl _, fun _ => ⟨rfl, Nat.le_refl _⟩, fun b B' _ h => ?_, Nat.le_refl _, fun g b _ s => ⟨s.le, s.nf, s.sec, s.till⟩,
      fun b m _ _ q => ⟨⟨q.1, q.2.1, ?_⟩, rfl⟩, fun _ _ h => h⟩
    · change (y.blks.set y.data _)[b]? = some B' at h
      by_cases e : b = y.data
      · subst e
        rw [List.getElem?_set_self hlt] at h
        cases h
        exact ⟨B, hB, rfl⟩
      · rw [List.getElem?_set_ne (fun h => e h.symm)] at h
        exact ⟨B', h, rfl⟩
    · have h := q.2.2
      change sumBy PC.dirty (y.thrs.set i p') = 0 at h
      omega
  refine ⟨by simpa [Sys.go] using I.len, by simpa [Sys.go] using I.data, I.ret, I.tlen, I.freed, ?_, ?_, ?_, ?_, I.recs, ?_⟩
  · refine ⟨{ B with count := B.count + 1 }, ?_, hG.le, hG.slot, ?_, ?_⟩
    · show (y.blks.set y.data _)[y.data]? = _
      rw [List.getElem?_set_self hlt]
    · show B.count + 1 + sumBy PC.lag (y.thrs.set i p') = y.cur.length
      have := hG.count
      omega
    · show maxCount chunk (B.count + 1) = B.slots.length
      have h1 := hG.count
      have h2 := hG.le
      have h3 := hG.max
      rw [maxCount_succ hc, if_neg (by omega)]
      exact h3
  · intro j' hj'
    obtain ⟨B', k, h1, h2, h3, h4⟩ := I.old j' hj'
    refine ⟨B', k, ?_, h2, h3, h4⟩
    show (y.blks.set y.data _)[j']? = _
    rw [List.getElem?_set_ne (by have : j' < y.data := hj'; omega)]
    exact h1
  · show y.modify = sumBy PC.hold (y.thrs.set i p')
    have := I.modi
    omega
  · intro j' q hj
    rcases thr_set hj with ⟨-, rfl⟩ | ⟨-, hj⟩
    · subst hp'
      exact Com.mono ⟨[], by simp [Sys.go]⟩ hcom
    · exact (I.thr j' q hj).mono (mono q)
  · intro k'
    show sumBy (Rec.kc k') y.done + sumBy (PC.kc k') (y.thrs.set i p') = if k' < y.ops.length then 1 else 0
    have h1 := sumBy_set (PC.kc k') hi p'
    have h2 := I.uniq k'
    have h3 : p'.kc k' = (PC.ap4 g x y.data idx k).kc k' := by unfold PC.kc; rw [e4]; rfl
    omega

/-- `mutate` is incremented. -/
theorem Inv.mutates {chunk w : Nat} {y : Sys α} (I : Inv chunk w y) {i : Nat} {g : G} {c : Call α} {r : Res α} {k : Nat} (hi : y.thrs[i]? = some (.up g c r k)) :
    Inv chunk w { y with mutate := y.mutate + 1, thrs := y.thrs.set i (.fi g c r (some k)) } := by
  have hcom : Com y g c r k := I.thr i _ hi
  generalize hp' : PC.fi g c r (some k) = p'
  have e1 : p'.lag = 0 := by subst hp'; rfl
  have e3 : p'.hold = 1 := by subst hp'; rfl
  have e4 : p'.k? = some k := by subst hp'; rfl
  have hl := sumBy_set PC.lag hi p'
  have hh := sumBy_set PC.hold hi p'
  rw [e1] at hl
  rw [e3] at hh
  simp only [PC.lag, PC.hold] at hl hh
  have mono : ∀ q : PC α, Mono y { y with mutate := y.mutate + 1, thrs := y.thrs.set i p' } q := fun q => by
    refine ⟨⟨[], by simp⟩, Nat.le_refl _, fun _ => ⟨rfl, Nat.le_refl _⟩, fun b B' _ h => ⟨B', h, rfl⟩, Nat.le_succ _, fun g b _ s => ⟨s.le, s.nf, s.sec, s.till⟩,
      fun b m hm _ q => ?_, fun _ _ h => h⟩
    have h := q.2.1
    change y.mutate + 1 = m at h
    omega
  refine ⟨by simpa using I.len, I.data, I.ret, I.tlen, I.freed, ?_, I.old, ?_, ?_, I.recs, ?_⟩
  · obtain ⟨B, h1, h2⟩ := I.now
    refine ⟨B, h1, ?_⟩
    show Good chunk B y.cur (sumBy PC.lag (y.thrs.set i p'))
    have e : sumBy PC.lag (y.thrs.set i p') = sumBy PC.lag y.thrs := by omega
    rw [e]
    exact h2
  · show y.modify = sumBy PC.hold (y.thrs.set i p')
    have := I.modi
    omega
  · intro j' q hj
    rcases thr_set hj with ⟨-, rfl⟩ | ⟨-, hj⟩
    · subst hp'
      exact Com.mono ⟨[], by simp⟩ hcom
    · exact (I.thr j' q hj).mono (mono q)
  · intro k'
    show sumBy (Rec.kc k') y.done + sumBy (PC.kc k') (y.thrs.set i p') = if k' < y.ops.length then 1 else 0
    have h1 := sumBy_set (PC.kc k') hi p'
    have h2 := I.uniq k'
    have h3 : p'.kc k' = (PC.up g c r k).kc k' := by unfold PC.kc; rw [e4]; rfl
    omega

/-- The collector frees data. -/
theorem Inv.frees {chunk w : Nat} {y : Sys α} (I : Inv chunk w y) {j : Nat} {l : List Nat} (hj : y.retired[j]? = some l) (hl : ∀ s ∈ l, s ∉ y.active) :
    Inv chunk w { y with freed := j :: y.freed } := by
  have hlt : j < y.data := by rw [← I.ret]; exact (List.getElem?_eq_some_iff.1 hj).1
  refine ⟨I.len, I.data, I.ret, I.tlen, ?_, I.now, I.old, I.modi, ?_, I.recs, I.uniq⟩
  · intro j' h
    rw [List.mem_cons] at h
    rcases h with rfl | h
    · exact hlt
    · exact I.freed j' h
  · intro i p hi
    refine (I.thr i p hi).mono ⟨⟨[], by simp⟩, Nat.le_refl _, fun _ => ⟨rfl, Nat.le_refl _⟩, fun b B' _ h => ⟨B', h, rfl⟩, Nat.le_refl _, fun g b hg s => ⟨s.le, ?_, s.sec, s.till⟩,
      fun b m _ _ q => ⟨q, rfl⟩, fun _ _ h => h⟩
    intro h
    rw [List.mem_cons] at h
    rcases h with rfl | h
    · exact hl _ (s.sec l hj) (mem_active hi hg)
    · exact s.nf h

theorem TInv.t0 {chunk : Nat} {y : Sys α} {p : PC α} (h : TInv chunk y p) {g : G} (hg : p.g? = some g) : g.t0 ≤ y.ops.length := by
  have com : ∀ {g : G} {c : Call α} {r : Res α} {k : Nat}, Com y g c r k → g.t0 ≤ y.ops.length := fun hc => by
    have h1 := (List.getElem?_eq_some_iff.1 hc.2.1).1
    have h2 := hc.1
    omega
  cases p with
  | idle | fault => cases hg
  | rd0 => cases hg; exact h
  | rd1 | rd2 | md0 | md1 | md2 | rp3 | rx3 | rp4 | ap3 | af | ag | wr0 | wr1 | cp => cases hg; exact h.1
  | ap4 => cases hg; exact com h.2
  | up => cases hg; exact com h
  | fi g c r k =>
    cases hg
    cases k with
    | some k => exact com h
    | none =>
      obtain ⟨k, h1, h2, -⟩ := h
      exact Nat.le_trans h1 h2
  | rm =>
    cases hg
    have h1 := (List.getElem?_eq_some_iff.1 h.2.2.2.1).1
    have h2 := h.1
    omega

theorem sumBy_le_length {f : PC α → Nat} (h : ∀ p, f p ≤ 1) (l : List (PC α)) : sumBy f l ≤ l.length := by
  induction l with
  | nil => simp
  | cons p l ih =>
    have := h p
    simp only [sumBy_cons, List.length_cons]
    omega

theorem sumBy_le {f f' : PC α → Nat} (h : ∀ p, f p ≤ f' p) (l : List (PC α)) : sumBy f l ≤ sumBy f' l := by
  induction l with
  | nil => simp
  | cons p l ih =>
    have := h p
    simp only [sumBy_cons]
    omega

theorem hold_le (p : PC α) : p.hold ≤ 1 := by cases p <;> simp [PC.hold]
theorem dirty_le (p : PC α) : p.dirty ≤ p.hold := by cases p <;> simp [PC.hold, PC.dirty]
theorem lag_le (p : PC α) : p.lag ≤ p.hold := by cases p <;> simp [PC.hold, PC.lag]

theorem insertIdx_map_some (l : List α) (x : α) : ∀ i, (l.map some).insertIdx i (some x) = (l.insertIdx i x).map some := by
  induction l with
  | nil => intro i; cases i <;> simp
  | cons a l ih => intro i; cases i <;> simp [ih]

/-- The new data holds the list after the change. -/
theorem CopyOk.good {chunk : Nat} (hc : 0 < chunk) {c : Call α} {l : List α} {n max : Nat} {got : List (Option α)} (h : CopyOk chunk c l n max got) (hcp : c.isCp) (hn : ¬ got.length < n) :
    Good chunk (c.build max got) (spec l c).1 0 ∧ (c.build max got).slots.length = max := by
  obtain ⟨h1, h2, h3, h4, h5⟩ := h
  have hg : got = (c.kept l).map some := by
    apply List.ext_getElem?
    intro j
    by_cases hj : j < got.length
    · rw [h3 j hj, List.getElem?_map, List.getElem?_eq_getElem (by omega)]
      rfl
    · rw [List.getElem?_eq_none (by omega), List.getElem?_eq_none (by simp; omega)]
  have hmax := le_maxCount hc (spec l c).1.length
  rw [← h4] at hmax
  have key : (c.build max got).slots = (spec l c).1.map some ++ List.replicate (max - (spec l c).1.length) none ∧ (c.build max got).count = (spec l c).1.length := by
    subst hg
    cases c with
    | append x => simp [Call.build, Call.kept, spec]
    | insert i x =>
      have hi : i < l.length := h5 trivial
      have e : (spec l (.insert i x)).1 = l.insertIdx i x := by simp [spec, hi]
      have hle : (l.insertIdx i x).length = l.length + 1 := List.length_insertIdx_of_le_length (Nat.le_of_lt hi) x
      rw [e]
      simp only [Call.build, Call.kept, List.length_map]
      rw [insertIdx_map_some, hle]
      exact ⟨rfl, rfl⟩
    | remove i => simp [Call.build, Call.kept, spec]
    | count | get | replace | exact => exact hcp.elim
  obtain ⟨k1, k2⟩ := key
  have hlen : (c.build max got).slots.length = max := by
    rw [k1]; simp; omega
  refine ⟨⟨by omega, fun j hj => ?_, by omega, by rw [k2, hlen, h4]⟩, hlen⟩
  rw [k1]
  rcases Nat.lt_or_ge j (spec l c).1.length with hl | hl
  · rw [List.getElem?_append_left (by simpa using hl), List.getElem?_map, List.getElem?_eq_getElem hl]
    rfl
  · rw [List.getElem?_append_right (by simpa using hl), List.getElem?_replicate, if_pos (by simp; omega), List.getElem?_eq_none hl]

/-- `pointer` is exchanged. -/
theorem Inv.swaps {chunk w : Nat} (hc : 0 < chunk) {y : Sys α} (I : Inv chunk w y) (C : Calm w y) {i : Nat} {g : G} {c : Call α} {b m n max : Nat} {got : List (Option α)}
    (hi : y.thrs[i]? = some (.cp g c b m n max got)) (hn : ¬ got.length < n) (hcas : y.modify % w = 0 ∧ y.mutate % w = m % w ∧ y.data = b) {p' : PC α} {D : List (Rec α)}
    (hp' : p'.hold = 0 ∧ p'.dirty = 0 ∧ p'.lag = 0)
    (ht : ∀ y' : Sys α, y'.ops = y.ops ++ [c] → y'.till = y.till ++ [y.ops.length] → Seen y' g b → (c.isWr → ∀ B, y'.blks[b]? = some B → c.index < B.slots.length) → TInv chunk y' p')
    (hD : CopyOk chunk c y.cur n max got → ∀ r ∈ D, RecOk (y.ops ++ [c]) r) (hk : ∀ k, sumBy (Rec.kc k) D + p'.kc k = sumBy (Rec.kc k) y.done + if k = y.ops.length then 1 else 0) :
    Inv chunk w { y.publish (c.build max got) c with thrs := y.thrs.set i p', done := D } := by
  have hT := I.thr i _ hi
  obtain ⟨t1, t2, t3, t4, t5, t6⟩ := hT
  obtain ⟨c1, c2, rfl⟩ := hcas
  have hm : y.modify = 0 := by
    have h1 := sumBy_le_length (f := PC.hold) hold_le y.thrs
    have h2 := I.modi
    have h3 := I.len
    rw [Nat.mod_eq_of_lt (by omega)] at c1
    exact c1
  have hh : sumBy PC.hold y.thrs = 0 := by rw [← I.modi]; exact hm
  have hd : sumBy PC.dirty y.thrs = 0 := by have := sumBy_le (f := PC.dirty) (f' := PC.hold) dirty_le y.thrs; omega
  have hl : sumBy PC.lag y.thrs = 0 := by have := sumBy_le (f := PC.lag) (f' := PC.hold) lag_le y.thrs; omega
  have hmu : y.mutate = m := by
    have h1 := C _ (List.mem_iff_getElem?.2 ⟨i, hi⟩) m rfl
    have h2 : (y.mutate - m) % w = 0 := by
      have : y.mutate = m + (y.mutate - m) := by omega
      exact Nat.sub_mod_eq_zero_of_mod_eq c2
    rw [Nat.mod_eq_of_lt (by omega)] at h2
    omega
  have hcopy := t6 ⟨rfl, hmu, hd⟩
  obtain ⟨hG, hlen⟩ := hcopy.good hc t2 hn
  have hlt : y.data < y.blks.length := by have := I.data; omega
  have hcur : content (y.ops ++ [c]) (y.ops ++ [c]).length = (spec y.cur c).1 := by
    rw [List.length_append]
    exact content_snoc _ _
  obtain ⟨B, n1, n2⟩ := I.now
  rw [hl] at n2
  have seen : ∀ (j : Nat) (q : PC α) (g : G) (b : Nat), y.thrs[j]? = some q → q.g? = some g → g.t0 ≤ y.ops.length → Seen y g b →
      Seen { y.publish (c.build max got) c with thrs := y.thrs.set i p', done := D } g b := by
    intro j q g b hj hg h0 s
    refine ⟨?_, s.nf, fun l h => ?_, fun k h => ?_⟩
    · show b ≤ y.blks.length
      have := s.le; omega
    · change (y.retired ++ [y.active])[b]? = some l at h
      rcases Nat.lt_or_ge b y.retired.length with hb | hb
      · rw [List.getElem?_append_left hb] at h
        exact s.sec l h
      · rw [List.getElem?_append_right hb] at h
        have := (List.getElem?_eq_some_iff.1 h).1
        simp at this
        rw [show b - y.retired.length = 0 by omega] at h
        simp at h
        subst h
        exact mem_active hj hg
    · change (y.till ++ [y.ops.length])[b]? = some k at h
      rcases Nat.lt_or_ge b y.till.length with hb | hb
      · rw [List.getElem?_append_left hb] at h
        exact s.till k h
      · rw [List.getElem?_append_right hb] at h
        have := (List.getElem?_eq_some_iff.1 h).1
        simp at this
        rw [show b - y.till.length = 0 by omega] at h
        simp at h
        omega
  refine ⟨by simpa [Sys.publish] using I.len, by simp [Sys.publish], ?_, ?_, ?_, ?_, ?_, ?_, ?_, hD hcopy, ?_⟩
  · show (y.retired ++ [y.active]).length = y.blks.length
    rw [List.length_append, I.ret, List.length_singleton]
    exact I.data
  · show (y.till ++ [y.ops.length]).length = y.blks.length
    rw [List.length_append, I.tlen, List.length_singleton]
    exact I.data
  · intro j hj
    show j < y.blks.length
    have := I.freed j hj
    omega
  · refine ⟨c.build max got, ?_, ?_⟩
    · show (y.blks ++ [_])[y.blks.length]? = _
      simp
    · show Good chunk _ (content (y.ops ++ [c]) (y.ops ++ [c]).length) (sumBy PC.lag (y.thrs.set i p'))
      rw [hcur]
      have := sumBy_set PC.lag hi p'
      rw [show sumBy PC.lag (y.thrs.set i p') = 0 by omega]
      exact hG
  · intro j hj
    change j < y.blks.length at hj
    rcases Nat.lt_or_ge j y.data with hj' | hj'
    · obtain ⟨B', k, h1, h2, h3, h4⟩ := I.old j hj'
      refine ⟨B', k, ?_, ?_, ?_, ?_⟩
      · show (y.blks ++ [_])[j]? = _
        rw [List.getElem?_append_left (by omega)]; exact h1
      · show (y.till ++ [_])[j]? = _
        rw [List.getElem?_append_left (by rw [I.tlen]; omega)]; exact h2
      · show k ≤ (y.ops ++ [c]).length
        simp; omega
      · show Good chunk B' (content (y.ops ++ [c]) k) 0
        rw [content_append h3]; exact h4
    · have hd := I.data
      have e : j = y.data := by omega
      subst e
      refine ⟨B, y.ops.length, ?_, ?_, ?_, ?_⟩
      · show (y.blks ++ [_])[y.data]? = _
        rw [List.getElem?_append_left (by omega)]; exact n1
      · show (y.till ++ [_])[y.data]? = _
        rw [List.getElem?_append_right (by rw [I.tlen]; omega), I.tlen]
        simp
      · show y.ops.length ≤ (y.ops ++ [c]).length
        simp
      · show Good chunk B (content (y.ops ++ [c]) y.ops.length) 0
        rw [content_append (Nat.le_refl _)]; exact n2
  · show 0 = sumBy PC.hold (y.thrs.set i p')
    have := sumBy_set PC.hold hi p'
    omega
  · intro j q hj
    rcases thr_set hj with ⟨-, rfl⟩ | ⟨-, hj⟩
    · refine ht _ rfl rfl (seen i _ g _ hi rfl t1 t3) fun hw B' h => ?_
      change (y.blks ++ [_])[y.data]? = some B' at h
      rw [List.getElem?_append_left hlt, n1] at h
      cases h
      have := hcopy.2.2.2.2 hw
      have := n2.le
      omega
    · have hq := I.thr j q hj
      refine hq.mono ⟨⟨[c], rfl⟩, ?_, ?_, ?_, Nat.le_succ _, fun g b hg s => seen j q g b hj hg (hq.t0 hg) s, ?_, ?_⟩
      · show y.data ≤ y.blks.length
        omega
      · intro h
        have := le_sumBy PC.hold hj
        omega
      · intro b B' hb h
        change (y.blks ++ [_])[b]? = some B' at h
        rw [List.getElem?_append_left (by omega)] at h
        exact ⟨B', h, rfl⟩
      · intro b m _ hb q
        have h := q.1
        change b = y.blks.length at h
        omega
      · intro b k h
        show (y.till ++ [_])[b]? = _
        rw [List.getElem?_append_left (List.getElem?_eq_some_iff.1 h).1]
        exact h
  · intro k
    show sumBy (Rec.kc k) D + sumBy (PC.kc k) (y.thrs.set i p') = if k < (y.ops ++ [c]).length then 1 else 0
    have h1 := sumBy_set (PC.kc k) hi p'
    have h2 := I.uniq k
    have h3 := hk k
    have h4 : (PC.cp g c y.data m n max got).kc k = 0 := rfl
    rw [List.length_append, List.length_singleton]
    by_cases e : k = y.ops.length
    · subst e
      simp at h2 h3 ⊢
      omega
    · rw [if_neg e] at h3
      by_cases e' : k < y.ops.length
      · rw [if_pos e'] at h2; rw [if_pos (by omega)]; omega
      · rw [if_neg e'] at h2; rw [if_neg (by omega)]; omega

end Verif.ConcIndexMap
