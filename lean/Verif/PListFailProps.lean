import Verif.PListFail
import Verif.PListOps
/-!
# C118: a CCList append that runs out of memory leaves the list as it was
-/
namespace Verif.PListFail
open Verif.Array hiding Op step create append appendN
open Verif.PList hiding append appendN appendLoop
open Verif.PList.Spec
variable {α : Type}

/-! ## Pages -/

theorem pg_create_any {chunk : Nat} (h : 1 ≤ chunk) (ok : Bool) : ∃ a, Array.create α chunk ok = .ok a ∧ PG chunk a [] ∧ (ok = true → needGrow1 a = false) := by
  refine ⟨_, by simp [Array.create, h]; rfl, ⟨good_create (chunk := chunk) (ok := ok) (by simp [Array.create, h]), rfl⟩, ?_⟩
  intro h; simp [needGrow1, h]

theorem pg_append_any {chunk} {a : Arr α} {l} (g : PG chunk a l) (e) (ok : Bool) :
    ∃ a' r, Array.append a e ok = .ok (a', r) ∧ ((r = .sizeMax ∧ a' = a ∧ ok = false) ∨ (r ≠ .sizeMax ∧ PG chunk a' (l ++ [e]))) := by
  obtain ⟨a', r, h1, h2, h3, h4, -⟩ := step_append g.1 e ok
  refine ⟨a', r, h1, ?_⟩
  by_cases hr : r = .sizeMax
  · have := h4 hr; exact .inl ⟨hr, this.2, by simpa [Array.Spec.refused] using this.1⟩
  · rw [if_neg hr] at h3; exact .inr ⟨hr, h3, h2.trans g.2⟩

theorem pg_appendN_any {chunk} {a : Arr α} {l} (g : PG chunk a l) (s : Src α) (hs : s.count ≠ 0) (ok : Bool) :
    ∃ a' r, Array.appendN a s ok = .ok (a', r) ∧ ((r = .sizeMax ∧ a' = a ∧ ok = false) ∨ (r ≠ .sizeMax ∧ PG chunk a' (l ++ s.cells))) := by
  obtain ⟨a', r, h1, h2, h3, h4, -⟩ := step_appendN g.1 s ok hs
  refine ⟨a', r, h1, ?_⟩
  by_cases hr : r = .sizeMax
  · have := h4 hr; exact .inl ⟨hr, this.2, by simpa [Array.Spec.refused] using this.1⟩
  · rw [if_neg hr] at h3; exact .inr ⟨hr, h3, h2.trans g.2⟩

theorem pg_removeN {chunk} {a : Arr α} {l} (g : PG chunk a l) (i n) (hn : n ≠ 0) (hi : i + n = l.length) :
    ∃ a' r, Array.removeN a i n = .ok (a', r) ∧ PG chunk a' (l.take i) := by
  obtain ⟨a', r, h1, h2, h3, h4, -⟩ := step_removeN g.1 i n hn (by omega)
  have : r ≠ .sizeMax := fun h => by simpa [Array.Spec.refused] using (h4 h).1
  rw [if_neg this] at h3
  refine ⟨a', r, h1, ?_, h2.trans g.2⟩
  have e : Array.Spec.edit l (.removeN i n) = l.take i := by
    simp only [Array.Spec.edit]; rw [List.drop_of_length_le (by omega), List.append_nil]
  rwa [e] at h3

/-! ## The loop -/

/-- Outcome of the loop.  `l0`: everything on the pages at the start together with the elements to append. -/
theorem loop_any {chunk ps : Nat} (hc : 1 ≤ chunk) (hps : 1 ≤ ps) (vs : List α) (okNew ok : Nat → Bool) : ∀ (fuel loop : Nat) (pages : List (Arr α)) (init : List (Cells α)) (t : Cells α),
    List.Forall₂ (PG chunk) pages (init ++ [t]) → (∀ x ∈ init, x.length = ps) → t.length ≤ ps →
    (t.length < ps ∨ (vs.length - loop) % ps = 0) → (t = [] → init ≠ [] → loop < vs.length) →
    loop ≤ vs.length → vs.length - loop ≤ fuel →
    (∃ pages' init' t', appendLoop ps (.buf vs) okNew ok fuel loop pages = .ok (pages', none) ∧ List.Forall₂ (PG chunk) pages' (init' ++ [t']) ∧
      Shape ps init' t' ∧ (init' ++ [t']).flatten = (init ++ [t]).flatten ++ (vs.map some).drop loop) ∨
    (∃ pages' at_, appendLoop ps (.buf vs) okNew ok fuel loop pages = .ok (pages', some at_) ∧ loop ≤ at_ ∧ at_ < vs.length ∧ ok at_ = false) := by
  intro fuel
  induction fuel with
  | zero =>
    intro loop pages init t h1 h2 h3 _ h5 h6 h7
    left
    refine ⟨pages, init, t, ?_, h1, ⟨h2, h3, fun h => ?_⟩, ?_⟩
    · have : ¬ loop < (Src.buf vs).count := by simp only [Src.count]; omega
      simp [appendLoop, this]
    · by_cases hi : init = []
      · exact hi
      · have := h5 h hi; omega
    · rw [List.drop_of_length_le (by simp; omega)]; simp
  | succ fuel ih =>
    intro loop pages init t h1 h2 h3 h4 h5 h6 h7
    by_cases hl : loop < vs.length
    · obtain ⟨P, a, PB, g1, g2, g3, g4, g5, g6⟩ := f2_split (A := init) (x := t) (B := []) h1
      obtain rfl : PB = [] := List.length_eq_zero_iff.1 g3
      have gc := g5.count
      have gch := g5.2
      have hpg : pages[pages.length - 1]? = some a := by simp [g1]
      simp only [appendLoop, Src.count, hl, if_true, hpg]
      by_cases hca : vs.length - loop > ps - a.count
      · rw [if_pos hca]
        obtain ⟨b, eb, gb, -⟩ := pg_create_any (α := α) hc (okNew loop)
        rw [gch, eb, ebind]
        by_cases ha : ps - a.count = 0
        · rw [if_pos ha]
          have hm : (vs.length - loop) % ps = 0 := by rcases h4 with h | h; omega; exact h
          have hge : ps ≤ vs.length - loop := by
            rcases Nat.lt_or_ge (vs.length - loop) ps with h | h
            · rw [Nat.mod_eq_of_lt h] at hm; omega
            · exact h
          obtain ⟨s1, s2, s3⟩ := slice_cells (vs := vs) (loop := loop) (n := ps) (by omega)
          obtain ⟨b', r, eb', hr⟩ := pg_appendN_any gb _ (by rw [s2]; omega) (ok loop)
          rw [s1, ebind, eb', ebind]; simp only []
          rcases hr with ⟨rfl, rfl, hok⟩ | ⟨hr, gb'⟩
          · right; rw [if_pos rfl]; exact ⟨_, _, rfl, by omega, hl, hok⟩
          rw [if_neg hr]
          rw [s3] at gb'
          have hlen : ((vs.map some).drop loop |>.take ps).length = ps := by simp; omega
          rcases ih (loop + ps) (pages ++ [b']) (init ++ [t]) _
            (f2_append h1 (.cons gb' .nil)) (by
              intro x hx; rcases List.mem_append.1 hx with hx | hx
              · exact h2 x hx
              · simp at hx; subst hx; omega) (by simp only [List.nil_append]; omega) (by
              right; rw [show vs.length - (loop + ps) = vs.length - loop - ps by omega]
              rw [← Nat.mod_eq_sub_mod hge]; exact hm) (by
              intro hh; simp only [List.nil_append] at hh; rw [hh] at hlen; simp at hlen; omega) (by omega) (by omega) with ⟨pages', init', t', k1, k2, k3, k4⟩ | ⟨pages', n, k1, k2, k3, k4⟩
          · left
            refine ⟨pages', init', t', k1, k2, k3, ?_⟩
            rw [k4, List.flatten_append (L₁ := init ++ [t])]
            simp only [List.append_assoc, List.flatten_cons, List.flatten_nil, List.append_nil, List.nil_append]
            rw [show (vs.map some).drop (loop + ps) = ((vs.map some).drop loop).drop ps from List.drop_drop.symm, List.take_append_drop]
          · right; exact ⟨pages', n, k1, by omega, k3, k4⟩
        · rw [if_neg ha]
          obtain ⟨s1, s2, s3⟩ := slice_cells (vs := vs) (loop := loop) (n := ps - a.count) (by omega)
          obtain ⟨a', r, ea', hr⟩ := pg_appendN_any g5 _ (by rw [s2]; omega) (ok loop)
          rw [s1, ebind, ea', ebind]; simp only []
          rcases hr with ⟨rfl, rfl, hok⟩ | ⟨hr, ga'⟩
          · right; rw [if_pos rfl]; exact ⟨_, _, rfl, by omega, hl, hok⟩
          rw [if_neg hr]
          rw [s3] at ga'
          have hset : pages.set (pages.length - 1) a' = P ++ [a'] := by
            rw [g1, show (P ++ [a]).length - 1 = P.length by simp, set_mid]
          rw [hset]
          rcases ih (loop + (ps - a.count)) (P ++ [a'] ++ [b]) (init ++ [t ++ ((vs.map some).drop loop).take (ps - a.count)]) []
            (f2_append (f2_append g4 (.cons ga' .nil)) (.cons gb .nil)) (by
              intro x hx; rcases List.mem_append.1 hx with hx | hx
              · exact h2 x hx
              · simp at hx; subst hx; simp; omega) (by simp) (by left; simp; omega) (by intros; omega) (by omega) (by omega) with ⟨pages', init', t', k1, k2, k3, k4⟩ | ⟨pages', n, k1, k2, k3, k4⟩
          · left
            refine ⟨pages', init', t', k1, k2, k3, ?_⟩
            rw [k4]
            simp only [List.append_assoc, List.flatten_append, List.flatten_cons, List.flatten_nil, List.append_nil, List.nil_append]
            rw [show (vs.map some).drop (loop + (ps - a.count)) = ((vs.map some).drop loop).drop (ps - a.count) from List.drop_drop.symm, List.take_append_drop]
          · right; exact ⟨pages', n, k1, by omega, k3, k4⟩
      · rw [if_neg hca]
        obtain ⟨s1, s2, s3⟩ := slice_cells (vs := vs) (loop := loop) (n := vs.length - loop) (by omega)
        obtain ⟨a', r, ea', hr⟩ := pg_appendN_any g5 _ (by rw [s2]; omega) (ok loop)
        rw [s1, ebind, ea', ebind]; simp only []
        rcases hr with ⟨rfl, rfl, hok⟩ | ⟨hr, ga'⟩
        · right; rw [if_pos rfl]; exact ⟨_, _, rfl, by omega, hl, hok⟩
        rw [if_neg hr]
        rw [s3] at ga'
        have hset : pages.set (pages.length - 1) a' = P ++ [a'] := by
          rw [g1, show (P ++ [a]).length - 1 = P.length by simp, set_mid]
        rw [hset]
        have htk : ((vs.map some).drop loop).take (vs.length - loop) = (vs.map some).drop loop := List.take_of_length_le (by simp)
        rw [htk] at ga'
        rcases ih (loop + (vs.length - loop)) (P ++ [a']) init (t ++ (vs.map some).drop loop)
          (f2_append g4 (.cons ga' .nil)) h2 (by simp; omega) (by right; rw [show vs.length - (loop + (vs.length - loop)) = 0 by omega]; simp)
          (by intro h; exfalso; have := congrArg List.length h; simp at this; omega) (by omega) (by omega) with ⟨pages', init', t', k1, k2, k3, k4⟩ | ⟨pages', n, k1, k2, k3, k4⟩
        · left
          refine ⟨pages', init', t', k1, k2, k3, ?_⟩
          rw [k4, List.drop_of_length_le (l := vs.map some) (i := loop + (vs.length - loop)) (by simp; omega)]
          simp
        · right; exact ⟨pages', n, k1, by omega, k3, k4⟩
    · left
      refine ⟨pages, init, t, ?_, h1, ⟨h2, h3, fun h => ?_⟩, ?_⟩
      · simp [appendLoop, Src.count, hl]
      · by_cases hi : init = []
        · exact hi
        · exact absurd (h5 h hi) hl
      · rw [List.drop_of_length_le (by simp; omega)]; simp

/-- A run of the loop never touches pages in front of, and including, a full page. -/
theorem loop_keeps {ps : Nat} (s : Src α) (okNew ok : Nat → Bool) : ∀ (fuel loop : Nat) (P : List (Arr α)) (x : Arr α) (Q pages' : List (Arr α)) (f : Option Nat),
    x.count = ps → 1 ≤ ps →
    appendLoop ps s okNew ok fuel loop (P ++ x :: Q) = .ok (pages', f) → ∃ Q', pages' = P ++ x :: Q' := by
  intro fuel
  induction fuel with
  | zero =>
    intro loop P x Q pages' f hx hps h
    simp only [appendLoop] at h
    split at h
    · cases h
    · cases h; exact ⟨Q, rfl⟩
  | succ fuel ih =>
    intro loop P x Q pages' f hx hps h
    rw [appendLoop] at h
    by_cases hl : loop < s.count
    · rw [if_pos hl] at h
      rcases List.eq_nil_or_concat Q with rfl | ⟨Q0, z, rfl⟩
      · have hp : (P ++ [x])[(P ++ [x]).length - 1]? = some x := by simp
        simp only [hp, hx, Nat.sub_self] at h
        rw [if_pos (by omega)] at h
        cases hb : Array.create α x.chunk (okNew loop) with
        | error e => rw [hb] at h; cases h
        | ok b =>
          rw [hb, ebind, if_pos trivial] at h
          cases hs : slice s loop ps with
          | error e => rw [hs] at h; cases h
          | ok src =>
            rw [hs, ebind] at h
            cases ha : Array.appendN b src (ok loop) with
            | error e => rw [ha] at h; cases h
            | ok br =>
              obtain ⟨b', r⟩ := br
              rw [ha, ebind] at h
              simp only [] at h
              rw [List.append_assoc] at h
              split at h
              · cases h; exact ⟨[b'], rfl⟩
              · exact ih _ P x [b'] pages' f hx hps h
      · have hL : (P ++ x :: (Q0 ++ [z])).length - 1 = P.length + (Q0.length + 1) := by simp
        have hp : (P ++ x :: (Q0 ++ [z]))[P.length + (Q0.length + 1)]? = some z := by
          rw [List.getElem?_append_right (by omega)]
          rw [show P.length + (Q0.length + 1) - P.length = Q0.length + 1 by omega, List.getElem?_cons_succ]
          simp
        have hset : ∀ w, (P ++ x :: (Q0 ++ [z])).set (P.length + (Q0.length + 1)) w = P ++ x :: (Q0 ++ [w]) := by
          intro w
          rw [List.set_append_right (h := by omega), show P.length + (Q0.length + 1) - P.length = Q0.length + 1 by omega, List.set_cons_succ]
          rw [List.set_append_right (h := by omega)]; simp
        rw [List.concat_eq_append] at h
        simp only [hL, hp] at h
        split at h
        · cases hb : Array.create α z.chunk (okNew loop) with
          | error e => rw [hb] at h; cases h
          | ok b =>
            rw [hb, ebind] at h
            split at h
            · cases hs : slice s loop ps with
              | error e => rw [hs] at h; cases h
              | ok src =>
                rw [hs, ebind] at h
                cases ha : Array.appendN b src (ok loop) with
                | error e => rw [ha] at h; cases h
                | ok br =>
                  obtain ⟨b', r⟩ := br
                  rw [ha, ebind] at h
                  simp only [List.append_assoc, List.cons_append] at h
                  split at h
                  · cases h; exact ⟨_, rfl⟩
                  · exact ih _ P x _ pages' f hx hps h
            · cases hs : slice s loop (ps - z.count) with
              | error e => rw [hs] at h; cases h
              | ok src =>
                rw [hs, ebind] at h
                cases ha : Array.appendN z src (ok loop) with
                | error e => rw [ha] at h; cases h
                | ok br =>
                  obtain ⟨b', r⟩ := br
                  rw [ha, ebind] at h
                  simp only [hset, List.append_assoc, List.cons_append] at h
                  split at h
                  · cases h; exact ⟨_, rfl⟩
                  · exact ih _ P x _ pages' f hx hps h
        · cases hs : slice s loop (s.count - loop) with
          | error e => rw [hs] at h; cases h
          | ok src =>
            rw [hs, ebind] at h
            cases ha : Array.appendN z src (ok loop) with
            | error e => rw [ha] at h; cases h
            | ok br =>
              obtain ⟨b', r⟩ := br
              rw [ha, ebind] at h
              simp only [hset] at h
              split at h
              · cases h; exact ⟨_, rfl⟩
              · exact ih _ P x _ pages' f hx hps h
    · rw [if_neg hl] at h; cases h; exact ⟨Q, rfl⟩

/-! ## A list behind which an empty page is left -/

/-- The list `L'` is `L` with an empty page behind its last page. -/
def Trailing (L L' : PL α) : Prop := ∃ b, L' = { L with pages := L.pages ++ [b], hasLast := true } ∧ b.count = 0

theorem pull_trailing : ∀ (R : List (Arr α)) (a z : Arr α), z.count = 0 → ∃ e, pull a (R ++ [z]) = .error e
  | [], a, z, hz => by
    refine ⟨.assertion, ?_⟩
    simp only [List.nil_append, pull, Array.get, hz, Nat.not_lt_zero, if_false]; rfl
  | b :: R, a, z, hz => by
    simp only [List.cons_append, pull]
    cases h1 : Array.get b 0 with
    | error e => exact ⟨e, rfl⟩
    | ok x =>
      rw [ebind]
      cases h2 : Array.append a x true with
      | error e => exact ⟨e, rfl⟩
      | ok ar =>
        obtain ⟨a', r⟩ := ar
        rw [ebind]; simp only []
        cases h3 : Array.remove b 0 with
        | error e => exact ⟨e, rfl⟩
        | ok br =>
          obtain ⟨b', r'⟩ := br
          rw [ebind]; simp only []
          obtain ⟨e, he⟩ := pull_trailing R b' z hz
          exact ⟨e, by rw [he]; rfl⟩

/-- Every removal from such a list faults. -/
theorem trailing_remove {L L' : PL α} (h : Trailing L L') (i : Nat) : ∃ e, step L' (.remove i) = .error e := by
  obtain ⟨b, rfl, hb⟩ := h
  rw [step, PList.remove]
  split
  · cases hg : getPage { L with pages := L.pages ++ [b], hasLast := true } (i / L.pageSize) with
    | error e => exact ⟨e, rfl⟩
    | ok p =>
      rw [ebind]
      cases hp : page { L with pages := L.pages ++ [b], hasLast := true } p with
      | error e => exact ⟨e, rfl⟩
      | ok a =>
        rw [ebind]
        cases ha : Array.remove a (i - i / L.pageSize * L.pageSize) with
        | error e => exact ⟨e, rfl⟩
        | ok ar =>
          obtain ⟨a', r⟩ := ar
          rw [ebind]; simp only []
          by_cases hlt : p < L.pages.length
          · obtain ⟨e, he⟩ := pull_trailing (L.pages.drop (p + 1)) a' b hb
            refine ⟨e, ?_⟩
            rw [List.drop_append_of_le_length (by omega), he]; rfl
          · exfalso
            have hpp : (L.pages ++ [b])[p]? = some a := by
              simp only [page] at hp
              cases hq : (L.pages ++ [b])[p]? with
              | none => rw [hq] at hp; cases hp
              | some w => rw [hq] at hp; cases hp; rfl
            have : a = b := by
              rw [List.getElem?_append_right (by omega)] at hpp
              have := (List.getElem?_eq_some_iff.1 hpp)
              obtain ⟨h1, h2⟩ := this
              simp at h1 h2
              exact h2.symm
            subst this
            simp only [Array.remove, hb, Nat.not_lt_zero, if_false] at ha
            cases ha
  · exact ⟨_, rfl⟩

/-- Reading the last element of such a list faults, if it has more than one page. -/
theorem trailing_get {L L' : PL α} (h : Trailing L L') (hps : 1 ≤ L.pageSize) (hn : L.pageSize < L.count) : get L' (L.count - 1) = .error .assertion := by
  obtain ⟨b, rfl, hb⟩ := h
  have hp : 1 ≤ (L.count - 1) / L.pageSize := (Nat.le_div_iff_mul_le (by omega)).2 (by omega)
  rw [PList.get, if_pos (show L.count - 1 < L.count by omega)]
  simp only [getPage, Nat.sub_self]
  rw [if_pos ⟨trivial, by omega⟩, if_pos (by simp), ebind]
  simp only [page]
  rw [show (L.pages ++ [b]).length - 1 - 0 = L.pages.length by simp, List.getElem?_append_right (by omega)]
  simp only [Nat.sub_self, List.getElem?_cons_zero, ebind]
  simp only [Array.get, hb, Nat.not_lt_zero, if_false]

/-! ## Specification -/

namespace Spec

/-- Room left on the last page of a list of `n` elements. -/
def room (pageSize n : Nat) : Nat := if n = 0 then pageSize else if n % pageSize = 0 then 0 else pageSize - n % pageSize

/-- An append of `count` elements to `n` elements that failed after `copied` elements were copied is undone: it fits on the last page, or some elements were
copied and the last page was not full. -/
def Undone (pageSize n count copied : Nat) : Prop :=
  count ≤ room pageSize n ∨ (copied ≠ 0 ∧ (n = 0 ∨ n % pageSize ≠ 0))

/-- The list is out of order: no element can be removed any more, and with more than one page its last element cannot be read. -/
def Spoiled (L : PL α) (n : Nat) : Prop :=
  (∀ i, ∃ e, step L (.remove i) = .error e) ∧ (L.pageSize < n → get L (n - 1) = .error .assertion)

end Spec
open Verif.PListFail.Spec

theorem trailing_spoiled {chunk} {L L' : PL α} {l} (rep : Rep chunk L l) (h : Trailing L L') : Spoiled L' l.length := by
  refine ⟨trailing_remove h, fun hn => ?_⟩
  obtain ⟨init, t, o, rfl⟩ := rep
  have hps : L'.pageSize = L.pageSize := by obtain ⟨b, rfl, -⟩ := h; rfl
  rw [← o.count]
  exact trailing_get h o.ps1 (by rw [o.count, ← hps]; exact hn)

theorem room_eq {chunk} {L : PL α} {init t} (o : LOk chunk L init t) : room L.pageSize (init ++ [t]).flatten.length = L.pageSize - t.length := by
  have hlen : (init ++ [t]).flatten.length = init.length * L.pageSize + t.length := by simp [flatten_full o.shape.full]
  have hle := o.shape.le
  have hps := o.ps1
  rw [hlen, room]
  by_cases h0 : init.length * L.pageSize + t.length = 0
  · rw [if_pos h0]; omega
  · rw [if_neg h0]
    rcases Nat.lt_or_eq_of_le hle with h | h
    · rw [Nat.mul_add_mod_self_right, Nat.mod_eq_of_lt h]
      by_cases ht : t.length = 0
      · have := o.shape.ne (List.length_eq_zero_iff.1 ht); simp [this, ht] at h0
      · rw [if_neg ht]
    · rw [h, ← Nat.succ_mul, Nat.mul_mod_left, if_pos rfl]; omega

theorem count_eq {chunk} {L : PL α} {init t} (o : LOk chunk L init t) : L.count = init.length * L.pageSize + t.length := by
  rw [o.count]; simp [flatten_full o.shape.full]

/-- The append-many call, in every environment. -/
theorem appendN_any {chunk} {L : PL α} {init t} (o : LOk chunk L init t) (vs : List α) (hv : vs ≠ [])
    (hh : handled L.pageSize (init ++ [t]).flatten.length (.appendN (.buf vs))) (okNew ok : Nat → Bool) :
    (∃ L', appendN L (.buf vs) okNew ok = .ok (L', .index (init ++ [t]).flatten.length) ∧ L'.pageSize = L.pageSize ∧ Rep chunk L' ((init ++ [t]).flatten ++ vs.map some)) ∨
    (∃ L' c, appendN L (.buf vs) okNew ok = .ok (L', .sizeMax) ∧ c < vs.length ∧ ok c = false ∧ L'.pageSize = L.pageSize ∧
      ((Undone L.pageSize (init ++ [t]).flatten.length vs.length c ∧ Rep chunk L' (init ++ [t]).flatten) ∨
       (¬ Undone L.pageSize (init ++ [t]).flatten.length vs.length c ∧ Trailing L L'))) := by
  have lf := last_full o.shape o.ps1
  have hr := room_eq o
  have hcnt := count_eq o
  have hps := o.ps1
  have hle := o.shape.le
  have hLL : ({ L with hasLast := true } : PL α) = L := by have := o.last; cases L; simp_all
  simp only [handled] at hh
  have hvl : 1 ≤ vs.length := List.length_pos_iff.2 hv
  rcases loop_any o.chunk1 o.ps1 vs okNew ok vs.length 0 L.pages init t o.pages o.shape.full o.shape.le
      (by rcases hh with h | h
          · exact Or.inl (lf.1 h)
          · right; simpa using h)
      (fun h hi => absurd (o.shape.ne h) hi) (by omega) (by omega) with ⟨pages', init', t', k1, k2, k3, k4⟩ | ⟨pages', c, k1, -, k3, k4⟩
  · left
    refine ⟨{ L with pages := pages', count := L.count + vs.length, hasLast := true }, ?_, rfl, init', t', ⟨k2, k3, ?_, o.chunk1, o.ps1, rfl⟩, ?_⟩
    · simp only [appendN, Src.count, k1, ebind, o.count]; rfl
    · simp only []; rw [k4, o.count]; simp; omega
    · rw [k4]; simp
  · right
    obtain ⟨P, a, h1, h2, h3, h4⟩ := last_page o
    have hc := h4.count
    have gch := h4.2
    have hpg : L.pages[L.pages.length - 1]? = some a := by simp [h1]
    have hset : ∀ a', L.pages.set (L.pages.length - 1) a' = P ++ [a'] := by
      intro a'; rw [h1, show (P ++ [a]).length - 1 = P.length by simp, set_mid]
    obtain ⟨m, hm⟩ : ∃ m, vs.length = m + 1 := ⟨vs.length - 1, by omega⟩
    have k1' := k1
    rw [show appendLoop L.pageSize (.buf vs) okNew ok vs.length 0 L.pages = appendLoop L.pageSize (.buf vs) okNew ok (m + 1) 0 L.pages by rw [hm]] at k1
    simp only [appendLoop, Src.count, hpg] at k1
    rw [if_pos (by omega)] at k1
    simp only [Nat.sub_zero, Nat.zero_add] at k1
    by_cases hca : vs.length > L.pageSize - a.count
    · rw [if_pos hca] at k1
      obtain ⟨b, eb, gb, -⟩ := pg_create_any (α := α) o.chunk1 (okNew 0)
      rw [gch, eb, ebind] at k1
      by_cases ha : L.pageSize - a.count = 0
      · -- the last page is full
        rw [if_pos ha] at k1
        have htl : t.length = L.pageSize := by omega
        have hnm : (init ++ [t]).flatten.length ≠ 0 ∧ (init ++ [t]).flatten.length % L.pageSize = 0 := by
          rw [← o.count, hcnt, htl, ← Nat.succ_mul, Nat.mul_mod_left]
          refine ⟨?_, rfl⟩
          have := Nat.le_mul_of_pos_left L.pageSize (show 0 < init.length.succ by omega); omega
        have hnu : ∀ c, ¬ Undone L.pageSize (init ++ [t]).flatten.length vs.length c := by
          intro c hu; rcases hu with hu | ⟨-, hu | hu⟩
          · rw [hr] at hu; omega
          · exact hnm.1 hu
          · exact hu hnm.2
        have hge : L.pageSize ≤ vs.length := by
          rcases hh with h | h
          · have := lf.1 h; omega
          · rcases Nat.lt_or_ge vs.length L.pageSize with h' | h'
            · rw [Nat.mod_eq_of_lt h'] at h; omega
            · exact h'
        obtain ⟨s1, s2, s3⟩ := slice_cells (vs := vs) (loop := 0) (n := L.pageSize) (by omega)
        obtain ⟨b', r, eb', hrr⟩ := pg_appendN_any gb _ (by rw [s2]; omega) (ok 0)
        rw [s1, ebind, eb', ebind] at k1; simp only [] at k1
        rcases hrr with ⟨rfl, rfl, hok⟩ | ⟨hrr, gb'⟩
        · rw [if_pos rfl] at k1
          cases k1
          refine ⟨{ L with pages := L.pages ++ [b'], hasLast := true }, 0, ?_, k3, k4, rfl, .inr ⟨hnu 0, b', rfl, gb.count⟩⟩
          simp only [appendN, Src.count, k1', ebind]; rfl
        · rw [if_neg hrr] at k1
          rw [s3] at gb'
          have hbl : b'.count = L.pageSize := by rw [gb'.count]; simp; omega
          obtain ⟨Q', rfl⟩ := loop_keeps (.buf vs) okNew ok _ _ L.pages b' [] _ _ hbl hps k1
          have hcp : c ≠ 0 := by
            intro h0; subst h0
            -- a failure after the first iteration happens at a positive position
            rcases loop_any o.chunk1 o.ps1 vs okNew ok m L.pageSize (L.pages ++ [b']) (init ++ [t]) _ (f2_append o.pages (.cons gb' .nil)) (by
              intro x hx; rcases List.mem_append.1 hx with hx | hx
              · exact o.shape.full x hx
              · simp at hx; subst hx; omega) (by simp; omega) (by
                right
                have hm : vs.length % L.pageSize = 0 := by
                  rcases hh with h | h
                  · have := lf.1 h; omega
                  · exact h
                rw [← Nat.mod_eq_sub_mod hge]; exact hm) (by
                intro hh'; exfalso; have := gb'.count; rw [hh'] at this; simp only [List.length_nil] at this; omega) hge (by omega) with ⟨_, _, _, j1, -⟩ | ⟨_, _, j1, j2, -⟩
            · rw [j1] at k1; cases k1
            · rw [j1] at k1; cases k1; omega
          obtain ⟨b2, r2, e2, g2⟩ := pg_removeN gb' 0 L.pageSize (by omega) (by simp; omega)
          have hdiv : L.count / L.pageSize = L.pages.length := by
            rw [hcnt, htl, ← Nat.succ_mul, Nat.mul_div_cancel _ (by omega), h1]; simp [h2]
          have hrest : restore L (L.pages ++ b' :: Q') = .ok (L.pages ++ [b2]) := by
            simp only [restore, hdiv]
            rw [show (L.pages ++ b' :: Q')[L.pages.length]? = some b' by simp]
            simp only []
            rw [show L.count - L.pages.length * L.pageSize = 0 by
              rw [hcnt, htl, h1]; simp [h2, Nat.succ_mul], Nat.sub_zero, e2, ebind]
            simp only [List.take_left]; rfl
          refine ⟨{ L with pages := L.pages ++ [b2], hasLast := true }, c, ?_, k3, k4, rfl, .inr ⟨hnu c, b2, rfl, by rw [g2.count]; simp⟩⟩
          obtain ⟨c', rfl⟩ : ∃ c', c = c' + 1 := ⟨c - 1, by omega⟩
          simp only [appendN, Src.count, k1', ebind, hrest]; rfl
      · -- the last page is filled first
        rw [if_neg ha] at k1
        have htl : t.length < L.pageSize := by omega
        have hnm : (init ++ [t]).flatten.length = 0 ∨ (init ++ [t]).flatten.length % L.pageSize ≠ 0 := by
          have := lf.2 htl
          by_cases ht : t.length = 0
          · left; have := o.shape.ne (List.length_eq_zero_iff.1 ht); simp [this, List.length_eq_zero_iff.1 ht]
          · right; omega
        obtain ⟨s1, s2, s3⟩ := slice_cells (vs := vs) (loop := 0) (n := L.pageSize - a.count) (by omega)
        obtain ⟨a', r, ea', hrr⟩ := pg_appendN_any h4 _ (by rw [s2]; omega) (ok 0)
        rw [s1, ebind, ea', ebind] at k1; simp only [] at k1
        rcases hrr with ⟨rfl, rfl, hok⟩ | ⟨hrr, ga'⟩
        · rw [if_pos rfl] at k1
          cases k1
          refine ⟨{ L with pages := L.pages ++ [b], hasLast := true }, 0, ?_, k3, k4, rfl, .inr ⟨?_, b, rfl, gb.count⟩⟩
          · simp only [appendN, Src.count, k1', ebind, hset, ← h1]; rfl
          · intro hu; rcases hu with hu | hu
            · rw [hr] at hu; omega
            · exact hu.1 rfl
        · rw [if_neg hrr, hset, List.append_assoc] at k1
          rw [s3] at ga'
          have hal : a'.count = L.pageSize := by rw [ga'.count]; simp; omega
          obtain ⟨Q', rfl⟩ := loop_keeps (.buf vs) okNew ok _ _ P a' [b] _ _ hal hps k1
          have hcp : c ≠ 0 := by
            intro h0; subst h0
            rcases loop_any o.chunk1 o.ps1 vs okNew ok m (L.pageSize - a.count) (P ++ [a'] ++ [b]) (init ++ [t ++ ((vs.map some).drop 0).take (L.pageSize - a.count)]) []
              (f2_append (f2_append h3 (.cons ga' .nil)) (.cons gb .nil)) (by
              intro x hx; rcases List.mem_append.1 hx with hx | hx
              · exact o.shape.full x hx
              · simp at hx; subst hx; simp; omega) (by simp) (by left; simp; omega) (by intros; omega) (by omega) (by omega) with ⟨_, _, _, j1, -⟩ | ⟨_, _, j1, j2, -⟩
            · rw [List.append_assoc] at j1; rw [show [a'] ++ [b] = a' :: [b] from rfl] at j1; rw [show [a'] ++ [b] = a' :: [b] from rfl] at k1; rw [j1] at k1; cases k1
            · rw [List.append_assoc] at j1; rw [show [a'] ++ [b] = a' :: [b] from rfl] at j1; rw [show [a'] ++ [b] = a' :: [b] from rfl] at k1; rw [j1] at k1; cases k1; omega
          obtain ⟨b2, r2, e2, g2⟩ := pg_removeN ga' t.length (L.pageSize - t.length) (by omega) (by simp; omega)
          rw [List.take_left] at g2
          have hdiv : L.count / L.pageSize = P.length := by
            rw [hcnt, h2, Nat.add_comm, Nat.add_mul_div_right _ _ (by omega), Nat.div_eq_of_lt htl]; omega
          have hrest : restore L (P ++ a' :: Q') = .ok (P ++ [b2]) := by
            simp only [restore, hdiv]
            rw [show (P ++ a' :: Q')[P.length]? = some a' by simp]
            simp only []
            rw [show L.count - P.length * L.pageSize = t.length by rw [hcnt, h2]; omega, e2, ebind]
            simp only [List.take_left]; rfl
          refine ⟨{ L with pages := P ++ [b2], hasLast := true }, c, ?_, k3, k4, rfl, .inl ⟨.inr ⟨hcp, hnm⟩, init, t, ⟨?_, o.shape, o.count, o.chunk1, o.ps1, rfl⟩, rfl⟩⟩
          · obtain ⟨c', rfl⟩ : ∃ c', c = c' + 1 := ⟨c - 1, by omega⟩
            simp only [appendN, Src.count, k1', ebind, hrest]; rfl
          · exact f2_append h3 (.cons g2 .nil)
    · -- it fits on the last page
      rw [if_neg hca] at k1
      obtain ⟨s1, s2, s3⟩ := slice_cells (vs := vs) (loop := 0) (n := vs.length) (by omega)
      obtain ⟨a', r, ea', hrr⟩ := pg_appendN_any h4 _ (by rw [s2]; omega) (ok 0)
      rw [s1, ebind, ea', ebind] at k1; simp only [] at k1
      rcases hrr with ⟨rfl, rfl, hok⟩ | ⟨hrr, ga'⟩
      · rw [if_pos rfl] at k1
        cases k1
        refine ⟨L, 0, ?_, k3, k4, rfl, .inl ⟨.inl (by rw [hr]; omega), init, t, o, rfl⟩⟩
        simp only [appendN, Src.count, k1', ebind, hset, ← h1, hLL]; rfl
      · rw [if_neg hrr] at k1
        exfalso
        cases m with
        | zero => simp only [appendLoop, Src.count, Nat.lt_irrefl, if_false] at k1; cases k1
        | succ m => simp only [appendLoop, Src.count, Nat.lt_irrefl, if_false] at k1; cases k1

/-- The single append, in every environment. -/
theorem append_any {chunk} {L : PL α} {init t} (o : LOk chunk L init t) (e : Option α) (okNew ok : Bool) :
    (∃ L', append L e okNew ok = .ok (L', .index (init ++ [t]).flatten.length) ∧ L'.pageSize = L.pageSize ∧ Rep chunk L' ((init ++ [t]).flatten ++ [e])) ∨
    (∃ L', append L e okNew ok = .ok (L', .sizeMax) ∧ ok = false ∧ L'.pageSize = L.pageSize ∧
      ((1 ≤ room L.pageSize (init ++ [t]).flatten.length ∧ L' = L) ∨
       (room L.pageSize (init ++ [t]).flatten.length = 0 ∧ okNew = false ∧ Trailing L L'))) := by
  obtain ⟨P, a, h1, h2, h3, h4⟩ := last_page o
  have hr := room_eq o
  have hc := h4.count
  have hle := o.shape.le
  have hLL : ({ L with hasLast := true } : PL α) = L := by have := o.last; cases L; simp_all
  have hp : page L (L.pages.length - 1) = .ok a := by
    rw [show L.pages.length - 1 = P.length by simp [h1]]; exact page_mid h1
  have hset : ∀ a', L.pages.set (L.pages.length - 1) a' = P ++ [a'] := by
    intro a'; rw [h1, show (P ++ [a]).length - 1 = P.length by simp, set_mid]
  by_cases hf : a.count = L.pageSize
  · obtain ⟨b, eb, gb, hng⟩ := pg_create_any (α := α) o.chunk1 okNew
    obtain ⟨b', r, eb', hrr⟩ := pg_append_any gb e ok
    rcases hrr with ⟨rfl, rfl, hok⟩ | ⟨hrr, gb'⟩
    · right
      refine ⟨{ L with pages := L.pages ++ [b'], hasLast := true }, ?_, hok, rfl, .inr ⟨by rw [hr]; omega, ?_, b', rfl, gb.count⟩⟩
      · simp only [append]
        rw [hp, ebind, if_pos hf, h4.2, eb, ebind, eb', ebind]; rfl
      · cases okNew with
        | false => rfl
        | true =>
          exfalso
          have := hng rfl
          simp only [Array.append, this, Bool.false_and, Bool.false_eq_true, if_false] at eb'
          cases hd : deref b' with
          | error e => rw [hd] at eb'; cases eb'
          | ok cells =>
            rw [hd, ok_bind] at eb'
            cases hw : writeSrc cells b'.count (srcOf e) with
            | error e => rw [hw] at eb'; cases eb'
            | ok cells' =>
              rw [hw, ok_bind] at eb'
              have := congrArg (fun x => x.map Prod.snd) eb'
              simp [Except.map, pure, Except.pure] at this
    · left
      refine ⟨{ L with pages := L.pages ++ [b'], count := L.count + 1, hasLast := true }, ?_, rfl, init ++ [t], [e], ⟨?_, ⟨?_, o.ps1, by simp⟩, ?_, o.chunk1, o.ps1, rfl⟩, by simp⟩
      · simp only [append]
        rw [hp, ebind, if_pos hf, h4.2, eb, ebind, eb', ebind]
        simp only []
        rw [if_neg hrr, o.count]; rfl
      · exact f2_append o.pages (.cons gb' .nil)
      · intro x hx; rcases List.mem_append.1 hx with hx | hx
        · exact o.shape.full x hx
        · simp at hx; subst hx; rw [← hc]; exact hf
      · simp [o.count]; omega
  · obtain ⟨a', r, ea, hrr⟩ := pg_append_any h4 e ok
    rcases hrr with ⟨rfl, rfl, hok⟩ | ⟨hrr, ga⟩
    · right
      refine ⟨L, ?_, hok, rfl, .inl ⟨by rw [hr]; omega, rfl⟩⟩
      simp only [append]
      rw [hp, ebind, if_neg hf, ea, ebind]
      simp only [hset, ← h1, hLL]; rfl
    · left
      refine ⟨{ L with pages := L.pages.set (L.pages.length - 1) a', count := L.count + 1, hasLast := true }, ?_, rfl, init, t ++ [e], ⟨?_, ⟨o.shape.full, ?_, by simp⟩, ?_, o.chunk1, o.ps1, rfl⟩, by simp⟩
      · simp only [append]
        rw [hp, ebind, if_neg hf, ea, ebind]
        simp only []
        rw [if_neg hrr, o.count]; rfl
      · rw [hset]; exact f2_append h3 (.cons ga .nil)
      · simp; omega
      · simp [o.count]; omega

/-! ## C118 -/

namespace Spec

/-- Histories of documented calls in which memory may run out during appends, but only in appends of many elements that fit on the last page, or that
start on a page with room and are granted their first request, or in appends of one element to a page with room or with the block of a new page granted. -/
inductive History (chunk pageSize : Nat) : PL α → List (Option α) → Prop
  | create (L : PL α) : PList.create α chunk pageSize = .ok L → History chunk pageSize L []
  | call (L : PL α) (l : List (Option α)) (op : Op α) (L' : PL α) (r : Ret) :
      History chunk pageSize L l → valid l.length op → handled L.pageSize l.length op →
      step L op = .ok (L', r) → History chunk pageSize L' (edit l op)
  | append (L : PL α) (l : List (Option α)) (e : Option α) (okNew ok : Bool) (L' : PL α) (r : Ret) :
      History chunk pageSize L l → (1 ≤ room L.pageSize l.length ∨ okNew = true) →
      append L e okNew ok = .ok (L', r) → History chunk pageSize L' (if r = .sizeMax then l else l ++ [e])
  | appendN (L : PL α) (l : List (Option α)) (vs : List α) (okNew ok : Nat → Bool) (L' : PL α) (r : Ret) :
      History chunk pageSize L l → vs ≠ [] → handled L.pageSize l.length (.appendN (.buf vs)) →
      (vs.length ≤ room L.pageSize l.length ∨ (1 ≤ room L.pageSize l.length ∧ ok 0 = true)) →
      appendN L (.buf vs) okNew ok = .ok (L', r) → History chunk pageSize L' (if r = .sizeMax then l else l ++ vs.map some)

end Spec

theorem room_pos {ps n : Nat} (hps : 1 ≤ ps) : 1 ≤ room ps n ↔ (n = 0 ∨ n % ps ≠ 0) := by
  rw [room]
  split
  · exact ⟨fun _ => .inl ‹_›, fun _ => hps⟩
  · split
    · constructor
      · intro h; omega
      · intro h; omega
    · have := Nat.mod_lt n (show ps > 0 by omega)
      exact ⟨fun _ => .inr ‹_›, fun _ => by omega⟩

theorem history_rep' {chunk ps : Nat} {L : PL α} {l} (h : Spec.History chunk ps L l) : Rep chunk L l := by
  induction h with
  | create L h => exact history_rep (.create L h)
  | call L l op L' r _ hv hh hs ih =>
    obtain ⟨L2, e, -, rep⟩ := step_rep ih op hv hh
    rw [e] at hs; cases hs; exact rep
  | append L l e okNew ok L' r _ hg hs ih =>
    have ih' := ih
    obtain ⟨init, t, o, rfl⟩ := ih'
    rcases append_any o e okNew ok with ⟨L2, e1, -, rep⟩ | ⟨L2, e1, -, -, h⟩
    · rw [e1] at hs; cases hs; rw [if_neg (by simp)]; exact rep
    · rw [e1] at hs; cases hs; rw [if_pos rfl]
      rcases h with ⟨-, rfl⟩ | ⟨h0, h1, -⟩
      · exact ih
      · rw [h0, h1] at hg; simp at hg
  | appendN L l vs okNew ok L' r _ hv hh hg hs ih =>
    have ih' := ih
    obtain ⟨init, t, o, rfl⟩ := ih'
    rcases appendN_any o vs hv hh okNew ok with ⟨L2, e1, -, rep⟩ | ⟨L2, c, e1, -, hc, -, h⟩
    · rw [e1] at hs; cases hs; rw [if_neg (by simp)]; exact rep
    · rw [e1] at hs; cases hs; rw [if_pos rfl]
      rcases h with ⟨-, rep⟩ | ⟨hn, -⟩
      · exact rep
      · exfalso
        apply hn
        rcases hg with hg | ⟨hg, h0⟩
        · exact .inl hg
        · exact .inr ⟨(fun h => by rw [h, h0] at hc; cases hc), (room_pos o.ps1).1 hg⟩

/-- **C118 (append of many, exactly)**: in every environment the call succeeds with the elements appended, or returns the failure value.  A failure
leaves the sequence as it was if the elements would have fitted on the last page, or if some elements had been copied and the last page had room; in every other
case it leaves the list spoiled. -/
theorem C118_append_many_exact (chunk pageSize : Nat) (L : PL α) (l : List (Option α)) (h : Spec.History chunk pageSize L l)
    (vs : List α) (hv : vs ≠ []) (hh : handled L.pageSize l.length (.appendN (.buf vs))) (okNew ok : Nat → Bool) :
    (∃ L', appendN L (.buf vs) okNew ok = .ok (L', .index l.length) ∧ Shows L' (l ++ vs.map some)) ∨
    (∃ L' copied, appendN L (.buf vs) okNew ok = .ok (L', .sizeMax) ∧ copied < vs.length ∧ ok copied = false ∧
      ((Undone L.pageSize l.length vs.length copied ∧ Shows L' l) ∨
       (¬ Undone L.pageSize l.length vs.length copied ∧ Spoiled L' l.length))) := by
  have rep := history_rep' h
  have rep' := rep
  obtain ⟨init, t, o, rfl⟩ := rep'
  rcases appendN_any o vs hv hh okNew ok with ⟨L', e, -, r⟩ | ⟨L', c, e, hc, hk, -, ⟨h1, h2⟩ | ⟨h1, h2⟩⟩
  · exact .inl ⟨L', e, rep_shows r⟩
  · exact .inr ⟨L', c, e, hc, hk, .inl ⟨h1, rep_shows h2⟩⟩
  · exact .inr ⟨L', c, e, hc, hk, .inr ⟨h1, trailing_spoiled rep h2⟩⟩

/-- **C118 (append of one, exactly)**: a failure leaves the list untouched if the last page has room, and otherwise leaves it spoiled. -/
theorem C118_append_one_exact (chunk pageSize : Nat) (L : PL α) (l : List (Option α)) (h : Spec.History chunk pageSize L l)
    (e : Option α) (okNew ok : Bool) :
    (∃ L', append L e okNew ok = .ok (L', .index l.length) ∧ Shows L' (l ++ [e])) ∨
    (∃ L', append L e okNew ok = .ok (L', .sizeMax) ∧ ok = false ∧
      ((1 ≤ room L.pageSize l.length ∧ L' = L) ∨ (room L.pageSize l.length = 0 ∧ okNew = false ∧ Spoiled L' l.length))) := by
  have rep := history_rep' h
  have rep' := rep
  obtain ⟨init, t, o, rfl⟩ := rep'
  rcases append_any o e okNew ok with ⟨L', e, -, r⟩ | ⟨L', e, hk, -, ⟨h1, h2⟩ | ⟨h1, h2, h3⟩⟩
  · exact .inl ⟨L', e, rep_shows r⟩
  · exact .inr ⟨L', e, hk, .inl ⟨h1, h2⟩⟩
  · exact .inr ⟨L', e, hk, .inr ⟨h1, h2, trailing_spoiled rep h3⟩⟩

/-- **C118 (partial)**: through any history in which the failures are of the kinds that are undone, the list shows the sequence of what was reported
as appended, and every further documented call works.
Missing: the failures that spoil the list (`C118_refuted`), and failures inside insertion and removal. -/
theorem C118_history_partial (chunk pageSize : Nat) (L : PL α) (l : List (Option α)) (h : Spec.History chunk pageSize L l) :
    Shows L l ∧ ∀ op, valid l.length op → handled L.pageSize l.length op → ∃ L', step L op = .ok (L', result l op) ∧ Shows L' (edit l op) := by
  have rep := history_rep' h
  refine ⟨rep_shows rep, fun op hv hh => ?_⟩
  obtain ⟨L', e, -, rep'⟩ := step_rep rep op hv hh
  exact ⟨L', e, rep_shows rep'⟩

/-- **C118 is false**: a list of one element on pages of two; appending two more runs out of memory and reports failure; the element can then not be
removed, although it could before the call. -/
theorem C118_refuted :
    ∃ (L L' : PL Nat), Spec.History 1 2 L [some 1] ∧ appendN L (.buf [2, 3]) (fun _ => true) (fun _ => false) = .ok (L', .sizeMax) ∧
      (∃ L'', step L (.remove 0) = .ok (L'', .unit)) ∧ step L' (.remove 0) = .error .assertion := by
  have h0 : Spec.History (α := Nat) 1 2 _ _ := .create _ rfl
  have h1 := Spec.History.call _ _ (.append (some 1)) _ _ h0 trivial trivial rfl
  exact ⟨_, _, h1, rfl, ⟨_, rfl⟩, rfl⟩

/-- **C118 is false for a failure that is rolled back**: two elements on pages of two; of four more the second page of two is refused; the second element can
then neither be removed nor, in a longer list, be read. -/
theorem C118_rollback_refuted :
    ∃ (L L' : PL Nat), Spec.History 1 2 L [some 1, some 2] ∧
      appendN L (.buf [3, 4, 5, 6]) (fun _ => true) (fun c => c == 0) = .ok (L', .sizeMax) ∧
      step L' (.remove 1) = .error .assertion := by
  have h0 : Spec.History (α := Nat) 1 2 _ _ := .create _ rfl
  have h1 := Spec.History.call _ _ (.append (some 1)) _ _ h0 trivial trivial rfl
  have h2 := Spec.History.call _ _ (.append (some 2)) _ _ h1 trivial trivial rfl
  exact ⟨_, _, h2, rfl, rfl⟩

/-- A history with an undone failure: five elements appended to one on pages of two, the second page refused, then a removal. -/
example : ∃ (L : PL Nat), Spec.History 1 2 L [some 7] := by
  have h0 : Spec.History (α := Nat) 1 2 _ _ := .create _ rfl
  have h1 := Spec.History.call _ _ (.append (some 1)) _ _ h0 trivial trivial rfl
  have h2 := Spec.History.appendN _ _ [2, 3, 4, 5, 6] (fun _ => true) (fun c => c == 0) _ _ h1 (by simp) (by simp [handled, edit]) (.inr ⟨by simp [room, edit], rfl⟩) rfl
  have h3 := Spec.History.append _ _ (some 7) true true _ _ h2 (.inr rfl) rfl
  have h4 := Spec.History.call _ _ (.remove 0) _ _ h3 (by simp [valid, edit]) trivial rfl
  exact ⟨_, h4⟩

#print axioms C118_append_many_exact
#print axioms C118_append_one_exact
#print axioms C118_history_partial
#print axioms C118_refuted
#print axioms C118_rollback_refuted

end Verif.PListFail
