import Verif.ZoneEnumSpec
/-!
# Helpers for C59
-/
namespace Verif.ZoneEnum

open Verif.Zone (Block)
open Verif.Enumerable (Call dec)

/-! ## Counting items -/

/-- The offset of the first item of the block at distance `d` from the start. -/
def org (k d : Nat) : Nat := if d = 0 then k else 0

/-- The number of items of the block at distance `d`. -/
def cnt (bs : List Block) (i k s d : Nat) : Nat :=
  match bs[i + d]? with
  | some b => (b.offset - org k d) / s
  | none => 0

/-- The number of items before the block at distance `d`. -/
def pre (bs : List Block) (i k s : Nat) : Nat → Nat
  | 0 => 0
  | d + 1 => pre bs i k s d + cnt bs i k s d

theorem pre_mono (bs : List Block) (i k s : Nat) {d e : Nat} (h : d ≤ e) : pre bs i k s d ≤ pre bs i k s e := by
  induction h with
  | refl => exact Nat.le_refl _
  | step _ ih => simp only [pre]; omega

theorem pre_congr {bs cs : List Block} {i k s : Nat} {d : Nat} (h : ∀ e, e < d → cnt bs i k s e = cnt cs i k s e) :
    pre bs i k s d = pre cs i k s d := by
  induction d with
  | zero => rfl
  | succ d ih => simp only [pre]; rw [ih (fun e he => h e (by omega)), h d (by omega)]

open Spec in
theorem items_split (bs : List Block) (i k s d : Nat) (hd : i + d ≤ bs.length) :
    ∃ A : List Addr, itemsFrom s i (bs.drop i) k = A ++ itemsFrom s (i + d) (bs.drop (i + d)) (org k d) ∧ A.length = pre bs i k s d := by
  induction d with
  | zero => exact ⟨[], by simp [org], rfl⟩
  | succ d ih =>
    obtain ⟨A, hA, hl⟩ := ih (by omega)
    have hlt : i + d < bs.length := by omega
    rw [List.drop_eq_getElem_cons hlt, itemsFrom] at hA
    refine ⟨A ++ ((List.range ((bs[i + d].offset - org k d) / s)).map fun n => (i + d, org k d + n * s)), ?_, ?_⟩
    · rw [hA, List.append_assoc]
      simp [org, Nat.add_assoc]
    · simp only [List.length_append, List.length_map, List.length_range, pre, cnt, List.getElem?_eq_getElem hlt, hl]

open Spec in
theorem items_length (bs : List Block) (i k s : Nat) (hi : i ≤ bs.length) :
    (itemsFrom s i (bs.drop i) k).length = pre bs i k s (bs.length - i) := by
  obtain ⟨A, hA, hl⟩ := items_split bs i k s (bs.length - i) (by omega)
  rw [hA, ← hl, show i + (bs.length - i) = bs.length by omega]
  simp [itemsFrom]

open Spec in
theorem items_get (bs : List Block) (i k s d n : Nat) (hn : n < cnt bs i k s d) :
    (itemsFrom s i (bs.drop i) k)[pre bs i k s d + n]? = some (i + d, org k d + n * s) := by
  have hlt : i + d < bs.length := by
    rcases Nat.lt_or_ge (i + d) bs.length with h | h
    · exact h
    · simp [cnt, List.getElem?_eq_none h] at hn
  obtain ⟨A, hA, hl⟩ := items_split bs i k s d (by omega)
  have hn' : n < (bs[i + d].offset - org k d) / s := by
    simpa [cnt, List.getElem?_eq_getElem hlt] using hn
  rw [hA, ← hl, List.getElem?_append_right (by omega), Nat.add_sub_cancel_left, List.drop_eq_getElem_cons hlt, itemsFrom,
    List.getElem?_append_left (by simpa using hn')]
  simp [hn']

/-! ## The state of the enumerable -/

/-- What is assumed about the blocks. -/
structure Reg (bs : List Block) (i k s L : Nat) : Prop where
  pos : 0 < s
  lim : L < 2 ^ 64
  dvd : s ∣ k
  first : ∃ b, bs[i]? = some b ∧ k + s ≤ b.offset
  rest : ∀ d b, 0 < d → bs[i + d]? = some b → s ≤ b.offset
  start : k = 0 ∨ i + 1 < bs.length ∨ L ≤ cnt bs i k s 0

theorem Reg.cnt_pos {bs : List Block} {i k s L : Nat} (R : Reg bs i k s L) {d : Nat} (h : i + d < bs.length) :
    0 < cnt bs i k s d := by
  have hb : bs[i + d]? = some bs[i + d] := List.getElem?_eq_getElem h
  rw [cnt, hb]
  apply Nat.div_pos _ R.pos
  rcases Nat.eq_zero_or_pos d with rfl | hd
  · obtain ⟨b, e, hk⟩ := R.first
    simp only [Nat.add_zero] at hb e ⊢
    rw [hb] at e
    injection e with e
    subst e
    simp only [org, if_true]
    omega
  · have := R.rest d _ hd hb
    simp only [org, if_neg (by omega : ¬ d = 0)]
    omega

/-- Every item the enumerable believes to be in its block is there; it believes less only when it stands in the last block
and that has been extended since the client last saw the end. -/
structure Inv (bs : List Block) (i k s L : Nat) (fresh : Bool) (pos : Nat) (e : En) (d : Nat) : Prop where
  ref : e.ref = some (i + d)
  inn : i + d < bs.length
  base : e.base = org k d
  before : e.before = pre bs i k s d
  limit : e.limit = L
  stride : e.stride = s
  index : e.index < e.count
  pos : pos = pre bs i k s d + e.index
  le1 : e.count ≤ cnt bs i k s d
  le2 : pre bs i k s d + e.count ≤ L
  full : e.count = cnt bs i k s d ∨ pre bs i k s d + e.count = L ∨
    (i + d + 1 = bs.length ∧ fresh = false ∧ pre bs i k s d + cnt bs i k s d ≤ L ∧ (0 < d ∨ k = 0))

theorem items_len (bs : List Block) (i k s L : Nat) (hi : i ≤ bs.length) :
    (Spec.items bs i k s L).length = min L (pre bs i k s (bs.length - i)) := by
  rw [Spec.items, List.length_take, items_length _ _ _ _ hi]

theorem Inv.lt {bs : List Block} {i k s L : Nat} {fresh : Bool} {pos : Nat} {e : En} {d : Nat} (I : Inv bs i k s L fresh pos e d) :
    pos < (Spec.items bs i k s L).length := by
  have h := I.inn
  rw [items_len _ _ _ _ _ (by omega)]
  have h1 : pre bs i k s (d + 1) ≤ pre bs i k s (bs.length - i) := pre_mono _ _ _ _ (by omega)
  have := I.index; have := I.pos; have := I.le1; have := I.le2
  simp only [pre] at h1
  omega

theorem get_item {bs : List Block} {i k s L d n : Nat} (hn : n < cnt bs i k s d) (hL : pre bs i k s d + n < L) :
    (Spec.items bs i k s L)[pre bs i k s d + n]? = some (i + d, org k d + n * s) := by
  rw [Spec.items, List.getElem?_take, if_pos hL, items_get _ _ _ _ _ _ hn]

theorem Inv.at_eq {bs : List Block} {i k s L : Nat} {fresh : Bool} {pos : Nat} {e : En} {d : Nat} (I : Inv bs i k s L fresh pos e d) :
    at_ e = (Spec.items bs i k s L)[pos]? := by
  have := I.index; have := I.le1; have := I.le2
  rw [I.pos, get_item (by omega) (by omega), at_, I.ref, I.base, I.stride]
  rfl

theorem Inv.finish_eq {bs : List Block} {i k s L : Nat} {fresh : Bool} {pos : Nat} {e : En} {d : Nat} (I : Inv bs i k s L fresh pos e d) :
    finish e = (Spec.items bs i k s L)[pos]? := by
  have := I.index
  rw [finish, if_neg (by omega), I.at_eq]

theorem Inv.get_some {bs : List Block} {i k s L : Nat} {fresh : Bool} {pos : Nat} {e : En} {d : Nat} (I : Inv bs i k s L fresh pos e d) :
    ∃ a, (Spec.items bs i k s L)[pos]? = some a := ⟨_, List.getElem?_eq_getElem I.lt⟩

/-- With the whole block known the client may count as having seen the end. -/
theorem Inv.weaken {bs : List Block} {i k s L : Nat} {fresh : Bool} {pos : Nat} {e : En} {d : Nat} (I : Inv bs i k s L fresh pos e d)
    (h : e.count = cnt bs i k s d ∨ pre bs i k s d + e.count = L) (f : Bool) : Inv bs i k s L f pos e d :=
  { I with full := h.elim Or.inl fun h => Or.inr (Or.inl h) }

/-! ## The handler -/

theorem next_spec {bs : List Block} {i k s L : Nat} (R : Reg bs i k s L) {fresh : Bool} {pos : Nat} {e : En} {d : Nat}
    (I : Inv bs i k s L fresh pos e d) :
    (hNext bs e = some (e, none) ∧ (e.count = cnt bs i k s d ∨ pre bs i k s d + e.count = L) ∧
      pre bs i k s d + e.count = (Spec.items bs i k s L).length) ∨
    (∃ e' a, hNext bs e = some (e', some a) ∧ Inv bs i k s L fresh (pre bs i k s d + e.count) e' (d + 1) ∧
      (e'.count = cnt bs i k s (d + 1) ∨ pre bs i k s (d + 1) + e'.count = L) ∧ finish e' = some a) ∨
    (∃ e' a, hNext bs e = some (e', some a) ∧ Inv bs i k s L fresh (pos + 1) e' d ∧
      (e.count ≠ cnt bs i k s d ∧ pre bs i k s d + e.count ≠ L) ∧ e'.count = cnt bs i k s d ∧ finish e' = some a) := by
  have hin := I.inn
  have hle1 := I.le1; have hle2 := I.le2; have hidx := I.index
  have hlen := items_len bs i k s L (by omega : i ≤ bs.length)
  have hm : pre bs i k s (d + 1) ≤ pre bs i k s (bs.length - i) := pre_mono _ _ _ _ (by omega)
  simp only [pre] at hm
  have hb : bs[i + d]? = some bs[i + d] := List.getElem?_eq_getElem hin
  by_cases hL : e.before + e.count = e.limit
  · left
    have hL' := hL
    rw [I.before, I.limit] at hL'
    refine ⟨by rw [hNext, if_pos hL], Or.inr hL', ?_⟩
    rw [hlen]; omega
  · have hL' := hL
    rw [I.before, I.limit] at hL'
    by_cases hlast : i + d + 1 < bs.length
    · right; left
      have hb' : bs[i + d + 1]? = some bs[i + d + 1] := List.getElem?_eq_getElem hlast
      have hc : e.count = cnt bs i k s d := by
        rcases I.full with h | h | h
        · exact h
        · exact absurd h hL'
        · omega
      have hcd : cnt bs i k s (d + 1) = bs[i + d + 1].offset / s := by
        rw [cnt, ← Nat.add_assoc, hb']
        simp [org]
      have hp : pre bs i k s (d + 1) = pre bs i k s d + e.count := by simp only [pre]; omega
      have hcp : 0 < cnt bs i k s (d + 1) := R.cnt_pos (by omega)
      generalize he' : ({ e with before := e.before + e.count, ref := some (i + d + 1), base := 0, index := 0, count := min (bs[i + d + 1].offset / e.stride) (e.limit - (e.before + e.count)) } : En) = e'
      have I' : Inv bs i k s L fresh (pre bs i k s d + e.count) e' (d + 1) := by
        subst he'
        have e1 := I.before; have e2 := I.limit; have e3 := I.stride
        constructor <;> try dsimp only
        · rw [Nat.add_assoc]
        · omega
        · simp [org]
        · rw [hp, e1]
        · exact I.limit
        · exact I.stride
        · rw [e1, e2, e3, ← hcd]; omega
        · omega
        · rw [e1, e2, e3, ← hcd]; omega
        · rw [e1, e2, e3, ← hcd]; omega
        · rw [e1, e2, e3, ← hcd]; omega
      obtain ⟨a, ha⟩ := I'.get_some
      refine ⟨e', a, ?_, I', ?_, by rw [I'.finish_eq, ha]⟩
      · rw [hNext, if_neg hL, I.ref]
        simp only [Option.bind_eq_bind, Option.bind_some, hb, hb']
        rw [he', I'.finish_eq, ha]
      · have e1 := I.before; have e2 := I.limit; have e3 := I.stride
        subst he'
        dsimp only
        rw [e1, e2, e3, ← hcd, hp]
        omega
    · have hb' : bs[i + d + 1]? = none := List.getElem?_eq_none (by omega)
      have hnl : i + d + 1 = bs.length := by omega
      have htot : pre bs i k s (bs.length - i) = pre bs i k s d + cnt bs i k s d := by
        rw [show bs.length - i = d + 1 by omega]; rfl
      have hdk : 0 < d ∨ k = 0 := by
        rcases I.full with h | h | h
        · rcases Nat.eq_zero_or_pos d with rfl | hd
          · rcases R.start with h0 | h0 | h0
            · exact Or.inr h0
            · omega
            · simp only [pre] at hL' hle2
              omega
          · exact Or.inl hd
        · exact absurd h hL'
        · exact h.2.2.2
      have horg : org k d = 0 := by
        rcases hdk with h | h
        · rw [org, if_neg (by omega)]
        · rw [org, h]; simp
      have hcd : cnt bs i k s d = bs[i + d].offset / s := by
        rw [cnt, hb]; simp [horg]
      by_cases hc : bs[i + d].offset / e.stride = e.count
      · left
        rw [I.stride] at hc
        refine ⟨?_, Or.inl (by omega), by rw [hlen, htot]; omega⟩
        rw [hNext, if_neg hL, I.ref]
        simp only [Option.bind_eq_bind, Option.bind_some, hb, hb']
        rw [I.stride, if_pos hc]
      · right; right
        have hs := I.stride
        have hcne : e.count ≠ cnt bs i k s d := by rw [hcd, ← hs]; exact fun h => hc h.symm
        have hfull : fresh = false ∧ pre bs i k s d + cnt bs i k s d ≤ L := by
          rcases I.full with h | h | h
          · exact absurd h hcne
          · exact absurd h hL'
          · exact ⟨h.2.1, h.2.2.1⟩
        generalize he' : ({ e with count := bs[i + d].offset / e.stride, index := e.index + 1 } : En) = e'
        have I' : Inv bs i k s L fresh (pos + 1) e' d := by
          have e1 := I.before; have e2 := I.limit
          have e4 := I.pos
          subst he'
          refine ⟨I.ref, I.inn, I.base, e1, e2, hs, ?_, ?_, ?_, ?_, ?_⟩ <;> dsimp only
          · rw [hs, ← hcd]; omega
          · omega
          · rw [hs, ← hcd]
          · rw [hs, ← hcd]; omega
          · rw [hs, ← hcd]; omega
        obtain ⟨a, ha⟩ := I'.get_some
        refine ⟨e', a, ?_, I', ⟨hcne, hL'⟩, ?_, by rw [I'.finish_eq, ha]⟩
        · rw [hNext, if_neg hL, I.ref]
          simp only [Option.bind_eq_bind, Option.bind_some, hb, hb']
          rw [if_neg hc, ← I.ref, he', I'.finish_eq, ha]
        · subst he'
          dsimp only
          rw [hs, ← hcd]

theorem previous_spec {bs : List Block} {i k s L : Nat} (R : Reg bs i k s L) {fresh : Bool} {pos : Nat} {e : En} {d : Nat}
    (I : Inv bs i k s L fresh pos e d) :
    (hPrevious bs e = some (e, none) ∧ d = 0) ∨
    (∃ e' a, hPrevious bs e = some (e', some a) ∧ 0 < d ∧ Inv bs i k s L fresh (pre bs i k s d - 1) e' (d - 1) ∧
      0 < pre bs i k s d ∧ finish e' = some a) := by
  have hin := I.inn
  have hle1 := I.le1; have hle2 := I.le2; have hidx := I.index
  rcases Nat.eq_zero_or_pos d with rfl | hd
  · left
    refine ⟨?_, rfl⟩
    rw [hPrevious, if_pos]
    rw [I.before]; rfl
  · right
    obtain ⟨d, rfl⟩ : ∃ c, d = c + 1 := ⟨d - 1, by omega⟩
    have hlt : i + d < bs.length := by omega
    have hb : bs[i + (d + 1) - 1]? = some bs[i + d] := by
      rw [show i + (d + 1) - 1 = i + d by omega]; exact List.getElem?_eq_getElem hlt
    have hc := R.cnt_pos hlt
    have hp : pre bs i k s (d + 1) = pre bs i k s d + cnt bs i k s d := rfl
    have hcl : cnt bs i k s d < 2 ^ 64 := by
      have := R.lim
      omega
    have hcd : cnt bs i k s d = (bs[i + d].offset - org k d) / s := by
      rw [cnt, List.getElem?_eq_getElem hlt]
    -- the three cases of the division
    have key : (if e.before < bs[i + d].offset / s then (bs[i + d].offset / s - e.before) * s else 0) = org k d ∧
        (if e.before < bs[i + d].offset / s then e.before else bs[i + d].offset / s) = cnt bs i k s d := by
      rw [I.before, hp]
      by_cases h0 : d = 0
      · subst h0
        obtain ⟨m, hm⟩ := R.dvd
        obtain ⟨b, hb1, hb2⟩ := R.first
        have hbb : b = bs[i + 0] := by
          have := List.getElem?_eq_getElem hlt
          simp only [Nat.add_zero] at this hb1 ⊢
          rw [hb1] at this
          injection this
        rw [hbb] at hb2
        have hdiv : bs[i + 0].offset / s = (bs[i + 0].offset - k) / s + m := by
          conv => lhs; rw [show bs[i + 0].offset = (bs[i + 0].offset - k) + s * m by omega]
          rw [Nat.add_mul_div_left _ _ R.pos]
        have ho : org k 0 = k := rfl
        rw [ho] at hcd
        rw [ho]
        simp only [pre, Nat.zero_add]
        rw [hdiv, ← hcd]
        rcases Nat.eq_zero_or_pos m with rfl | hmp
        · simp at hm
          simp [hm]
        · rw [if_pos (by omega), if_pos (by omega), Nat.add_sub_cancel_left, hm, Nat.mul_comm]
          exact ⟨rfl, rfl⟩
      · have ho : org k d = 0 := by rw [org, if_neg h0]
        rw [ho, Nat.sub_zero] at hcd
        rw [← hcd, if_neg (by omega), if_neg (by omega), ho]
        exact ⟨rfl, rfl⟩
    generalize he' : ({ e with ref := some (i + d), base := org k d, count := cnt bs i k s d, index := dec (cnt bs i k s d), before := e.before - cnt bs i k s d } : En) = e'
    have hdec : dec (cnt bs i k s d) = cnt bs i k s d - 1 := Verif.Enumerable.dec_eq hc (by omega)
    have I' : Inv bs i k s L fresh (pre bs i k s (d + 1) - 1) e' d := by
      have e1 := I.before; have e2 := I.limit
      subst he'
      refine ⟨rfl, by omega, rfl, ?_, e2, I.stride, ?_, ?_, ?_, ?_, ?_⟩ <;> dsimp only <;> (try rw [hdec]) <;> omega
    obtain ⟨a, ha⟩ := I'.get_some
    refine ⟨e', a, ?_, by omega, I', by omega, by rw [I'.finish_eq, ha]⟩
    have hne : ¬ e.before = 0 := by rw [I.before]; omega
    rw [hPrevious, if_neg hne, I.ref]
    simp only [Option.bind_eq_bind, Option.bind_some, hb]
    rw [if_neg (by omega), I.stride, key.1, key.2, show i + (d + 1) - 1 = i + d by omega, ← I.stride]
    rw [show ({ ref := some (i + d), base := org k d, count := cnt bs i k e.stride d, stride := e.stride, index := dec (cnt bs i k e.stride d), before := e.before - cnt bs i k e.stride d, limit := e.limit } : En) = e' by
      rw [I.stride]; rw [← he']; simp only [I.stride]]
    rw [I'.finish_eq, ha]

/-! ## The loops -/

theorem tailLoop_spec {bs : List Block} {i k s L : Nat} (R : Reg bs i k s L) {fresh : Bool} (fuel : Nat) {pos : Nat} {e : En} {d : Nat}
    (I : Inv bs i k s L fresh pos e d)
    (hf : (bs.length - (i + d)) + (if e.count = cnt bs i k s d ∨ pre bs i k s d + e.count = L then 0 else 1) < fuel) :
    ∃ e' d' pos', tailLoop bs fuel e = some e' ∧ Inv bs i k s L true pos' e' d' ∧
      pre bs i k s d' + e'.count = (Spec.items bs i k s L).length := by
  induction fuel generalizing pos e d with
  | zero => omega
  | succ fuel ih =>
    have hin := I.inn
    rcases next_spec R I with ⟨h, hfull, hl⟩ | ⟨e', a, h, I', hfull, _⟩ | ⟨e', a, h, I', hne, hfull, _⟩
    · refine ⟨e, d, pos, ?_, I.weaken hfull true, hl⟩
      simp only [tailLoop, h, Option.bind_eq_bind, Option.bind_some]
    · have hin' := I'.inn
      obtain ⟨e2, d2, p2, h2, r⟩ := ih I' (by rw [if_pos hfull]; omega)
      refine ⟨e2, d2, p2, ?_, r⟩
      simp only [tailLoop, h, Option.bind_eq_bind, Option.bind_some, h2]
    · rw [if_neg (by omega)] at hf
      obtain ⟨e2, d2, p2, h2, r⟩ := ih I' (by rw [if_pos (Or.inl hfull)]; omega)
      refine ⟨e2, d2, p2, ?_, r⟩
      simp only [tailLoop, h, Option.bind_eq_bind, Option.bind_some, h2]

theorem headLoop_spec {bs : List Block} {i k s L : Nat} (R : Reg bs i k s L) {fresh : Bool} (fuel : Nat) {pos : Nat} {e : En} {d : Nat}
    (I : Inv bs i k s L fresh pos e d) (hf : d < fuel) :
    ∃ e' pos', headLoop bs fuel e = some e' ∧ Inv bs i k s L fresh pos' e' 0 := by
  induction fuel generalizing pos e d with
  | zero => omega
  | succ fuel ih =>
    rcases previous_spec R I with ⟨h, rfl⟩ | ⟨e', a, h, hd, I', _⟩
    · refine ⟨e, pos, ?_, I⟩
      simp only [headLoop, h, Option.bind_eq_bind, Option.bind_some]
    · obtain ⟨e2, p2, h2, r⟩ := ih I' (by omega)
      refine ⟨e2, p2, ?_, r⟩
      simp only [headLoop, h, Option.bind_eq_bind, Option.bind_some, h2]

/-! ## One call -/

theorem step_spec {bs : List Block} {i k s L : Nat} (R : Reg bs i k s L) {fresh : Bool} {pos : Nat} {e : En} {d : Nat}
    (I : Inv bs i k s L fresh pos e d) (c : Call) :
    ∃ e' d', step bs e c = some (e', (Enumerable.Spec.step (Spec.items bs i k s L) pos c).2) ∧
      Inv bs i k s L (fresh || c = .tail || (c = .next && (Enumerable.Spec.step (Spec.items bs i k s L) pos c).2.isNone))
        (Enumerable.Spec.step (Spec.items bs i k s L) pos c).1 e' d' := by
  have hin := I.inn
  have hlt := I.lt
  have hidx := I.index; have hle1 := I.le1; have hle2 := I.le2; have hpos := I.pos
  have hlim := R.lim
  cases c with
  | current =>
    refine ⟨e, d, ?_, by simpa [Enumerable.Spec.step] using I⟩
    simp only [step, current, Enumerable.Spec.step]
    rw [if_pos (by omega), I.at_eq]
  | head =>
    obtain ⟨e', p', h, I'⟩ := headLoop_spec R (bs.length + 2) I (by omega)
    have I2 : Inv bs i k s L fresh 0 { e' with index := 0 } 0 := by
      have h1 := I'.index; have h2 := I'.pos
      exact { I' with index := by dsimp only; omega, pos := by simp [pre] }
    refine ⟨_, 0, ?_, by simpa [Enumerable.Spec.step] using I2⟩
    simp only [step, getHead, h, Option.bind_eq_bind, Option.bind_some, Enumerable.Spec.step]
    rw [I2.finish_eq]
  | tail =>
    obtain ⟨e', d', p', h, I', hl⟩ := tailLoop_spec R (bs.length + 2) I (by split <;> omega)
    have h1 := I'.index; have h2 := I'.le2
    have hdec : dec e'.count = e'.count - 1 := Verif.Enumerable.dec_eq (by omega) (by omega)
    have I2 : Inv bs i k s L true ((Spec.items bs i k s L).length - 1) { e' with index := dec e'.count } d' := by
      exact { I' with index := by dsimp only; omega, pos := by dsimp only; omega }
    refine ⟨_, d', ?_, by simpa [Enumerable.Spec.step] using I2⟩
    simp only [step, getTail, h, Option.bind_eq_bind, Option.bind_some, Enumerable.Spec.step]
    rw [I2.finish_eq]
  | next =>
    simp only [step, next, Enumerable.Spec.step]
    rw [if_neg (by omega)]
    by_cases h1 : e.index + 1 < e.count
    · have I2 : Inv bs i k s L fresh (pos + 1) { e with index := e.index + 1 } d := by
        exact { I with index := h1, pos := by dsimp only; omega }
      have hl := I2.lt
      rw [if_pos h1, if_pos hl]
      refine ⟨_, d, by rw [I2.at_eq], ?_⟩
      obtain ⟨a, ha⟩ := I2.get_some
      simpa [ha] using I2
    · rw [if_neg h1]
      have hc : pre bs i k s d + e.count = pos + 1 := by omega
      rcases next_spec R I with ⟨h, hfull, hl⟩ | ⟨e', a, h, I', hfull, hfin⟩ | ⟨e', a, h, I', hne, hfull, hfin⟩
      · rw [if_neg (by omega)]
        exact ⟨e, d, h, I.weaken hfull _⟩
      · rw [hc] at I'
        have hl := I'.lt
        rw [if_pos hl]
        have ha : (Spec.items bs i k s L)[pos + 1]? = some a := by rw [← I'.finish_eq, hfin]
        refine ⟨e', d + 1, by rw [h, ha], ?_⟩
        simpa [ha] using I'
      · have hl := I'.lt
        rw [if_pos hl]
        have ha : (Spec.items bs i k s L)[pos + 1]? = some a := by rw [← I'.finish_eq, hfin]
        refine ⟨e', d, by rw [h, ha], ?_⟩
        simpa [ha] using I'
  | previous =>
    simp only [step, previous, Enumerable.Spec.step]
    rw [if_neg (by omega)]
    by_cases h1 : e.index > 0
    · have I2 : Inv bs i k s L fresh (pos - 1) { e with index := e.index - 1 } d := by
        exact { I with index := by dsimp only; omega, pos := by dsimp only; omega }
      rw [if_pos h1, if_pos (by omega)]
      exact ⟨_, d, by rw [I2.at_eq], by simpa using I2⟩
    · rw [if_neg h1]
      rcases previous_spec R I with ⟨h, rfl⟩ | ⟨e', a, h, hd, I', hp, hfin⟩
      · rw [if_neg (by simp only [pre] at hpos; omega)]
        exact ⟨e, 0, h, by simpa using I⟩
      · have hc : pre bs i k s d - 1 = pos - 1 := by omega
        rw [hc] at I'
        rw [if_pos (by omega)]
        have ha : (Spec.items bs i k s L)[pos - 1]? = some a := by rw [← I'.finish_eq, hfin]
        exact ⟨e', d - 1, by rw [h, ha], by simpa using I'⟩

/-! ## Allocations -/

theorem growLast_length (n : Nat) (bs : List Block) : (growLast n bs).length = bs.length := by
  fun_induction growLast n bs <;> simp_all

theorem growLast_get (n : Nat) (bs : List Block) (j : Nat) :
    (growLast n bs)[j]? = if j + 1 = bs.length then bs[j]?.map fun b => { b with offset := b.offset + n } else bs[j]? := by
  fun_induction growLast n bs generalizing j with
  | case1 => simp
  | case2 b => cases j <;> simp
  | case3 b c bs ih =>
    cases j with
    | zero => simp
    | succ j =>
      rw [List.getElem?_cons_succ, ih]
      simp

theorem growLast_cnt (n : Nat) (bs : List Block) (i k s d : Nat) (h : i + d + 1 ≠ bs.length) :
    cnt (growLast n bs) i k s d = cnt bs i k s d := by
  rw [cnt, cnt, growLast_get, if_neg h]

theorem growLast_cnt_le (n : Nat) (bs : List Block) (i k s d : Nat) : cnt bs i k s d ≤ cnt (growLast n bs) i k s d := by
  rw [cnt, cnt, growLast_get]
  by_cases h : i + d + 1 = bs.length
  · rw [if_pos h]
    cases bs[i + d]? with
    | none => simp
    | some b =>
      apply Nat.div_le_div_right
      dsimp only
      omega
  · rw [if_neg h]

theorem growLast_pre (n : Nat) (bs : List Block) (i k s d : Nat) (h : i + d < bs.length) :
    pre (growLast n bs) i k s d = pre bs i k s d := by
  apply pre_congr
  intro c hc
  exact growLast_cnt _ _ _ _ _ _ (by omega)

theorem Reg.grow {bs : List Block} {i k s L : Nat} (R : Reg bs i k s L) (n : Nat) : Reg (growLast n bs) i k s L := by
  refine ⟨R.pos, R.lim, R.dvd, ?_, ?_, ?_⟩
  · obtain ⟨b, h, hk⟩ := R.first
    rw [growLast_get, h]
    split
    · exact ⟨_, rfl, by dsimp only; omega⟩
    · exact ⟨b, rfl, hk⟩
  · intro d b hd h
    rw [growLast_get] at h
    split at h
    · cases hb : bs[i + d]? with
      | none => rw [hb] at h; simp at h
      | some b' =>
        rw [hb] at h
        simp only [Option.map_some, Option.some.injEq] at h
        have := R.rest d b' hd hb
        subst h
        dsimp only
        omega
    · exact R.rest d b hd h
  · rcases R.start with h | h | h
    · exact Or.inl h
    · exact Or.inr (Or.inl (by rw [growLast_length]; exact h))
    · exact Or.inr (Or.inr (Nat.le_trans h (growLast_cnt_le _ _ _ _ _ _)))

theorem Inv.grow {bs : List Block} {i k s L : Nat} (R : Reg bs i k s L) {fresh : Bool} {pos : Nat} {e : En} {d : Nat}
    (I : Inv bs i k s L fresh pos e d) (n : Nat)
    (hL : (Spec.itemsFrom s i ((growLast n bs).drop i) k).length ≤ L) : Inv (growLast n bs) i k s L false pos e d := by
  have hin := I.inn
  have hp := growLast_pre n bs i k s d hin
  have hc := growLast_cnt_le n bs i k s d
  have hle1 := I.le1
  have hle2 := I.le2
  refine ⟨I.ref, by rw [growLast_length]; exact hin, I.base, by rw [hp]; exact I.before, I.limit, I.stride, I.index, by rw [hp]; exact I.pos,
    by omega, by omega, ?_⟩
  by_cases hl : i + d + 1 = bs.length
  · rw [items_length _ _ _ _ (by rw [growLast_length]; omega), growLast_length, show bs.length - i = d + 1 by omega] at hL
    simp only [pre] at hL
    by_cases h2 : pre bs i k s d + e.count = L
    · right; left; omega
    · right; right
      refine ⟨by rw [growLast_length]; exact hl, rfl, hL, ?_⟩
      rcases I.full with h | h | h
      · rcases Nat.eq_zero_or_pos d with rfl | hd
        · rcases R.start with h0 | h0 | h0
          · exact Or.inr h0
          · omega
          · simp only [pre] at h2 hle2
            omega
        · exact Or.inl hd
      · exact absurd h h2
      · exact h.2.2.2
  · rw [growLast_cnt _ _ _ _ _ _ hl, hp]
    rcases I.full with h | h | h
    · exact Or.inl h
    · exact Or.inr (Or.inl h)
    · exact absurd h.1 hl

theorem add_cnt (bs : List Block) (b : Block) (i k s d : Nat) (h : i + d < bs.length) : cnt (bs ++ [b]) i k s d = cnt bs i k s d := by
  rw [cnt, cnt, List.getElem?_append_left h]

theorem add_pre (bs : List Block) (b : Block) (i k s d : Nat) (h : i + d ≤ bs.length) : pre (bs ++ [b]) i k s d = pre bs i k s d := by
  apply pre_congr
  intro c hc
  exact add_cnt _ _ _ _ _ _ (by omega)

theorem Reg.add {bs : List Block} {i k s L : Nat} (R : Reg bs i k s L) (b : Block) (hb : s ≤ b.offset) : Reg (bs ++ [b]) i k s L := by
  obtain ⟨f, hf, hk⟩ := R.first
  have hi : i < bs.length := by
    rcases Nat.lt_or_ge i bs.length with h | h
    · exact h
    · rw [List.getElem?_eq_none h] at hf; simp at hf
  refine ⟨R.pos, R.lim, R.dvd, ⟨f, by rw [List.getElem?_append_left hi]; exact hf, hk⟩, ?_, Or.inr (Or.inl (by simp; omega))⟩
  intro d b' hd h
  rcases Nat.lt_or_ge (i + d) bs.length with hl | hl
  · rw [List.getElem?_append_left hl] at h
    exact R.rest d b' hd h
  · rw [List.getElem?_append_right hl] at h
    cases hx : i + d - bs.length with
    | zero => rw [hx] at h; simp at h; subst h; exact hb
    | succ m => rw [hx] at h; simp at h

theorem Inv.add {bs : List Block} {i k s L : Nat} {pos : Nat} {e : En} {d : Nat}
    (I : Inv bs i k s L true pos e d) (b : Block) : Inv (bs ++ [b]) i k s L true pos e d := by
  have hin := I.inn
  have hp := add_pre bs b i k s d (by omega)
  have hc := add_cnt bs b i k s d hin
  refine ⟨I.ref, by simp; omega, I.base, by rw [hp]; exact I.before, I.limit, I.stride, I.index, by rw [hp]; exact I.pos,
    by rw [hc]; exact I.le1, by rw [hp]; exact I.le2, ?_⟩
  rw [hp, hc]
  rcases I.full with h | h | h
  · exact Or.inl h
  · exact Or.inr (Or.inl h)
  · exact absurd h.2.1 (by simp)

/-! ## Histories -/

theorem run_spec {i k s L : Nat} (evs : List Ev) {bs : List Block} (R : Reg bs i k s L) {fresh : Bool} {pos : Nat} {e : En} {d : Nat}
    (I : Inv bs i k s L fresh pos e d) (hc : Spec.Careful i k s L bs pos fresh evs) :
    run bs e evs = some (Spec.run i k s L bs pos evs) := by
  induction evs generalizing bs fresh pos e d with
  | nil => rfl
  | cons ev evs ih =>
    cases ev with
    | call c =>
      obtain ⟨e', d', h, I'⟩ := step_spec R I c
      simp only [run, h, Option.bind_eq_bind, Option.bind_some, Spec.run]
      rw [ih R I' (by simpa [Spec.Careful] using hc)]
      rfl
    | grow n =>
      simp only [Spec.Careful] at hc
      simp only [run, Spec.run]
      exact ih (R.grow n) (I.grow R n hc.1) hc.2
    | add b =>
      simp only [Spec.Careful] at hc
      obtain ⟨rfl, hb, hc⟩ := hc
      simp only [run, Spec.run]
      exact ih (R.add b hb) (I.add b) hc

/-- The enumerable of no items. -/
theorem run_none {i k s : Nat} (evs : List Ev) {bs : List Block} {e : En} (h0 : e.count = 0) (h1 : e.before = 0) (h2 : e.limit = 0) :
    run bs e evs = some (Spec.run i k s 0 bs 0 evs) := by
  induction evs generalizing bs e with
  | nil => rfl
  | cons ev evs ih =>
    cases ev with
    | call c =>
      have hh : hNext bs e = some (e, none) := by simp [hNext, h0, h1, h2]
      have hp : hPrevious bs e = some (e, none) := by simp [hPrevious, h1]
      have hs : ∃ e', step bs e c = some (e', none) ∧ e'.count = 0 ∧ e'.before = 0 ∧ e'.limit = 0 := by
        cases c with
        | current => exact ⟨e, by simp [step, current, h0], h0, h1, h2⟩
        | head =>
          refine ⟨{ e with index := 0 }, ?_, h0, h1, h2⟩
          simp [step, getHead, headLoop, hp, finish, h0]
        | tail =>
          refine ⟨{ e with index := dec e.count }, ?_, h0, h1, h2⟩
          simp [step, getTail, tailLoop, hh, finish, h0]
        | next => exact ⟨e, by simp [step, next, h0], h0, h1, h2⟩
        | previous => exact ⟨e, by simp [step, previous, h0], h0, h1, h2⟩
      obtain ⟨e', hs, a0, a1, a2⟩ := hs
      have hsp : Enumerable.Spec.step (Spec.items bs i k s 0) 0 c = (0, none) := by
        cases c <;> simp [Enumerable.Spec.step, Spec.items]
      simp only [run, hs, Option.bind_eq_bind, Option.bind_some, Spec.run, hsp]
      rw [ih a0 a1 a2]
      rfl
    | grow n => simpa only [run, Spec.run] using ih h0 h1 h2
    | add b => simpa only [run, Spec.run] using ih h0 h1 h2

end Verif.ZoneEnum
