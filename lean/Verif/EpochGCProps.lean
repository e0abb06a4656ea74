import Verif.EpochGC
import Verif.Conc
/-!
# C19: the epoch garbage collector reclaims safely and exactly once
-/
namespace Verif.EpochGC
open Verif.Conc

/-- The epoch under which the thread is counted. -/
def PC.cnt? : PC → Option Nat
  | .b2 g | .b3 g _ | .inside _ g _ | .e1 _ g _ _ | .p2 _ g | .p3 _ g _ | .p4 _ g => some g
  | _ => none

/-- The epoch under which the thread is counted, if it was still the same after counting. -/
def PC.entry? : PC → Option Nat
  | .inside _ g _ | .e1 _ g _ _ | .p4 _ g => some g
  | _ => none

/-- The epoch the thread loaded in `End`. -/
def PC.late? : PC → Option Nat
  | .e1 _ _ _ G | .e2 G | .e3 G | .e4 G | .e5 G _ | .dr G _ => some G
  | _ => none

/-- The same, when it has seen the next slot empty. -/
def PC.quiet? : PC → Option Nat
  | .e4 G | .e5 G _ | .dr G _ => some G
  | _ => none

/-- The items the thread has. -/
def PC.items : PC → List Nat
  | .inside _ _ l | .e1 _ _ l _ | .e5 _ l | .dr _ l | .p0 l | .p1 l _ | .p2 l _ | .p3 l _ _ | .p4 l _ => l
  | _ => []

/-- Is the thread counted in slot `e`? -/
def cnt (e : Nat) (p : PC) : Nat := match p.cnt? with
  | some g => if slot g = e then 1 else 0
  | none => 0

/-- How often the thread has item `x`. -/
def holds (x : Nat) (p : PC) : Nat := p.items.count x

/-- How often `x` is in the three lists. -/
def total (f : Nat → List Nat) (x : Nat) : Nat := (f 0).count x + (f 1).count x + (f 2).count x

/-- The number of places where item `x` is. -/
def places (y : Sys) (x : Nat) : Nat := total y.list x + sumBy (holds x) y.thrs + (y.reclaimed.map Prod.fst).count x

/-- Section `s` was not in progress when item `x` was handed over. -/
def Away (m : List (List Nat)) (x s : Nat) : Prop := ∀ l, m[x]? = some l → s ∉ l

structure Inv (w : Nat) (y : Sys) : Prop where
  rc : ∀ e, y.rc e = sumBy (cnt e) y.thrs
  lt : y.thrs.length < w
  places : ∀ x, places y x = if x < y.managed.length then 1 else 0
  secs : ∀ s ∈ y.active, s < y.secs
  recs : ∀ l ∈ y.managed, ∀ s ∈ l, s < y.secs
  entry : ∀ (i : Nat) (p : PC) (g : Nat), y.thrs[i]? = some p → p.entry? = some g → g ≤ y.epoch ∧ y.epoch ≤ g + 1
  late : ∀ (i : Nat) (p : PC) (G : Nat), y.thrs[i]? = some p → p.late? = some G → G ≤ y.epoch
  quiet : ∀ (i : Nat) (p : PC) (G : Nat), y.thrs[i]? = some p → p.quiet? = some G → G = y.epoch →
    ∀ (j : Nat) (q : PC) (g : Nat), y.thrs[j]? = some q → q.entry? = some g → g = G
  listed : ∀ s x, x ∈ y.list s → ∃ g, s = slot g ∧ g ≤ y.epoch ∧
    ∀ (i : Nat) (p : PC) (k u : Nat), y.thrs[i]? = some p → p.sec? = some (k, u) → ¬ Away y.managed x k → u ≤ g + 1
  taken : ∀ (i G : Nat) (l : List Nat), y.thrs[i]? = some (.e5 G l) → G = y.epoch → ∀ x ∈ l, ∀ s ∈ y.active, Away y.managed x s
  drain : ∀ (i G : Nat) (l : List Nat), y.thrs[i]? = some (.dr G l) → ∀ x ∈ l, ∀ s ∈ y.active, Away y.managed x s
  log : ∀ p ∈ y.reclaimed, ∀ s ∈ p.2, Away y.managed p.1 s

theorem sumBy_le {α : Type} (f : α → Nat) (hf : ∀ a, f a ≤ 1) (l : List α) : sumBy f l ≤ l.length := by
  induction l with
  | nil => simp
  | cons a l ih => have := hf a; simp; omega

theorem cnt_le (e : Nat) (p : PC) : cnt e p ≤ 1 := by
  unfold cnt
  split
  · split <;> omega
  · omega

theorem entry_sec {p : PC} {k u : Nat} (h : p.sec? = some (k, u)) : p.entry? = some u := by
  cases p <;> simp [PC.sec?] at h <;> simp [PC.entry?, h]

theorem mem_active {y : Sys} {s : Nat} : s ∈ y.active ↔ ∃ (i : Nat) (p : PC) (u : Nat), y.thrs[i]? = some p ∧ p.sec? = some (s, u) := by
  unfold Sys.active
  rw [List.mem_map]
  constructor
  · rintro ⟨⟨k, u⟩, hp, h⟩
    obtain ⟨p, hp, h'⟩ := List.mem_filterMap.1 hp
    obtain ⟨i, hi⟩ := List.mem_iff_getElem?.1 hp
    cases h
    exact ⟨i, p, u, hi, h'⟩
  · rintro ⟨i, p, u, hi, h⟩
    exact ⟨(s, u), List.mem_filterMap.2 ⟨p, List.mem_iff_getElem?.2 ⟨i, hi⟩, h⟩, rfl⟩

theorem thr_set {l : List PC} {i j : Nat} {t t' : PC} (h : (l.set i t)[j]? = some t') : (j = i ∧ t' = t) ∨ (j ≠ i ∧ l[j]? = some t') := by
  by_cases e : j = i
  · subst e
    rw [List.getElem?_set] at h
    simp at h
    exact .inl ⟨rfl, h.2.symm⟩
  · rw [List.getElem?_set_ne (fun h => e h.symm)] at h
    exact .inr ⟨e, h⟩

theorem total_upd (f : Nat → List Nat) {s : Nat} (hs : s < 3) (l : List Nat) (x : Nat) : total (upd f s l) x + (f s).count x = total f x + l.count x := by
  have : s = 0 ∨ s = 1 ∨ s = 2 := by omega
  rcases this with rfl | rfl | rfl <;> simp [total, upd] <;> omega

theorem slot_lt (g : Nat) : slot g < 3 := Nat.mod_lt _ (by decide)

/-- A step of one thread that leaves the epoch and the items handed over as they are. -/
theorem Inv.local {w : Nat} {y : Sys} (I : Inv w y) {i : Nat} {p p' : PC} {L : Nat → List Nat} {R : Nat → Nat} {S : Nat} {Q : List (Nat × List Nat)}
    (hi : y.thrs[i]? = some p)
    (hR : ∀ e, R e = sumBy (cnt e) (y.thrs.set i p'))
    (hL : ∀ x, total L x + holds x p' + (Q.map Prod.fst).count x = total y.list x + holds x p + (y.reclaimed.map Prod.fst).count x)
    (hS : y.secs ≤ S)
    (hsec : ∀ v, p'.sec? = some v → p.sec? = some v ∨ (v = (y.secs, y.epoch) ∧ y.secs < S))
    (hent : ∀ g, p'.entry? = some g → p.entry? = some g ∨ g = y.epoch)
    (hG : ∀ G, p'.late? = some G → G ≤ y.epoch)
    (hq : ∀ G, p'.quiet? = some G → G = y.epoch → ∀ (j : Nat) (q : PC) (g : Nat), y.thrs[j]? = some q → q.entry? = some g → g = G)
    (hlist : ∀ s x, x ∈ L s → x ∈ y.list s ∨ ∃ g, s = slot g ∧ g ≤ y.epoch ∧ y.epoch ≤ g + 1)
    (he5 : ∀ G l, p' = .e5 G l → G = y.epoch → ∀ x ∈ l, ∀ s ∈ y.active, Away y.managed x s)
    (hdr : ∀ G l, p' = .dr G l → ∀ x ∈ l, ∀ s ∈ y.active, Away y.managed x s)
    (hQ : ∀ p ∈ Q, ∀ s ∈ p.2, Away y.managed p.1 s) :
    Inv w { y with list := L, rc := R, thrs := y.thrs.set i p', secs := S, reclaimed := Q } := by
  have hnew : ∀ x, Away y.managed x y.secs := by
    intro x l hl hm
    exact absurd (I.recs l (List.mem_iff_getElem?.2 ⟨x, hl⟩) _ hm) (Nat.lt_irrefl _)
  have hact : ∀ s, s ∈ Sys.active { y with list := L, rc := R, thrs := y.thrs.set i p', secs := S, reclaimed := Q } → s ∈ y.active ∨ (s = y.secs ∧ y.secs < S) := by
    intro s hs
    obtain ⟨j, q, u, hj, hu⟩ := mem_active.1 hs
    rcases thr_set hj with ⟨-, e⟩ | ⟨-, hj⟩
    · subst e
      rcases hsec _ hu with h | h
      · exact .inl (mem_active.2 ⟨i, p, u, hi, h⟩)
      · have := congrArg Prod.fst h.1
        exact .inr ⟨this, h.2⟩
    · exact .inl (mem_active.2 ⟨j, q, u, hj, hu⟩)
  have hentry : ∀ (j : Nat) (q : PC) (g : Nat), (y.thrs.set i p')[j]? = some q → q.entry? = some g → (∃ (j' : Nat) (q' : PC), y.thrs[j']? = some q' ∧ q'.entry? = some g) ∨ g = y.epoch := by
    intro j q g hj hg
    rcases thr_set hj with ⟨-, e⟩ | ⟨-, hj⟩
    · subst e
      rcases hent g hg with h | h
      · exact .inl ⟨i, p, hi, h⟩
      · exact .inr h
    · exact .inl ⟨j, q, hj, hg⟩
  have haway : ∀ x, (∀ s ∈ y.active, Away y.managed x s) →
      ∀ s, s ∈ Sys.active { y with list := L, rc := R, thrs := y.thrs.set i p', secs := S, reclaimed := Q } → Away y.managed x s := by
    intro x hx s hs
    rcases hact s hs with h | ⟨h, -⟩
    · exact hx s h
    · subst h; exact hnew x
  refine ⟨hR, by simpa using I.lt, ?_, ?_, ?_, ?_, ?_, ?_, ?_, ?_, ?_, hQ⟩
  · intro x
    have h1 := I.places x
    have h2 := hL x
    have h3 := sumBy_set (holds x) hi p'
    simp only [EpochGC.places] at h1 ⊢
    omega
  · intro s hs
    rcases hact s hs with h | ⟨h, h'⟩
    · exact Nat.lt_of_lt_of_le (I.secs s h) hS
    · subst h; exact h'
  · intro l hl s hs
    exact Nat.lt_of_lt_of_le (I.recs l hl s hs) hS
  · intro j q g hj hg
    rcases hentry j q g hj hg with ⟨j', q', h1, h2⟩ | h
    · exact I.entry j' q' g h1 h2
    · dsimp only; omega
  · intro j q G hj hg
    rcases thr_set hj with ⟨-, e⟩ | ⟨-, hj⟩
    · subst e; exact hG G hg
    · exact I.late j q G hj hg
  · intro j q G hj hqq hGe j' q' g hj' hg'
    have hold : ∀ (j : Nat) (q : PC) (g : Nat), y.thrs[j]? = some q → q.entry? = some g → g = G := by
      rcases thr_set hj with ⟨-, e⟩ | ⟨-, hj⟩
      · subst e; exact hq G hqq hGe
      · exact I.quiet j q G hj hqq hGe
    rcases hentry j' q' g hj' hg' with ⟨j'', q'', h1, h2⟩ | h
    · exact hold j'' q'' g h1 h2
    · dsimp only at hGe; omega
  · intro s x hx
    have hold : ∃ g, s = slot g ∧ g ≤ y.epoch ∧ ∀ (i : Nat) (p : PC) (k u : Nat), y.thrs[i]? = some p → p.sec? = some (k, u) → ¬ Away y.managed x k → u ≤ g + 1 := by
      rcases hlist s x hx with h | ⟨g, h1, h2, h3⟩
      · exact I.listed s x h
      · refine ⟨g, h1, h2, fun j q k u hj hu _ => ?_⟩
        have := (I.entry j q u hj (entry_sec hu)).1
        omega
    obtain ⟨g, h1, h2, h3⟩ := hold
    refine ⟨g, h1, h2, fun j q k u hj hu hn => ?_⟩
    rcases thr_set hj with ⟨-, e⟩ | ⟨-, hj⟩
    · subst e
      rcases hsec _ hu with h | ⟨h, -⟩
      · exact h3 i p k u hi h hn
      · cases h; exact absurd (hnew x) hn
    · exact h3 j q k u hj hu hn
  · intro j G l hj hGe x hx
    apply haway x
    rcases thr_set hj with ⟨-, e⟩ | ⟨-, hj⟩
    · exact he5 G l e.symm hGe x hx
    · exact I.taken j G l hj hGe x hx
  · intro j G l hj x hx
    apply haway x
    rcases thr_set hj with ⟨-, e⟩ | ⟨-, hj⟩
    · exact hdr G l e.symm x hx
    · exact I.drain j G l hj x hx

theorem Inv.rc_same {w : Nat} {y : Sys} (I : Inv w y) {i : Nat} {p p' : PC} (hi : y.thrs[i]? = some p) (h : p.cnt? = p'.cnt?) (e : Nat) :
    y.rc e = sumBy (cnt e) (y.thrs.set i p') := by
  have h1 := I.rc e
  have h2 := sumBy_set (cnt e) hi p'
  have h3 : cnt e p = cnt e p' := by unfold cnt; rw [h]
  omega

theorem Inv.rc_inc {w : Nat} {y : Sys} (I : Inv w y) {i g : Nat} {p p' : PC} (hi : y.thrs[i]? = some p) (h : p.cnt? = none) (h' : p'.cnt? = some g) (e : Nat) :
    upd y.rc (slot g) ((y.rc (slot g) + 1) % w) e = sumBy (cnt e) (y.thrs.set i p') := by
  have h1 := I.rc e
  have h2 := sumBy_set (cnt e) hi p'
  have h3 : cnt e p = 0 := by unfold cnt; rw [h]
  have h4 : cnt e p' = if slot g = e then 1 else 0 := by unfold cnt; rw [h']
  have h5 := sumBy_le (cnt e) (cnt_le e) (y.thrs.set i p')
  have h6 := I.lt
  rw [List.length_set] at h5
  by_cases c : slot g = e
  · rw [if_pos c] at h4
    subst c
    simp only [upd, if_true]
    rw [Nat.mod_eq_of_lt (by omega)]; omega
  · rw [if_neg c] at h4
    have c' : ¬ e = slot g := fun h => c h.symm
    simp only [upd, if_neg c']
    omega

theorem Inv.rc_dec {w : Nat} {y : Sys} (I : Inv w y) {i g : Nat} {p p' : PC} (hi : y.thrs[i]? = some p) (h : p.cnt? = some g) (h' : p'.cnt? = none) (e : Nat) :
    upd y.rc (slot g) ((y.rc (slot g) + w - 1) % w) e = sumBy (cnt e) (y.thrs.set i p') := by
  have h1 := I.rc e
  have h2 := sumBy_set (cnt e) hi p'
  have h3 : cnt e p' = 0 := by unfold cnt; rw [h']
  have h4 : cnt e p = if slot g = e then 1 else 0 := by unfold cnt; rw [h]
  have h5 := sumBy_le (cnt e) (cnt_le e) y.thrs
  have h6 := I.lt
  by_cases c : slot g = e
  · rw [if_pos c] at h4
    subst c
    simp only [upd, if_true]
    rw [show y.rc (slot g) + w - 1 = (y.rc (slot g) - 1) + w by omega, Nat.add_mod_right, Nat.mod_eq_of_lt (by omega)]; omega
  · rw [if_neg c] at h4
    have c' : ¬ e = slot g := fun h => c h.symm
    simp only [upd, if_neg c']
    omega

/-- A step that only moves a thread. -/
theorem Inv.move {w : Nat} {y : Sys} (I : Inv w y) {i : Nat} {p p' : PC} {S : Nat} (hi : y.thrs[i]? = some p)
    (hc : p.cnt? = p'.cnt?) (hit : p.items = p'.items) (hS : y.secs ≤ S)
    (hsec : ∀ v, p'.sec? = some v → p.sec? = some v ∨ (v = (y.secs, y.epoch) ∧ y.secs < S))
    (hent : ∀ g, p'.entry? = some g → p.entry? = some g ∨ g = y.epoch)
    (hG : ∀ G, p'.late? = some G → G ≤ y.epoch)
    (hq : ∀ G, p'.quiet? = some G → G = y.epoch → ∀ (j : Nat) (q : PC) (g : Nat), y.thrs[j]? = some q → q.entry? = some g → g = G)
    (he5 : ∀ G l, p' = .e5 G l → G = y.epoch → ∀ x ∈ l, ∀ s ∈ y.active, Away y.managed x s)
    (hdr : ∀ G l, p' = .dr G l → ∀ x ∈ l, ∀ s ∈ y.active, Away y.managed x s) :
    Inv w { y with thrs := y.thrs.set i p', secs := S } := by
  refine I.local hi (fun e => I.rc_same hi hc e) (fun x => ?_) hS hsec hent hG hq (fun s x hx => .inl hx) he5 hdr I.log
  unfold holds; rw [hit]

theorem Inv.step {w : Nat} {y y' : Sys} (I : Inv w y) (st : Step w y y') : Inv w y' := by
  cases st with
  | begin hi => exact I.move hi rfl rfl (Nat.le_refl _) (by simp [PC.sec?]) (by simp [PC.entry?]) (by simp [PC.late?]) (by simp [PC.quiet?]) (by simp) (by simp)
  | inc hi =>
    exact I.local hi (I.rc_inc hi rfl rfl) (fun x => rfl) (Nat.le_refl _) (by simp [PC.sec?]) (by simp [PC.entry?]) (by simp [PC.late?]) (by simp [PC.quiet?])
      (fun s x hx => .inl hx) (by simp) (by simp) I.log
  | @enter i g hi hg =>
    exact I.move hi rfl rfl (Nat.le_succ _) (fun v hv => .inr (by simp [PC.sec?] at hv; exact ⟨by rw [← hv, hg], Nat.lt_succ_self _⟩)) (fun g' h => .inr (by simp [PC.entry?] at h; omega))
      (by simp [PC.late?]) (by simp [PC.quiet?]) (by simp) (by simp)
  | retry hi hg => exact I.move hi rfl rfl (Nat.le_refl _) (by simp [PC.sec?]) (by simp [PC.entry?]) (by simp [PC.late?]) (by simp [PC.quiet?]) (by simp) (by simp)
  | dec hi =>
    exact I.local hi (I.rc_dec hi rfl rfl) (fun x => rfl) (Nat.le_refl _) (by simp [PC.sec?]) (by simp [PC.entry?]) (by simp [PC.late?]) (by simp [PC.quiet?])
      (fun s x hx => .inl hx) (by simp) (by simp) I.log
  | @manage i s g loc hi =>
    have hact : ∀ s', s' ∈ Sys.active { y with thrs := y.thrs.set i (.inside s g (y.managed.length :: loc)), managed := y.managed ++ [y.active] } → s' ∈ y.active := by
      intro s' hs'
      obtain ⟨j, q, u, hj, hu⟩ := mem_active.1 hs'
      rcases thr_set hj with ⟨-, e⟩ | ⟨-, hj⟩
      · subst e; exact mem_active.2 ⟨i, _, u, hi, hu⟩
      · exact mem_active.2 ⟨j, q, u, hj, hu⟩
    have hold : ∀ (j : Nat) (q : PC), (y.thrs.set i (.inside s g (y.managed.length :: loc)))[j]? = some q →
        (∃ q', y.thrs[j]? = some q' ∧ q'.sec? = q.sec? ∧ q'.entry? = q.entry? ∧ q'.late? = q.late? ∧ q'.quiet? = q.quiet?) := by
      intro j q hj
      rcases thr_set hj with ⟨e', e⟩ | ⟨-, hj⟩
      · subst e; subst e'; exact ⟨_, hi, rfl, rfl, rfl, rfl⟩
      · exact ⟨q, hj, rfl, rfl, rfl, rfl⟩
    have hback : ∀ x, x < y.managed.length → ∀ k, Away y.managed x k → Away (y.managed ++ [y.active]) x k := by
      intro x hx k h l hl
      rw [List.getElem?_append_left hx] at hl
      exact h l hl
    have hknown : ∀ x, 0 < EpochGC.places y x → x < y.managed.length := by
      intro x hx
      have := I.places x
      apply Decidable.byContradiction; intro hn
      rw [if_neg hn] at this; omega
    refine ⟨?_, by simpa using I.lt, ?_, fun s' hs' => I.secs s' (hact s' hs'), ?_, ?_, ?_, ?_, ?_, ?_, ?_, ?_⟩
    · exact fun e => I.rc_same (p' := .inside s g (y.managed.length :: loc)) hi rfl e
    · intro x
      have hp := I.places x
      have h' := sumBy_set (holds x) hi (.inside s g (y.managed.length :: loc))
      simp only [holds, PC.items, List.count_cons] at h'
      simp only [EpochGC.places, List.length_append, List.length_singleton] at hp ⊢
      by_cases e : y.managed.length = x
      · subst e
        simp [holds] at h' hp ⊢
        omega
      · have e1 : (x < y.managed.length + 1) ↔ (x < y.managed.length) := by omega
        have e2 : (y.managed.length == x) = false := by simp [e]
        simp only [e1]
        simp only [e2] at h'
        simp [holds] at h' hp ⊢
        omega
    · intro l hl s' hs'
      rcases List.mem_append.1 hl with hl | hl
      · exact I.recs l hl s' hs'
      · obtain rfl := List.mem_singleton.1 hl
        exact I.secs s' hs'
    · intro j q u hj hu
      obtain ⟨q', h1, -, h2, -⟩ := hold j q hj
      exact I.entry j q' u h1 (h2.trans hu)
    · intro j q u hj hu
      obtain ⟨q', h1, -, -, h2, -⟩ := hold j q hj
      exact I.late j q' u h1 (h2.trans hu)
    · intro j q G hj hqq hG j' q' u hj' hu
      obtain ⟨a, h1, -, -, -, h2⟩ := hold j q hj
      obtain ⟨b, h3, -, h4, -, -⟩ := hold j' q' hj'
      exact I.quiet j a G h1 (h2.trans hqq) hG j' b u h3 (h4.trans hu)
    · intro e x hx
      obtain ⟨g', h1, h2, h3⟩ := I.listed e x hx
      have hxl : x < y.managed.length := by
        apply hknown
        have hc : 0 < (y.list e).count x := List.count_pos_iff.2 hx
        have he : e = 0 ∨ e = 1 ∨ e = 2 := by have := slot_lt g'; omega
        simp only [EpochGC.places, total]
        rcases he with rfl | rfl | rfl <;> omega
      refine ⟨g', h1, h2, fun j q k u hj hu hn => ?_⟩
      obtain ⟨q', a1, a2, -⟩ := hold j q hj
      exact h3 j q' k u a1 (a2.trans hu) (fun h => hn (hback x hxl k h))
    · intro j G l hj hG x hx s' hs'
      rcases thr_set hj with ⟨-, e⟩ | ⟨-, hj⟩
      · cases e
      · refine hback x (hknown x ?_) s' (I.taken j G l hj hG x hx s' (hact s' hs'))
        have := le_sumBy (holds x) hj
        have hc : 0 < l.count x := List.count_pos_iff.2 hx
        have hh : ∀ G', holds x (.e5 G' l) = l.count x := fun _ => rfl
        have hh' : ∀ G', holds x (.dr G' l) = l.count x := fun _ => rfl
        simp only [hh, hh'] at this
        simp only [EpochGC.places]; omega
    · intro j G l hj x hx s' hs'
      rcases thr_set hj with ⟨-, e⟩ | ⟨-, hj⟩
      · cases e
      · refine hback x (hknown x ?_) s' (I.drain j G l hj x hx s' (hact s' hs'))
        have := le_sumBy (holds x) hj
        have hc : 0 < l.count x := List.count_pos_iff.2 hx
        have hh : ∀ G', holds x (.e5 G' l) = l.count x := fun _ => rfl
        have hh' : ∀ G', holds x (.dr G' l) = l.count x := fun _ => rfl
        simp only [hh, hh'] at this
        simp only [EpochGC.places]; omega
    · intro q hq s' hs'
      refine hback q.1 (hknown q.1 ?_) s' (I.log q hq s' hs')
      have hc : 0 < (y.reclaimed.map Prod.fst).count q.1 := List.count_pos_iff.2 (List.mem_map.2 ⟨q, hq, rfl⟩)
      simp only [EpochGC.places]; omega
  | endLoad hi =>
    exact I.move hi rfl rfl (Nat.le_refl _) (fun v hv => .inl hv) (fun g h => .inl h) (by simp [PC.late?]) (by simp [PC.quiet?]) (by simp) (by simp)
  | @leave i s g loc G hi =>
    have hb := I.entry _ _ _ hi rfl
    refine I.local hi (I.rc_dec hi rfl rfl) (fun x => ?_) (Nat.le_refl _) (by simp [PC.sec?]) (by simp [PC.entry?]) (fun G' h => ?_) (by simp [PC.quiet?]) ?_ (by simp) (by simp) I.log
    · have := total_upd y.list (slot_lt g) (loc ++ y.list (slot g)) x
      simp only [List.count_append] at this
      simp only [holds, PC.items, List.count_nil]
      omega
    · simp [PC.late?] at h; subst h; exact I.late _ _ _ hi rfl
    · intro e x hx
      by_cases c : e = slot g
      · exact .inr ⟨g, c, hb⟩
      · simp only [upd, if_neg c] at hx; exact .inl hx
  | stale hi _ =>
    exact I.move hi rfl rfl (Nat.le_refl _) (by simp [PC.sec?]) (by simp [PC.entry?]) (fun G h => I.late _ _ _ hi h) (by simp [PC.quiet?]) (by simp) (by simp)
  | staleNot hi _ => exact I.move hi rfl rfl (Nat.le_refl _) (by simp [PC.sec?]) (by simp [PC.entry?]) (by simp [PC.late?]) (by simp [PC.quiet?]) (by simp) (by simp)
  | @next i G hi h0 =>
    refine I.move hi rfl rfl (Nat.le_refl _) (by simp [PC.sec?]) (by simp [PC.entry?]) (fun G h => I.late _ _ _ hi h) ?_ (by simp) (by simp)
    intro G' hG' hGe j q g hj hg
    simp [PC.quiet?] at hG'
    subst hG'
    obtain ⟨b1, b2⟩ := I.entry j q g hj hg
    apply Decidable.byContradiction; intro hn
    have hs : slot g = (G % 3 + 1) % 3 := by unfold slot; omega
    have := le_sumBy (cnt ((G % 3 + 1) % 3)) hj
    have hc : cnt ((G % 3 + 1) % 3) q = 1 := by
      have : q.cnt? = some g := by cases q <;> simp [PC.entry?] at hg <;> simp [PC.cnt?, hg]
      unfold cnt; rw [this]; simp only; rw [if_pos hs]
    have hr := I.rc ((G % 3 + 1) % 3)
    omega
  | nextNot hi _ => exact I.move hi rfl rfl (Nat.le_refl _) (by simp [PC.sec?]) (by simp [PC.entry?]) (by simp [PC.late?]) (by simp [PC.quiet?]) (by simp) (by simp)
  | @take i G hi h0 =>
    have hm : G % 3 < 3 := Nat.mod_lt _ (by decide)
    refine I.local hi (fun e => I.rc_same (p' := .e5 G (y.list (G % 3))) hi rfl e) (fun x => ?_) (Nat.le_refl _) (by simp [PC.sec?]) (by simp [PC.entry?]) (fun G h => I.late _ _ _ hi h) (fun G h => I.quiet _ _ _ hi h) ?_ ?_ (by simp) I.log
    · have := total_upd y.list hm [] x
      simp only [List.count_nil] at this
      simp only [holds, PC.items, List.count_nil]
      omega
    · intro e x hx
      by_cases c : e = G % 3
      · simp [upd, c] at hx
      · simp only [upd, if_neg c] at hx; exact .inl hx
    · intro G' l e hG' x hx s hs
      cases e
      obtain ⟨g, h1, h2, h3⟩ := I.listed _ x hx
      obtain ⟨j, q, u, hj, hu⟩ := mem_active.1 hs
      have hu' := I.quiet i _ G hi rfl hG' j q u hj (entry_sec hu)
      apply Classical.byContradiction; intro hn
      have := h3 j q s u hj hu hn
      have hg : g + 2 ≤ G := by unfold slot at h1; omega
      omega
  | takeNot hi => exact I.move hi rfl rfl (Nat.le_refl _) (by simp [PC.sec?]) (by simp [PC.entry?]) (by simp [PC.late?]) (by simp [PC.quiet?]) (by simp) (by simp)
  | @same i G l hi hG =>
    exact I.move hi rfl rfl (Nat.le_refl _) (by simp [PC.sec?]) (by simp [PC.entry?]) (fun G h => I.late _ _ _ hi h) (fun G h => I.quiet _ _ _ hi h) (by simp)
      (fun G' l' e => by cases e; exact I.taken i G l hi hG)
  | moved hi _ _ => exact I.move hi rfl rfl (Nat.le_refl _) (by simp [PC.sec?]) (by simp [PC.entry?]) (by simp [PC.late?]) (by simp [PC.quiet?]) (by simp) (by simp)
  | movedNone hi _ => exact I.move hi rfl rfl (Nat.le_refl _) (by simp [PC.sec?]) (by simp [PC.entry?]) (by simp [PC.late?]) (by simp [PC.quiet?]) (by simp) (by simp)
  | @reclaim i G x l hi =>
    refine I.local hi (fun e => I.rc_same (p' := .dr G l) hi rfl e) (fun z => ?_) (Nat.le_refl _) (by simp [PC.sec?]) (by simp [PC.entry?]) (fun G h => I.late _ _ _ hi h) (fun G h => I.quiet _ _ _ hi h)
      (fun s x hx => .inl hx) (by simp) ?_ ?_
    · simp only [holds, PC.items, List.map_append, List.map_cons, List.map_nil, List.count_append, List.count_cons, List.count_nil]
      omega
    · intro G' l' e z hz
      cases e
      exact I.drain i G _ hi z (List.mem_cons_of_mem _ hz)
    · intro p hp s hs
      rcases List.mem_append.1 hp with hp | hp
      · exact I.log p hp s hs
      · obtain rfl := List.mem_singleton.1 hp
        exact I.drain i G _ hi x (by simp) s hs
  | @advance i G hi =>
    have I' : Inv w { y with thrs := y.thrs.set i .out } :=
      I.move hi rfl rfl (Nat.le_refl _) (by simp [PC.sec?]) (by simp [PC.entry?]) (by simp [PC.late?]) (by simp [PC.quiet?]) (by simp) (by simp)
    by_cases c : y.epoch = G
    · have hq : ∀ (j : Nat) (q : PC) (g : Nat), (y.thrs.set i .out)[j]? = some q → q.entry? = some g → g = G := by
        intro j q g hj hg
        rcases thr_set hj with ⟨-, e⟩ | ⟨-, hj⟩
        · subst e; simp [PC.entry?] at hg
        · exact I.quiet i _ G hi rfl c.symm j q g hj hg
      simp only [c, if_true]
      have hlate : ∀ (j : Nat) (q : PC) (G' : Nat), (y.thrs.set i .out)[j]? = some q → q.late? = some G' → G' ≤ G := fun j q G' hj h => by
        have := I'.late j q G' hj h; dsimp only at this; omega
      refine ⟨I'.rc, I'.lt, I'.places, I'.secs, I'.recs, ?_, ?_, ?_, ?_, ?_, I'.drain, I'.log⟩
      · intro j q g hj hg
        have := hq j q g hj hg
        dsimp only; omega
      · intro j q G' hj h
        have := hlate j q G' hj h
        dsimp only; omega
      · intro j q G' hj h hG'
        have : q.late? = some G' := by cases q <;> simp [PC.quiet?] at h <;> simp [PC.late?, h]
        have := hlate j q G' hj this
        dsimp only at hG'; omega
      · intro e x hx
        obtain ⟨g, h1, h2, h3⟩ := I'.listed e x hx
        exact ⟨g, h1, by dsimp only at h2 ⊢; omega, h3⟩
      · intro j G' l hj hG'
        have := hlate j _ G' hj rfl
        dsimp only at hG'; omega
    · simp only [c, if_false]; exact I'
  | pLoad hi => exact I.move hi rfl rfl (Nat.le_refl _) (by simp [PC.sec?]) (by simp [PC.entry?]) (by simp [PC.late?]) (by simp [PC.quiet?]) (by simp) (by simp)
  | pInc hi =>
    exact I.local hi (I.rc_inc hi rfl rfl) (fun x => rfl) (Nat.le_refl _) (by simp [PC.sec?]) (by simp [PC.entry?]) (by simp [PC.late?]) (by simp [PC.quiet?])
      (fun s x hx => .inl hx) (by simp) (by simp) I.log
  | @pSame i g l hi hg =>
    exact I.move hi rfl rfl (Nat.le_refl _) (by simp [PC.sec?]) (fun g' h => .inr (by simp [PC.entry?] at h; omega)) (by simp [PC.late?]) (by simp [PC.quiet?]) (by simp) (by simp)
  | pRetry hi hg => exact I.move hi rfl rfl (Nat.le_refl _) (by simp [PC.sec?]) (by simp [PC.entry?]) (by simp [PC.late?]) (by simp [PC.quiet?]) (by simp) (by simp)
  | pDec hi =>
    exact I.local hi (I.rc_dec hi rfl rfl) (fun x => rfl) (Nat.le_refl _) (by simp [PC.sec?]) (by simp [PC.entry?]) (by simp [PC.late?]) (by simp [PC.quiet?])
      (fun s x hx => .inl hx) (by simp) (by simp) I.log
  | @put i g l hi =>
    have hb := I.entry _ _ _ hi rfl
    refine I.local hi (I.rc_dec hi rfl rfl) (fun x => ?_) (Nat.le_refl _) (by simp [PC.sec?]) (by simp [PC.entry?]) (by simp [PC.late?]) (by simp [PC.quiet?]) ?_ (by simp) (by simp) I.log
    · have := total_upd y.list (slot_lt g) (l ++ y.list (slot g)) x
      simp only [List.count_append] at this
      simp only [holds, PC.items, List.count_nil]
      omega
    · intro e x hx
      by_cases c : e = slot g
      · exact .inr ⟨g, c, hb⟩
      · simp only [upd, if_neg c] at hx; exact .inl hx

theorem inv_init {w n : Nat} (h : n < w) : Inv w (init n) := by
  have hout : ∀ (i : Nat) (p : PC), (init n).thrs[i]? = some p → p = .out := by
    intro i p hp
    simp [init, List.getElem?_replicate] at hp
    exact hp.2.symm
  refine ⟨?_, by simpa [init] using h, ?_, ?_, ?_, ?_, ?_, ?_, ?_, ?_, ?_, ?_⟩
  · intro e; simp [init, sumBy_replicate, cnt, PC.cnt?]
  · intro x; simp [EpochGC.places, init, sumBy_replicate, holds, total, PC.items]
  · intro s hs
    obtain ⟨i, p, u, hi, hu⟩ := mem_active.1 hs
    rw [hout i p hi] at hu; cases hu
  · intro l hl; simp [init] at hl
  · intro i p g hi hg; rw [hout i p hi] at hg; cases hg
  · intro i p g hi hg; rw [hout i p hi] at hg; cases hg
  · intro i p g hi hg; rw [hout i p hi] at hg; cases hg
  · intro s x hx; simp [init] at hx
  · intro i G l hi; have := hout i _ hi; cases this
  · intro i G l hi; have := hout i _ hi; cases this
  · intro p hp; simp [init] at hp

theorem Reach.inv {w n : Nat} (hn : n < w) {y : Sys} (h : Reach w n y) : Inv w y := by
  induction h with
  | init => exact inv_init hn
  | step _ s ih => exact ih.step s

/-- **C19.** With fewer threads than a count has values, in every interleaving and for any number of epoch advances:
* no item is reclaimed twice, and only items that were handed over are reclaimed;
* when an item is reclaimed, no section that was in progress when it was handed over is still in progress;
* an item that is not reclaimed is in exactly one place: in one of the three lists (which the destructor reclaims), or with one thread. -/
theorem C19_epoch_reclaims (w n : Nat) (hn : n < w) (y : Sys) (h : Reach w n y) :
    (y.reclaimed.map Prod.fst).Nodup ∧
    (∀ p ∈ y.reclaimed, ∃ l, y.managed[p.1]? = some l ∧ ∀ s ∈ l, s ∉ p.2) ∧
    (∀ x, x < y.managed.length → x ∉ y.reclaimed.map Prod.fst →
      (y.list 0).count x + (y.list 1).count x + (y.list 2).count x + ((y.thrs.map PC.items).flatten).count x = 1) := by
  have I := h.inv hn
  refine ⟨?_, ?_, ?_⟩
  · rw [List.nodup_iff_count]
    intro x
    have hp := I.places x
    simp only [EpochGC.places] at hp
    split at hp <;> omega
  · intro p hp
    have hl : p.1 < y.managed.length := by
      have hp' := I.places p.1
      have hc := List.count_pos_iff.2 (List.mem_map.2 ⟨p, hp, rfl⟩ : p.1 ∈ y.reclaimed.map Prod.fst)
      simp only [EpochGC.places] at hp'
      apply Decidable.byContradiction; intro hn
      rw [if_neg hn] at hp'; omega
    obtain ⟨l, hl⟩ : ∃ l, y.managed[p.1]? = some l := ⟨_, List.getElem?_eq_getElem hl⟩
    exact ⟨l, hl, fun s hs hs' => I.log p hp s hs' l hl hs⟩
  · intro x hx hn
    have hp := I.places x
    rw [if_pos hx] at hp
    have h0 := List.count_eq_zero.2 hn
    have hs : ∀ l : List PC, ((l.map PC.items).flatten).count x = sumBy (holds x) l := by
      intro l
      induction l with
      | nil => rfl
      | cons a l ih => simp only [List.map_cons, List.flatten_cons, List.count_append, ih, sumBy_cons, holds]
    rw [hs]
    simp only [EpochGC.places, total] at hp
    omega

/-- The state when the epoch has advanced to 2: what a thread handed over in epoch 0 is reclaimed by a later one, while a new section is in progress. -/
example : ∃ y, Reach (2 ^ 32) 2 y ∧ y.managed = [[0, 1]] ∧ y.reclaimed = [(0, [2])] ∧ y.epoch = 2 := by
  have h := Reach.init (w := 2 ^ 32) (n := 2)
  have h := h.step (Step.begin (i := 0) rfl)
  have h := h.step (Step.inc (i := 0) rfl)
  have h := h.step (Step.enter (i := 0) rfl rfl)
  have h := h.step (Step.begin (i := 1) rfl)
  have h := h.step (Step.inc (i := 1) rfl)
  have h := h.step (Step.enter (i := 1) rfl rfl)
  have h := h.step (Step.manage (i := 0) rfl)
  have h := h.step (Step.endLoad (i := 0) rfl)
  have h := h.step (Step.leave (i := 0) rfl)
  have h := h.step (Step.stale (i := 0) rfl rfl)
  have h := h.step (Step.next (i := 0) rfl rfl)
  have h := h.step (Step.take (i := 0) rfl rfl)
  have h := h.step (Step.same (i := 0) rfl rfl)
  have h := h.step (Step.advance (i := 0) rfl)
  have h := h.step (Step.endLoad (i := 1) rfl)
  have h := h.step (Step.leave (i := 1) rfl)
  have h := h.step (Step.stale (i := 1) rfl rfl)
  have h := h.step (Step.next (i := 1) rfl rfl)
  have h := h.step (Step.take (i := 1) rfl rfl)
  have h := h.step (Step.same (i := 1) rfl rfl)
  have h := h.step (Step.advance (i := 1) rfl)
  have h := h.step (Step.begin (i := 0) rfl)
  have h := h.step (Step.inc (i := 0) rfl)
  have h := h.step (Step.enter (i := 0) rfl rfl)
  have h := h.step (Step.begin (i := 1) rfl)
  have h := h.step (Step.inc (i := 1) rfl)
  have h := h.step (Step.enter (i := 1) rfl rfl)
  have h := h.step (Step.endLoad (i := 1) rfl)
  have h := h.step (Step.leave (i := 1) rfl)
  have h := h.step (Step.stale (i := 1) rfl rfl)
  have h := h.step (Step.next (i := 1) rfl rfl)
  have h := h.step (Step.take (i := 1) rfl rfl)
  have h := h.step (Step.same (i := 1) rfl rfl)
  have h := h.step (Step.reclaim (i := 1) rfl)
  exact ⟨_, h, rfl, rfl, rfl⟩

#print axioms C19_epoch_reclaims
end Verif.EpochGC
