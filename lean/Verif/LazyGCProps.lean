import Verif.LazyGC
import Verif.Conc
/-!
# C18: the lazy garbage collector reclaims safely and exactly once
-/
namespace Verif.LazyGC
open Verif.Conc

/-- Is the thread in a section? -/
def ins : PC → Nat
  | .inside _ _ => 1
  | _ => 0

/-- How often the thread holds item `x`. -/
def holds (x : Nat) : PC → Nat
  | .out => 0
  | .inside _ loc => loc.count x
  | .drain l => l.count x

/-- The number of places where item `x` is. -/
def places (y : Sys) (x : Nat) : Nat := y.list.count x + sumBy (holds x) y.thrs + (y.reclaimed.map Prod.fst).count x

/-- Section `s` was not in progress when item `x` was handed over. -/
def Away (y : Sys) (x s : Nat) : Prop := ∀ l, y.managed[x]? = some l → s ∉ l

structure Inv (w : Nat) (y : Sys) : Prop where
  rc : y.rc = sumBy ins y.thrs
  lt : y.thrs.length < w
  empty : y.rc = 0 → y.list = []
  places : ∀ x, places y x = if x < y.managed.length then 1 else 0
  secs : ∀ s ∈ y.active, s < y.secs
  recs : ∀ l ∈ y.managed, ∀ s ∈ l, s < y.secs
  drain : ∀ (i x : Nat) (l : List Nat), y.thrs[i]? = some (.drain l) → x ∈ l → ∀ s ∈ y.active, Away y x s
  log : ∀ p ∈ y.reclaimed, ∀ s ∈ p.2, Away y p.1 s

theorem sumBy_le {α : Type} (f : α → Nat) (hf : ∀ a, f a ≤ 1) (l : List α) : sumBy f l ≤ l.length := by
  induction l with
  | nil => simp
  | cons a l ih => have := hf a; simp; omega

theorem ins_le (p : PC) : ins p ≤ 1 := by cases p <;> simp [ins]

theorem mem_active {y : Sys} {s : Nat} : s ∈ y.active ↔ ∃ (i : Nat) (loc : List Nat), y.thrs[i]? = some (.inside s loc) := by
  unfold Sys.active
  rw [List.mem_filterMap]
  constructor
  · rintro ⟨p, hp, h⟩
    obtain ⟨i, hi⟩ := List.mem_iff_getElem?.1 hp
    cases p <;> simp [PC.sec?] at h
    subst h
    exact ⟨i, _, hi⟩
  · rintro ⟨i, loc, hi⟩
    exact ⟨_, List.mem_iff_getElem?.2 ⟨i, hi⟩, rfl⟩

theorem thr_set {l : List PC} {i j : Nat} {t t' : PC} (h : (l.set i t)[j]? = some t') : (j = i ∧ t' = t) ∨ (j ≠ i ∧ l[j]? = some t') := by
  by_cases e : j = i
  · subst e
    rw [List.getElem?_set] at h
    simp at h
    exact .inl ⟨rfl, h.2.symm⟩
  · rw [List.getElem?_set_ne (fun h => e h.symm)] at h
    exact .inr ⟨e, h⟩

/-- A step that does not begin a section leaves no new section. -/
theorem active_sub {y y' : Sys} {i : Nat} {p p' : PC} (hi : y.thrs[i]? = some p) (ht : y'.thrs = y.thrs.set i p')
    (hp : ∀ s loc, p' = .inside s loc → ∃ loc', p = .inside s loc') {s : Nat} (h : s ∈ y'.active) : s ∈ y.active := by
  obtain ⟨j, loc, hj⟩ := mem_active.1 h
  rw [ht] at hj
  rcases thr_set hj with ⟨-, e⟩ | ⟨-, hj⟩
  · obtain ⟨loc', e'⟩ := hp s loc e.symm
    exact mem_active.2 ⟨i, loc', by rw [hi, e']⟩
  · exact mem_active.2 ⟨j, loc, hj⟩

/-- The items the section leaves behind. -/
theorem join_eq (loc l : List Nat) : (if loc = [] then l else loc ++ l) = loc ++ l := by
  split
  · next h => simp [h]
  · rfl

theorem Inv.step {w : Nat} {y y' : Sys} (I : Inv w y) (st : Step w y y') : Inv w y' := by
  have hle := sumBy_le ins ins_le y.thrs
  have hlt := I.lt
  have hrc := I.rc
  cases st with
  | @begin i hi =>
    have h := sumBy_set ins hi (.inside y.secs [])
    have hle' := sumBy_le ins ins_le (y.thrs.set i (.inside y.secs []))
    simp only [ins, List.length_set] at h hle'
    have hact : ∀ s, s ∈ Sys.active { y with rc := (y.rc + 1) % w, thrs := y.thrs.set i (.inside y.secs []), secs := y.secs + 1 } → s ∈ y.active ∨ s = y.secs := by
      intro s hs
      obtain ⟨j, loc, hj⟩ := mem_active.1 hs
      rcases thr_set hj with ⟨-, e⟩ | ⟨-, hj⟩
      · cases e; exact .inr rfl
      · exact .inl (mem_active.2 ⟨j, loc, hj⟩)
    refine ⟨?_, by simpa using hlt, ?_, ?_, ?_, ?_, ?_, I.log⟩
    · dsimp only
      rw [Nat.mod_eq_of_lt (by omega)]; omega
    · dsimp only
      rw [Nat.mod_eq_of_lt (by omega)]; omega
    · intro x
      have := I.places x
      have h' := sumBy_set (holds x) hi (.inside y.secs [])
      simp only [holds, List.count_nil] at h'
      simp only [LazyGC.places] at this ⊢
      omega
    · intro s hs
      rcases hact s hs with h | h
      · exact Nat.lt_succ_of_lt (I.secs s h)
      · subst h; exact Nat.lt_succ_self _
    · intro l hl s hs
      exact Nat.lt_succ_of_lt (I.recs l hl s hs)
    · intro j x l hj hx s hs
      rcases thr_set hj with ⟨-, e⟩ | ⟨-, hj⟩
      · cases e
      · rcases hact s hs with h | h
        · exact I.drain j x l hj hx s h
        · subst h
          intro l' hl' hm
          exact absurd (I.recs l' (List.mem_iff_getElem?.2 ⟨x, hl'⟩) _ hm) (Nat.lt_irrefl _)
  | @manage i s loc hi =>
    have h := sumBy_set ins hi (.inside s (y.managed.length :: loc))
    simp only [ins] at h
    have hact : ∀ s', s' ∈ Sys.active { y with thrs := y.thrs.set i (.inside s (y.managed.length :: loc)), managed := y.managed ++ [y.active] } → s' ∈ y.active :=
      fun s' hs' => active_sub hi rfl (fun a b e => by cases e; exact ⟨loc, rfl⟩) hs'
    have hnew : LazyGC.places y y.managed.length = 0 := by rw [I.places, if_neg (Nat.lt_irrefl _)]
    refine ⟨by rw [hrc]; dsimp only; omega, by simpa using hlt, I.empty, ?_, fun s' hs' => I.secs s' (hact s' hs'), ?_, ?_, ?_⟩
    · intro x
      have hp := I.places x
      have h' := sumBy_set (holds x) hi (.inside s (y.managed.length :: loc))
      simp only [holds, List.count_cons] at h'
      simp only [LazyGC.places, List.length_append, List.length_singleton] at hp ⊢
      by_cases e : y.managed.length = x
      · subst e
        simp at h' hp ⊢
        omega
      · have e1 : (x < y.managed.length + 1) ↔ (x < y.managed.length) := by omega
        have e2 : (y.managed.length == x) = false := by simp [e]
        simp only [e1]
        simp only [e2] at h'
        simp at h'
        omega
    · intro l hl s' hs'
      rcases List.mem_append.1 hl with hl | hl
      · exact I.recs l hl s' hs'
      · obtain rfl := List.mem_singleton.1 hl
        exact I.secs s' hs'
    · intro j x l hj hx s' hs' l' hl'
      rcases thr_set hj with ⟨-, e⟩ | ⟨-, hj⟩
      · cases e
      · have hxl : x < y.managed.length := by
          have hp := I.places x
          have := le_sumBy (holds x) hj
          have hc : 0 < l.count x := List.count_pos_iff.2 hx
          simp only [holds] at this
          simp only [LazyGC.places] at hp
          apply Decidable.byContradiction; intro hn
          rw [if_neg hn] at hp; omega
        dsimp only at hl'
        rw [List.getElem?_append_left hxl] at hl'
        exact I.drain j x l hj hx s' (hact s' hs') l' hl'
    · intro p hp s' hs' l' hl'
      have hxl : p.1 < y.managed.length := by
        have hp' := I.places p.1
        have hc : 0 < (y.reclaimed.map Prod.fst).count p.1 := List.count_pos_iff.2 (List.mem_map.2 ⟨p, hp, rfl⟩)
        simp only [LazyGC.places] at hp'
        apply Decidable.byContradiction; intro hn
        rw [if_neg hn] at hp'; omega
      dsimp only at hl'
      rw [List.getElem?_append_left hxl] at hl'
      exact I.log p hp s' hs' l' hl'
  | @leave i s loc hi h1 =>
    have h := sumBy_set ins hi .out
    have hge := le_sumBy ins hi
    simp only [ins] at h hge
    have hact : ∀ s', s' ∈ Sys.active { y with list := if loc = [] then y.list else loc ++ y.list, rc := (y.rc + w - 1) % w, thrs := y.thrs.set i .out } → s' ∈ y.active :=
      fun s' hs' => active_sub hi rfl (fun a b e => by cases e) hs'
    have hmod : (y.rc + w - 1) % w = y.rc - 1 := by
      rw [show y.rc + w - 1 = (y.rc - 1) + w by omega, Nat.add_mod_right, Nat.mod_eq_of_lt (by omega)]
    refine ⟨by dsimp only; rw [hmod]; omega, by simpa using hlt, ?_, ?_, fun s' hs' => I.secs s' (hact s' hs'), I.recs, ?_, I.log⟩
    · dsimp only; rw [hmod]; intro h0; omega
    · intro x
      have hp := I.places x
      have h' := sumBy_set (holds x) hi .out
      simp only [holds] at h'
      simp only [LazyGC.places, join_eq, List.count_append] at hp ⊢
      omega
    · intro j x l hj hx s' hs'
      rcases thr_set hj with ⟨-, e⟩ | ⟨-, hj⟩
      · cases e
      · exact I.drain j x l hj hx s' (hact s' hs')
  | @last i s loc hi h1 =>
    have h := sumBy_set ins hi (.drain (if loc = [] then y.list else loc ++ y.list))
    simp only [ins] at h
    have hmod : (y.rc + w - 1) % w = 0 := by
      rw [h1, show 1 + w - 1 = w by omega, Nat.mod_self]
    have hnone : ∀ s', s' ∉ Sys.active { y with list := [], rc := (y.rc + w - 1) % w, thrs := y.thrs.set i (.drain (if loc = [] then y.list else loc ++ y.list)) } := by
      intro s' hs'
      obtain ⟨j, loc', hj⟩ := mem_active.1 hs'
      have := le_sumBy ins hj
      simp only [ins] at this
      omega
    refine ⟨by dsimp only; rw [hmod]; omega, by simpa using hlt, fun _ => rfl, ?_, fun s' hs' => absurd hs' (hnone s'), I.recs, fun _ _ _ _ _ s' hs' => absurd hs' (hnone s'), I.log⟩
    intro x
    have hp := I.places x
    have h' := sumBy_set (holds x) hi (.drain (if loc = [] then y.list else loc ++ y.list))
    simp only [holds, join_eq, List.count_append] at h'
    simp only [LazyGC.places, join_eq, List.count_nil] at hp ⊢
    omega
  | @reclaim i x l hi =>
    have h := sumBy_set ins hi (.drain l)
    simp only [ins] at h
    have hact : ∀ s', s' ∈ Sys.active { y with thrs := y.thrs.set i (.drain l), reclaimed := y.reclaimed ++ [(x, y.active)] } → s' ∈ y.active :=
      fun s' hs' => active_sub hi rfl (fun a b e => by cases e) hs'
    refine ⟨by rw [hrc]; dsimp only; omega, by simpa using hlt, I.empty, ?_, fun s' hs' => I.secs s' (hact s' hs'), I.recs, ?_, ?_⟩
    · intro z
      have hp := I.places z
      have h' := sumBy_set (holds z) hi (.drain l)
      simp only [holds, List.count_cons] at h'
      simp only [LazyGC.places, List.map_append, List.map_cons, List.map_nil, List.count_append, List.count_cons, List.count_nil] at hp ⊢
      omega
    · intro j z l' hj hx s' hs'
      rcases thr_set hj with ⟨-, e⟩ | ⟨-, hj⟩
      · cases e
        exact I.drain i z _ hi (List.mem_cons_of_mem _ hx) s' (hact s' hs')
      · exact I.drain j z l' hj hx s' (hact s' hs')
    · intro p hp s' hs'
      rcases List.mem_append.1 hp with hp | hp
      · exact I.log p hp s' hs'
      · obtain rfl := List.mem_singleton.1 hp
        exact I.drain i x _ hi (by simp) s' hs'
  | @drained i hi =>
    have h := sumBy_set ins hi .out
    simp only [ins] at h
    have hact : ∀ s', s' ∈ Sys.active { y with thrs := y.thrs.set i .out } → s' ∈ y.active :=
      fun s' hs' => active_sub hi rfl (fun a b e => by cases e) hs'
    refine ⟨by rw [hrc]; dsimp only; omega, by simpa using hlt, I.empty, ?_, fun s' hs' => I.secs s' (hact s' hs'), I.recs, ?_, I.log⟩
    · intro z
      have hp := I.places z
      have h' := sumBy_set (holds z) hi .out
      simp only [holds, List.count_nil] at h'
      simp only [LazyGC.places] at hp ⊢
      omega
    · intro j z l' hj hx s' hs'
      rcases thr_set hj with ⟨-, e⟩ | ⟨-, hj⟩
      · cases e
      · exact I.drain j z l' hj hx s' (hact s' hs')

theorem inv_init {w n : Nat} (h : n < w) : Inv w (init n) := by
  refine ⟨?_, by simpa [init] using h, fun _ => rfl, ?_, ?_, ?_, ?_, ?_⟩
  · simp [init, sumBy_replicate, ins]
  · intro x; simp [LazyGC.places, init, sumBy_replicate, holds]
  · intro s hs
    obtain ⟨i, loc, hi⟩ := mem_active.1 hs
    simp [init, List.getElem?_replicate] at hi
  · intro l hl; simp [init] at hl
  · intro i x l hi; simp [init, List.getElem?_replicate] at hi
  · intro p hp; simp [init] at hp

theorem Reach.inv {w n : Nat} (hn : n < w) {y : Sys} (h : Reach w n y) : Inv w y := by
  induction h with
  | init => exact inv_init hn
  | step _ s ih => exact ih.step s

/-- **C18.** With fewer threads than the count has values, in every interleaving:
* no item is reclaimed twice, and only items that were handed over are reclaimed;
* when an item is reclaimed, no section that was in progress when it was handed over is still in progress;
* when no thread is in a section or reclaiming, everything handed over has been reclaimed. -/
theorem C18_lazy_reclaims (w n : Nat) (hn : n < w) (y : Sys) (h : Reach w n y) :
    (y.reclaimed.map Prod.fst).Nodup ∧
    (∀ p ∈ y.reclaimed, ∃ l, y.managed[p.1]? = some l ∧ ∀ s ∈ l, s ∉ p.2) ∧
    ((∀ t ∈ y.thrs, t = .out) → ∀ x, x < y.managed.length → x ∈ y.reclaimed.map Prod.fst) := by
  have I := h.inv hn
  have hmem : ∀ x, x ∈ y.reclaimed.map Prod.fst → x < y.managed.length := by
    intro x hx
    have hp := I.places x
    have hc := List.count_pos_iff.2 hx
    simp only [LazyGC.places] at hp
    apply Decidable.byContradiction; intro hn
    rw [if_neg hn] at hp; omega
  refine ⟨?_, ?_, ?_⟩
  · rw [List.nodup_iff_count]
    intro x
    have hp := I.places x
    simp only [LazyGC.places] at hp
    split at hp <;> omega
  · intro p hp
    have hl := hmem p.1 (List.mem_map.2 ⟨p, hp, rfl⟩)
    obtain ⟨l, hl⟩ : ∃ l, y.managed[p.1]? = some l := ⟨_, List.getElem?_eq_getElem hl⟩
    exact ⟨l, hl, fun s hs hs' => I.log p hp s hs' l hl hs⟩
  · intro hall x hx
    have hp := I.places x
    rw [if_pos hx] at hp
    have h0 : sumBy ins y.thrs = 0 := sumBy_eq_zero _ fun t ht => by rw [hall t ht]; rfl
    have h1 : sumBy (holds x) y.thrs = 0 := sumBy_eq_zero _ fun t ht => by rw [hall t ht]; rfl
    have hrc := I.rc
    have hl := I.empty (by omega)
    simp only [LazyGC.places, hl, h1, List.count_nil] at hp
    exact List.count_pos_iff.1 (by omega)

/-- Non-vacuity: an item is handed over while another thread is in a section; it is reclaimed after both left, while a third section is in progress. -/
example : ∃ y, Reach (2 ^ 32) 2 y ∧ y.managed = [[0, 1]] ∧ y.reclaimed = [(0, [2])] := by
  have h := Reach.init (w := 2 ^ 32) (n := 2)
  have h := h.step (Step.begin (i := 0) rfl)
  have h := h.step (Step.begin (i := 1) rfl)
  have h := h.step (Step.manage (i := 0) rfl)
  have h := h.step (Step.leave (i := 0) rfl (by decide))
  have h := h.step (Step.last (i := 1) rfl (by decide))
  have h := h.step (Step.begin (i := 0) rfl)
  have h := h.step (Step.reclaim (i := 1) rfl)
  exact ⟨_, h, rfl, rfl⟩

#print axioms C18_lazy_reclaims
end Verif.LazyGC
