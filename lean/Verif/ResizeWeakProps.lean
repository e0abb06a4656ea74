import Verif.ResizeWeak
/-!
# C144: what is written to an index map is not lost by a resize
-/
namespace Verif.ResizeWeak

theorem upd_same {α : Type} (f : Nat → α) (i : Nat) (a : α) : upd f i a i = a := by simp [upd]
theorem upd_ne {α : Type} (f : Nat → α) {i j : Nat} (a : α) (h : j ≠ i) : upd f i a j = f j := by simp [upd, h]

/-- Every resize that succeeded copied the last value written to the place. -/
def NoneLost (z : W) : Prop := ∀ r ∈ z.resizes, r.1 = r.2

/-- Counted in `modify`. -/
def In : PC → Prop
  | .inside | .written | .bumped => True
  | _ => False

/-- The orders that are needed. -/
def Enough (o : Orders) : Prop := o.loadAcq = true ∧ (if o.strict then o.modRel else o.bumpRel) = true

structure Inv (z : W) : Prop where
  count : ∃ L : List Nat, L.Nodup ∧ L.length = z.cur.modify ∧ ∀ i, i ∈ L ↔ In (z.pc i)
  older : ∀ p ∈ z.past, p.data < z.cur.data ∨ (p.data = z.cur.data ∧ p.mutate ≤ z.cur.mutate)
  source : z.latest ≤ z.cur.carries ∨ ∃ j, z.pc j = .written ∧ z.view j = z.latest
  known : (∀ j, z.pc j ≠ .written) → ∀ p ∈ z.cur :: z.past, p.data = z.cur.data → p.mutate = z.cur.mutate → z.latest ≤ p.carries
  loaded : ∀ i p, z.pc i = .loaded p → p ∈ z.cur :: z.past ∧ (p.data = z.cur.data → p.carries ≤ z.view i)
  copied : ∀ i p w, z.pc i = .copied p w → p ∈ z.cur :: z.past ∧ (p.data = z.cur.data → p.carries ≤ w ∧ w ≤ z.latest)
  ok : NoneLost z

theorem count_in {z : W} {i : Nat} {q : PC} {m : Nat} (h : ∃ L : List Nat, L.Nodup ∧ L.length = m ∧ ∀ i, i ∈ L ↔ In (z.pc i)) (hi : ¬ In (z.pc i)) (hq : In q) :
    ∃ L : List Nat, L.Nodup ∧ L.length = m + 1 ∧ ∀ j, j ∈ L ↔ In (upd z.pc i q j) := by
  obtain ⟨L, hn, hl, hm⟩ := h
  refine ⟨i :: L, List.nodup_cons.mpr ⟨fun k => hi ((hm i).mp k), hn⟩, by simp [hl], fun j => ?_⟩
  by_cases e : j = i
  · subst e; simp [upd_same, hq]
  · rw [upd_ne _ _ e, ← hm j]; simp [e]

theorem count_out {z : W} {i : Nat} {q : PC} {m : Nat} (h : ∃ L : List Nat, L.Nodup ∧ L.length = m ∧ ∀ i, i ∈ L ↔ In (z.pc i)) (hi : In (z.pc i)) (hq : ¬ In q) :
    ∃ L : List Nat, L.Nodup ∧ L.length = m - 1 ∧ ∀ j, j ∈ L ↔ In (upd z.pc i q j) := by
  obtain ⟨L, hn, hl, hm⟩ := h
  refine ⟨L.erase i, hn.erase i, by rw [List.length_erase_of_mem ((hm i).mpr hi), hl], fun j => ?_⟩
  rw [hn.mem_erase_iff]
  by_cases e : j = i
  · subst e; simp [upd_same, hq]
  · rw [upd_ne _ _ e, ← hm j]; simp [e]

theorem count_same {z : W} {i : Nat} {q : PC} {m : Nat} (h : ∃ L : List Nat, L.Nodup ∧ L.length = m ∧ ∀ i, i ∈ L ↔ In (z.pc i)) (hq : In (z.pc i) ↔ In q) :
    ∃ L : List Nat, L.Nodup ∧ L.length = m ∧ ∀ j, j ∈ L ↔ In (upd z.pc i q j) := by
  obtain ⟨L, hn, hl, hm⟩ := h
  refine ⟨L, hn, hl, fun j => ?_⟩
  by_cases e : j = i
  · subst e; rw [upd_same, hm j, hq]
  · rw [upd_ne _ _ e, hm j]

/-- The last value of `pointer` that is not the present one. -/
theorem older_cons {z : W} (I : Inv z) {c : P} (hd : c.data = z.cur.data) (hm : z.cur.mutate ≤ c.mutate) :
    ∀ p ∈ z.cur :: z.past, p.data < c.data ∨ (p.data = c.data ∧ p.mutate ≤ c.mutate) := by
  intro p hp
  rcases List.mem_cons.mp hp with e | hp
  · subst e; exact .inr ⟨hd.symm, hm⟩
  · rcases I.older p hp with h | h
    · exact .inl (by omega)
    · exact .inr ⟨by omega, by omega⟩

theorem written_of {f : Nat → PC} {i j : Nat} {q : PC} (hi : f i ≠ .written) (h : f j = .written) : upd f i q j = .written := by
  have : j ≠ i := by rintro rfl; exact hi h
  rw [upd_ne _ _ this, h]

theorem Inv.step {o : Orders} (ho : Enough o) {z z' : W} (I : Inv z) (s : Step o z z') : Inv z' := by
  obtain ⟨hacq, hrel⟩ := ho
  have C := I.count
  cases s with
  | enter i hi =>
    have hnw : z.pc i ≠ .written := by rw [hi]; nofun
    refine ⟨count_in C (by rw [hi]; exact id) trivial, older_cons I rfl (Nat.le_refl _), ?_, ?_, ?_, ?_, I.ok⟩
    · rcases I.source with h | ⟨j, h, h2⟩
      · exact .inl h
      · exact .inr ⟨j, written_of hnw h, h2⟩
    · intro hn p hp hd hm
      dsimp only at hn hp hd hm ⊢
      have hn' : ∀ j, z.pc j ≠ .written := fun j h => hn j (written_of hnw h)
      rcases List.mem_cons.mp hp with e | hp
      · subst e; exact I.known hn' z.cur (List.mem_cons_self ..) rfl rfl
      · exact I.known hn' p hp hd hm
    · intro j p h
      dsimp only at h ⊢
      by_cases e : j = i
      · subst e; rw [upd_same] at h; cases h
      · rw [upd_ne _ _ e] at h
        exact ⟨List.mem_cons_of_mem _ (I.loaded j p h).1, (I.loaded j p h).2⟩
    · intro j p w h
      dsimp only at h ⊢
      by_cases e : j = i
      · subst e; rw [upd_same] at h; cases h
      · rw [upd_ne _ _ e] at h
        exact ⟨List.mem_cons_of_mem _ (I.copied j p w h).1, (I.copied j p w h).2⟩
  | write i hi =>
    refine ⟨count_same C (by rw [hi]; exact Iff.rfl), I.older, ?_, ?_, ?_, ?_, I.ok⟩
    · exact .inr ⟨i, upd_same .., upd_same ..⟩
    · intro hn
      exact absurd (upd_same ..) (hn i)
    · intro j p h
      dsimp only at h ⊢
      by_cases e : j = i
      · subst e; rw [upd_same] at h; cases h
      · rw [upd_ne _ _ e] at h
        refine ⟨(I.loaded j p h).1, fun hd => ?_⟩
        rw [upd_ne _ _ e]
        exact (I.loaded j p h).2 hd
    · intro j p w h
      dsimp only at h ⊢
      by_cases e : j = i
      · subst e; rw [upd_same] at h; cases h
      · rw [upd_ne _ _ e] at h
        refine ⟨(I.copied j p w h).1, fun hd => ?_⟩
        have := (I.copied j p w h).2 hd
        exact ⟨this.1, by show w ≤ z.latest + 1; omega⟩
  | bump i hs hi =>
    have hb : o.bumpRel = true := by simpa [hs] using hrel
    have src : z.latest ≤ max z.cur.carries (z.view i) ∨ ∃ j, upd z.pc i .bumped j = .written ∧ z.view j = z.latest := by
      rcases I.source with h | ⟨j, h, h2⟩
      · exact .inl (by omega)
      · by_cases e : j = i
        · subst e; exact .inl (by omega)
        · exact .inr ⟨j, by rw [upd_ne _ _ e, h], h2⟩
    refine ⟨count_same C (by rw [hi]; exact Iff.rfl), older_cons I rfl (Nat.le_succ _), ?_, ?_, ?_, ?_, I.ok⟩
    · simpa only [hb, if_true] using src
    · intro hn p hp hd hm
      dsimp only at hn hp hd hm ⊢
      rcases List.mem_cons.mp hp with e | hp
      · subst e
        simp only [hb, if_true]
        rcases src with h | ⟨j, h, -⟩
        · exact h
        · exact absurd h (hn j)
      · exfalso
        rcases List.mem_cons.mp hp with e | hp
        · subst e; omega
        · rcases I.older p hp with h | h <;> omega
    · intro j p h
      dsimp only at h ⊢
      by_cases e : j = i
      · subst e; rw [upd_same] at h; cases h
      · rw [upd_ne _ _ e] at h
        exact ⟨List.mem_cons_of_mem _ (I.loaded j p h).1, (I.loaded j p h).2⟩
    · intro j p w h
      dsimp only at h ⊢
      by_cases e : j = i
      · subst e; rw [upd_same] at h; cases h
      · rw [upd_ne _ _ e] at h
        exact ⟨List.mem_cons_of_mem _ (I.copied j p w h).1, (I.copied j p w h).2⟩
  | leave i hi =>
    have hnw : z.pc i ≠ .written := by rcases hi with h | h <;> rw [h] <;> nofun
    have hc : z.cur.carries ≤ (if o.modRel then max z.cur.carries (z.view i) else z.cur.carries) := by split <;> omega
    refine ⟨count_out C (by rcases hi with h | h <;> rw [h] <;> trivial) id, older_cons I rfl (Nat.le_refl _), ?_, ?_, ?_, ?_, I.ok⟩
    · rcases I.source with h | ⟨j, h, h2⟩
      · exact .inl (Nat.le_trans h hc)
      · exact .inr ⟨j, written_of hnw h, h2⟩
    · intro hn p hp hd hm
      dsimp only at hn hp hd hm ⊢
      have hn' : ∀ j, z.pc j ≠ .written := fun j h => hn j (written_of hnw h)
      rcases List.mem_cons.mp hp with e | hp
      · subst e; exact Nat.le_trans (I.known hn' z.cur (List.mem_cons_self ..) rfl rfl) hc
      · exact I.known hn' p hp hd hm
    · intro j p h
      dsimp only at h ⊢
      by_cases e : j = i
      · subst e; rw [upd_same] at h; cases h
      · rw [upd_ne _ _ e] at h
        exact ⟨List.mem_cons_of_mem _ (I.loaded j p h).1, (I.loaded j p h).2⟩
    · intro j p w h
      dsimp only at h ⊢
      by_cases e : j = i
      · subst e; rw [upd_same] at h; cases h
      · rw [upd_ne _ _ e] at h
        exact ⟨List.mem_cons_of_mem _ (I.copied j p w h).1, (I.copied j p w h).2⟩
  | finish i hs hi =>
    have hb : o.modRel = true := by simpa [hs] using hrel
    have src : z.latest ≤ max z.cur.carries (z.view i) ∨ ∃ j, upd z.pc i .idle j = .written ∧ z.view j = z.latest := by
      rcases I.source with h | ⟨j, h, h2⟩
      · exact .inl (by omega)
      · by_cases e : j = i
        · subst e; exact .inl (by omega)
        · exact .inr ⟨j, by rw [upd_ne _ _ e, h], h2⟩
    refine ⟨count_out C (by rw [hi]; trivial) id, older_cons I rfl (Nat.le_succ _), ?_, ?_, ?_, ?_, I.ok⟩
    · simpa only [hb, if_true] using src
    · intro hn p hp hd hm
      dsimp only at hn hp hd hm ⊢
      rcases List.mem_cons.mp hp with e | hp
      · subst e
        simp only [hb, if_true]
        rcases src with h | ⟨j, h, -⟩
        · exact h
        · exact absurd h (hn j)
      · exfalso
        rcases List.mem_cons.mp hp with e | hp
        · subst e; omega
        · rcases I.older p hp with h | h <;> omega
    · intro j p h
      dsimp only at h ⊢
      by_cases e : j = i
      · subst e; rw [upd_same] at h; cases h
      · rw [upd_ne _ _ e] at h
        exact ⟨List.mem_cons_of_mem _ (I.loaded j p h).1, (I.loaded j p h).2⟩
    · intro j p w h
      dsimp only at h ⊢
      by_cases e : j = i
      · subst e; rw [upd_same] at h; cases h
      · rw [upd_ne _ _ e] at h
        exact ⟨List.mem_cons_of_mem _ (I.copied j p w h).1, (I.copied j p w h).2⟩
  | @load p i hi hp =>
    have hnw : z.pc i ≠ .written := by rw [hi]; nofun
    refine ⟨count_same C (by rw [hi]; exact Iff.rfl), I.older, ?_, ?_, ?_, ?_, I.ok⟩
    · rcases I.source with h | ⟨j, h, h2⟩
      · exact .inl h
      · have : j ≠ i := by rintro rfl; exact hnw h
        exact .inr ⟨j, written_of hnw h, (upd_ne _ _ this).trans h2⟩
    · intro hn
      exact I.known fun j h => hn j (written_of hnw h)
    · intro j q h
      dsimp only at h ⊢
      by_cases e : j = i
      · subst e; rw [upd_same] at h; cases h
        refine ⟨hp, fun hd => ?_⟩
        rw [upd_same, if_pos ⟨hacq, hd⟩]
        omega
      · rw [upd_ne _ _ e] at h
        refine ⟨(I.loaded j q h).1, fun hd => ?_⟩
        rw [upd_ne _ _ e]
        exact (I.loaded j q h).2 hd
    · intro j q w h
      dsimp only at h ⊢
      by_cases e : j = i
      · subst e; rw [upd_same] at h; cases h
      · rw [upd_ne _ _ e] at h
        exact I.copied j q w h
  | @copy p i w hi hw =>
    have hnw : z.pc i ≠ .written := by rw [hi]; nofun
    refine ⟨count_same C (by rw [hi]; exact Iff.rfl), I.older, ?_, ?_, ?_, ?_, I.ok⟩
    · rcases I.source with h | ⟨j, h, h2⟩
      · exact .inl h
      · exact .inr ⟨j, written_of hnw h, h2⟩
    · intro hn
      exact I.known fun j h => hn j (written_of hnw h)
    · intro j q h
      dsimp only at h ⊢
      by_cases e : j = i
      · subst e; rw [upd_same] at h; cases h
      · rw [upd_ne _ _ e] at h
        exact I.loaded j q h
    · intro j q v h
      dsimp only at h ⊢
      by_cases e : j = i
      · subst e; rw [upd_same] at h; cases h
        refine ⟨(I.loaded j p hi).1, fun hd => ?_⟩
        exact ⟨Nat.le_trans ((I.loaded j p hi).2 hd) (hw hd).1, (hw hd).2⟩
      · rw [upd_ne _ _ e] at h
        exact I.copied j q v h
  | @swap p w i hi h0 hm hd =>
    have none : ∀ j, ¬ In (z.pc j) := by
      obtain ⟨L, -, hl, hL⟩ := C
      have : L = [] := List.eq_nil_of_length_eq_zero (hl.trans h0)
      subst this
      intro j k
      exact absurd ((hL j).mpr k) (by simp)
    have lost : w = z.latest := by
      have hc := I.copied i p w hi
      have := I.known (fun j h => none j (by rw [h]; trivial)) p hc.1 hd.symm hm.symm
      have := hc.2 hd.symm
      omega
    have old : ∀ q ∈ z.cur :: z.past, q.data ≤ z.cur.data := by
      intro q hq
      rcases List.mem_cons.mp hq with e | hq
      · subst e; exact Nat.le_refl _
      · rcases I.older q hq with h | h <;> omega
    refine ⟨?_, ?_, .inl (Nat.le_refl _), ?_, ?_, ?_, ?_⟩
    · refine ⟨[], List.nodup_nil, rfl, fun j => ?_⟩
      have hj : ¬ In (upd z.pc i .idle j) := by
        by_cases e : j = i
        · subst e; rw [upd_same]; exact id
        · rw [upd_ne _ _ e]; exact none j
      simp [hj]
    · intro q hq
      exact .inl (by have := old q hq; show q.data < z.cur.data + 1; omega)
    · intro _ q _ _ _
      exact Nat.zero_le _
    · intro j q h
      dsimp only at h ⊢
      by_cases e : j = i
      · subst e; rw [upd_same] at h; cases h
      · rw [upd_ne _ _ e] at h
        have hq := (I.loaded j q h).1
        exact ⟨List.mem_cons_of_mem _ hq, fun hd => by have := old q hq; omega⟩
    · intro j q v h
      dsimp only at h ⊢
      by_cases e : j = i
      · subst e; rw [upd_same] at h; cases h
      · rw [upd_ne _ _ e] at h
        have hq := (I.copied j q v h).1
        exact ⟨List.mem_cons_of_mem _ hq, fun hd => by have := old q hq; omega⟩
    · intro r hr
      rcases List.mem_append.mp hr with hr | hr
      · exact I.ok r hr
      · rw [List.mem_singleton.mp hr]; exact lost
  | @fail p w i hi _ =>
    have hnw : z.pc i ≠ .written := by rw [hi]; nofun
    refine ⟨count_same C (by rw [hi]; exact Iff.rfl), I.older, ?_, ?_, ?_, ?_, I.ok⟩
    · rcases I.source with h | ⟨j, h, h2⟩
      · exact .inl h
      · exact .inr ⟨j, written_of hnw h, h2⟩
    · intro hn
      exact I.known fun j h => hn j (written_of hnw h)
    · intro j q h
      dsimp only at h ⊢
      by_cases e : j = i
      · subst e; rw [upd_same] at h; cases h
      · rw [upd_ne _ _ e] at h
        exact I.loaded j q h
    · intro j q v h
      dsimp only at h ⊢
      by_cases e : j = i
      · subst e; rw [upd_same] at h; cases h
      · rw [upd_ne _ _ e] at h
        exact I.copied j q v h

theorem Reach.inv {o : Orders} (ho : Enough o) {z : W} (r : Reach o z) : Inv z := by
  induction r with
  | init =>
    refine ⟨⟨[], List.nodup_nil, rfl, fun i => ?_⟩, nofun, .inl (Nat.le_refl _), fun _ p hp _ _ => Nat.zero_le _, nofun, nofun, nofun⟩
    simp [ResizeWeak.init, In]
  | step _ s ih => exact ih.step ho s

/-- A remove loads `pointer` after a replace has ended. -/
theorem after_the_end (o : Orders) (h : o.loadAcq = false ∨ (o.strict = true ∧ o.modRel = false)) : ∃ z, Reach o z ∧ z.resizes = [(0, 1)] := by
  have r := Reach.init (o := o)
  have r := r.step (.enter 0 rfl)
  have r := r.step (.write 0 rfl)
  cases hs : o.strict with
  | true =>
    have r := r.step (.finish 0 hs rfl)
    have r := r.step (.load 1 rfl (List.mem_cons_self ..))
    have r := r.step (.copy 1 0 rfl (fun _ => ⟨by rcases h with h | ⟨-, h⟩ <;> simp [upd, h, ResizeWeak.init], Nat.zero_le _⟩))
    have r := r.step (.swap 1 rfl rfl rfl rfl)
    exact ⟨_, r, rfl⟩
  | false =>
    have ha : o.loadAcq = false := by rcases h with h | h; exact h; rw [hs] at h; cases h.1
    have r := r.step (.bump 0 hs rfl)
    have r := r.step (.leave 0 (.inr rfl))
    have r := r.step (.load 1 rfl (List.mem_cons_self ..))
    have r := r.step (.copy 1 0 rfl (fun _ => ⟨by simp [upd, ha, ResizeWeak.init], Nat.zero_le _⟩))
    have r := r.step (.swap 1 rfl rfl rfl rfl)
    exact ⟨_, r, rfl⟩

/-- A remove loads `pointer` between the two additions of a replace. -/
theorem between (o : Orders) (hs : o.strict = false) (h : o.bumpRel = false) : ∃ z, Reach o z ∧ z.resizes = [(0, 1)] := by
  have r := Reach.init (o := o)
  have r := r.step (.enter 0 rfl)
  have r := r.step (.write 0 rfl)
  have r := r.step (.bump 0 hs rfl)
  have r := r.step (.load 1 rfl (List.mem_cons_self ..))
  have r := r.step (.leave 0 (.inr rfl))
  have r := r.step (.copy 1 0 rfl (fun _ => ⟨by simp [upd, h, ResizeWeak.init], Nat.zero_le _⟩))
  have r := r.step (.swap 1 rfl rfl rfl rfl)
  exact ⟨_, r, rfl⟩

/-- C144: no resize loses a value written by a replace or an append that has ended or is under way, in any execution, exactly if the load of `pointer` before the copy is an acquire and the addition to `mutate` is a release (with strict compliance: the exchange that ends the replace). -/
theorem C144_resizes (o : Orders) : (∀ z, Reach o z → NoneLost z) ↔ Enough o := by
  constructor
  · intro h
    have no : ∀ z, Reach o z → z.resizes ≠ [(0, 1)] := fun z r e => by
      have := h z r (0, 1) (by rw [e]; exact List.mem_singleton_self _)
      simp at this
    refine ⟨?_, ?_⟩
    · cases ha : o.loadAcq with
      | true => rfl
      | false =>
        obtain ⟨z, r, e⟩ := after_the_end o (.inl ha)
        exact absurd e (no z r)
    · cases hs : o.strict with
      | true =>
        cases hm : o.modRel with
        | true => rfl
        | false =>
          obtain ⟨z, r, e⟩ := after_the_end o (.inr ⟨hs, hm⟩)
          exact absurd e (no z r)
      | false =>
        cases hb : o.bumpRel with
        | true => rfl
        | false =>
          obtain ⟨z, r, e⟩ := between o hs hb
          exact absurd e (no z r)
  · intro ho z r
    exact (r.inv ho).ok

/-- C144, for the orders of the file, with strict compliance or without: not so. -/
theorem C144_code_refuted (strict : Bool) : ∃ z, Reach (code strict) z ∧ ¬ NoneLost z := by
  obtain ⟨z, r, e⟩ := after_the_end (code strict) (.inl rfl)
  exact ⟨z, r, fun h => by have := h (0, 1) (by rw [e]; exact List.mem_singleton_self _); simp at this⟩

/-- C144, where reads through an address are ordered after the load of the address: with strict compliance it is so, without it is not. -/
theorem C144_dependent (strict : Bool) : (∀ z, Reach (dependent strict) z → NoneLost z) ↔ strict = true := by
  rw [C144_resizes]
  cases strict <;> simp [Enough, dependent, code]

/-- The theorem is about resizes that happen: with the orders that are needed one copies a value that was written. -/
example : ∃ z, Reach ⟨false, true, true, false⟩ z ∧ z.resizes = [(1, 1)] := by
  have r := Reach.init (o := ⟨false, true, true, false⟩)
  have r := r.step (.enter 0 rfl)
  have r := r.step (.write 0 rfl)
  have r := r.step (.bump 0 rfl rfl)
  have r := r.step (.load 1 rfl (List.mem_cons_self ..))
  have r := r.step (.leave 0 (.inr rfl))
  have r := r.step (.copy 1 1 rfl (fun _ => by decide))
  have r := r.step (.swap 1 rfl rfl rfl rfl)
  exact ⟨_, r, rfl⟩

#print axioms C144_resizes
#print axioms C144_code_refuted
#print axioms C144_dependent

end Verif.ResizeWeak
