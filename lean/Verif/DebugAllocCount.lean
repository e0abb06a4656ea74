import Verif.DebugAllocLemmas
import Verif.Conc

/-! # How many entries the map has, and what a dump holds -/
namespace Verif.DebugAlloc

open Verif.Conc

/-! ### The number of entries -/

/-- What holds of the context in every execution. -/
def CtxLoc (s : State) : Pc → Prop
  | .trackCas _ _ id => id < s.maps.length
  | .trackReload _ _ => s.ctx ≠ none
  | .trackPut _ _ id => s.ctx = some id
  | .find _ _ id _ => s.ctx = some id
  | .put _ _ id _ => s.ctx = some id
  | _ => True

structure CInv (s : State) : Prop where
  loc : ∀ pc ∈ s.threads, CtxLoc s pc
  empty : s.ctx = none → ∀ m ∈ s.maps, m = []
  ctx : ∀ id, s.ctx = some id → id < s.maps.length

theorem CtxLoc.mono {s s' : State} {pc : Pc} (h : CtxLoc s pc) (hc : ∀ id, s.ctx = some id → s'.ctx = some id)
    (hm : s.maps.length ≤ s'.maps.length) : CtxLoc s' pc := by
  cases pc with
  | trackCas p i id => exact Nat.lt_of_lt_of_le h hm
  | trackReload p i =>
    obtain ⟨id, hid⟩ := Option.ne_none_iff_exists'.1 h
    show s'.ctx ≠ none
    rw [hc id hid]
    simp
  | trackPut p i id => exact hc id h
  | find j p id i => exact hc id h
  | put j p id i => exact hc id h
  | _ => trivial

theorem cinv_of {s s' : State} {t : Nat} {pc' : Pc} (hi : CInv s) (hth : s'.threads = s.threads.set t pc')
    (hloc : CtxLoc s' pc') (hc : ∀ id, s.ctx = some id → s'.ctx = some id) (hm : s.maps.length ≤ s'.maps.length)
    (he : s'.ctx = none → ∀ m ∈ s'.maps, m = []) (hid : ∀ id, s'.ctx = some id → id < s'.maps.length) : CInv s' := by
  refine ⟨?_, he, hid⟩
  intro pc h
  rw [hth] at h
  rcases List.mem_or_eq_of_mem_set h with h | h
  · exact (hi.loc pc h).mono hc hm
  · rw [h]; exact hloc

theorem step_count {hold : Bool} {s s' : State} {t : Nat} {c : Choice} (hi : CInv s) (h : step hold s t c = some s') :
    CInv s' ∧ (slots s').length + sumBy tracking s'.threads =
      (slots s).length + sumBy tracking s.threads + mallocs [(t, c)] := by
  rw [step] at h
  cases ht : s.threads[t]? with
  | none => rw [ht] at h; cases h
  | some pc =>
    rw [ht] at h
    simp only [Option.map_eq_some_iff] at h
    obtain ⟨⟨s₁, pc'⟩, ha, rfl⟩ := h
    have hloc := hi.loc pc (List.mem_of_getElem? ht)
    have hsum := sumBy_set tracking ht pc'
    cases pc with
    | idle =>
      cases c with
      | malloc p info =>
        simp only [act] at ha
        split at ha
        · cases ha
          refine ⟨cinv_of hi rfl trivial (fun _ h => h) (Nat.le_refl _) hi.empty hi.ctx, ?_⟩
          simp only [tracking, mallocs] at hsum ⊢
          have : slots { s with heap := (p, info) :: s.heap, threads := s.threads.set t (Pc.trackLoad p info) } = slots s := rfl
          rw [this]
          omega
        · cases ha
      | realloc p q info =>
        simp only [act] at ha
        split at ha
        · cases ha
          refine ⟨cinv_of hi rfl trivial (fun _ h => h) (Nat.le_refl _) hi.empty hi.ctx, ?_⟩
          simp only [tracking, mallocs] at hsum ⊢
          have : ∀ a b, slots { s with heap := a, threads := b } = slots s := fun a b => rfl
          rw [this]
          omega
        · cases ha
      | free p =>
        simp only [act] at ha
        split at ha
        · cases ha
          refine ⟨cinv_of hi rfl trivial (fun _ h => h) (Nat.le_refl _) hi.empty hi.ctx, ?_⟩
          simp only [tracking, mallocs] at hsum ⊢
          have : ∀ b, slots { s with threads := b } = slots s := fun b => rfl
          rw [this]
          omega
        · cases ha
      | query p =>
        simp only [act] at ha
        split at ha
        · cases ha
        · cases ha
          refine ⟨cinv_of hi rfl trivial (fun _ h => h) (Nat.le_refl _) hi.empty hi.ctx, ?_⟩
          simp only [tracking, mallocs] at hsum ⊢
          have : ∀ b, slots { s with threads := b } = slots s := fun b => rfl
          rw [this]
          omega
      | go => cases ha
    | trackLoad p info =>
      cases c with
      | go =>
        simp only [act] at ha
        split at ha
        · rename_i id hc
          cases ha
          refine ⟨cinv_of hi rfl hc (fun _ h => h) (Nat.le_refl _) hi.empty hi.ctx, ?_⟩
          simp only [tracking, mallocs] at hsum ⊢
          have : ∀ b, slots { s with threads := b } = slots s := fun b => rfl
          rw [this]
          omega
        · rename_i hc
          cases ha
          refine ⟨cinv_of hi rfl (by simp [CtxLoc]) (fun _ h => h) (by simp) ?_ ?_, ?_⟩
          · intro _ m hm
            rcases List.mem_append.1 hm with h | h
            · exact hi.empty hc m h
            · simpa using h
          · intro id h
            rw [hc] at h
            cases h
          · simp only [tracking, mallocs] at hsum ⊢
            have : ∀ a b, slots { s with maps := a, threads := b } = slots s := fun a b => by
              rw [slots_none hc]
              exact slots_none hc
            rw [this]
            omega
      | _ => cases ha
    | trackCas p info id =>
      cases c with
      | go =>
        simp only [act] at ha
        split at ha
        · rename_i id' hc
          cases ha
          refine ⟨cinv_of hi rfl (by show s.ctx ≠ none; rw [hc]; simp) (fun _ h => h) (Nat.le_refl _) hi.empty hi.ctx, ?_⟩
          simp only [tracking, mallocs] at hsum ⊢
          have : ∀ b, slots { s with threads := b } = slots s := fun b => rfl
          rw [this]
          omega
        · rename_i hc
          cases ha
          refine ⟨cinv_of hi rfl rfl ?_ (Nat.le_refl _) ?_ ?_, ?_⟩
          · intro x h
            rw [hc] at h
            cases h
          · intro h
            cases h
          · intro x h
            cases h
            exact hloc
          · simp only [tracking, mallocs] at hsum ⊢
            have : ∀ b, slots { s with ctx := some id, threads := b } = slots s := fun b => by
              rw [slots_none hc, slots_some rfl]
              show (s.maps[id]?).getD [] = []
              rw [List.getElem?_eq_getElem hloc]
              exact hi.empty hc _ (List.getElem_mem hloc)
            rw [this]
            omega
      | _ => cases ha
    | trackReload p info =>
      cases c with
      | go =>
        simp only [act] at ha
        split at ha
        · rename_i id' hc
          cases ha
          refine ⟨cinv_of hi rfl hc (fun _ h => h) (Nat.le_refl _) hi.empty hi.ctx, ?_⟩
          simp only [tracking, mallocs] at hsum ⊢
          have : ∀ b, slots { s with threads := b } = slots s := fun b => rfl
          rw [this]
          omega
        · exact absurd ‹_› hloc
      | _ => cases ha
    | trackPut p info id =>
      cases c with
      | go =>
        cases ha
        have hlt := hi.ctx id hloc
        refine ⟨cinv_of hi rfl trivial (fun _ h => h) (by simp) ?_ ?_, ?_⟩
        · intro h
          rw [show s.ctx = some id from hloc] at h
          cases h
        · intro x h
          simp only [List.length_set]
          exact hi.ctx x h
        · rw [slots_set hloc hlt, slots_some hloc]
          simp only [tracking, mallocs, List.length_append, List.length_cons, List.length_nil] at hsum ⊢
          omega
      | _ => cases ha
    | findLoad job p =>
      cases c with
      | go =>
        have : ∀ b, slots { s with threads := b } = slots s := fun b => rfl
        simp only [act] at ha
        split at ha
        · rename_i id hc
          cases ha
          refine ⟨cinv_of hi rfl hc (fun _ h => h) (Nat.le_refl _) hi.empty hi.ctx, ?_⟩
          simp only [tracking, mallocs] at hsum ⊢
          rw [this]
          omega
        · cases ha
          refine ⟨cinv_of hi rfl (by cases job <;> trivial) (fun _ h => h) (Nat.le_refl _) hi.empty hi.ctx, ?_⟩
          have hz : tracking (missed job p) = 0 := by cases job <;> rfl
          rw [hz] at hsum
          simp only [tracking, mallocs] at hsum ⊢
          rw [this]
          omega
      | _ => cases ha
    | find job p id i =>
      cases c with
      | go =>
        have : ∀ b, slots { s with threads := b } = slots s := fun b => rfl
        simp only [act] at ha
        split at ha
        · cases ha
          refine ⟨cinv_of hi rfl (by cases job <;> trivial) (fun _ h => h) (Nat.le_refl _) hi.empty hi.ctx, ?_⟩
          have hz : tracking (missed job p) = 0 := by cases job <;> rfl
          rw [hz] at hsum
          simp only [tracking, mallocs] at hsum ⊢
          rw [this]
          omega
        · split at ha
          · cases ha
            refine ⟨cinv_of hi rfl (by cases job <;> first | trivial | exact hloc) (fun _ h => h) (Nat.le_refl _) hi.empty hi.ctx, ?_⟩
            have hz : tracking (found job p id i) = 0 := by cases job <;> rfl
            rw [hz] at hsum
            simp only [tracking, mallocs] at hsum ⊢
            rw [this]
            omega
          · cases ha
            refine ⟨cinv_of hi rfl hloc (fun _ h => h) (Nat.le_refl _) hi.empty hi.ctx, ?_⟩
            simp only [tracking, mallocs] at hsum ⊢
            rw [this]
            omega
        · cases ha
          refine ⟨cinv_of hi rfl hloc (fun _ h => h) (Nat.le_refl _) hi.empty hi.ctx, ?_⟩
          simp only [tracking, mallocs] at hsum ⊢
          rw [this]
          omega
      | _ => cases ha
    | put job p id i =>
      cases c with
      | go =>
        cases ha
        have hlt := hi.ctx id hloc
        refine ⟨cinv_of hi rfl (by cases job <;> trivial) (fun _ h => h) (by simp) ?_ ?_, ?_⟩
        · intro h
          rw [show s.ctx = some id from hloc] at h
          cases h
        · intro x h
          simp only [List.length_set]
          exact hi.ctx x h
        · rw [slots_set hloc hlt, slots_some hloc]
          have hz : tracking (wrote job p) = 0 := by cases job <;> rfl
          rw [hz] at hsum
          simp only [tracking, mallocs, List.length_set] at hsum ⊢
          omega
      | _ => cases ha
    | free p =>
      cases c with
      | go =>
        cases ha
        refine ⟨cinv_of hi rfl trivial (fun _ h => h) (Nat.le_refl _) hi.empty hi.ctx, ?_⟩
        simp only [tracking, mallocs] at hsum ⊢
        have : ∀ a b, slots { s with heap := a, threads := b } = slots s := fun a b => rfl
        rw [this]
        omega
      | _ => cases ha
    | answer p b =>
      cases c with
      | go =>
        cases ha
        refine ⟨cinv_of hi rfl trivial (fun _ h => h) (Nat.le_refl _) hi.empty hi.ctx, ?_⟩
        simp only [tracking, mallocs] at hsum ⊢
        have : ∀ b, slots { s with threads := b } = slots s := fun b => rfl
        rw [this]
        omega
      | _ => cases ha

theorem mallocs_cons (x : Nat × Choice) (l : List (Nat × Choice)) : mallocs (x :: l) = mallocs [x] + mallocs l := by
  obtain ⟨t, c⟩ := x
  cases c <;> simp [mallocs]; omega

theorem run_count {hold : Bool} {s s' : State} {l : List (Nat × Choice)} (hi : CInv s) (h : run hold s l = some s') :
    (slots s').length + sumBy tracking s'.threads = (slots s).length + sumBy tracking s.threads + mallocs l := by
  induction l generalizing s with
  | nil => cases h; rfl
  | cons x l ih =>
    rw [mallocs_cons]
    obtain ⟨t, c⟩ := x
    rw [run, Option.bind_eq_some_iff] at h
    obtain ⟨s₁, h1, h2⟩ := h
    obtain ⟨h3, h4⟩ := step_count hi h1
    have := ih h3 h2
    omega

theorem start_cinv (n : Nat) : CInv (start n) := by
  refine ⟨?_, by simp [start], by simp [start]⟩
  intro pc h
  simp [start] at h
  rw [h.2]
  trivial

/-! ### Dumps -/

theorem upsert_flatMap {α β γ : Type} [DecidableEq α] (d : List (α × β)) (k : α) (new : β) (f : β → β)
    (g : α × β → List γ) (x : List γ) (hnew : (g (k, f new)).Perm x)
    (hold : ∀ v, (k, v) ∈ d → (g (k, f v)).Perm (g (k, v) ++ x)) :
    ((upsert d k new f).flatMap g).Perm (d.flatMap g ++ x) := by
  induction d with
  | nil => simpa [upsert] using hnew
  | cons e d ih =>
    obtain ⟨k', v⟩ := e
    rw [upsert]
    split
    · rename_i h
      subst h
      simp only [List.flatMap_cons]
      have := hold v (by simp)
      refine (this.append_right _).trans ?_
      rw [List.append_assoc, List.append_assoc]
      exact List.Perm.append_left _ List.perm_append_comm
    · simp only [List.flatMap_cons, List.append_assoc]
      exact List.Perm.append_left _ (ih fun v hv => hold v (by simp [hv]))

theorem upsert_keys {α β : Type} [DecidableEq α] (d : List (α × β)) (k : α) (new : β) (f : β → β) :
    (upsert d k new f).map (·.1) = if k ∈ d.map (·.1) then d.map (·.1) else d.map (·.1) ++ [k] := by
  induction d with
  | nil => simp [upsert]
  | cons e d ih =>
    obtain ⟨k', v⟩ := e
    rw [upsert]
    by_cases h : k' = k
    · simp [h]
    · rw [if_neg h, List.map_cons, ih]
      by_cases h2 : k ∈ d.map (·.1)
      · simp only [List.map_cons, List.mem_cons, h2, or_true, if_true]
      · rw [if_neg h2, if_neg (by simp only [List.map_cons, List.mem_cons, not_or]; exact ⟨Ne.symm h, h2⟩)]
        rfl

theorem upsert_nodup {α β : Type} [DecidableEq α] {d : List (α × β)} (hd : (d.map (·.1)).Nodup) (k : α) (new : β) (f : β → β) :
    ((upsert d k new f).map (·.1)).Nodup := by
  rw [upsert_keys]
  split
  · exact hd
  · rename_i h
    rw [List.nodup_append]
    refine ⟨hd, by simp, ?_⟩
    intro a ha b hb
    simp at hb
    subst hb
    intro hab
    subst hab
    exact h ha

theorem lookup_upsert {α β : Type} [DecidableEq α] (d : List (α × β)) (k k' : α) (new : β) (f : β → β) :
    (upsert d k new f).lookup k' = if k' = k then some (f ((d.lookup k).getD new)) else d.lookup k' := by
  induction d with
  | nil =>
    by_cases h : k' = k
    · simp [upsert, List.lookup, h]
    · have : (k' == k) = false := by simpa using h
      simp [upsert, List.lookup, h, this]
  | cons e d ih =>
    obtain ⟨a, v⟩ := e
    rw [upsert]
    by_cases h : a = k
    · subst h
      by_cases h2 : k' = a
      · subst h2; simp [List.lookup]
      · have : (k' == a) = false := by simpa using h2
        simp [List.lookup, h2, this]
    · have h' : (k == a) = false := by simpa using Ne.symm h
      rw [if_neg h, List.lookup_cons, List.lookup_cons, ih, List.lookup_cons, h']
      by_cases h2 : k' = a
      · subst h2
        simp [h]
      · have : (k' == a) = false := by simpa using h2
        simp [this]

theorem lookup_of_mem {α β : Type} [DecidableEq α] {d : List (α × β)} (hd : (d.map (·.1)).Nodup) {k : α} {v : β}
    (h : (k, v) ∈ d) : d.lookup k = some v := by
  induction d with
  | nil => cases h
  | cons e d ih =>
    obtain ⟨a, w⟩ := e
    rw [List.map_cons, List.nodup_cons] at hd
    rw [List.lookup_cons]
    rcases List.mem_cons.1 h with h' | h'
    · cases h'; simp
    · have hne : k ≠ a := fun he => hd.1 (List.mem_map.2 ⟨(k, v), h', he⟩)
      have : (k == a) = false := by simpa using hne
      rw [this]
      exact ih hd.2 h'

theorem mem_of_lookup {α β : Type} [DecidableEq α] {d : List (α × β)} {k : α} {v : β} (h : d.lookup k = some v) : (k, v) ∈ d := by
  induction d with
  | nil => cases h
  | cons e d ih =>
    obtain ⟨a, w⟩ := e
    rw [List.lookup_cons] at h
    split at h
    · rename_i he
      cases h
      have : k = a := by simpa using he
      simp [this]
    · exact List.mem_cons_of_mem _ (ih h)

/-- The addresses a dump has for a file and line. -/
def getD (d : Dump) (file : Nat) (line : Int) : List Nat := (((d.lookup file).getD []).lookup line).getD []

theorem getD_dumpOne (d : Dump) (p : Nat) (info : Info) (file : Nat) (line : Int) :
    getD (dumpOne d (some (p, info))) file line =
      getD d file line ++ if info.file = file ∧ info.line = line then [p] else [] := by
  rw [dumpOne, getD, lookup_upsert, getD]
  by_cases hf : file = info.file
  · subst hf
    rw [if_pos rfl, Option.getD_some, lookup_upsert]
    by_cases hl : line = info.line
    · subst hl
      simp
    · rw [if_neg hl, if_neg (by simp [Ne.symm hl]), List.append_nil]
  · rw [if_neg hf, if_neg (by simp [Ne.symm hf]), List.append_nil]

/-- What holds of a dump. -/
structure DInv (d : Dump) : Prop where
  files : (d.map (·.1)).Nodup
  lines : ∀ f, (((d.lookup f).getD []).map (·.1)).Nodup
  some : ∀ f ls, d.lookup f = .some ls → ls ≠ []
  addr : ∀ f l ps, ((d.lookup f).getD []).lookup l = .some ps → ps ≠ []

theorem dumpOne_inv {d : Dump} (hd : DInv d) (e : Slot) : DInv (dumpOne d e) := by
  cases e with
  | none => exact hd
  | some e =>
    obtain ⟨p, info⟩ := e
    rw [dumpOne]
    refine ⟨upsert_nodup hd.files _ _ _, ?_, ?_, ?_⟩
    · intro f
      rw [lookup_upsert]
      split
      · exact upsert_nodup (hd.lines _) _ _ _
      · exact hd.lines f
    · intro f ls h
      rw [lookup_upsert] at h
      split at h
      · cases h
        intro hn
        have := lookup_upsert ((d.lookup info.file).getD []) info.line info.line [] (fun ptrs => ptrs ++ [p])
        rw [hn] at this
        simp [List.lookup] at this
      · exact hd.some f ls h
    · intro f l ps h
      rw [lookup_upsert] at h
      split at h
      · rw [Option.getD_some, lookup_upsert] at h
        split at h
        · cases h
          simp
        · exact hd.addr _ _ _ h
      · exact hd.addr f l ps h

theorem dumpOne_printed {d : Dump} (p : Nat) (info : Info) :
    (printed (dumpOne d (some (p, info)))).Perm (printed d ++ [(info.file, info.line, p)]) := by
  rw [dumpOne, printed, printed]
  refine upsert_flatMap _ _ _ _ _ _ ?_ ?_
  · simp [upsert]
  · intro lines _
    refine upsert_flatMap _ _ _ _ _ _ ?_ ?_
    · simp
    · intro ptrs _
      simp

theorem dump_fold (m : List Slot) (d : Dump) (hd : DInv d) :
    DInv (m.foldl dumpOne d) ∧
      (∀ file line, getD (m.foldl dumpOne d) file line = getD d file line ++ under m file line) ∧
      (printed (m.foldl dumpOne d)).Perm
        (printed d ++ (m.filterMap id).map fun e => (e.2.file, e.2.line, e.1)) := by
  induction m generalizing d with
  | nil => simp [hd, under]
  | cons e m ih =>
    obtain ⟨h1, h2, h3⟩ := ih (dumpOne d e) (dumpOne_inv hd e)
    refine ⟨h1, fun file line => ?_, ?_⟩
    · rw [List.foldl_cons, h2]
      cases e with
      | none => simp [dumpOne, under]
      | some e =>
        obtain ⟨p, info⟩ := e
        rw [getD_dumpOne, List.append_assoc]
        congr 1
        by_cases h : info.file = file ∧ info.line = line <;> simp [under, h]
    · rw [List.foldl_cons]
      refine h3.trans ?_
      cases e with
      | none => simp [dumpOne]
      | some e =>
        obtain ⟨p, info⟩ := e
        refine (dumpOne_printed p info |>.append_right _).trans ?_
        simp

theorem dinv_nil : DInv [] := ⟨by simp, by simp, by simp, by simp⟩

end Verif.DebugAlloc
