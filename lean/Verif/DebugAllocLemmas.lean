import Verif.DebugAllocSpec

/-! # The invariant of the debug allocator -/
namespace Verif.DebugAlloc

/-- Slot `i` of the map in use holds `p`, recorded with `info`. -/
def At (s : State) (i p : Nat) (info : Info) : Prop := (slots s)[i]? = some (some (p, info))

/-- `p` is in the map. -/
def Trk (s : State) (p : Nat) : Prop := ∃ i info, At s i p info

/-- `p` is in the heap. -/
def Mem (s : State) (p : Nat) : Prop := ∃ info, (p, info) ∈ s.heap

/-- What holds of a thread that looks for `p` or has found it. -/
def JobInv (s : State) (job : Job) (p : Nat) : Prop :=
  match job with
  | .free => Mem s p ∧ Trk s p
  | .realloc q info => (q, info) ∈ s.heap ∧ Trk s p ∧ (q ≠ p → ¬ Trk s q ∧ ¬ Mem s p)
  | .query => ∀ info, (∃ i, At s i p info) ↔ (p, info) ∈ s.heap

/-- What holds of a thread. -/
def Loc (s : State) : Pc → Prop
  | .idle => True
  | .trackLoad p info => (p, info) ∈ s.heap ∧ ¬ Trk s p
  | .trackCas p info id => (p, info) ∈ s.heap ∧ ¬ Trk s p ∧ id < s.maps.length
  | .trackReload p info => (p, info) ∈ s.heap ∧ ¬ Trk s p ∧ s.ctx ≠ none
  | .trackPut p info id => (p, info) ∈ s.heap ∧ ¬ Trk s p ∧ s.ctx = some id
  | .findLoad job p => JobInv s job p
  | .find job p id i => JobInv s job p ∧ s.ctx = some id ∧ ∀ j info, j < i → ¬ At s j p info
  | .put job p id i => JobInv s job p ∧ s.ctx = some id ∧ (∃ info, At s i p info) ∧ job ≠ .query
  | .free p => Mem s p ∧ ¬ Trk s p
  | .answer p b => (b = true ↔ Mem s p) ∧ ∀ info, (∃ i, At s i p info) ↔ (p, info) ∈ s.heap

/-- `p` is where it was. -/
def Same (p : Nat) (s s' : State) : Prop :=
  (∀ i info, At s' i p info ↔ At s i p info) ∧ ∀ info, (p, info) ∈ s'.heap ↔ (p, info) ∈ s.heap

theorem Same.trk {p : Nat} {s s' : State} (h : Same p s s') : Trk s' p ↔ Trk s p := by
  simp only [Trk, h.1]

theorem Same.mem {p : Nat} {s s' : State} (h : Same p s s') : Mem s' p ↔ Mem s p := by
  simp only [Mem, h.2]

theorem JobInv.same {s s' : State} {job : Job} {p : Nat} (h : JobInv s job p) (hp : Same p s s')
    (hq : ∀ q info, job = .realloc q info → Same q s s') : JobInv s' job p := by
  cases job with
  | free => exact ⟨hp.mem.2 h.1, hp.trk.2 h.2⟩
  | realloc q info =>
    have hq := hq q info rfl
    refine ⟨(hq.2 _).2 h.1, hp.trk.2 h.2.1, fun hne => ?_⟩
    rw [hq.trk, hp.mem]
    exact h.2.2 hne
  | query =>
    intro info
    simp only [hp.1, hp.2]
    exact h info

theorem Loc.same {s s' : State} {pc : Pc} (h : Loc s pc) (hs : ∀ p ∈ uses true pc, Same p s s')
    (hc : ∀ id, s.ctx = some id → s'.ctx = some id) (hm : s.maps.length ≤ s'.maps.length) : Loc s' pc := by
  cases pc with
  | idle => trivial
  | trackLoad p info =>
    have := hs p (by simp [uses])
    exact ⟨(this.2 _).2 h.1, fun h' => h.2 (this.trk.1 h')⟩
  | trackCas p info id =>
    have := hs p (by simp [uses])
    exact ⟨(this.2 _).2 h.1, fun h' => h.2.1 (this.trk.1 h'), Nat.lt_of_lt_of_le h.2.2 hm⟩
  | trackReload p info =>
    have := hs p (by simp [uses])
    refine ⟨(this.2 _).2 h.1, fun h' => h.2.1 (this.trk.1 h'), ?_⟩
    obtain ⟨id, hid⟩ := Option.ne_none_iff_exists'.1 h.2.2
    rw [hc id hid]
    simp
  | trackPut p info id =>
    have := hs p (by simp [uses])
    exact ⟨(this.2 _).2 h.1, fun h' => h.2.1 (this.trk.1 h'), hc id h.2.2⟩
  | findLoad job p =>
    refine JobInv.same h (hs p ?_) (fun q info hj => hs q ?_)
    · cases job <;> simp [uses]
    · subst hj; simp [uses]
  | find job p id i =>
    have hp : Same p s s' := hs p (by cases job <;> simp [uses])
    refine ⟨JobInv.same h.1 hp (fun q info hj => hs q ?_), hc id h.2.1, fun j info hj => ?_⟩
    · subst hj; simp [uses]
    · rw [hp.1]; exact h.2.2 j info hj
  | put job p id i =>
    have hp : Same p s s' := hs p (by cases job <;> simp [uses])
    refine ⟨JobInv.same h.1 hp (fun q info hj => hs q ?_), hc id h.2.1, ?_, h.2.2.2⟩
    · subst hj; simp [uses]
    · obtain ⟨info, hi⟩ := h.2.2.1
      exact ⟨info, (hp.1 _ _).2 hi⟩
  | free p =>
    have := hs p (by simp [uses])
    exact ⟨this.mem.2 h.1, fun h' => h.2 (this.trk.1 h')⟩
  | answer p b =>
    have := hs p (by simp [uses])
    refine ⟨by rw [this.mem]; exact h.1, fun info => ?_⟩
    simp only [this.1, this.2]
    exact h.2 info

/-- The invariant. -/
structure Inv (s : State) : Prop where
  /-- a pointer that no call is about is in the map just as it is in the heap -/
  free : ∀ p, inUse true s p = false → ∀ info, (∃ i, At s i p info) ↔ (p, info) ∈ s.heap
  /-- what holds of each thread -/
  loc : ∀ (t : Nat) (pc : Pc), s.threads[t]? = some pc → Loc s pc
  /-- no two calls are about the same pointer -/
  sep : ∀ (t u : Nat) (pc pc' : Pc), s.threads[t]? = some pc → s.threads[u]? = some pc' → t ≠ u →
    ∀ p, p ∈ uses true pc → p ∉ uses true pc'
  /-- a pointer is in the map once -/
  inj : ∀ i j p a b, At s i p a → At s j p b → i = j
  /-- an address is allocated once -/
  heap : (s.heap.map (·.1)).Nodup
  /-- before a map is in use all are empty -/
  empty : s.ctx = none → ∀ m ∈ s.maps, m = []
  /-- the map in use exists -/
  ctx : ∀ id, s.ctx = some id → id < s.maps.length

theorem inUse_iff {hold : Bool} {s : State} {p : Nat} :
    inUse hold s p = true ↔ ∃ (t : Nat) (pc : Pc), s.threads[t]? = some pc ∧ p ∈ uses hold pc := by
  simp only [inUse, List.any_eq_true, List.contains_iff_mem, List.mem_iff_getElem?]
  constructor
  · rintro ⟨pc, ⟨t, ht⟩, h⟩
    exact ⟨t, pc, ht, h⟩
  · rintro ⟨t, pc, ht, h⟩
    exact ⟨pc, ⟨t, ht⟩, h⟩

theorem allocated_iff {s : State} {p : Nat} : allocated s p = true ↔ Mem s p := by
  simp only [allocated, List.any_eq_true, Mem, beq_iff_eq]
  constructor
  · rintro ⟨⟨x, info⟩, h, rfl⟩
    exact ⟨info, h⟩
  · rintro ⟨info, h⟩
    exact ⟨_, h, rfl⟩

/-- How a step of one thread keeps the invariant. -/
theorem Inv.step_of {s s' : State} {t : Nat} {pc pc' : Pc} (hi : Inv s) (ht : s.threads[t]? = some pc)
    (hth : s'.threads = s.threads.set t pc')
    -- the addresses that the step is about
    (hfresh : ∀ p ∈ uses true pc', p ∉ uses true pc → inUse true s p = false)
    (hsame : ∀ p, p ∉ uses true pc → p ∉ uses true pc' → Same p s s')
    (hleft : ∀ p ∈ uses true pc, p ∉ uses true pc' → ∀ info, (∃ i, At s' i p info) ↔ (p, info) ∈ s'.heap)
    (hloc : Loc s' pc')
    (hinj : ∀ i j p a b, At s' i p a → At s' j p b → i = j)
    (hheap : (s'.heap.map (·.1)).Nodup)
    (hctx : ∀ id, s.ctx = some id → s'.ctx = some id)
    (hmaps : s.maps.length ≤ s'.maps.length)
    (hempty : s'.ctx = none → ∀ m ∈ s'.maps, m = [])
    (hid : ∀ id, s'.ctx = some id → id < s'.maps.length) : Inv s' := by
  have hlt : t < s.threads.length := by
    rcases Nat.lt_or_ge t s.threads.length with h | h
    · exact h
    · rw [List.getElem?_eq_none h] at ht; cases ht
  have hself : s'.threads[t]? = some pc' := by rw [hth, List.getElem?_set_self hlt]
  have hother : ∀ u, u ≠ t → s'.threads[u]? = s.threads[u]? := fun u hu => by
    rw [hth, List.getElem?_set_ne (Ne.symm hu)]
  -- another thread's addresses are neither this thread's nor new to it
  have hdis : ∀ (u : Nat) (pc₁ : Pc), u ≠ t → s.threads[u]? = some pc₁ → ∀ p ∈ uses true pc₁, p ∉ uses true pc ∧ p ∉ uses true pc' := by
    intro u pc₁ hu h₁ p hp
    have h1 : p ∉ uses true pc := hi.sep u t pc₁ pc h₁ ht hu p hp
    refine ⟨h1, fun h2 => ?_⟩
    have := hfresh p h2 h1
    rw [inUse_iff.2 ⟨u, pc₁, h₁, hp⟩] at this
    cases this
  refine ⟨?_, ?_, ?_, hinj, hheap, hempty, hid⟩
  · intro p hp info
    have hnot : p ∉ uses true pc' := fun h => by
      rw [inUse_iff.2 ⟨t, pc', hself, h⟩] at hp; cases hp
    by_cases h1 : p ∈ uses true pc
    · exact hleft p h1 hnot info
    · have hs := hsame p h1 hnot
      have : inUse true s p = false := by
        rw [Bool.eq_false_iff]
        intro h
        obtain ⟨u, pc₁, hu, h⟩ := inUse_iff.1 h
        by_cases hut : u = t
        · subst hut
          rw [ht] at hu
          cases hu
          exact h1 h
        · rw [inUse_iff.2 ⟨u, pc₁, by rw [hother u hut, hu], h⟩] at hp
          cases hp
      have := hi.free p this info
      rw [hs.2, ← this]
      simp only [hs.1]
  · intro u pc₁ hu
    by_cases hut : u = t
    · subst hut
      rw [hself] at hu
      cases hu
      exact hloc
    · rw [hother u hut] at hu
      exact (hi.loc u pc₁ hu).same (fun p hp => hsame p (hdis u pc₁ hut hu p hp).1 (hdis u pc₁ hut hu p hp).2) hctx hmaps
  · intro u v pc₁ pc₂ hu hv huv p hp
    by_cases hut : u = t
    · subst hut
      rw [hself] at hu
      cases hu
      have hvt : v ≠ u := Ne.symm huv
      rw [hother v hvt] at hv
      exact fun h => (hdis v pc₂ hvt hv p h).2 hp
    · rw [hother u hut] at hu
      by_cases hvt : v = t
      · subst hvt
        rw [hself] at hv
        cases hv
        exact (hdis u pc₁ hut hu p hp).2
      · rw [hother v hvt] at hv
        exact hi.sep u v pc₁ pc₂ hu hv huv p hp

/-! ### The heap -/

theorem mem_drop {heap : List (Nat × Info)} {p q : Nat} {info : Info} :
    (q, info) ∈ drop heap p ↔ q ≠ p ∧ (q, info) ∈ heap := by
  simp [drop, and_comm]

theorem drop_nodup {heap : List (Nat × Info)} (h : (heap.map (·.1)).Nodup) (p : Nat) :
    ((drop heap p).map (·.1)).Nodup :=
  List.Sublist.nodup (List.Sublist.map _ List.filter_sublist) h

theorem heap_unique {heap : List (Nat × Info)} (h : (heap.map (·.1)).Nodup) {p : Nat} {a b : Info}
    (ha : (p, a) ∈ heap) (hb : (p, b) ∈ heap) : a = b := by
  induction heap with
  | nil => cases ha
  | cons x heap ih =>
    rw [List.map_cons, List.nodup_cons] at h
    rcases List.mem_cons.1 ha with ha' | ha' <;> rcases List.mem_cons.1 hb with hb' | hb'
    · rw [← ha'] at hb'; cases hb'; rfl
    · subst ha'; exact (h.1 (List.mem_map.2 ⟨(p, b), hb', rfl⟩)).elim
    · subst hb'; exact (h.1 (List.mem_map.2 ⟨(p, a), ha', rfl⟩)).elim
    · exact ih h.2 ha' hb'

/-! ### The map in use -/

theorem slots_some {s : State} {id : Nat} (h : s.ctx = some id) : slots s = s.maps[id]?.getD [] := by
  simp [slots, h]

theorem slots_none {s : State} (h : s.ctx = none) : slots s = [] := by
  simp [slots, h]

theorem At.lt {s : State} {i p : Nat} {info : Info} (h : At s i p info) : i < (slots s).length := by
  rcases Nat.lt_or_ge i (slots s).length with h' | h'
  · exact h'
  · rw [At, List.getElem?_eq_none h'] at h; cases h

theorem at_congr {s s' : State} (h : slots s' = slots s) (i p : Nat) (info : Info) : At s' i p info ↔ At s i p info := by
  rw [At, At, h]

theorem same_of_slots {s s' : State} {p : Nat} (h : slots s' = slots s) (hh : s'.heap = s.heap) : Same p s s' :=
  ⟨fun i info => at_congr h i p info, fun info => by rw [hh]⟩

theorem start_inv (n : Nat) : Inv (start n) := by
  have hidle : ∀ (t : Nat) (pc : Pc), (start n).threads[t]? = some pc → pc = .idle := fun t pc h => by
    have := List.mem_of_getElem? h
    simp [start] at this
    exact this.2
  refine ⟨?_, ?_, ?_, ?_, ?_, ?_, ?_⟩
  · intro p _ info
    simp [At, slots, start]
  · intro t pc h
    rw [hidle t pc h]
    trivial
  · intro t u pc pc' h h' _ p hp
    rw [hidle t pc h] at hp
    simp [uses] at hp
  · intro i j p a b h
    simp [At, slots, start] at h
  · simp [start]
  · simp [start]
  · simp [start]

/-! ### The steps -/

/-- The map in use after its entries are changed. -/
theorem slots_set {s : State} {id : Nat} (hc : s.ctx = some id) (hlt : id < s.maps.length) (m : List Slot) (th : List Pc) :
    slots { s with maps := s.maps.set id m, threads := th } = m := by
  simp [slots, hc, hlt]

theorem not_inUse_of {s : State} {t : Nat} {p : Nat} (h : inUse true s p = false) {pc : Pc}
    (ht : s.threads[t]? = some pc) : p ∉ uses true pc := fun hp => by
  rw [inUse_iff.2 ⟨t, pc, ht, hp⟩] at h; cases h

/-- A pointer that is not allocated and in no call is not in the map. -/
theorem Inv.not_trk {s : State} (hi : Inv s) {p : Nat} (h : inUse true s p = false) (hm : ¬ Mem s p) : ¬ Trk s p := by
  rintro ⟨i, info, h'⟩
  exact hm ⟨info, (hi.free p h info).1 ⟨i, h'⟩⟩

theorem Inv.trk {s : State} (hi : Inv s) {p : Nat} (h : inUse true s p = false) : Trk s p ↔ Mem s p := by
  constructor
  · rintro ⟨i, info, h'⟩
    exact ⟨info, (hi.free p h info).1 ⟨i, h'⟩⟩
  · rintro ⟨info, h'⟩
    obtain ⟨i, h'⟩ := (hi.free p h info).2 h'
    exact ⟨i, info, h'⟩

theorem uses_job (job : Job) (p id i : Nat) :
    uses true (.find job p id i) = uses true (.findLoad job p) ∧ uses true (.put job p id i) = uses true (.findLoad job p) := by
  cases job <;> simp [uses]

theorem mem_uses_job (job : Job) (p x : Nat) :
    x ∈ uses true (.findLoad job p) ↔ x = p ∨ ∃ q info, job = .realloc q info ∧ x = q := by
  cases job <;> simp [uses, or_comm]

/-- A thread that goes on without changing anything. -/
theorem Inv.stay {s : State} {t : Nat} {pc pc' : Pc} (hi : Inv s) (ht : s.threads[t]? = some pc)
    (hfresh : ∀ p ∈ uses true pc', p ∉ uses true pc → inUse true s p = false)
    (hleft : ∀ p ∈ uses true pc, p ∉ uses true pc' → ∀ info, (∃ i, At s i p info) ↔ (p, info) ∈ s.heap)
    (hloc : Loc s pc') : Inv { s with threads := s.threads.set t pc' } := by
  refine hi.step_of ht rfl hfresh (fun p _ _ => same_of_slots rfl rfl) ?_ ?_ hi.inj hi.heap (fun _ h => h)
    (Nat.le_refl _) hi.empty hi.ctx
  · intro p h1 h2 info
    exact hleft p h1 h2 info
  · exact hloc.same (fun p _ => same_of_slots rfl rfl) (fun _ h => h) (Nat.le_refl _)

theorem trk_iff_mem {s : State} {p : Nat} (h : ∀ info, (∃ i, At s i p info) ↔ (p, info) ∈ s.heap) : Trk s p ↔ Mem s p := by
  constructor
  · rintro ⟨i, info, h'⟩
    exact ⟨info, (h info).1 ⟨i, h'⟩⟩
  · rintro ⟨info, h'⟩
    obtain ⟨i, h'⟩ := (h info).2 h'
    exact ⟨i, info, h'⟩

/-- A thread that has looked for its pointer in vain. -/
theorem Inv.missed {s : State} {t : Nat} {pc : Pc} {job : Job} {p : Nat} (hi : Inv s) (ht : s.threads[t]? = some pc)
    (hu : uses true pc = uses true (.findLoad job p)) (hj : JobInv s job p) (hn : ¬ Trk s p) :
    Inv { s with threads := s.threads.set t (missed job p) } := by
  cases job with
  | free => exact absurd hj.2 hn
  | realloc q info => exact absurd hj.2.1 hn
  | query =>
    refine hi.stay ht ?_ ?_ ?_
    · intro x hx hx'
      rw [hu] at hx'
      exact absurd hx hx'
    · intro x hx hx'
      rw [hu] at hx
      exact absurd hx hx'
    · refine ⟨?_, hj⟩
      rw [← trk_iff_mem hj]
      simp [hn]

theorem inv_malloc {s : State} {t p : Nat} {info : Info} (hi : Inv s) (ht : s.threads[t]? = some .idle)
    (hf : fresh true s p = true) :
    Inv { s with heap := (p, info) :: s.heap, threads := s.threads.set t (.trackLoad p info) } := by
  simp only [fresh, Bool.not_true, Bool.false_or, Bool.and_eq_true, Bool.not_eq_true'] at hf
  have hm : ¬ Mem s p := fun h => by rw [allocated_iff.2 h] at hf; cases hf.1
  refine hi.step_of ht rfl ?_ ?_ ?_ ?_ hi.inj ?_ (fun _ h => h) (Nat.le_refl _) hi.empty hi.ctx
  · intro x hx _
    simp [uses] at hx
    subst hx
    exact hf.2
  · intro x _ hx
    simp [uses] at hx
    exact ⟨fun i info' => at_congr rfl i x info', fun info' => by simp [hx]⟩
  · intro x hx
    simp [uses] at hx
  · exact ⟨by simp, fun h => hi.not_trk hf.2 hm h⟩
  · simp only [List.map_cons, List.nodup_cons]
    refine ⟨fun h => hm ?_, hi.heap⟩
    obtain ⟨⟨x, i⟩, h', rfl⟩ := List.mem_map.1 h
    exact ⟨i, h'⟩

theorem inv_realloc {s : State} {t p q : Nat} {info : Info} (hi : Inv s) (ht : s.threads[t]? = some .idle)
    (hp : mine true s p = true) (hq : q = p ∨ fresh true s q = true) :
    Inv { s with heap := (q, info) :: drop s.heap p, threads := s.threads.set t (.findLoad (.realloc q info) p) } := by
  simp only [mine, Bool.and_eq_true, Bool.not_eq_true'] at hp
  have hmem := allocated_iff.1 hp.1
  have htrk := (hi.trk hp.2).2 hmem
  have hqs : q ≠ p → inUse true s q = false ∧ ¬ Mem s q := fun hne => by
    rcases hq with h | h
    · exact absurd h hne
    · simp only [fresh, Bool.not_true, Bool.false_or, Bool.and_eq_true, Bool.not_eq_true'] at h
      exact ⟨h.2, fun h' => by rw [allocated_iff.2 h'] at h; cases h.1⟩
  refine hi.step_of ht rfl ?_ ?_ ?_ ?_ hi.inj ?_ (fun _ h => h) (Nat.le_refl _) hi.empty hi.ctx
  · intro x hx _
    simp [uses] at hx
    by_cases hxp : x = p
    · rw [hxp]; exact hp.2
    · have hxq : x = q := by rcases hx with h | h; exact h; exact absurd h hxp
      subst hxq
      exact (hqs hxp).1
  · intro x _ hx
    simp [uses] at hx
    refine ⟨fun i info' => at_congr rfl i x info', fun info' => ?_⟩
    simp [mem_drop, hx.1, hx.2]
  · intro x hx
    simp [uses] at hx
  · refine ⟨by simp, htrk, fun hne => ⟨?_, ?_⟩⟩
    · exact hi.not_trk (hqs hne).1 (hqs hne).2
    · rintro ⟨i, h⟩
      rcases List.mem_cons.1 h with h | h
      · cases h; exact hne rfl
      · exact (mem_drop.1 h).1 rfl
  · simp only [List.map_cons, List.nodup_cons]
    refine ⟨fun h => ?_, drop_nodup hi.heap p⟩
    obtain ⟨⟨x, i⟩, h', rfl⟩ := List.mem_map.1 h
    have h' := mem_drop.1 h'
    exact (hqs h'.1).2 ⟨i, h'.2⟩

theorem inv_trackPut {s : State} {t p id : Nat} {info : Info} (hi : Inv s) (ht : s.threads[t]? = some (.trackPut p info id)) :
    Inv { s with maps := s.maps.set id ((s.maps[id]?.getD []) ++ [some (p, info)]), threads := s.threads.set t .idle } := by
  obtain ⟨hmem, hnt, hc⟩ := hi.loc t _ ht
  have hlt := hi.ctx id hc
  generalize hs' : ({ s with maps := s.maps.set id ((s.maps[id]?.getD []) ++ [some (p, info)]), threads := s.threads.set t .idle } : State) = s'
  have hsl : slots s' = slots s ++ [some (p, info)] := by
    rw [← hs', slots_set hc hlt, slots_some hc]
  have hat : ∀ i x a, At s' i x a ↔ At s i x a ∨ (i = (slots s).length ∧ x = p ∧ a = info) := by
    intro i x a
    simp only [At, hsl]
    rcases Nat.lt_trichotomy i (slots s).length with h | h | h
    · rw [List.getElem?_append_left h]
      constructor
      · exact Or.inl
      · rintro (h' | ⟨h', _⟩)
        · exact h'
        · omega
    · subst h
      simp
      constructor
      · rintro ⟨rfl, rfl⟩; exact ⟨rfl, rfl⟩
      · rintro ⟨rfl, rfl⟩; exact ⟨rfl, rfl⟩
    · rw [List.getElem?_eq_none (by simp; omega), List.getElem?_eq_none (by omega)]
      simp
      omega
  have hheap : s'.heap = s.heap := by rw [← hs']
  have hth : s'.threads = s.threads.set t .idle := by rw [← hs']
  have hctx : s'.ctx = s.ctx := by rw [← hs']
  have hlen : s'.maps.length = s.maps.length := by rw [← hs']; simp
  refine hi.step_of ht hth ?_ ?_ ?_ trivial ?_ ?_ ?_ ?_ ?_ ?_
  · intro x hx
    simp [uses] at hx
  · intro x hx _
    simp [uses] at hx
    exact ⟨fun i a => by rw [hat]; simp [hx], fun a => by rw [hheap]⟩
  · intro x hx _ a
    simp [uses] at hx
    subst hx
    rw [hheap]
    constructor
    · rintro ⟨i, h⟩
      rcases (hat _ _ _).1 h with h | h
      · exact absurd ⟨i, a, h⟩ hnt
      · rw [h.2.2]; exact hmem
    · intro h
      have := heap_unique hi.heap h hmem
      subst this
      exact ⟨_, (hat _ _ _).2 (Or.inr ⟨rfl, rfl, rfl⟩)⟩
  · intro i j x a b h1 h2
    rcases (hat _ _ _).1 h1 with h1 | h1 <;> rcases (hat _ _ _).1 h2 with h2 | h2
    · exact hi.inj i j x a b h1 h2
    · rw [h2.2.1] at h1; exact absurd ⟨i, a, h1⟩ hnt
    · rw [h1.2.1] at h2; exact absurd ⟨j, b, h2⟩ hnt
    · rw [h1.1, h2.1]
  · rw [hheap]; exact hi.heap
  · intro x h; rw [hctx]; exact h
  · rw [hlen]; exact Nat.le_refl _
  · intro h; rw [hctx, hc] at h; cases h
  · intro x h; rw [hlen]; rw [hctx] at h; exact hi.ctx x h

theorem inv_put {s : State} {t p id k : Nat} {job : Job} (hi : Inv s) (ht : s.threads[t]? = some (.put job p id k)) :
    Inv { s with maps := s.maps.set id ((s.maps[id]?.getD []).set k (written job)), threads := s.threads.set t (wrote job p) } := by
  obtain ⟨hj, hc, ⟨infoK, hk⟩, hnq⟩ := hi.loc t _ ht
  have hlt := hi.ctx id hc
  have hkl := hk.lt
  generalize hs' : ({ s with maps := s.maps.set id ((s.maps[id]?.getD []).set k (written job)), threads := s.threads.set t (wrote job p) } : State) = s'
  have hsl : slots s' = (slots s).set k (written job) := by
    rw [← hs', slots_set hc hlt, slots_some hc]
  have hat : ∀ i x a, At s' i x a ↔ (i ≠ k ∧ At s i x a) ∨ (i = k ∧ written job = some (x, a)) := by
    intro i x a
    simp only [At, hsl]
    by_cases h : i = k
    · subst h
      rw [List.getElem?_set_self hkl]
      simp
    · rw [List.getElem?_set_ne (Ne.symm h)]
      simp [h]
  -- what is elsewhere is not `p`
  have hnp : ∀ i a, i ≠ k → ¬ At s i p a := fun i a hne h => hne (hi.inj i k p a infoK h hk)
  have hheap : s'.heap = s.heap := by rw [← hs']
  have hth : s'.threads = s.threads.set t (wrote job p) := by rw [← hs']
  have hctx : s'.ctx = s.ctx := by rw [← hs']
  have hlen : s'.maps.length = s.maps.length := by rw [← hs']; simp
  -- other pointers stay
  have hoth : ∀ x, x ≠ p → (∀ q info, job = .realloc q info → x ≠ q) → Same x s s' := by
    intro x hx hq
    refine ⟨fun i a => ?_, fun a => by rw [hheap]⟩
    rw [hat]
    constructor
    · rintro (⟨_, h⟩ | ⟨_, h⟩)
      · exact h
      · cases job with
        | realloc q info =>
          simp [written] at h
          exact absurd h.1.symm (hq q info rfl)
        | free => simp [written] at h
        | query => simp [written] at h
    · intro h
      left
      refine ⟨fun hik => ?_, h⟩
      subst hik
      have h2 : At s i p infoK := hk
      rw [At] at h h2
      rw [h] at h2
      cases h2
      exact hx rfl
  refine hi.step_of ht hth ?_ ?_ ?_ ?_ ?_ ?_ ?_ ?_ ?_ ?_
  · intro x hx hx'
    rw [(uses_job job p id k).2, mem_uses_job] at hx'
    cases job <;> simp [wrote, uses] at hx
    exact absurd (Or.inl hx) hx'
  · intro x hx _
    rw [(uses_job job p id k).2, mem_uses_job] at hx
    exact hoth x (fun h => hx (Or.inl h)) (fun q info h h' => hx (Or.inr ⟨q, info, h, h'⟩))
  · intro x hx hx' a
    rw [(uses_job job p id k).2, mem_uses_job] at hx
    cases job with
    | query => exact absurd rfl hnq
    | free =>
      exfalso
      rcases hx with h | ⟨q, info, h, _⟩
      · exact hx' (by simp [wrote, uses, h])
      · cases h
    | realloc q info =>
      obtain ⟨hmem, _, hne⟩ := hj
      rw [hheap]
      by_cases hxq : x = q
      · subst hxq
        constructor
        · rintro ⟨i, h⟩
          rcases (hat _ _ _).1 h with ⟨hik, h⟩ | ⟨_, h⟩
          · exfalso
            by_cases hxp : x = p
            · subst hxp; exact hnp i a hik h
            · exact (hne hxp).1 ⟨i, a, h⟩
          · simp [written] at h
            rw [← h]; exact hmem
        · intro h
          have := heap_unique hi.heap h hmem
          subst this
          exact ⟨k, (hat _ _ _).2 (Or.inr ⟨rfl, rfl⟩)⟩
      · have hxp : x = p := by
          rcases hx with h | ⟨q', info', h, h'⟩
          · exact h
          · cases h; exact absurd h' hxq
        subst hxp
        have hne := hne (Ne.symm hxq)
        constructor
        · rintro ⟨i, h⟩
          rcases (hat _ _ _).1 h with ⟨hik, h⟩ | ⟨_, h⟩
          · exact absurd h (hnp i a hik)
          · simp [written] at h
            exact absurd h.1.symm hxq
        · intro h
          exact absurd ⟨a, h⟩ hne.2
  · cases job with
    | query => exact absurd rfl hnq
    | realloc q info => trivial
    | free =>
      refine ⟨?_, ?_⟩
      · rw [Mem, hheap]; exact hj.1
      · rintro ⟨i, a, h⟩
        rcases (hat _ _ _).1 h with ⟨hik, h⟩ | ⟨_, h⟩
        · exact hnp i a hik h
        · simp [written] at h
  · intro i j x a b h1 h2
    rcases (hat _ _ _).1 h1 with ⟨n1, h1⟩ | ⟨n1, h1⟩ <;> rcases (hat _ _ _).1 h2 with ⟨n2, h2⟩ | ⟨n2, h2⟩
    · exact hi.inj i j x a b h1 h2
    · exfalso
      cases job with
      | query => simp [written] at h2
      | free => simp [written] at h2
      | realloc q info =>
        simp [written] at h2
        obtain ⟨rfl, _⟩ := h2
        by_cases hqp : q = p
        · subst hqp; exact hnp i a n1 h1
        · exact (hj.2.2 hqp).1 ⟨i, a, h1⟩
    · exfalso
      cases job with
      | query => simp [written] at h1
      | free => simp [written] at h1
      | realloc q info =>
        simp [written] at h1
        obtain ⟨rfl, _⟩ := h1
        by_cases hqp : q = p
        · subst hqp; exact hnp j b n2 h2
        · exact (hj.2.2 hqp).1 ⟨j, b, h2⟩
    · rw [n1, n2]
  · rw [hheap]; exact hi.heap
  · intro x h; rw [hctx]; exact h
  · rw [hlen]; exact Nat.le_refl _
  · intro h; rw [hctx, hc] at h; cases h
  · intro x h; rw [hlen]; rw [hctx] at h; exact hi.ctx x h

theorem inv_free {s : State} {t p : Nat} (hi : Inv s) (ht : s.threads[t]? = some (.free p)) :
    Inv { s with heap := drop s.heap p, threads := s.threads.set t .idle } := by
  obtain ⟨hm, hn⟩ := hi.loc t _ ht
  refine hi.step_of ht rfl ?_ ?_ ?_ trivial hi.inj (drop_nodup hi.heap p) (fun _ h => h) (Nat.le_refl _) hi.empty hi.ctx
  · intro x hx
    simp [uses] at hx
  · intro x hx _
    simp [uses] at hx
    exact ⟨fun i info' => at_congr rfl i x info', fun info' => by simp [mem_drop, hx]⟩
  · intro x hx _ info
    simp [uses] at hx
    subst hx
    constructor
    · rintro ⟨i, h⟩
      exact absurd ⟨i, info, h⟩ hn
    · intro h
      exact absurd rfl (mem_drop.1 h).1

theorem inv_create {s : State} {t p : Nat} {info : Info} (hi : Inv s) (ht : s.threads[t]? = some (.trackLoad p info))
    (hc : s.ctx = none) :
    Inv { s with maps := s.maps ++ [[]], threads := s.threads.set t (.trackCas p info s.maps.length) } := by
  obtain ⟨hm, hn⟩ := hi.loc t _ ht
  have hsl : ∀ th, slots { s with maps := s.maps ++ [[]], threads := th } = slots s := fun th => by
    rw [slots_none hc]
    exact slots_none hc
  refine hi.step_of ht rfl ?_ (fun x _ _ => same_of_slots (hsl _) rfl) ?_ ?_ ?_ hi.heap (fun _ h => h) ?_ ?_ ?_
  · intro x hx hx'
    simp [uses] at hx hx'
    exact absurd hx hx'
  · intro x hx hx'
    simp [uses] at hx hx'
    exact absurd hx hx'
  · refine ⟨hm, fun h => hn ?_, ?_⟩
    · exact (same_of_slots (hsl _) rfl).trk.1 h
    · simp
  · intro i j x a b
    rw [at_congr (hsl _), at_congr (hsl _)]
    exact hi.inj i j x a b
  · simp
  · intro _ m hm
    rcases List.mem_append.1 hm with h | h
    · exact hi.empty hc m h
    · simpa using h
  · intro id h
    rw [hc] at h
    cases h

theorem inv_cas {s : State} {t p id : Nat} {info : Info} (hi : Inv s) (ht : s.threads[t]? = some (.trackCas p info id))
    (hc : s.ctx = none) : Inv { s with ctx := some id, threads := s.threads.set t (.trackPut p info id) } := by
  obtain ⟨hm, hn, hid⟩ := hi.loc t _ ht
  have hsl : ∀ th, slots { s with ctx := some id, threads := th } = slots s := fun th => by
    rw [slots_none hc, slots_some rfl]
    show (s.maps[id]?).getD [] = []
    rw [List.getElem?_eq_getElem hid]
    exact hi.empty hc _ (List.getElem_mem hid)
  refine hi.step_of ht rfl ?_ (fun x _ _ => same_of_slots (hsl _) rfl) ?_ ?_ ?_ hi.heap ?_ (Nat.le_refl _) ?_ ?_
  · intro x hx hx'
    simp [uses] at hx hx'
    exact absurd hx hx'
  · intro x hx hx'
    simp [uses] at hx hx'
    exact absurd hx hx'
  · exact ⟨hm, fun h => hn ((same_of_slots (hsl _) rfl).trk.1 h), rfl⟩
  · intro i j x a b
    rw [at_congr (hsl _), at_congr (hsl _)]
    exact hi.inj i j x a b
  · intro x h
    rw [hc] at h
    cases h
  · intro h
    cases h
  · intro x h
    cases h
    exact hid

theorem step_inv {s s' : State} {t : Nat} {c : Choice} (hi : Inv s) (h : step true s t c = some s') : Inv s' := by
  rw [step] at h
  cases ht : s.threads[t]? with
  | none => rw [ht] at h; cases h
  | some pc =>
    rw [ht] at h
    simp only [Option.map_eq_some_iff] at h
    obtain ⟨⟨s₁, pc'⟩, ha, rfl⟩ := h
    have hloc := hi.loc t pc ht
    cases pc with
    | idle =>
      cases c with
      | malloc p info =>
        simp only [act] at ha
        split at ha
        · cases ha; exact inv_malloc hi ht ‹_›
        · cases ha
      | realloc p q info =>
        simp only [act] at ha
        split at ha
        · rename_i hh
          cases ha
          simp only [Bool.and_eq_true, Bool.or_eq_true, beq_iff_eq] at hh
          exact inv_realloc hi ht hh.1 hh.2
        · cases ha
      | free p =>
        simp only [act] at ha
        split at ha
        · rename_i hh
          cases ha
          simp only [mine, Bool.and_eq_true, Bool.not_eq_true'] at hh
          refine hi.stay ht ?_ ?_ ?_
          · intro x hx _
            simp [uses] at hx
            subst hx
            exact hh.2
          · intro x hx
            simp [uses] at hx
          · exact ⟨allocated_iff.1 hh.1, (hi.trk hh.2).2 (allocated_iff.1 hh.1)⟩
        · cases ha
      | query p =>
        simp only [act] at ha
        split at ha
        · cases ha
        · rename_i hh
          cases ha
          have hh : inUse true s p = false := by simpa using hh
          refine hi.stay ht ?_ ?_ ?_
          · intro x hx _
            simp [uses] at hx
            subst hx
            exact hh
          · intro x hx
            simp [uses] at hx
          · exact hi.free p hh
      | go => cases ha
    | trackLoad p info =>
      cases c with
      | go =>
        simp only [act] at ha
        split at ha
        · rename_i id hc
          cases ha
          refine hi.stay ht ?_ ?_ ⟨hloc.1, hloc.2, hc⟩
          · intro x hx hx'
            simp [uses] at hx hx'
            exact absurd hx hx'
          · intro x hx hx'
            simp [uses] at hx hx'
            exact absurd hx hx'
        · cases ha
          exact inv_create hi ht ‹_›
      | _ => cases ha
    | trackCas p info id =>
      cases c with
      | go =>
        simp only [act] at ha
        split at ha
        · rename_i id' hc
          cases ha
          refine hi.stay ht ?_ ?_ ⟨hloc.1, hloc.2.1, by rw [hc]; simp⟩
          · intro x hx hx'
            simp [uses] at hx hx'
            exact absurd hx hx'
          · intro x hx hx'
            simp [uses] at hx hx'
            exact absurd hx hx'
        · rename_i hc
          cases ha
          exact inv_cas (s := s) hi ht hc
      | _ => cases ha
    | trackReload p info =>
      cases c with
      | go =>
        simp only [act] at ha
        split at ha
        · rename_i id' hc
          cases ha
          refine hi.stay ht ?_ ?_ ⟨hloc.1, hloc.2.1, hc⟩
          · intro x hx hx'
            simp [uses] at hx hx'
            exact absurd hx hx'
          · intro x hx hx'
            simp [uses] at hx hx'
            exact absurd hx hx'
        · exact absurd ‹_› hloc.2.2
      | _ => cases ha
    | trackPut p info id =>
      cases c with
      | go => cases ha; exact inv_trackPut hi ht
      | _ => cases ha
    | findLoad job p =>
      cases c with
      | go =>
        simp only [act] at ha
        split at ha
        · rename_i id hc
          cases ha
          refine hi.stay ht ?_ ?_ ⟨hloc, hc, fun j _ hj => absurd hj (Nat.not_lt_zero j)⟩
          · intro x hx hx'
            rw [(uses_job job p id 0).1] at hx
            exact absurd hx hx'
          · intro x hx hx'
            rw [(uses_job job p id 0).1] at hx'
            exact absurd hx hx'
        · rename_i hc
          cases ha
          refine hi.missed ht rfl hloc ?_
          rintro ⟨i, a, h⟩
          rw [At, slots_none hc] at h
          simp at h
      | _ => cases ha
    | find job p id i =>
      cases c with
      | go =>
        obtain ⟨hj, hc, hb⟩ := hloc
        simp only [act] at ha
        rw [← slots_some hc] at ha
        have hnext : (∀ a, ¬ At s i p a) → Inv { s with threads := s.threads.set t (.find job p id (i + 1)) } := by
          intro hne
          refine hi.stay ht ?_ ?_ ⟨hj, hc, fun j a hji => ?_⟩
          · intro x hx hx'
            rw [(uses_job job p id _).1] at hx hx'
            exact absurd hx hx'
          · intro x hx hx'
            rw [(uses_job job p id _).1] at hx hx'
            exact absurd hx hx'
          · by_cases h : j = i
            · subst h; exact hne a
            · exact hb j a (by omega)
        split at ha
        · rename_i hnone
          cases ha
          refine hi.missed ht (uses_job job p id i).1 hj ?_
          rintro ⟨k, a, h⟩
          have hk := h.lt
          have : (slots s).length ≤ i := List.getElem?_eq_none_iff.1 hnone
          exact hb k a (by omega) h
        · rename_i x a hsome
          split at ha
          · rename_i hxp
            subst hxp
            cases ha
            cases job with
            | query =>
              refine hi.stay ht ?_ ?_ ?_
              · intro y hy hy'
                simp [uses, found] at hy hy'
                exact absurd hy hy'
              · intro y hy hy'
                simp [uses, found] at hy hy'
                exact absurd hy hy'
              · refine ⟨?_, hj⟩
                rw [← trk_iff_mem hj]
                simp only [true_iff]
                exact ⟨i, a, hsome⟩
            | free =>
              refine hi.stay ht ?_ ?_ ⟨hj, hc, ⟨a, hsome⟩, by simp⟩
              · intro y hy hy'
                simp [uses, found] at hy hy'
                exact absurd hy hy'
              · intro y hy hy'
                simp [uses, found] at hy hy'
                exact absurd hy hy'
            | realloc q info =>
              refine hi.stay ht ?_ ?_ ⟨hj, hc, ⟨a, hsome⟩, by simp⟩
              · intro y hy hy'
                exact absurd hy hy'
              · intro y hy hy'
                exact absurd hy hy'
          · rename_i hxp
            cases ha
            refine hnext fun b h => ?_
            rw [At, hsome] at h
            cases h
            exact hxp rfl
        · rename_i hsome
          cases ha
          refine hnext fun b h => ?_
          rw [At, hsome] at h
          cases h
      | _ => cases ha
    | put job p id i =>
      cases c with
      | go => cases ha; exact inv_put hi ht
      | _ => cases ha
    | free p =>
      cases c with
      | go => cases ha; exact inv_free hi ht
      | _ => cases ha
    | answer p b =>
      cases c with
      | go =>
        cases ha
        refine hi.stay ht ?_ ?_ trivial
        · intro x hx
          simp [uses] at hx
        · intro x hx _
          simp [uses] at hx
          subst hx
          exact hloc.2
      | _ => cases ha

theorem run_inv {s s' : State} {l : List (Nat × Choice)} (hi : Inv s) (h : run true s l = some s') : Inv s' := by
  induction l generalizing s with
  | nil => cases h; exact hi
  | cons x l ih =>
    obtain ⟨t, c⟩ := x
    rw [run, Option.bind_eq_some_iff] at h
    obtain ⟨s₁, h1, h2⟩ := h
    exact ih (step_inv hi h1) h2

end Verif.DebugAlloc
