import Verif.DebugAllocCount

/-!
# C96: the debug allocator tracks what is allocated

`Reachable true` are the executions in which the C library hands out no address that a call in progress is about;
`Reachable false` are all executions in which it hands out no allocated address.
-/
namespace Verif.DebugAlloc

theorem nodup_of_inj {m : List Slot}
    (h : ∀ (i j : Nat) (e : Nat × Info), m[i]? = some (some e) → m[j]? = some (some e) → i = j) : (m.filterMap id).Nodup := by
  induction m with
  | nil => simp
  | cons x m ih =>
    have ih := ih fun i j e hi hj => by
      have := h (i + 1) (j + 1) e (by simpa using hi) (by simpa using hj)
      omega
    cases x with
    | none => simpa using ih
    | some e =>
      simp only [List.filterMap_cons, id, List.nodup_cons]
      refine ⟨fun hm => ?_, ih⟩
      rw [List.mem_filterMap] at hm
      obtain ⟨y, hy, he⟩ := hm
      simp at he
      subst he
      obtain ⟨j, hj⟩ := List.mem_iff_getElem?.1 hy
      have := h 0 (j + 1) e (by simp) (by simpa using hj)
      omega

theorem mem_tracked {s : State} {p : Nat} {info : Info} : (p, info) ∈ tracked s ↔ ∃ i, At s i p info := by
  rw [tracked, List.mem_filterMap]
  constructor
  · rintro ⟨y, hy, he⟩
    simp at he
    subst he
    obtain ⟨j, hj⟩ := List.mem_iff_getElem?.1 hy
    exact ⟨j, hj⟩
  · rintro ⟨i, hi⟩
    exact ⟨_, List.mem_iff_getElem?.2 ⟨i, hi⟩, rfl⟩

theorem heap_nodup {s : State} (hi : Inv s) : s.heap.Nodup := by
  have h := hi.heap
  rw [List.Nodup, List.pairwise_map] at h
  exact h.imp fun {a b} hab he => hab (by rw [he])

theorem tracked_nodup {s : State} (hi : Inv s) : (tracked s).Nodup :=
  nodup_of_inj fun i j e h1 h2 => hi.inj i j e.1 e.2 e.2 h1 h2

/-- **C96 (partial).**  However many threads allocate, reallocate and deallocate, and whichever of them makes the map: a
pointer that no call is about is tracked exactly if it is allocated, once, and with the file and line of the call that
allocated or last reallocated it; the pointers tracked are the pointers allocated whenever no thread is in a call.
Missing: it holds only if the C library does not hand out the old address of a reallocation before it has been replaced
(`C96_tracked_refuted`). -/
theorem C96_tracked_partial {n : Nat} {s : State} (h : Reachable true n s) :
    (∀ p, inUse true s p = false → ∀ info, (tracked s).count (p, info) = s.heap.count (p, info)) ∧
      (Quiet s → (tracked s).Perm s.heap) ∧ (s.heap.map (·.1)).Nodup := by
  obtain ⟨l, hl⟩ := h
  have hi := run_inv (start_inv n) hl
  refine ⟨?_, ?_, hi.heap⟩
  · intro p hp info
    have : (p, info) ∈ tracked s ↔ (p, info) ∈ s.heap := by rw [mem_tracked]; exact hi.free p hp info
    rw [(tracked_nodup hi).count, (heap_nodup hi).count]
    simp [this]
  · intro hq
    rw [List.perm_ext_iff_of_nodup (tracked_nodup hi) (heap_nodup hi)]
    rintro ⟨p, info⟩
    rw [mem_tracked]
    refine hi.free p ?_ info
    rw [Bool.eq_false_iff]
    intro h
    obtain ⟨t, pc, ht, h⟩ := inUse_iff.1 h
    rw [hq pc (List.mem_of_getElem? ht)] at h
    simp [uses] at h

/-- **C96.**  Under the same condition, `CCDebugAllocatorIsTracking` says whether its pointer is allocated. -/
theorem C96_is_tracking {n : Nat} {s : State} (h : Reachable true n s) {t p : Nat} {b : Bool}
    (ht : s.threads[t]? = some (.answer p b)) : b = true ↔ ∃ info, (p, info) ∈ s.heap := by
  obtain ⟨l, hl⟩ := h
  exact ((run_inv (start_inv n) hl).loc t _ ht).1

/-- Two threads: the first allocates 1 and 2 and moves 1 to 3, the second is given 1 again and frees it, while a third asks
about 2. -/
example : ∃ s, run true (start 3) ([(0, .malloc 1 ⟨10, 5⟩)] ++ List.replicate 3 (0, .go) ++ [(1, .malloc 2 ⟨10, 6⟩)] ++
      List.replicate 2 (1, .go) ++ [(0, .realloc 1 3 ⟨11, 7⟩), (2, .query 2)] ++ List.replicate 3 (2, .go) ++
      List.replicate 3 (0, .go) ++ [(1, .malloc 1 ⟨10, 6⟩)] ++ List.replicate 2 (1, .go) ++ [(1, .free 1)] ++
      List.replicate 6 (1, .go)) = some s ∧
    s.heap = [(3, ⟨11, 7⟩), (2, ⟨10, 6⟩)] ∧ tracked s = [(3, ⟨11, 7⟩), (2, ⟨10, 6⟩)] ∧ s.threads[2]? = some (.answer 2 true) :=
  ⟨_, rfl, by decide, by decide, by decide⟩

/-- Two threads make the map at the same time: both allocations are in the one in use. -/
example : ∃ s, run true (start 2) [(0, .malloc 1 ⟨10, 5⟩), (1, .malloc 2 ⟨10, 6⟩), (0, .go), (1, .go), (1, .go), (0, .go),
      (0, .go), (1, .go), (0, .go)] = some s ∧
    tracked s = [(2, ⟨10, 6⟩), (1, ⟨10, 5⟩)] ∧ s.maps.length = 2 ∧ s.ctx = some 1 :=
  ⟨_, rfl, by decide, by decide, by decide⟩

/-- **C96 (refuted without the condition).**  `DebugReallocator` gives the old address back before it replaces it in the
map.  Thread 0 moves 1 to 2; thread 1 is given 1 and frees it again, and finds the entry thread 0 is about to replace.
When both are done 2 is allocated but not tracked, and 1 is tracked for good although it is free. -/
theorem C96_tracked_refuted :
    ∃ s, Reachable false 2 s ∧ Quiet s ∧ s.heap = [(2, ⟨10, 6⟩)] ∧ tracked s = [(1, ⟨10, 7⟩)] := by
  refine ⟨_, ⟨[(0, .malloc 1 ⟨10, 5⟩), (0, .go), (0, .go), (0, .go), (0, .realloc 1 2 ⟨10, 6⟩), (1, .malloc 1 ⟨10, 7⟩),
    (1, .go), (1, .go), (0, .go), (0, .go), (1, .free 1), (1, .go), (1, .go), (0, .go), (1, .go), (1, .go)], rfl⟩, ?_, ?_, ?_⟩
  · rw [Quiet]; decide
  · decide
  · decide

/-- **C96 (exact).**  After `realloc`, `DebugReallocator` goes on as it should, replacing the pointer if `realloc` gave one
and leaving things alone if not, exactly if the data is given when `realloc` succeeds and not given when it fails. -/
theorem C96_realloc_exact (newPtr : Option Nat) (data : Option Info) :
    (reallocated newPtr data = match newPtr, data with
      | some q, some info => .replace q info
      | some _, none => .nullDeref
      | none, some _ => .aborts
      | none, none => .null) ∧
    ((reallocated newPtr data = .nullDeref ∨ reallocated newPtr data = .aborts) ↔ newPtr.isSome ≠ data.isSome) := by
  cases newPtr <;> cases data <;> simp [reallocated]

/-- **C96 (refuted).**  Reallocating memory of the debug allocator (number 6) dereferences null if the caller names another
allocator, as `CCArray` does when it grows (`CC_STD_ALLOCATOR`, number 1); and it aborts when memory runs out. -/
theorem C96_realloc_refuted :
    (∀ q typeData, reallocated (some q) (reallocData 1 6 typeData) = .nullDeref) ∧
      ∀ info, reallocated none (reallocData 6 6 (some info)) = .aborts :=
  ⟨fun _ _ => rfl, fun _ => rfl⟩

/-- **C96 (memory).**  In every execution the map has one entry for every allocation ever made (but for those whose call
has not got to it yet): entries of freed memory are never used again and a search goes through all of them. -/
theorem C96_entries {hold : Bool} {n : Nat} {l : List (Nat × Choice)} {s : State} (h : run hold (start n) l = some s) :
    (slots s).length + (s.threads.map tracking).sum = mallocs l := by
  have := run_count (start_cinv n) h
  have h0 : Conc.sumBy tracking (start n).threads = 0 := by
    apply Conc.sumBy_eq_zero
    intro a ha
    simp [start] at ha
    rw [ha.2]
    rfl
  rw [h0] at this
  have hs : slots (start n) = [] := rfl
  rw [hs] at this
  simp only [List.length_nil, Nat.zero_add] at this
  exact this

/-- Allocating and freeing one address three times leaves three entries. -/
example : ∃ s, run false (start 1) ([(0, .malloc 1 ⟨10, 5⟩)] ++ List.replicate 3 (0, .go) ++ [(0, .free 1)] ++ List.replicate 4 (0, .go) ++
      [(0, .malloc 1 ⟨10, 5⟩)] ++ List.replicate 2 (0, .go) ++ [(0, .free 1)] ++ List.replicate 5 (0, .go) ++
      [(0, .malloc 1 ⟨10, 5⟩)] ++ List.replicate 2 (0, .go) ++ [(0, .free 1)] ++ List.replicate 6 (0, .go)) = some s ∧
    s.heap = [] ∧ slots s = [none, none, none] ∧ s.threads = [.idle] :=
  ⟨_, rfl, by decide, by decide, by decide⟩

/-- **C96 (dump).**  What `CCDebugAllocatorPrint` prints are the pointers tracked, each once, with its file and line;
every file comes once, every line of a file comes once, and below a line are its pointers in the order of the map. -/
theorem C96_dump (m : List Slot) :
    (printed (dump m)).Perm ((m.filterMap id).map fun e => (e.2.file, e.2.line, e.1)) ∧
      ((dump m).map (·.1)).Nodup ∧
      ∀ f ∈ dump m, f.2 ≠ [] ∧ (f.2.map (·.1)).Nodup ∧ ∀ l ∈ f.2, l.2 ≠ [] ∧ l.2 = under m f.1 l.1 := by
  obtain ⟨hd, h2, h3⟩ := dump_fold m [] dinv_nil
  refine ⟨h3, hd.files, ?_⟩
  rintro ⟨f, ls⟩ hf
  have hlook := lookup_of_mem hd.files hf
  have hls : ((m.foldl dumpOne []).lookup f).getD [] = ls := by rw [hlook]; rfl
  have hlines := hd.lines f
  rw [hls] at hlines
  refine ⟨hd.some f ls hlook, hlines, ?_⟩
  rintro ⟨l, ps⟩ hl
  have hl2 := lookup_of_mem hlines hl
  refine ⟨hd.addr f l ps (by rw [hls]; exact hl2), ?_⟩
  have := h2 f l
  rw [getD, hls, hl2] at this
  simpa [getD, List.lookup] using this

example : printed (dump [some (1, ⟨10, 5⟩), none, some (2, ⟨11, 5⟩), some (3, ⟨10, 6⟩), some (4, ⟨10, 5⟩)]) =
    [(10, 5, 1), (10, 5, 4), (10, 6, 3), (11, 5, 2)] := by decide

#print axioms C96_tracked_partial
#print axioms C96_is_tracking
#print axioms C96_tracked_refuted
#print axioms C96_realloc_exact
#print axioms C96_realloc_refuted
#print axioms C96_entries
#print axioms C96_dump

end Verif.DebugAlloc
