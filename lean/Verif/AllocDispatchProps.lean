import Verif.AllocDispatchLemmas
/-!
# C102: memory is reallocated and freed by whoever made it
-/
namespace Verif.AllocDispatch

open Spec

/-- C102.  However a client allocates, reallocates, retains, frees and writes, with any mix of allocators, as long as it keeps to the
rules (`Fine`), no call is undefined behaviour, that is: every raw block is reallocated and freed from its start by functions of
the family that made it, whatever type a reallocation was given.  The results are the expected ones, and the client finds its
bytes, reference counts, called destructors and events as expected.  Missing: what `Fine` rules out (see the refutations below), the
insides of the allocators 4 to 9. -/
theorem C102_history_partial (rs : Resize) (stack : Nat) (fams : Nat → Fam) (groups : Nat → Grp) (ops : List Op)
    (h : FineAll rs (Spec.init stack fams groups) ops) :
    ∃ S, run rs (AllocDispatch.init stack fams groups) ops = some (S, (nexts (Spec.init stack fams groups) ops).2) ∧
      Sees S (nexts (Spec.init stack fams groups) ops).1 := by
  obtain ⟨S, h1, h2⟩ := run_inv (c := False) (inv_init _ stack fams groups) h fun hf => hf.elim
  exact ⟨S, h1, h2.sees⟩

/-- C102.  If every added allocator has a function that frees, no raw block is lost: each one there still is is that of
exactly one of the client's objects, or static. -/
theorem C102_no_leak (rs : Resize) (stack : Nat) (fams : Nat → Fam) (groups : Nat → Grp) (ops : List Op)
    (h : FineAll rs (Spec.init stack fams groups) ops) (hc : ∀ op ∈ ops, CanFree op) :
    ∃ S bs, run rs (AllocDispatch.init stack fams groups) ops = some (S, bs) ∧
      ∀ i B, S.heap.blk i = some B → B.fam = none ∨
        ∃ h p, S.slots h = some p ∧ p.1 = i ∧ (∃ o, (nexts (Spec.init stack fams groups) ops).1.objs h = some o) ∧
          ∀ h' p', S.slots h' = some p' → p'.1 = i → h' = h := by
  obtain ⟨S, h1, I⟩ := run_inv (c := True) (inv_init _ stack fams groups) h fun _ => hc
  refine ⟨S, _, h1, fun i B hB => ?_⟩
  cases hf : B.fam with
  | none => exact .inl rfl
  | some f =>
    obtain ⟨k, p, hk, hp⟩ := I.held trivial i B hB (by rw [hf]; exact Option.some_ne_none f)
    refine .inr ⟨k, p, hk, hp, ?_, fun k' p' hk' hp' => I.inj k' k p' p hk' hk (hp'.trans hp.symm)⟩
    cases e : (nexts (Spec.init stack fams groups) ops).1.objs k with
    | none => rw [I.null k e] at hk; cases hk
    | some o => exact ⟨o, rfl⟩

/-- C102.  Where memory starts in its raw block, which is aligned to 16 bytes as `malloc`'s are: memory of the standard allocator and of
added ones is aligned to 16 bytes too; memory of the custom and the callback allocator is only aligned to 8 bytes. -/
theorem C102_align_exact (rs : Resize) (stack : Nat) (fams : Nat → Fam) (groups : Nat → Grp) (ops : List Op)
    (h : FineAll rs (Spec.init stack fams groups) ops) {S : St} {bs : List Bool}
    (hr : run rs (AllocDispatch.init stack fams groups) ops = some (S, bs)) {k : Nat} {o : Obj}
    (e : (nexts (Spec.init stack fams groups) ops).1.objs k = some o) :
    ∃ p, S.slots k = some p ∧ p.2 % 8 = 0 ∧
      (p.2 % 16 = 0 ↔ o.maker = .std ∨ ∃ i f, o.maker = .added i f) := by
  obtain ⟨S', h1, I⟩ := run_inv (c := False) (inv_init _ stack fams groups) h fun hf => hf.elim
  rw [hr] at h1
  cases h1
  obtain ⟨p, B, h1, h2, _, _⟩ := I.own k o e
  refine ⟨p, h1, ?_⟩
  rw [h2]
  cases o.maker <;> simp [hoff]

/-- C102.  The type given to a reallocation of memory plays no part. -/
theorem C102_type_ignored (rs : Resize) (S : St) (h : Nat) (ty ty' : Ty) (size : Nat) (env : Env) (hs : S.slots h ≠ none) :
    step rs S (.realloc h ty size env) = step rs S (.realloc h ty' size env) := by
  cases e : S.slots h with
  | none => exact absurd e hs
  | some p =>
    simp only [step, e, reallocate]
    cases back p 16 with
    | none => rfl
    | some q =>
      dsimp only
      cases S.heap.get q 16 with
      | none => rfl
      | some x =>
        cases x with
        | hdr hd =>
          dsimp only
          split
          · rfl
          · split
            · have : ∀ d d', callRealloc rs S.heap (S.table hd.allocator.toNat) d q (wrap (size + 16)) env =
                callRealloc rs S.heap (S.table hd.allocator.toNat) d' q (wrap (size + 16)) env := by
                intro d d'
                rfl
              rw [this _ (if ty'.allocator = hd.allocator then ty'.data else .null)]
            · rfl
        | fn _ _ => rfl
        | cb _ => rfl
        | size _ => rfl

/-! ## Groups -/

/-- Asking a type for an allocator `n` times: the answers. -/
def picks (stack : Nat) (ty : Ty) : Nat → (Nat → Grp) → Option (List Ty × (Nat → Grp))
  | 0, gs => some ([], gs)
  | n + 1, gs =>
    match pick stack gs ty with
    | none => none
    | some (leaf, gs) => (picks stack ty n gs).map fun r => (leaf :: r.1, r.2)

/-- One allocation from a group. -/
theorem pick_group {stack : Nat} {gs : Nat → Grp} {g cur : Nat} {ms : List Ty} {m : Ty} (hg : gs g = ⟨cur, ms⟩)
    (hm : ms[cur]? = some m) (hl : m.allocator ≠ -2) :
    pick (stack + 2) gs ⟨-2, .group g⟩ = some (m, if cur + 1 < ms.length then upd gs g ⟨cur + 1, ms⟩ else gs) := by
  rw [pick]
  simp only [if_true, hg, hm]
  rw [pick, if_neg hl]
  simp only [hg]

/-- C102.  A group of allocators (none of them a group) is used in turn: of `n` allocations the `i`-th, counting from where
the group is, is made by the `i`-th allocator, and when there are no more by the last. -/
theorem C102_group_turns (stack : Nat) (gs : Nat → Grp) (g cur : Nat) (ms : List Ty) (hg : gs g = ⟨cur, ms⟩) (hc : cur < ms.length)
    (hl : ∀ m ∈ ms, m.allocator ≠ -2) (n : Nat) :
    ∃ gs', picks (stack + 2) ⟨-2, .group g⟩ n gs =
      some ((List.range n).map fun i => ms[min (cur + i) (ms.length - 1)]'(by omega), gs') := by
  induction n generalizing gs cur with
  | zero => exact ⟨gs, rfl⟩
  | succ n ih =>
    have hm : ms[cur]? = some ms[cur] := List.getElem?_eq_getElem hc
    rw [picks, pick_group hg hm (hl _ (List.getElem_mem hc))]
    dsimp only
    by_cases hlast : cur + 1 < ms.length
    · rw [if_pos hlast]
      obtain ⟨gs', h⟩ := ih (upd gs g ⟨cur + 1, ms⟩) (cur + 1) (upd_self _ _ _) hlast
      refine ⟨gs', ?_⟩
      rw [h]
      simp only [Option.map_some, Option.some.injEq, Prod.mk.injEq, and_true]
      rw [List.range_succ_eq_map, List.map_cons, List.map_map]
      congr 1
      · congr 1; omega
      · apply List.map_congr_left
        intro i _
        simp only [Function.comp]
        congr 1
        omega
    · rw [if_neg hlast]
      obtain ⟨gs', h⟩ := ih gs cur hg hc
      refine ⟨gs', ?_⟩
      rw [h]
      simp only [Option.map_some, Option.some.injEq, Prod.mk.injEq, and_true]
      rw [List.range_succ_eq_map, List.map_cons, List.map_map]
      congr 1
      · congr 1; omega
      · apply List.map_congr_left
        intro i _
        simp only [Function.comp]
        congr 1
        omega

/-- C102.  A group with no allocator left to give, such as an empty one, is read out of its bounds. -/
theorem C102_group_empty (rs : Resize) (S : St) (g : Nat) (size : Nat) (env : Env) (h : (S.groups g).members.length ≤ (S.groups g).current) :
    allocate rs S ⟨-2, .group g⟩ size env = none := by
  unfold allocate
  cases S.stack with
  | zero => rfl
  | succ n =>
    rw [pick]
    simp only [if_true, List.getElem?_eq_none h]

/-! ## Histories that meet the rules, and what goes wrong without them -/

/-- Callbacks that leave sizes alone. -/
def rs0 : Resize := fun _ _ n => n

/-- No groups. -/
def gs0 : Nat → Grp := fun _ => ⟨0, []⟩

/-- A group of a callback allocator and a custom one. -/
def gs1 : Nat → Grp := fun _ => ⟨0, [⟨3, .cb 7⟩, ⟨2, .fns (some 5) (some 5) (some 5)⟩]⟩

/-- Bytes that happen to be there. -/
def junk : Env := some fun i => UInt8.ofNat i

/-- Memory of a callback and of a custom allocator from a group, reallocated with the wrong type, retained and freed. -/
def ops1 : List Op :=
  [.malloc 0 ⟨-2, .group 0⟩ 4 junk, .malloc 1 ⟨-2, .group 0⟩ 4 junk, .write 0 3 9, .write 1 2 8, .setDestructor 1 (some 6),
   .realloc 0 ⟨1, .null⟩ 8 junk, .realloc 1 ⟨-1, .null⟩ 3 junk, .retain 1, .free 1, .free 1, .static 1 false 4 fun _ => 0,
   .realloc 1 ⟨3, .cb 1⟩ 5 junk]

/-- `ops1` keeps to the rules. -/
example : FineAll rs0 (Spec.init 5 (fun _ => 1) gs1) ops1 := by
  refine ⟨⟨rfl, by decide, _, _, rfl, by decide, fun h => absurd h (by decide), fun _ => .inr ⟨7, rfl, fun c hc => ?_⟩⟩,
    ⟨rfl, by decide, _, _, rfl, by decide, fun _ => .inr (.inr ⟨5, rfl⟩), fun h => absurd h (by decide)⟩,
    ⟨_, rfl, by decide⟩, ⟨_, rfl, by decide⟩, (fun h => by cases h), ⟨by decide, fun c hc c' hc' => ?_⟩,
    ⟨by decide, fun c hc => ?_⟩, (fun o ho => ?_), (fun o ho => ?_), (fun o ho => ?_), rfl, ⟨by decide, fun c hc => ?_⟩, trivial⟩
  · cases hc; exact ⟨by decide, by decide⟩
  · cases hc; cases hc'; exact ⟨by decide, by decide⟩
  · cases hc
  · cases ho; decide
  · cases ho; decide
  · cases ho; decide
  · cases hc

/-- What comes of `ops1`. -/
example : (nexts (Spec.init 5 (fun _ => 1) gs1) ops1).2 = [true, true, true, true, true, true, true, true, false, true, true, false] ∧
    (nexts (Spec.init 5 (fun _ => 1) gs1) ops1).1.ran = [6] ∧
    (nexts (Spec.init 5 (fun _ => 1) gs1) ops1).1.events =
      [(7, .allocatePre), (7, .allocatePost), (7, .reallocatePre), (7, .reallocatePost)] := by
  decide +kernel

example : ∀ op ∈ ops1, CanFree op := by
  intro op h
  simp only [ops1, List.mem_cons, List.not_mem_nil, or_false] at h
  rcases h with h | h | h | h | h | h | h | h | h | h | h | h <;> subst h <;> trivial

/-- C102.  The overflow check of `CCMemoryAllocate` does not count what a custom allocator adds: with a size close to the end of
the address space that sum wraps, the raw block is too small for what is stored in front. -/
theorem C102_wrap_refuted : ∃ size env, wrap (size + 16) > size ∧
    step rs0 (AllocDispatch.init 5 (fun _ => 1) gs0) (.malloc 0 ⟨2, .fns (some 5) (some 5) (some 5)⟩ size env) = none :=
  ⟨2 ^ 64 - 40, junk, by decide, rfl⟩

/-- C102.  An allocator that is replaced while there is memory of the old one: the new functions get the old memory. -/
theorem C102_replaced_refuted :
    (run rs0 (AllocDispatch.init 5 (fun _ => 1) gs0) [.add 12 (some 3) (some 3) (some 3), .malloc 0 ⟨12, .null⟩ 4 junk]).isSome ∧
      run rs0 (AllocDispatch.init 5 (fun _ => 1) gs0)
        [.add 12 (some 3) (some 3) (some 3), .malloc 0 ⟨12, .null⟩ 4 junk, .add 12 (some 4) (some 4) (some 4), .free 0] = none := by
  decide +kernel

/-- C102.  `CCAllocatorAdd` says that it cannot replace any of the standard allocators; it accepts the indexes of the
aligned, bounds checking, debug, zone, autorelease and pool allocators. -/
theorem C102_add_exact (S : St) (index : Int) (a r d : Option Fam) : (add S index a r d).isSome ↔ 4 ≤ index ∧ index ≤ 19 := by
  unfold add
  split
  · simp; omega
  · simp; omega

/-- C102.  Static memory has no reference to begin with: freeing it, which any other memory needs, fails an assertion. -/
theorem C102_static_free_refuted :
    (run rs0 (AllocDispatch.init 5 (fun _ => 1) gs0) [.static 0 false 4 fun _ => 0]).isSome ∧
      run rs0 (AllocDispatch.init 5 (fun _ => 1) gs0) [.static 0 false 4 fun _ => 0, .free 0] = none := by
  decide +kernel

/-- C102.  A callback that makes a size smaller makes the memory smaller than what was asked for. -/
theorem C102_shrink_refuted :
    (run (fun _ _ _ => 20) (AllocDispatch.init 5 (fun _ => 1) gs0) [.malloc 0 ⟨3, .cb 1⟩ 8 junk]).isSome ∧
      run (fun _ _ _ => 20) (AllocDispatch.init 5 (fun _ => 1) gs0) [.malloc 0 ⟨3, .cb 1⟩ 8 junk, .write 0 7 1] = none ∧
      (run (fun _ re n => if re then 20 else n) (AllocDispatch.init 5 (fun _ => 1) gs0)
        [.malloc 0 ⟨3, .cb 1⟩ 8 junk, .realloc 0 ⟨1, .null⟩ 9 junk]).isSome ∧
      run (fun _ re n => if re then 20 else n) (AllocDispatch.init 5 (fun _ => 1) gs0)
        [.malloc 0 ⟨3, .cb 1⟩ 8 junk, .realloc 0 ⟨1, .null⟩ 9 junk, .write 0 7 1] = none := by
  decide +kernel

/-- C102.  A custom allocator without a function to reallocate or free: the null function is called.  (An added allocator without one
gives null, or keeps the memory.) -/
theorem C102_missing_refuted :
    run rs0 (AllocDispatch.init 5 (fun _ => 1) gs0) [.malloc 0 ⟨2, .fns (some 5) none none⟩ 4 junk, .free 0] = none ∧
    run rs0 (AllocDispatch.init 5 (fun _ => 1) gs0) [.malloc 0 ⟨2, .fns (some 5) none none⟩ 4 junk, .realloc 0 ⟨1, .null⟩ 5 junk] = none ∧
    (run rs0 (AllocDispatch.init 5 (fun _ => 1) gs0)
      [.add 12 (some 3) none none, .malloc 0 ⟨12, .null⟩ 4 junk, .realloc 0 ⟨12, .null⟩ 5 junk, .free 0]).map Prod.snd =
        some [true, true, false, true] := by
  decide +kernel

/-- A group of three, started. -/
example : (picks 3 ⟨-2, .group 0⟩ 5 fun _ => ⟨0, [⟨1, .null⟩, ⟨3, .cb 7⟩, ⟨4, .null⟩]⟩).map Prod.fst =
    some [⟨1, .null⟩, ⟨3, .cb 7⟩, ⟨4, .null⟩, ⟨4, .null⟩, ⟨4, .null⟩] := by decide +kernel

#print axioms C102_history_partial
#print axioms C102_no_leak
#print axioms C102_align_exact
#print axioms C102_type_ignored
#print axioms C102_group_turns
#print axioms C102_group_empty
#print axioms C102_wrap_refuted
#print axioms C102_replaced_refuted
#print axioms C102_add_exact
#print axioms C102_static_free_refuted
#print axioms C102_shrink_refuted
#print axioms C102_missing_refuted

end Verif.AllocDispatch
