import Verif.PoolAllocSpec
import Verif.AlignProps
/-!
# C36: the pool allocator
-/
namespace Verif.PoolAlloc

open Verif.Align

/-! ## The books and the pool agree -/

structure Inv (bs mx : Nat) (P : Pool) (C : Client) : Prop where
  ebs : P.blockSize = bs
  emx : P.max = mx
  le : P.count ≤ mx
  ilen : P.indexes.length = mx
  hlen : P.headers.length = mx
  refs : P.refs = C.owners + C.live.length
  nodup : C.live.Nodup
  free : ∃ F : List Nat, F.length = P.availCount ∧ (F ++ C.live).Perm (List.range P.count) ∧
    ∀ k : Nat, k < F.length → P.indexes[k]? = some F[k]?
  hdr : ∀ i, i < P.count → P.headers[i]? = some (some ⟨decide (i ∈ C.live), i⟩)

theorem inv_create (bs mx : Nat) : Inv bs mx (create bs mx) { live := [], owners := 1 } := by
  constructor <;> simp [create]

theorem Inv.count {bs mx : Nat} {P : Pool} {C : Client} (I : Inv bs mx P C) : P.availCount + C.live.length = P.count := by
  obtain ⟨F, h1, h2, _⟩ := I.free
  have := h2.length_eq
  simp at this
  omega

theorem Inv.lt {bs mx : Nat} {P : Pool} {C : Client} (I : Inv bs mx P C) {b : Nat} (h : b ∈ C.live) : b < P.count := by
  obtain ⟨F, _, h2, _⟩ := I.free
  have := h2.mem_iff.1 (List.mem_append_right F h)
  simpa using this

theorem range_succ_perm (n : Nat) (l : List Nat) (F : List Nat) (h : (F ++ l).Perm (List.range n)) : (F ++ n :: l).Perm (List.range (n + 1)) := by
  rw [List.range_succ]
  refine List.perm_middle.trans ?_
  exact (List.Perm.cons n h).trans (List.perm_append_comm (l₁ := [n]))

theorem Inv.alive {bs mx : Nat} {P : Pool} {C : Client} (I : Inv bs mx P C) {b : Nat} (h : b ∈ C.live) : dead P = false := by
  have := List.length_pos_of_mem h
  have := I.refs
  have e : P.refs ≠ 0 := by omega
  unfold dead
  simpa using e

theorem alloc_inv {bs mx : Nat} {P : Pool} {C : Client} (I : Inv bs mx P C) (s : BitVec 64) (hv : C.Valid (.alloc s)) :
    ∃ P' r, alloc P s = some (P', r) ∧ Inv bs mx P' (C.after (.alloc s) r) ∧
      ((r = .null ∧ P' = P ∧ (¬ (s < s + 16) ∨ bs < (s + 16 + 16).toNat ∨ C.live.length = mx)) ∨
       (∃ b, r = .block b ∧ s < s + 16 ∧ (s + 16 + 16).toNat ≤ bs ∧ C.live.length < mx ∧ b ∉ C.live ∧ b < mx ∧
         (P.availCount ≠ 0 → P.indexes[P.availCount - 1]? = some (some b)))) := by
  obtain ⟨ho, hr⟩ := hv
  have hd : dead P = false := by
    simp [dead, I.refs]; omega
  have hcnt := I.count
  have hle := I.le
  obtain ⟨F, f1, f2, f3⟩ := I.free
  unfold alloc
  simp only [hd, Bool.false_eq_true, if_false]
  by_cases h1 : s < s + 16
  · rw [if_neg (not_not_intro h1)]
    by_cases h2 : P.blockSize < (s + 16 + 16).toNat
    · rw [if_pos h2]
      exact ⟨P, .null, rfl, I, .inl ⟨rfl, rfl, .inr (.inl (I.ebs ▸ h2))⟩⟩
    · rw [if_neg h2]
      have h2' : (s + 16 + 16).toNat ≤ bs := by have := I.ebs; omega
      by_cases h3 : P.availCount ≠ 0
      · rw [if_pos h3]
        have hF : F ≠ [] := by intro e; subst e; simp at f1; omega
        obtain ⟨G, i, rfl⟩ : ∃ G i, F = G ++ [i] := ⟨F.dropLast, F.getLast hF, (List.dropLast_concat_getLast hF).symm⟩
        simp only [List.length_append, List.length_singleton] at f1 f3
        have hi : P.indexes[P.availCount - 1]? = some (some i) := by
          rw [f3 _ (by omega), show P.availCount - 1 = G.length by omega]
          simp
        have himem : i < P.count := by
          have := f2.mem_iff.1 (show i ∈ G ++ [i] ++ C.live by simp)
          simpa using this
        have hnl : i ∉ C.live := by
          have := (f2.nodup_iff.2 List.nodup_range)
          intro hm
          rw [List.nodup_append] at this
          exact this.2.2 i (by simp) i hm rfl
        rw [hi]
        simp only [I.hdr i himem]
        have e : retain { P with availCount := P.availCount - 1 } = some { P with availCount := P.availCount - 1, refs := P.refs + 1 } := by
          unfold retain
          have c1 : dead { P with availCount := P.availCount - 1 } = false := hd
          have c2 : P.refs + 1 < 2 ^ 31 := by rw [I.refs]; omega
          rw [c1, if_neg (by simp), if_pos c2]
        rw [e]
        simp only [Option.bind_eq_bind, Option.bind_some]
        refine ⟨_, _, rfl, ?_, .inr ⟨i, rfl, h1, h2', by omega, hnl, by omega, fun _ => rfl⟩⟩
        constructor
        · exact I.ebs
        · exact I.emx
        · exact I.le
        · exact I.ilen
        · simp [I.hlen]
        · simp [Client.after, I.refs]; omega
        · simp [Client.after, hnl, I.nodup]
        · refine ⟨G, ?_, ?_, ?_⟩
          · show G.length = P.availCount - 1
            omega
          · show (G ++ i :: C.live).Perm (List.range P.count)
            simpa using f2
          · intro k hk
            show P.indexes[k]? = _
            rw [f3 k (by omega), List.getElem?_append_left hk]
        · intro j hj
          show (P.headers.set i _)[j]? = _
          have hj' : j < P.count := hj
          rw [List.getElem?_set]
          by_cases e2 : i = j
          · subst e2
            simp [I.hlen, show i < mx by omega, Client.after]
          · rw [if_neg e2, I.hdr j hj']
            simp only [Client.after, Option.some.injEq, Header.mk.injEq, and_true, decide_eq_decide]
            simp [show ¬ j = i from fun e => e2 e.symm]
      · rw [if_neg h3]
        have h3' : P.availCount = 0 := by omega
        have hF : F = [] := by
          have : F.length = 0 := by omega
          exact List.length_eq_zero_iff.1 this
        subst hF
        by_cases h4 : P.count = P.max
        · rw [if_pos h4]
          refine ⟨P, .null, rfl, I, .inl ⟨rfl, rfl, .inr (.inr ?_)⟩⟩
          have := I.emx
          omega
        · rw [if_neg h4]
          have hm := I.emx
          have c : P.count < P.headers.length := by rw [I.hlen]; omega
          rw [if_pos c]
          have e : retain { P with count := P.count + 1 } = some { P with count := P.count + 1, refs := P.refs + 1 } := by
            unfold retain
            have c1 : dead { P with count := P.count + 1 } = false := hd
            have c2 : P.refs + 1 < 2 ^ 31 := by rw [I.refs]; omega
            rw [c1, if_neg (by simp), if_pos c2]
          rw [e]
          simp only [Option.bind_eq_bind, Option.bind_some]
          have hnl : P.count ∉ C.live := fun h => by have := I.lt h; omega
          refine ⟨_, _, rfl, ?_, .inr ⟨P.count, rfl, h1, h2', by omega, hnl, by omega, fun h => absurd h3' h⟩⟩
          constructor
          · exact I.ebs
          · exact I.emx
          · show P.count + 1 ≤ mx
            omega
          · exact I.ilen
          · simp [I.hlen]
          · simp [Client.after, I.refs]; omega
          · simp [Client.after, hnl, I.nodup]
          · refine ⟨[], ?_, ?_, ?_⟩
            · exact h3'.symm
            · exact range_succ_perm P.count C.live [] f2
            · intro k hk
              simp at hk
          · intro j hj
            show (P.headers.set P.count _)[j]? = _
            have hj' : j < P.count + 1 := hj
            rw [List.getElem?_set]
            by_cases e2 : P.count = j
            · subst e2
              simp [c, Client.after]
            · rw [if_neg e2, I.hdr j (by omega)]
              simp only [Client.after, Option.some.injEq, Header.mk.injEq, and_true, decide_eq_decide]
              simp [show ¬ j = P.count from fun e => e2 e.symm]
  · rw [if_pos h1]
    exact ⟨P, .null, rfl, I, .inl ⟨rfl, rfl, .inl h1⟩⟩

theorem realloc_spec {bs mx : Nat} {P : Pool} {C : Client} (I : Inv bs mx P C) (b : Nat) (s : BitVec 64) (hv : b ∈ C.live) :
    realloc P b s = some (P, if ¬ (s < s + 16) ∨ bs < (s + 16 + 16).toNat then .null else .block b) := by
  have hd := I.alive hv
  unfold realloc
  simp only [hd, Bool.false_eq_true, if_false]
  by_cases h1 : s < s + 16
  · rw [if_neg (not_not_intro h1), I.hdr b (I.lt hv), I.ebs]
    by_cases h2 : bs < (s + 16 + 16).toNat
    · simp only [hv, decide_true, if_true]
      rw [if_pos h2, if_pos (Or.inr h2)]
    · have : ¬ (¬ (s < s + 16) ∨ bs < (s + 16 + 16).toNat) := by
        rintro (h | h)
        · exact h h1
        · exact h2 h
      simp only [hv, decide_true, if_true]
      rw [if_neg h2, if_neg this]
  · rw [if_pos h1, if_pos (Or.inl h1)]

theorem free_inv {bs mx : Nat} {P : Pool} {C : Client} (I : Inv bs mx P C) (b : Nat) (hv : b ∈ C.live) :
    ∃ P', free P b = some (P', .unit) ∧ Inv bs mx P' (C.after (.free b) .unit) ∧
      P'.availCount ≠ 0 ∧ P'.indexes[P'.availCount - 1]? = some (some b) := by
  have hpos := List.length_pos_of_mem hv
  have hd := I.alive hv
  have hcnt := I.count
  have hle := I.le
  have hb := I.lt hv
  obtain ⟨F, f1, f2, f3⟩ := I.free
  unfold free
  simp only [hd, Bool.false_eq_true, if_false]
  rw [I.hdr b hb]
  simp only [hv, decide_true, if_true]
  have c : P.availCount < P.indexes.length := by rw [I.ilen]; omega
  rw [if_pos c]
  unfold release
  have c1 : dead { P with indexes := P.indexes.set P.availCount (some b), availCount := P.availCount + 1, headers := P.headers.set b (some ⟨false, b⟩) } = false := hd
  rw [c1]
  simp only [Bool.false_eq_true, if_false, Option.bind_eq_bind, Option.bind_some]
  refine ⟨_, rfl, ?_, ?_, ?_⟩
  · have hlen : (C.live.erase b).length = C.live.length - 1 := List.length_erase_of_mem hv
    constructor
    · exact I.ebs
    · exact I.emx
    · exact I.le
    · simp [I.ilen]
    · simp [I.hlen]
    · show P.refs - 1 = C.owners + (C.live.erase b).length
      rw [I.refs]
      omega
    · exact I.nodup.erase b
    · refine ⟨F ++ [b], ?_, ?_, ?_⟩
      · simp [f1]
      · show (F ++ [b] ++ C.live.erase b).Perm (List.range P.count)
        refine List.Perm.trans ?_ f2
        rw [List.append_assoc]
        exact List.Perm.append_left F (List.perm_cons_erase hv).symm
      · intro k hk
        show (P.indexes.set P.availCount (some b))[k]? = _
        simp at hk
        rw [List.getElem?_set]
        by_cases e : P.availCount = k
        · subst e
          rw [if_pos rfl, if_pos c, ← f1]
          simp
        · rw [if_neg e, f3 k (by omega), List.getElem?_append_left (by omega)]
    · intro j hj
      show (P.headers.set b _)[j]? = _
      have hj' : j < P.count := hj
      rw [List.getElem?_set]
      by_cases e : b = j
      · subst e
        have : b ∉ C.live.erase b := fun h => by
          have := (List.Nodup.mem_erase_iff I.nodup).1 h
          exact this.1 rfl
        rw [if_pos rfl, if_pos (by rw [I.hlen]; omega)]
        simp [Client.after, this]
      · rw [if_neg e, I.hdr j hj']
        have q : j ∈ (C.after (.free b) .unit).live ↔ j ∈ C.live := by
          show j ∈ C.live.erase b ↔ _
          rw [List.Nodup.mem_erase_iff I.nodup]
          exact ⟨fun h => h.2, fun h => ⟨fun e2 => e e2.symm, h⟩⟩
        simp only [q]
  · simp
  · show (P.indexes.set P.availCount (some b))[P.availCount + 1 - 1]? = _
    rw [Nat.add_sub_cancel, List.getElem?_set]
    simp [c]

theorem retain_inv {bs mx : Nat} {P : Pool} {C : Client} (I : Inv bs mx P C) (hv : C.Valid .retain) :
    ∃ P', step P .retain = some (P', .unit) ∧ Inv bs mx P' (C.after .retain .unit) := by
  obtain ⟨ho, hr⟩ := hv
  have hd : dead P = false := by
    simp [dead, I.refs]; omega
  have c2 : P.refs + 1 < 2 ^ 31 := by rw [I.refs]; omega
  refine ⟨{ P with refs := P.refs + 1 }, by simp [step, retain, hd]; omega, ?_⟩
  exact ⟨I.ebs, I.emx, I.le, I.ilen, I.hlen, by have := I.refs; simp [Client.after]; omega, I.nodup, I.free, I.hdr⟩

theorem destroy_inv {bs mx : Nat} {P : Pool} {C : Client} (I : Inv bs mx P C) (ho : 0 < C.owners) :
    ∃ P', step P .destroy = some (P', .unit) ∧ Inv bs mx P' (C.after .destroy .unit) := by
  have hd : dead P = false := by
    simp [dead, I.refs]; omega
  refine ⟨{ P with refs := P.refs - 1 }, by simp [step, release, hd], ?_⟩
  exact ⟨I.ebs, I.emx, I.le, I.ilen, I.hlen, by have := I.refs; simp [Client.after]; omega, I.nodup, I.free, I.hdr⟩

theorem step_inv {bs mx : Nat} {P : Pool} {C : Client} (I : Inv bs mx P C) {op : Op} (hv : C.Valid op) :
    ∃ P' r, step P op = some (P', r) ∧ Inv bs mx P' (C.after op r) := by
  cases op with
  | alloc s => obtain ⟨P', r, h1, h2, _⟩ := alloc_inv I s hv; exact ⟨P', r, h1, h2⟩
  | realloc b s =>
    refine ⟨P, _, realloc_spec I b s hv, ?_⟩
    exact I
  | free b => obtain ⟨P', h1, h2, _⟩ := free_inv I b hv; exact ⟨P', _, h1, h2⟩
  | retain => obtain ⟨P', h1, h2⟩ := retain_inv I hv; exact ⟨P', _, h1, h2⟩
  | destroy => obtain ⟨P', h1, h2⟩ := destroy_inv I hv; exact ⟨P', _, h1, h2⟩

theorem reach_inv {bs mx : Nat} {P : Pool} {C : Client} (h : Reach bs mx P C) : Inv bs mx P C := by
  induction h with
  | create => exact inv_create bs mx
  | call hr hv hs ih =>
    obtain ⟨P', r, h1, h2⟩ := step_inv ih hv
    rw [h1] at hs
    cases hs
    exact h2

/-! ## The size check -/

theorem size_ok (s : BitVec 64) (h : s.toNat < 2 ^ 64 - 32) : s < s + 16 ∧ (s + 16 + 16).toNat = s.toNat + 32 := by
  have e1 : (s + 16).toNat = s.toNat + 16 := by
    rw [BitVec.toNat_add, show (16 : BitVec 64).toNat = 16 from rfl]
    omega
  refine ⟨?_, ?_⟩
  · rw [BitVec.lt_def, e1]; omega
  · rw [BitVec.toNat_add, e1, show (16 : BitVec 64).toNat = 16 from rfl]
    omega

theorem size_big (s : BitVec 64) (h : 2 ^ 64 - 16 ≤ s.toNat) : ¬ (s < s + 16) := by
  rw [BitVec.lt_def, BitVec.toNat_add, show (16 : BitVec 64).toNat = 16 from rfl]
  have := s.isLt
  omega

/-- The sizes for which the two additions of header sizes do not wrap unnoticed. -/
def SizeOk : Op → Prop
  | .alloc s => s.toNat < 2 ^ 64 - 32 ∨ 2 ^ 64 - 16 ≤ s.toNat
  | .realloc _ s => s.toNat < 2 ^ 64 - 32 ∨ 2 ^ 64 - 16 ≤ s.toNat
  | _ => True

/-! ## The property -/

/-- **C36**: in every history of a client that keeps to the contract, the next call is defined and gives a
permitted result: an allocation gives a block inside the pool that no other live allocation has, it
fails exactly when `max` blocks are live or the size does not fit, a reallocation stays in place or
fails.  Missing (see `C36_size_refuted`): sizes within 32 bytes of the top of the address range.  The block
size is assumed to be a 64-bit value that leaves room for that. -/
theorem C36_partial {bs mx : Nat} {P : Pool} {C : Client} (h : Reach bs mx P C) (hb : bs < 2 ^ 64 - 32) {op : Op}
    (hv : C.Valid op) (hs : SizeOk op) : ∃ P' r, step P op = some (P', r) ∧ C.Permitted bs mx op r := by
  have I := reach_inv h
  cases op with
  | alloc s =>
    obtain ⟨P', r, h1, _, h3⟩ := alloc_inv I s hv
    refine ⟨P', r, h1, ?_⟩
    rcases h3 with ⟨rfl, _, h3⟩ | ⟨b, rfl, h4, h5, h6, h7, h8, _⟩
    · rcases hs with hs | hs
      · obtain ⟨a, b⟩ := size_ok s hs
        rcases h3 with h3 | h3 | h3
        · exact absurd a h3
        · exact .inl (by omega)
        · exact .inr h3
      · exact .inl (by omega)
    · rcases hs with hs | hs
      · obtain ⟨_, b⟩ := size_ok s hs
        exact ⟨by omega, h6, h7, h8⟩
      · exact absurd h4 (size_big s hs)
  | realloc b s =>
    refine ⟨P, _, realloc_spec I b s hv, ?_⟩
    rcases hs with hs | hs
    · obtain ⟨a, e⟩ := size_ok s hs
      by_cases c : bs < (s + 16 + 16).toNat
      · rw [if_pos (Or.inr c)]
        show bs < s.toNat + 32
        omega
      · have : ¬ (¬ (s < s + 16) ∨ bs < (s + 16 + 16).toNat) := by
          rintro (h | h)
          · exact h a
          · exact c h
        rw [if_neg this]
        exact ⟨rfl, by omega⟩
    · rw [if_pos (Or.inl (size_big s hs))]
      show bs < s.toNat + 32
      omega
  | free b => obtain ⟨P', h1, h2, _⟩ := free_inv I b hv; exact ⟨P', _, h1, trivial⟩
  | retain => obtain ⟨P', h1, h2⟩ := retain_inv I hv; exact ⟨P', _, h1, trivial⟩
  | destroy => obtain ⟨P', h1, h2⟩ := destroy_inv I hv; exact ⟨P', _, h1, trivial⟩

/-- **C36**: live allocations are pairwise different blocks inside the pool, never more than `max`. -/
theorem C36_live {bs mx : Nat} {P : Pool} {C : Client} (h : Reach bs mx P C) :
    C.live.Nodup ∧ (∀ b ∈ C.live, b < mx) ∧ C.live.length ≤ mx := by
  have I := reach_inv h
  have := I.count
  have := I.le
  exact ⟨I.nodup, fun b hb => by have := I.lt hb; omega, by omega⟩

/-- **C36**: a freed block is the next one to be allocated. -/
theorem C36_reuse {bs mx : Nat} {P P' : Pool} {C : Client} {r : Res} (h : Reach bs mx P C) {b : Nat} (hb : b ∈ C.live)
    (hf : step P (.free b) = some (P', r)) {s : BitVec 64} (hs : s.toNat + 32 ≤ bs) (hs2 : s.toNat < 2 ^ 64 - 32)
    (ho : 0 < C.owners) (hn : C.owners + C.live.length < 2 ^ 31) :
    ∃ P'', step P' (.alloc s) = some (P'', .block b) := by
  have I := reach_inv h
  obtain ⟨Q, h1, h2, h3, h4⟩ := free_inv I b hb
  have e : P' = Q := by
    have : some (P', r) = some (Q, .unit) := hf.symm.trans h1
    cases this; rfl
  subst e
  have hl : (C.live.erase b).length = C.live.length - 1 := List.length_erase_of_mem hb
  have hp := List.length_pos_of_mem hb
  have hv : (C.after (.free b) .unit).Valid (.alloc s) := by
    refine ⟨ho, ?_⟩
    show C.owners + (C.live.erase b).length + 1 < 2 ^ 31
    omega
  obtain ⟨a, e⟩ := size_ok s hs2
  obtain ⟨P'', r', g1, _, g3⟩ := alloc_inv h2 s hv
  rcases g3 with ⟨rfl, _, g | g | g⟩ | ⟨b', rfl, _, _, _, _, _, g⟩
  · exact absurd a g
  · omega
  · have := (C36_live h).2.2
    have : (C.live.erase b).length = mx := g
    omega
  · have := (g h3).symm.trans h4
    cases this
    exact ⟨P'', g1⟩

/-- **C36**: the memory of the pool goes exactly when the client has dropped its references and freed every
block. -/
theorem C36_lifetime {bs mx : Nat} {P : Pool} {C : Client} (h : Reach bs mx P C) :
    dead P = true ↔ C.owners = 0 ∧ C.live = [] := by
  have I := reach_inv h
  simp [dead, I.refs]

/-- **C36**: a live block knows its index, and the index leads back to the block; asking for a block that
is not live trips an assertion or reads memory that was never written. -/
theorem C36_index {bs mx : Nat} {P : Pool} {C : Client} (h : Reach bs mx P C) (b : Nat) :
    (b ∈ C.live → getIndex P b = some b ∧ getMemory P b = some b) ∧
    (b < P.count → b ∉ C.live → getIndex P b = none ∧ getMemory P b = none) := by
  have I := reach_inv h
  refine ⟨fun hb => ?_, fun hc hb => ?_⟩
  · have hd := I.alive hb
    have hlt := I.lt hb
    have := I.le
    have := I.emx
    constructor
    · simp [getIndex, hd, I.hdr b hlt, hb]
    · simp [getMemory, hd, I.hdr b hlt, hb]; omega
  · constructor
    · simp [getIndex, I.hdr b hc, hb]
    · simp [getMemory, I.hdr b hc, hb]

/-- The size check wraps: a request for all but 20 bytes of the address range is given a block of a pool
for 16 byte allocations. -/
theorem C36_size_refuted : step (create 48 1) (.alloc (BitVec.ofNat 64 (2 ^ 64 - 20))) =
    some ({ blockSize := 48, count := 1, max := 1, availCount := 0, indexes := [none],
            headers := [some ⟨true, 0⟩], refs := 2 }, .block 0) := by
  decide

/-! ## Where the blocks are -/

theorem blockSize_toNat {size al : BitVec 64} {k : Nat} (hk : k < 64) (ha : al.toNat = 2 ^ k)
    (h : size.toNat + 32 + (2 ^ k - 1) < 2 ^ 64) :
    (size + headerSize).toNat = size.toNat + 32 ∧ size.toNat + 32 ≤ (blockSize size al).toNat ∧ 2 ^ k ∣ (blockSize size al).toNat ∧
      (∀ m, size.toNat + 32 ≤ m → 2 ^ k ∣ m → (blockSize size al).toNat ≤ m) := by
  have e : (size + headerSize).toNat = size.toNat + 32 := by
    rw [BitVec.toNat_add, show headerSize.toNat = 32 from rfl]
    omega
  have := C50_align (size + headerSize) al k hk ha (by omega)
  rw [e] at this
  exact ⟨e, this⟩

/-- The geometry in numbers, when nothing wraps. -/
structure Fits (base size al max : BitVec 64) (k : Nat) : Prop where
  hk : k < 64
  hal : al.toNat = 2 ^ k
  top : base.toNat + 48 + 8 * max.toNat + 32 + (2 ^ k - 1) + (size.toNat + 32 + (2 ^ k - 1)) * (max.toNat + 1) < 2 ^ 64

theorem Fits.first {base size al max : BitVec 64} {k : Nat} (h : Fits base size al max k) :
    base.toNat + 48 + 8 * max.toNat ≤ (firstBlock base al max).toNat ∧
    (firstBlock base al max).toNat ≤ base.toNat + 48 + 8 * max.toNat + (2 ^ k - 1) ∧
    2 ^ k ∣ (firstBlock base al max).toNat + 32 := by
  obtain ⟨hk, ha, ht⟩ := h
  have hm : 0 ≤ (size.toNat + 32 + (2 ^ k - 1)) * (max.toNat + 1) := Nat.zero_le _
  have e : (base + infoSize + 8 * max + headerSize).toNat = base.toNat + 48 + 8 * max.toNat + 32 := by
    rw [BitVec.toNat_add, BitVec.toNat_add, BitVec.toNat_add, BitVec.toNat_mul,
      show headerSize.toNat = 32 from rfl, show infoSize.toNat = 48 from rfl, show (8 : BitVec 64).toNat = 8 from rfl]
    omega
  have hp0 : 0 < 2 ^ k := Nat.pow_pos (by omega)
  have A := C50_align (base + infoSize + 8 * max + headerSize) al k hk ha (by omega)
  have hae : al = 1#64 <<< k := by
    apply BitVec.eq_of_toNat_eq
    have hp : 2 ^ k < 2 ^ 64 := Nat.pow_lt_pow_right (by omega) hk
    rw [ha, BitVec.toNat_shiftLeft, Nat.shiftLeft_eq, show (1#64).toNat = 1 from rfl, Nat.one_mul, Nat.mod_eq_of_lt hp]
  have B := align_toNat (base + infoSize + 8 * max + headerSize) al k hk hae (by omega)
  have D := Nat.div_mul_le_self ((base + infoSize + 8 * max + headerSize).toNat + (2 ^ k - 1)) (2 ^ k)
  rw [← B] at D
  rw [e] at A D
  have f : (firstBlock base al max).toNat = (align (base + infoSize + 8 * max + headerSize) al).toNat - 32 := by
    unfold firstBlock
    rw [BitVec.toNat_sub, show headerSize.toNat = 32 from rfl]
    have := (align (base + infoSize + 8 * max + headerSize) al).isLt
    omega
  rw [f]
  refine ⟨by omega, by omega, ?_⟩
  rw [Nat.sub_add_cancel (by omega)]
  exact A.2.1

theorem Fits.block {base size al max : BitVec 64} {k : Nat} (h : Fits base size al max k) :
    size.toNat + 32 ≤ (blockSize size al).toNat ∧ (blockSize size al).toNat ≤ size.toNat + 32 + (2 ^ k - 1) ∧
    2 ^ k ∣ (blockSize size al).toNat := by
  obtain ⟨hk, ha, ht⟩ := h
  have hp0 : 0 < 2 ^ k := Nat.pow_pos (by omega)
  rw [Nat.mul_add, Nat.mul_one] at ht
  have := blockSize_toNat (size := size) hk ha (by omega)
  refine ⟨this.2.1, ?_, this.2.2.1⟩
  have e := this.1
  have hae : al = 1#64 <<< k := by
    apply BitVec.eq_of_toNat_eq
    have hp : 2 ^ k < 2 ^ 64 := Nat.pow_lt_pow_right (by omega) hk
    rw [ha, BitVec.toNat_shiftLeft, Nat.shiftLeft_eq, show (1#64).toNat = 1 from rfl, Nat.one_mul, Nat.mod_eq_of_lt hp]
  have B := align_toNat (size + headerSize) al k hk hae (by omega)
  have D := Nat.div_mul_le_self ((size + headerSize).toNat + (2 ^ k - 1)) (2 ^ k)
  rw [← B, e] at D
  exact D

theorem Fits.addr {base size al max : BitVec 64} {k : Nat} (h : Fits base size al max k) (i : BitVec 64) (hi : i.toNat < max.toNat) :
    (blockAddr base size al max i).toNat = (firstBlock base al max).toNat + (blockSize size al).toNat * i.toNat ∧
    (dataAddr base size al max i).toNat = (firstBlock base al max).toNat + (blockSize size al).toNat * i.toNat + 32 := by
  have f := h.first
  have b := h.block
  have ht := h.top
  have m : (blockSize size al).toNat * i.toNat ≤ (size.toNat + 32 + (2 ^ k - 1)) * max.toNat := Nat.mul_le_mul b.2.1 (by omega)
  rw [Nat.mul_add, Nat.mul_one] at ht
  have e : (blockAddr base size al max i).toNat = (firstBlock base al max).toNat + (blockSize size al).toNat * i.toNat := by
    unfold blockAddr
    rw [BitVec.toNat_add, BitVec.toNat_mul]
    omega
  refine ⟨e, ?_⟩
  unfold dataAddr
  rw [BitVec.toNat_add, e, show headerSize.toNat = 32 from rfl]
  omega

/-- **C36**: the memory of two different blocks does not overlap, and the pointer a client gets has the
alignment the pool was created with. -/
theorem C36_blocks {base size al max : BitVec 64} {k : Nat} (h : Fits base size al max k) {i j : BitVec 64}
    (hi : i.toNat < max.toNat) (hj : j.toNat < max.toNat) :
    2 ^ k ∣ (dataAddr base size al max i).toNat ∧
    (i.toNat < j.toNat → (dataAddr base size al max i).toNat + size.toNat ≤ (blockAddr base size al max j).toNat) ∧
    base.toNat + 48 + 8 * max.toNat ≤ (blockAddr base size al max i).toNat := by
  obtain ⟨_, d1⟩ := h.addr i hi
  obtain ⟨a2, _⟩ := h.addr j hj
  obtain ⟨a1, _⟩ := h.addr i hi
  have f := h.first
  have b := h.block
  refine ⟨?_, fun hlt => ?_, ?_⟩
  · rw [d1, Nat.add_right_comm]
    exact Nat.dvd_add f.2.2 (Nat.dvd_mul_right_of_dvd b.2.2 _)
  · have : (blockSize size al).toNat * (i.toNat + 1) ≤ (blockSize size al).toNat * j.toNat := Nat.mul_le_mul_left _ hlt
    rw [Nat.mul_add, Nat.mul_one] at this
    omega
  · omega

/-- **C36**: the blocks lie inside the memory the pool asked for exactly when the bytes skipped to align the
first block are no more than the bytes added to align the size. -/
theorem C36_inside_iff {base size al max : BitVec 64} {k : Nat} (h : Fits base size al max k) (hm : 0 < max.toNat) :
    (∀ i : BitVec 64, i.toNat < max.toNat →
      (dataAddr base size al max i).toNat + size.toNat ≤ base.toNat + (request size al max).toNat) ↔
    (firstBlock base al max).toNat - (base.toNat + 48 + 8 * max.toNat) ≤ (blockSize size al).toNat - (size.toNat + 32) := by
  have f := h.first
  have b := h.block
  have ht := h.top
  rw [Nat.mul_add, Nat.mul_one] at ht
  have m : (blockSize size al).toNat * max.toNat ≤ (size.toNat + 32 + (2 ^ k - 1)) * max.toNat := Nat.mul_le_mul_right _ b.2.1
  have e : (request size al max).toNat = 48 + 8 * max.toNat + (blockSize size al).toNat * max.toNat := by
    unfold request
    rw [BitVec.toNat_add, BitVec.toNat_add, BitVec.toNat_mul, BitVec.toNat_mul, show infoSize.toNat = 48 from rfl, show (8 : BitVec 64).toNat = 8 from rfl]
    omega
  have key : ∀ i, i < max.toNat → (blockSize size al).toNat * i + (blockSize size al).toNat ≤ (blockSize size al).toNat * max.toNat := by
    intro i hi
    have : (blockSize size al).toNat * (i + 1) ≤ (blockSize size al).toNat * max.toNat := Nat.mul_le_mul_left _ hi
    rwa [Nat.mul_add, Nat.mul_one] at this
  constructor
  · intro H
    have hlt : max.toNat - 1 < 2 ^ 64 := by have := max.isLt; omega
    have hl : (BitVec.ofNat 64 (max.toNat - 1)).toNat = max.toNat - 1 := by
      rw [BitVec.toNat_ofNat, Nat.mod_eq_of_lt hlt]
    have := H (BitVec.ofNat 64 (max.toNat - 1)) (by omega)
    rw [(h.addr _ (by omega)).2, hl, e] at this
    have q : (blockSize size al).toNat * (max.toNat - 1 + 1) = (blockSize size al).toNat * max.toNat := by
      rw [Nat.sub_add_cancel hm]
    rw [Nat.mul_add, Nat.mul_one] at q
    omega
  · intro H i hi
    rw [(h.addr i hi).2, e]
    have := key i.toNat hi
    omega

/-- The last block of a pool can reach past the end of the memory the pool asked for.  Here the pool is
for three allocations of 16 bytes with an alignment of 16, at an address that is a multiple of 16: the last
allocation ends 8 bytes beyond the end. -/
theorem C36_inside_refuted :
    (dataAddr 4096 16 16 3 2).toNat + 16 = 4096 + (request 16 16 3).toNat + 8 := by
  decide

/-- With a large enough maximum the number of bytes asked for wraps: the pool for 2^58 + 1 allocations of 32
bytes asks for 2^61 + 120 bytes, less than the 2^64 its blocks need. -/
theorem C36_request_refuted : (request 32 16 (BitVec.ofNat 64 (2 ^ 58 + 1))).toNat = 2 ^ 61 + 120 := by decide

/-! ## The hypotheses can be met -/

example : ∃ P, Reach 48 2 P { live := [0], owners := 1 } ∧ Client.Valid { live := [0], owners := 1 } (.free 0) ∧ dead P = false := by
  refine ⟨_, Reach.call (op := .alloc 16) (r := .block 0) (P' := ?_) Reach.create ?_ (by rfl), ?_, ?_⟩
  · exact ⟨by decide, by decide⟩
  · show 0 ∈ [0]
    simp
  · rfl

example : Fits 4096 16 16 4 4 ∧ (firstBlock 4096 16 4).toNat - (4096 + 48 + 8 * 4) ≤ (blockSize 16 16).toNat - (16 + 32) :=
  ⟨⟨by decide, by decide, by decide⟩, by decide⟩

#print axioms C36_partial
#print axioms C36_live
#print axioms C36_reuse
#print axioms C36_lifetime
#print axioms C36_index
#print axioms C36_blocks
#print axioms C36_inside_iff
#print axioms C36_inside_refuted

end Verif.PoolAlloc
