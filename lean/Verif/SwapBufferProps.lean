import Verif.SwapBuffer
/-!
# C15: the concurrent swap buffer
-/
namespace Verif.SwapBuffer

/-- The three roles of the three buffers. -/
inductive Roles : BitVec 64 → BitVec 64 → BitVec 64 → Prop
  | r012 : Roles 0 1 2
  | r021 : Roles 0 2 1
  | r102 : Roles 1 0 2
  | r120 : Roles 1 2 0
  | r201 : Roles 2 0 1
  | r210 : Roles 2 1 0

/-- What holds in every reachable state. -/
structure Inv (y : Sys) : Prop where
  roles : Roles y.write y.read (y.index &&& ~~~flag)
  word : y.index = (y.index &&& ~~~flag) ∨ y.index = (y.index &&& ~~~flag) ||| flag
  len : y.bufs.length = 3
  rd : (y.buf y.read).isSome
  sp : (y.buf (y.index &&& ~~~flag)).isSome
  wr : y.w ≠ .filling → (y.buf y.write).isSome
  new : y.index &&& flag ≠ 0 → y.buf (y.index &&& ~~~flag) = y.latest
  old : y.index &&& flag = 0 → y.buf y.read = y.latest
  rpc : y.r = .loaded → y.index &&& flag ≠ 0
  wpc : ∀ n, y.w = .loaded n → n &&& flag = 0 → y.index = n
  log : ∀ p ∈ y.reads, p.1.isSome ∧ p.1 = p.2
  held : ∀ p, y.reads.getLast? = some p → y.buf y.read = p.1

theorem Roles.swapWS {w r s : BitVec 64} (h : Roles w r s) : Roles s r w := by cases h <;> constructor
theorem Roles.swapRS {w r s : BitVec 64} (h : Roles w r s) : Roles w s r := by cases h <;> constructor
theorem Roles.ne {w r s : BitVec 64} (h : Roles w r s) : w.toNat ≠ r.toNat ∧ w.toNat ≠ s.toNat ∧ r.toNat ≠ s.toNat ∧ w.toNat < 3 ∧ r.toNat < 3 ∧ s.toNat < 3 := by
  cases h <;> decide
theorem Roles.bits {w r s : BitVec 64} (h : Roles w r s) : w &&& flag = 0 ∧ w &&& ~~~flag = w ∧ (w ||| flag) &&& flag ≠ 0 ∧ (w ||| flag) &&& ~~~flag = w ∧ (w ||| flag) ^^^ flag = w := by
  cases h <;> decide
theorem Roles.bitsR {w r s : BitVec 64} (h : Roles w r s) : r &&& flag = 0 ∧ r &&& ~~~flag = r := by
  cases h <;> decide
theorem Roles.bitsS {w r s : BitVec 64} (h : Roles w r s) : s &&& flag = 0 ∧ s &&& ~~~flag = s ∧ (s ||| flag) &&& flag ≠ 0 ∧ (s ||| flag) ^^^ flag = s := by
  cases h <;> decide

theorem latest_snoc (l : List (Option Nat)) (x : Option Nat) : ((l ++ [x]).getLast?).join = x := by simp

theorem join_set_ne {l : List (Option Nat)} {i j : Nat} {o : Option Nat} (h : i ≠ j) : ((l.set i o)[j]?).join = (l[j]?).join := by
  rw [List.getElem?_set_ne h]
theorem join_set_self {l : List (Option Nat)} {i : Nat} {o : Option Nat} (h : i < l.length) : ((l.set i o)[i]?).join = o := by
  rw [List.getElem?_set_self h]; rfl

/-- The flag is set exactly if the word is not just the spare index. -/
theorem Inv.flagged {y : Sys} (I : Inv y) (h : y.index &&& flag ≠ 0) : y.index = (y.index &&& ~~~flag) ||| flag := by
  rcases I.word with e | e
  · have := I.roles.bitsS.1
    rw [← e] at this
    exact absurd this h
  · exact e

theorem inv_init (v : Nat) : Inv (init v) := by
  have e : (init v).index &&& ~~~flag = 0 := by simp only [init]; decide
  have f : (init v).index &&& flag = 0 := by simp only [init]; decide
  refine ⟨by rw [e]; exact .r120, .inl (by rw [e]; rfl), rfl, rfl, by rw [e]; rfl, fun _ => rfl, fun h => absurd f h, fun _ => rfl,
    (fun h => by simp [init] at h), (fun _ h => by simp [init] at h), (fun _ h => by simp [init] at h), (fun _ h => by simp [init] at h)⟩

theorem Inv.step {y y' : Sys} (I : Inv y) (s : Step y y') : Inv y' := by
  obtain ⟨n1, n2, n3, l1, l2, l3⟩ := I.roles.ne
  have hl := I.len
  cases s with
  | fill hw =>
    refine ⟨I.roles, I.word, by simp [hl], ?_, ?_, fun h => absurd rfl h, ?_, ?_, I.rpc, (fun _ h => by simp at h), I.log, ?_⟩
    all_goals simp only [Sys.buf, Sys.latest, join_set_ne n1, join_set_ne n2]
    · exact I.rd
    · exact I.sp
    · exact I.new
    · exact I.old
    · exact I.held
  | filled v hw =>
    refine ⟨I.roles, I.word, by simp [hl], ?_, ?_, fun _ => ?_, ?_, ?_, I.rpc, (fun _ h => by simp at h), I.log, ?_⟩
    all_goals simp only [Sys.buf, Sys.latest, join_set_ne n1, join_set_ne n2]
    · exact I.rd
    · exact I.sp
    · rw [join_set_self (by omega)]; rfl
    · exact I.new
    · exact I.old
    · exact I.held
  | load hw =>
    refine ⟨I.roles, I.word, hl, I.rd, I.sp, fun _ => I.wr (by simp [hw]), I.new, I.old, I.rpc, ?_, I.log, I.held⟩
    intro n h _
    cases h; rfl
  | @swap n hw hn =>
    obtain ⟨-, -, b1, b2, -⟩ := I.roles.bits
    have hr : Roles (y.index &&& ~~~flag) y.read ((y.write ||| flag) &&& ~~~flag) := by rw [b2]; exact I.roles.swapWS
    have hwr := I.wr (by simp [hw])
    refine ⟨hr, .inr (by rw [b2]), hl, I.rd, ?_, fun _ => I.sp, fun _ => ?_, fun h => absurd h b1, fun _ => b1, (fun _ h => by simp at h), I.log, I.held⟩
    · dsimp only; rw [b2]; exact hwr
    · dsimp only [Sys.buf, Sys.latest]; rw [b2, latest_snoc]
  | @store n hw hn =>
    have hidx := I.wpc n hw hn
    obtain ⟨-, -, b1, b2, -⟩ := I.roles.bits
    have hr : Roles (n &&& ~~~flag) y.read ((y.write ||| flag) &&& ~~~flag) := by rw [b2, ← hidx]; exact I.roles.swapWS
    have hwr := I.wr (by simp [hw])
    refine ⟨hr, .inr (by rw [b2]), hl, I.rd, ?_, fun _ => ?_, fun _ => ?_, fun h => absurd h b1, fun _ => b1, (fun _ h => by simp at h), I.log, I.held⟩
    · dsimp only; rw [b2]; exact hwr
    · dsimp only; rw [← hidx]; exact I.sp
    · dsimp only [Sys.buf, Sys.latest]; rw [b2, latest_snoc]
  | readSame hr hf =>
    have ho := I.old hf
    refine ⟨I.roles, I.word, hl, I.rd, I.sp, I.wr, I.new, I.old, I.rpc, I.wpc, ?_, ?_⟩
    · intro p hp
      rcases List.mem_append.1 hp with hp | hp
      · exact I.log p hp
      · obtain rfl := List.mem_singleton.1 hp
        exact ⟨I.rd, ho⟩
    · intro p hp
      simp at hp
      rw [← hp]; rfl
  | readLoad hr hf => exact ⟨I.roles, I.word, hl, I.rd, I.sp, I.wr, I.new, I.old, fun _ => hf, I.wpc, I.log, I.held⟩
  | readSwap hr =>
    have hf := I.rpc hr
    have hidx := I.flagged hf
    obtain ⟨c1, c2, c3, c4⟩ := I.roles.bitsS
    obtain ⟨d1, d2⟩ := I.roles.bitsR
    have e : y.index ^^^ flag = y.index &&& ~~~flag := by
      rw [hidx, c4, ← hidx]
    have hro : Roles y.write (y.index ^^^ flag) (y.read &&& ~~~flag) := by rw [e, d2]; exact I.roles.swapRS
    have hb : y.buf (y.index ^^^ flag) = y.latest := by rw [e]; exact I.new hf
    have hso : (y.buf (y.index ^^^ flag)).isSome := by rw [e]; exact I.sp
    refine ⟨hro, .inl d2.symm, hl, hso, ?_, I.wr, fun h => absurd d1 h, fun _ => hb, (fun h => nomatch h), ?_, ?_, ?_⟩
    · dsimp only; rw [d2]; exact I.rd
    · intro n h hn
      have := I.wpc n h hn
      rw [← this] at hn
      exact absurd hn hf
    · intro p hp
      rcases List.mem_append.1 hp with hp | hp
      · exact I.log p hp
      · obtain rfl := List.mem_singleton.1 hp
        exact ⟨hso, hb⟩
    · intro p hp
      simp at hp
      rw [← hp]; rfl

theorem Reach.inv {v : Nat} {y : Sys} (h : Reach v y) : Inv y := by
  induction h with
  | init => exact inv_init v
  | step _ s ih => exact ih.step s

/-- **C15.** However the writer and the reader interleave:
* the buffer the writer may fill, the buffer the reader may look at, and the spare one (the shared word without its flag) are always three different buffers of the three;
* every read returned a completely written buffer, and its content was what had been applied last at the moment of the read's access to the shared word;
* the buffer of the last read still contains what it contained then, whatever the writer did since. -/
theorem C15_swap_buffer (v : Nat) (y : Sys) (h : Reach v y) :
    (y.write.toNat < 3 ∧ y.read.toNat < 3 ∧ (y.index &&& ~~~flag).toNat < 3 ∧
      y.write ≠ y.read ∧ y.write ≠ (y.index &&& ~~~flag) ∧ y.read ≠ (y.index &&& ~~~flag)) ∧
    (∀ r ∈ y.reads, ∃ x, r = (some x, some x)) ∧
    (∀ r, y.reads.getLast? = some r → y.buf y.read = r.1) := by
  have I := h.inv
  obtain ⟨n1, n2, n3, l1, l2, l3⟩ := I.roles.ne
  refine ⟨⟨l1, l2, l3, ?_, ?_, ?_⟩, ?_, I.held⟩
  · intro e; rw [e] at n1; exact n1 rfl
  · intro e; apply n2; rw [← e]
  · intro e; apply n3; rw [← e]
  · rintro ⟨a, b⟩ hr
    obtain ⟨h1, h2⟩ := I.log _ hr
    simp only at h1 h2
    obtain ⟨x, hx⟩ := Option.isSome_iff_exists.1 h1
    exact ⟨x, by rw [← h2, hx]⟩

/-- Non-vacuity: two writes are applied, the second over the first, while the reader is in the middle of a read. -/
example : ∃ y, Reach 0 y ∧ y.applied = [some 0, some 1, some 2] ∧ y.reads = [(some 0, some 0), (some 2, some 2), (some 2, some 2)] := by
  have h := Reach.init (v := 0)
  have h := h.step (Step.readSame rfl rfl)
  have h := h.step (Step.fill rfl)
  have h := h.step (Step.filled 1 rfl)
  have h := h.step (Step.load rfl)
  have h := h.step (Step.store rfl rfl)
  have h := h.step (Step.readLoad rfl (by decide))
  have h := h.step (Step.fill rfl)
  have h := h.step (Step.filled 2 rfl)
  have h := h.step (Step.load rfl)
  have h := h.step (Step.swap rfl (by decide))
  have h := h.step (Step.readSwap rfl)
  have h := h.step (Step.fill rfl)
  have h := h.step (Step.readSame rfl rfl)
  exact ⟨_, h, rfl, rfl⟩

#print axioms C15_swap_buffer
end Verif.SwapBuffer
