import Verif.ZoneEnumLemmas
import Verif.ZoneProps
/-!
# C59: enumerating the items of a memory zone
-/
namespace Verif.ZoneEnum

open Verif.Zone (Block)
open Verif.Enumerable (Call dec)

theorem locate_eq (bs : List Block) (j m k : Nat) (b : Block) (hb : bs[m]? = some b) (hk : k < b.offset) :
    locate j bs (((bs.take m).map Block.offset).sum + k) = some (j + m, k, b.offset - k) := by
  induction bs generalizing j m with
  | nil => simp at hb
  | cons c bs ih =>
    cases m with
    | zero =>
      simp only [List.getElem?_cons_zero, Option.some.injEq] at hb
      subst hb
      simp [locate, hk]
    | succ m =>
      simp only [List.getElem?_cons_succ] at hb
      simp only [List.take_succ_cons, List.map_cons, List.sum_cons, locate]
      rw [if_neg (by omega), show c.offset + ((bs.take m).map Block.offset).sum + k - c.offset = ((bs.take m).map Block.offset).sum + k by omega,
        ih (j + 1) m hb, show j + 1 + m = j + (m + 1) by omega]

/-- **C59.**  Take any chain of blocks, the block `i₀` and a number of bytes `offset` that leads from there to offset `k`
of block `i`.  If that is a multiple of the stride, an item fits there and every later block holds an item, and if the
start is the beginning of a block or not in the last block or no more items than the block has are asked for, then every
call (current, head, tail, next, previous, in any order, with allocations between them that the enumerable copes with) answers as
a cursor in the list of the items that the zone has at that time, limited to the requested number.

Missing from the full property: the other starts and the other growths, which are refuted below. -/
theorem C59_enumerate_partial (bs : List Block) (i₀ i k offset stride limit : Nat) (b : Block) (evs : List Ev)
    (hi : i₀ ≤ i) (hoff : offset = (((bs.drop i₀).take (i - i₀)).map Block.offset).sum + k)
    (hs : 0 < stride) (hL : limit < 2 ^ 64) (hb : bs[i]? = some b) (hk : k + stride ≤ b.offset) (hd : stride ∣ k)
    (hrest : ∀ j c, i < j → bs[j]? = some c → stride ≤ c.offset)
    (hstart : k = 0 ∨ i + 1 < bs.length ∨ limit ≤ (b.offset - k) / stride)
    (hc : Spec.Careful i k stride limit bs 0 true evs) :
    run bs (getEnumerable bs i₀ offset stride limit) evs = some (Spec.run i k stride limit bs 0 evs) := by
  have hloc : locate i₀ (bs.drop i₀) offset = some (i, k, b.offset - k) := by
    rw [hoff, locate_eq (bs.drop i₀) i₀ (i - i₀) k b (by rw [List.getElem?_drop, show i₀ + (i - i₀) = i by omega]; exact hb) (by omega),
      show i₀ + (i - i₀) = i by omega]
  rw [getEnumerable, hloc]
  have hcnt : cnt bs i k stride 0 = (b.offset - k) / stride := by
    rw [cnt, Nat.add_zero, hb]
    rfl
  rcases Nat.eq_zero_or_pos limit with rfl | hlp
  · exact run_none evs (by simp) rfl rfl
  · have hlt : i < bs.length := by
      rcases Nat.lt_or_ge i bs.length with h | h
      · exact h
      · rw [List.getElem?_eq_none h] at hb; simp at hb
    have hpos : 0 < (b.offset - k) / stride := Nat.div_pos (by omega) hs
    refine run_spec evs (fresh := true) (d := 0) ⟨hs, hL, hd, ⟨b, hb, hk⟩, ?_, ?_⟩ ?_ hc
    · intro d c hd hc
      exact hrest _ c (by omega) hc
    · rw [hcnt]; exact hstart
    · refine ⟨rfl, hlt, rfl, rfl, rfl, rfl, ?_, rfl, ?_, ?_, ?_⟩ <;> dsimp only [pre] <;> (try rw [hcnt]) <;> omega

example : run [⟨0, 0, 8⟩, ⟨1, 100, 12⟩] (getEnumerable [⟨0, 0, 8⟩, ⟨1, 100, 12⟩] 0 4 4 100)
    [.call .next, .call .tail, .grow 4, .call .next, .add ⟨2, 200, 4⟩, .call .previous] =
    some [some (1, 0), some (1, 8), some (1, 12), some (1, 8)] := by decide

example : Spec.Careful 0 4 4 100 [⟨0, 0, 8⟩, ⟨1, 100, 12⟩] 0 true
    [.call .next, .call .tail, .grow 4, .call .tail, .add ⟨2, 200, 4⟩, .call .previous] := by
  simp only [Spec.Careful]; decide

/-- Without allocations meanwhile there is nothing to be careful about. -/
theorem careful_calls (i k stride limit : Nat) (bs : List Block) (pos : Nat) (f : Bool) (cs : List Call) :
    Spec.Careful i k stride limit bs pos f (cs.map .call) := by
  induction cs generalizing pos f with
  | nil => trivial
  | cons c cs ih => exact ih _ _

theorem spec_calls (i k stride limit : Nat) (bs : List Block) (pos : Nat) (cs : List Call) :
    Spec.run i k stride limit bs pos (cs.map .call) = Enumerable.Spec.run (Spec.items bs i k stride limit) pos cs := by
  induction cs generalizing pos with
  | nil => rfl
  | cons c cs ih =>
    simp only [List.map_cons, Spec.run, Enumerable.Spec.run, ih]

/-- **C59.**  The same for a zone nothing is allocated in meanwhile: the calls answer as a cursor in the list of the items. -/
theorem C59_static_partial (bs : List Block) (i₀ i k offset stride limit : Nat) (b : Block) (cs : List Call)
    (hi : i₀ ≤ i) (hoff : offset = (((bs.drop i₀).take (i - i₀)).map Block.offset).sum + k)
    (hs : 0 < stride) (hL : limit < 2 ^ 64) (hb : bs[i]? = some b) (hk : k + stride ≤ b.offset) (hd : stride ∣ k)
    (hrest : ∀ j c, i < j → bs[j]? = some c → stride ≤ c.offset)
    (hstart : k = 0 ∨ i + 1 < bs.length ∨ limit ≤ (b.offset - k) / stride) :
    run bs (getEnumerable bs i₀ offset stride limit) (cs.map .call) =
      some (Enumerable.Spec.run (Spec.items bs i k stride limit) 0 cs) := by
  rw [C59_enumerate_partial bs i₀ i k offset stride limit b _ hi hoff hs hL hb hk hd hrest hstart (careful_calls ..), spec_calls]

example : Enumerable.Spec.run (Spec.items [⟨0, 0, 8⟩, ⟨1, 100, 13⟩] 0 4 4 3) 0 [.current, .next, .next, .next, .previous, .head] =
    [some (0, 4), some (1, 0), some (1, 4), none, some (1, 0), some (0, 4)] := by decide

/-- **C59.**  The items are in allocated memory. -/
theorem C59_items_allocated (bs : List Block) (i k stride limit : Nat) (a : Addr) (h : a ∈ Spec.items bs i k stride limit) :
    ∃ b, bs[a.1]? = some b ∧ a.2 + stride ≤ b.offset := by
  have h := List.mem_of_mem_take h
  suffices H : ∀ (cs : List Block) (j k : Nat), a ∈ Spec.itemsFrom stride j cs k →
      j ≤ a.1 ∧ ∃ b, cs[a.1 - j]? = some b ∧ a.2 + stride ≤ b.offset by
    obtain ⟨hj, b, hb, hl⟩ := H _ _ _ h
    exact ⟨b, by rw [List.getElem?_drop, show i + (a.1 - i) = a.1 by omega] at hb; exact hb, hl⟩
  intro cs
  induction cs with
  | nil => intro j k h; simp [Spec.itemsFrom] at h
  | cons c cs ih =>
    intro j k h
    rw [Spec.itemsFrom, List.mem_append] at h
    rcases h with h | h
    · obtain ⟨n, hn, rfl⟩ := List.mem_map.1 h
      rw [List.mem_range] at hn
      refine ⟨Nat.le_refl _, c, by simp, ?_⟩
      have h1 : (n + 1) * stride ≤ c.offset - k := (Nat.le_div_iff_mul_le (by
        rcases Nat.eq_zero_or_pos stride with rfl | h
        · simp at hn
        · exact h)).1 hn
      rw [Nat.succ_mul] at h1
      have h2 : 0 < stride := by
        rcases Nat.eq_zero_or_pos stride with rfl | h
        · simp at hn
        · exact h
      dsimp only
      omega
    · obtain ⟨hj, b, hb, hl⟩ := ih _ _ h
      refine ⟨by omega, b, ?_, hl⟩
      rw [show a.1 - j = (a.1 - (j + 1)) + 1 by omega]
      simpa using hb

example : (1, 4) ∈ Spec.items [⟨0, 0, 8⟩, ⟨1, 100, 13⟩] 0 4 4 3 := by decide

/-- The events are what allocating does to the chain of a zone. -/
theorem C59_alloc_events (Z Z' : Zone.Zone) (size : Nat) (env : Option Nat) (r : Option (Nat × Nat))
    (h : Zone.alloc Z size env = some (Z', r)) :
    Z'.blocks.reverse = Z.blocks.reverse ∨ Z'.blocks.reverse = chain Z.blocks.reverse (.grow size) ∨
      ∃ c : Block, c.offset = size ∧ Z'.blocks.reverse = chain Z.blocks.reverse (.add c) := by
  have hg : ∀ (l : List Block) (b : Block), growLast size (l ++ [b]) = l ++ [{ b with offset := b.offset + size }] := by
    intro l b
    induction l with
    | nil => rfl
    | cons x l ih =>
      cases l with
      | nil => rfl
      | cons y l =>
        simp only [List.cons_append, growLast] at ih ⊢
        rw [ih]
  unfold Zone.alloc at h
  split at h
  · simp at h
  · split at h
    · simp at h
    · rename_i b bs hbs
      split at h
      · split at h
        · simp only [Option.some.injEq, Prod.mk.injEq] at h
          left; rw [← h.1]
        · simp only [Option.some.injEq, Prod.mk.injEq] at h
          right; right
          rw [← h.1]
          rename_i base
          refine ⟨⟨Z.next, base, size⟩, rfl, ?_⟩
          simp [chain, hbs]
      · simp only [Option.some.injEq, Prod.mk.injEq] at h
        right; left
        rw [← h.1]
        simp only [chain, hbs, List.reverse_cons, hg]

example : ∃ Z' r, Zone.alloc (Zone.create 64 0) 8 none = some (Z', r) := ⟨_, _, rfl⟩

/-! ## What fails -/

/-- **C59 refuted.**  An enumerable that starts inside the last block and is asked for more items than there are hands out an
address behind the allocated memory instead of ending. -/
theorem C59_past_end_refuted :
    run [⟨0, 0, 8⟩] (getEnumerable [⟨0, 0, 8⟩] 0 4 4 100) [.call .next] = some [some (0, 8)] ∧
      Spec.run 0 4 4 100 [⟨0, 0, 8⟩] 0 [.call .next] = [none] := by decide

/-- **C59 refuted.**  After the zone has grown more items are enumerated than were asked for: four instead of two. -/
theorem C59_limit_refuted :
    run [⟨0, 0, 4⟩] (getEnumerable [⟨0, 0, 4⟩] 0 0 4 2) [.grow 12, .call .next, .call .next, .call .next] =
      some [some (0, 4), some (0, 8), some (0, 12)] ∧
      Spec.run 0 0 4 2 [⟨0, 0, 4⟩] 0 [.grow 12, .call .next, .call .next, .call .next] = [some (0, 4), none, none] := by decide

/-- **C59 refuted.**  Items are skipped when the last block is extended and then another one is added. -/
theorem C59_skip_refuted :
    run [⟨0, 0, 4⟩] (getEnumerable [⟨0, 0, 4⟩] 0 0 4 100) [.grow 4, .add ⟨1, 100, 4⟩, .call .next] = some [some (1, 0)] ∧
      Spec.run 0 0 4 100 [⟨0, 0, 4⟩] 0 [.grow 4, .add ⟨1, 100, 4⟩, .call .next] = [some (0, 4)] := by decide

/-- **C59 refuted.**  An enumerable of a zone that has nothing yet never finds what is allocated later. -/
theorem C59_stuck_refuted :
    run [⟨0, 0, 0⟩] (getEnumerable [⟨0, 0, 0⟩] 0 0 4 100) [.grow 8, .call .next, .call .head, .call .current] =
      some [none, none, none] ∧
      Spec.items (growLast 8 [⟨0, 0, 0⟩]) 0 0 4 100 = [(0, 0), (0, 4)] := by decide

/-- **C59 refuted.**  Asking such an enumerable for its tail follows a NULL pointer. -/
theorem C59_tail_undefined : run [⟨0, 0, 0⟩] (getEnumerable [⟨0, 0, 0⟩] 0 0 4 100) [.call .tail] = none := by decide

/-- **C59 refuted.**  A block emptied by a deallocation that ended exactly at its beginning stops the enumerable for
good: stepping into it loses the position, and not even the previous item is found again. -/
theorem C59_empty_block_refuted :
    run [⟨0, 0, 8⟩, ⟨1, 100, 0⟩] (getEnumerable [⟨0, 0, 8⟩, ⟨1, 100, 0⟩] 0 0 4 100) [.call .tail, .call .current, .call .previous] =
      some [none, none, none] ∧
      Spec.run 0 0 4 100 [⟨0, 0, 8⟩, ⟨1, 100, 0⟩] 0 [.call .tail, .call .current, .call .previous] =
        [some (0, 4), some (0, 4), some (0, 0)] := by decide

/-- Such a zone is reachable. -/
example : ((Zone.alloc (Zone.create 16 0) 8 none).bind fun r => (Zone.alloc r.1 16 (some 100)).map fun r => (Zone.dealloc r.1 16).blocks.reverse) =
    some [⟨0, 0, 8⟩, ⟨1, 100, 0⟩] := by decide

/-- **C59 refuted.**  From a start that is not a multiple of the stride the way back leads to other addresses than the way
there. -/
theorem C59_unaligned_refuted :
    run [⟨0, 0, 9⟩, ⟨1, 100, 4⟩] (getEnumerable [⟨0, 0, 9⟩, ⟨1, 100, 4⟩] 0 1 4 100)
      [.call .current, .call .next, .call .next, .call .previous] = some [some (0, 1), some (0, 5), some (1, 0), some (0, 4)] := by decide

#print axioms C59_enumerate_partial
#print axioms C59_static_partial
#print axioms C59_items_allocated
#print axioms C59_alloc_events

end Verif.ZoneEnum
