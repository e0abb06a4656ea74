import Verif.ZoneSpec
import Verif.AlignProps
/-!
# C37, C51: memory zones
-/
namespace Verif.Zone

open Verif.Align

/-! ## Bytes -/

theorem regionBytes_length (c : Nat × Nat) (n : Nat) : (regionBytes c n).length = n := by simp [regionBytes]

theorem mem_regionBytes {c : Nat × Nat} {n : Nat} {x : Nat × Nat} : x ∈ regionBytes c n ↔ x.1 = c.1 ∧ c.2 ≤ x.2 ∧ x.2 < c.2 + n := by
  simp only [regionBytes, List.mem_reverse, List.mem_map, List.mem_range]
  constructor
  · rintro ⟨k, hk, rfl⟩
    exact ⟨rfl, by simp, by simp; omega⟩
  · rintro ⟨h1, h2, h3⟩
    exact ⟨x.2 - c.2, by omega, Prod.ext h1.symm (by simp; omega)⟩

theorem regionBytes_add (c : Nat × Nat) (m n : Nat) : regionBytes c (m + n) = regionBytes (c.1, c.2 + m) n ++ regionBytes c m := by
  simp only [regionBytes, ← List.reverse_append]
  rw [List.range_add]
  simp [List.map_append, Nat.add_assoc, Function.comp_def]

theorem regionBytes_drop (c : Nat × Nat) (m n : Nat) (h : n ≤ m) : (regionBytes c m).drop n = regionBytes c (m - n) := by
  obtain ⟨k, rfl⟩ : ∃ k, m = k + n := ⟨m - n, by omega⟩
  rw [regionBytes_add, Nat.add_sub_cancel]
  rw [List.drop_append_of_le_length (by rw [regionBytes_length]; omega)]
  rw [List.drop_eq_nil_of_le (by rw [regionBytes_length]; omega)]
  rfl

theorem regionBytes_nodup (c : Nat × Nat) (n : Nat) : (regionBytes c n).Nodup := by
  unfold regionBytes
  rw [List.Nodup, List.pairwise_reverse, List.pairwise_map]
  refine List.Pairwise.imp ?_ List.nodup_range
  intro a b h e
  simp at e
  exact h e.symm

/-- The bytes of a chain of blocks. -/
def cells (bs : List Block) : List (Nat × Nat) := bs.flatMap fun b => regionBytes (b.id, 0) b.offset

@[simp] theorem cells_cons (b : Block) (bs : List Block) : cells (b :: bs) = regionBytes (b.id, 0) b.offset ++ cells bs := by
  simp [cells]

@[simp] theorem cells_nil : cells [] = [] := rfl

theorem mem_cells {bs : List Block} {x : Nat × Nat} : x ∈ cells bs ↔ ∃ b ∈ bs, b.id = x.1 ∧ x.2 < b.offset := by
  simp only [cells, List.mem_flatMap, mem_regionBytes]
  constructor
  · rintro ⟨b, hb, h1, _, h3⟩
    exact ⟨b, hb, h1.symm, by omega⟩
  · rintro ⟨b, hb, h1, h3⟩
    exact ⟨b, hb, h1.symm, by omega, by omega⟩

theorem cells_nodup {bs : List Block} (h : (bs.map Block.id).Nodup) : (cells bs).Nodup := by
  induction bs with
  | nil => simp
  | cons b bs ih =>
    simp only [List.map_cons, List.nodup_cons] at h
    rw [cells_cons, List.nodup_append]
    refine ⟨regionBytes_nodup _ _, ih h.2, ?_⟩
    rintro x hx y hy rfl
    rw [mem_regionBytes] at hx
    obtain ⟨c, hc, e, _⟩ := mem_cells.1 hy
    exact h.1 (List.mem_map.2 ⟨c, hc, e.trans hx.1⟩)

theorem cells_deallocBlocks (n : Nat) (bs : List Block) : cells (deallocBlocks n bs) = (cells bs).drop n := by
  induction bs generalizing n with
  | nil => simp [deallocBlocks]
  | cons b bs ih =>
    cases bs with
    | nil =>
      unfold deallocBlocks
      split
      · simp only [cells_cons, cells_nil, List.append_nil]
        rw [List.drop_eq_nil_of_le (by rw [regionBytes_length]; omega)]
        rfl
      · simp only [cells_cons, cells_nil, List.append_nil]
        rw [regionBytes_drop _ _ _ (by omega)]
    | cons c bs =>
      unfold deallocBlocks
      split
      · have z : (regionBytes (b.id, 0) b.offset).drop n = [] := List.drop_eq_nil_of_le (by rw [regionBytes_length]; omega)
        rw [ih, cells_cons b, List.drop_append, regionBytes_length, z]
        rfl
      · rw [cells_cons, cells_cons b, List.drop_append_of_le_length (by rw [regionBytes_length]; omega), regionBytes_drop _ _ _ (by omega)]

theorem deallocBlocks_ids (n : Nat) (bs : List Block) : ((deallocBlocks n bs).map Block.id).Sublist (bs.map Block.id) := by
  induction bs generalizing n with
  | nil => simp [deallocBlocks]
  | cons b bs ih =>
    cases bs with
    | nil => unfold deallocBlocks; split <;> simp
    | cons c bs =>
      unfold deallocBlocks
      split
      · exact (ih _).cons _
      · simp

theorem deallocBlocks_ne (n : Nat) (bs : List Block) (h : bs ≠ []) : deallocBlocks n bs ≠ [] := by
  induction bs generalizing n with
  | nil => exact absurd rfl h
  | cons b bs ih =>
    cases bs with
    | nil => unfold deallocBlocks; split <;> simp
    | cons c bs =>
      unfold deallocBlocks
      split
      · exact ih _ (by simp)
      · simp

theorem deallocBlocks_mem (n : Nat) (bs : List Block) {b : Block} (h : b ∈ deallocBlocks n bs) :
    ∃ c ∈ bs, c.id = b.id ∧ c.base = b.base ∧ b.offset ≤ c.offset := by
  induction bs generalizing n with
  | nil => simp [deallocBlocks] at h
  | cons d bs ih =>
    cases bs with
    | nil =>
      unfold deallocBlocks at h
      split at h
      · simp at h; subst h; exact ⟨d, by simp, rfl, rfl, by simp⟩
      · simp at h; subst h; exact ⟨d, by simp, rfl, rfl, by simp⟩
    | cons c bs =>
      unfold deallocBlocks at h
      split at h
      · obtain ⟨e, he, r⟩ := ih _ h
        exact ⟨e, List.mem_cons_of_mem _ he, r⟩
      · rw [List.mem_cons] at h
        rcases h with h | h
        · subst h; exact ⟨d, by simp, rfl, rfl, by simp⟩
        · exact ⟨b, List.mem_cons_of_mem _ h, rfl, rfl, Nat.le_refl _⟩

/-! ## Frames -/

theorem Frames.pop_flatten (n : Nat) (F : Frames) : (F.pop n).flatten = F.flatten.drop n := by
  induction F generalizing n with
  | nil => simp [Frames.pop]
  | cons f F ih =>
    cases F with
    | nil => simp [Frames.pop]
    | cons g F =>
      unfold Frames.pop
      split
      · rw [List.flatten_cons, List.flatten_cons (l := f), List.drop_append_of_le_length (by assumption)]
      · have z : f.drop n = [] := List.drop_eq_nil_of_le (by omega)
        rw [ih, List.flatten_cons (l := f), List.drop_append, z]
        rfl

theorem Frames.pop_ne (n : Nat) (F : Frames) (h : F ≠ []) : F.pop n ≠ [] := by
  induction F generalizing n with
  | nil => exact absurd rfl h
  | cons f F ih =>
    cases F with
    | nil => simp [Frames.pop]
    | cons g F =>
      unfold Frames.pop
      split
      · simp
      · exact ih _ (by simp)

theorem pop_states (n : Nat) (F : Frames) (h : F ≠ []) :
    deallocStates n (F.dropLast.map List.length) = (F.pop n).dropLast.map List.length := by
  induction F generalizing n with
  | nil => exact absurd rfl h
  | cons f F ih =>
    cases F with
    | nil => simp [Frames.pop, deallocStates]
    | cons g F =>
      unfold Frames.pop
      simp only [List.dropLast_cons_cons, List.map_cons, deallocStates]
      split
      · rw [if_neg (by omega), ih _ (by simp)]
      · rw [if_pos (by omega)]
        simp

theorem pop_tail (n : Nat) (F : Frames) (h : ∀ g ∈ F.tail, 16 ≤ g.length) : ∀ g ∈ (F.pop n).tail, 16 ≤ g.length := by
  induction F generalizing n with
  | nil => simp [Frames.pop]
  | cons f F ih =>
    cases F with
    | nil => simp [Frames.pop]
    | cons g F =>
      unfold Frames.pop
      split
      · exact h
      · exact ih _ fun x hx => h x (by simp at hx ⊢; exact .inr hx)

theorem restore_eq_pop (F : Frames) (f g : List (Nat × Nat)) (hF : F = F) (h : 16 ≤ g.length) (G : Frames) :
    Frames.restore (f :: g :: G) = Frames.pop (f.length + 16) (f :: g :: G) := by
  unfold Frames.restore Frames.pop
  rw [if_neg (by omega), Nat.add_sub_cancel_left]
  cases G with
  | nil => simp [Frames.pop]
  | cons x G => unfold Frames.pop; rw [if_pos h]

/-! ## The books and the zone agree -/

structure Inv (Z : Zone) (F : Frames) : Prop where
  size : 16 ≤ Z.blockSize
  bytes : cells Z.blocks = F.flatten
  states : Z.states = F.dropLast.map List.length
  ne : F ≠ []
  bne : Z.blocks ≠ []
  recs : ∀ g ∈ F.tail, 16 ≤ g.length
  off : ∀ b ∈ Z.blocks, b.offset ≤ Z.blockSize
  ids : (Z.blocks.map Block.id).Nodup
  fresh : ∀ b ∈ Z.blocks, b.id < Z.next

theorem inv_create (bs base : Nat) : Inv (create bs base) [[]] := by
  constructor <;> simp [create, stateSize, regionBytes]
  · show 16 ≤ if bs < 16 then 16 else bs
    by_cases c : bs < 16
    · rw [if_pos c]; omega
    · rw [if_neg c]; omega

theorem push_flatten (l : List (Nat × Nat)) (F : Frames) (h : F ≠ []) : (F.push l).flatten = l ++ F.flatten := by
  cases F with
  | nil => exact absurd rfl h
  | cons f F => simp [Frames.push]

theorem push_states (l : List (Nat × Nat)) (F : Frames) (n : Nat) (hl : l.length = n) :
    grow n (F.dropLast.map List.length) = (F.push l).dropLast.map List.length := by
  cases F with
  | nil => simp [Frames.push, grow]
  | cons f F =>
    cases F with
    | nil => simp [Frames.push, grow]
    | cons g F => simp [Frames.push, grow, hl]; omega

theorem push_tail (l : List (Nat × Nat)) (F : Frames) : (F.push l).tail = F.tail := by
  cases F <;> simp [Frames.push]

/-- What an allocation does. -/
theorem alloc_inv {Z Z' : Zone} {F : Frames} (I : Inv Z F) {n : Nat} {env : Option Nat} {r : Option (Nat × Nat)} (h : alloc Z n env = some (Z', r)) :
    (r = none ∧ Z' = Z ∧ env = none ∧ 0 < n ∧ n ≤ Z.blockSize) ∨
    (∃ c b bs, r = some c ∧ Inv Z' (F.push (regionBytes c n)) ∧ 0 < n ∧ Z'.blockSize = Z.blockSize ∧ Z'.blocks = b :: bs ∧ b.id = c.1 ∧
      b.offset = c.2 + n ∧ b.offset ≤ Z.blockSize ∧
      ((∃ a, Z.blocks = a :: bs ∧ a.offset + n ≤ Z.blockSize ∧ b = { a with offset := a.offset + n }) ∨
       (c.2 = 0 ∧ bs = Z.blocks ∧ env = some b.base ∧ c.1 = Z.next ∧ ∃ a as, Z.blocks = a :: as ∧ Z.blockSize < a.offset + n))) := by
  unfold alloc at h
  by_cases c0 : n = 0 ∨ Z.blockSize < n
  · rw [if_pos c0] at h; cases h
  · rw [if_neg c0] at h
    obtain ⟨b, bs, hb⟩ : ∃ b bs, Z.blocks = b :: bs := by
      cases e : Z.blocks with
      | nil => exact absurd e I.bne
      | cons b bs => exact ⟨b, bs, rfl⟩
    rw [hb] at h
    dsimp only at h
    have hids := I.ids
    have hoff := I.off
    have hfr := I.fresh
    have hby := I.bytes
    rw [hb] at hids hoff hfr hby
    by_cases c1 : Z.blockSize < b.offset + n
    · rw [if_pos c1] at h
      cases env with
      | none => left; cases h; exact ⟨rfl, rfl, rfl, by omega, by omega⟩
      | some base =>
        right
        cases h
        refine ⟨(Z.next, 0), ⟨Z.next, base, n⟩, b :: bs, rfl, ?_, by omega, rfl, rfl, rfl, by simp, ?_, .inr ⟨rfl, hb.symm, rfl, rfl, b, bs, hb, c1⟩⟩
        · constructor
          · exact I.size
          · rw [push_flatten _ _ I.ne, ← hby]
            exact cells_cons _ _
          · show grow n Z.states = _
            rw [I.states, push_states _ _ n (regionBytes_length _ _)]
          · cases F <;> simp [Frames.push]
          · simp
          · rw [push_tail]; exact I.recs
          · intro x hx
            dsimp only at hx ⊢
            rw [List.mem_cons] at hx
            rcases hx with rfl | hx
            · show n ≤ Z.blockSize; omega
            · exact hoff x hx
          · dsimp only
            rw [List.map_cons, List.nodup_cons]
            refine ⟨fun hm => ?_, hids⟩
            obtain ⟨x, hx, e⟩ := List.mem_map.1 hm
            have := hfr x hx
            dsimp only at e
            omega
          · intro x hx
            dsimp only at hx ⊢
            rw [List.mem_cons] at hx
            rcases hx with rfl | hx
            · simp
            · have := hfr x hx; omega
        · show n ≤ Z.blockSize; omega
    · rw [if_neg c1] at h
      right
      cases h
      refine ⟨(b.id, b.offset), { b with offset := b.offset + n }, bs, rfl, ?_, by omega, rfl, rfl, rfl, rfl, by show b.offset + n ≤ _; omega, .inl ⟨b, hb, by omega, rfl⟩⟩
      constructor
      · exact I.size
      · rw [push_flatten _ _ I.ne, ← hby]
        show cells ({ b with offset := b.offset + n } :: bs) = _
        rw [cells_cons, cells_cons]
        dsimp only
        rw [regionBytes_add]
        simp
      · show grow n Z.states = _
        rw [I.states, push_states _ _ n (regionBytes_length _ _)]
      · cases F <;> simp [Frames.push]
      · simp
      · rw [push_tail]; exact I.recs
      · intro x hx
        dsimp only at hx ⊢
        rw [List.mem_cons] at hx
        rcases hx with rfl | hx
        · show b.offset + n ≤ Z.blockSize; omega
        · exact hoff x (List.mem_cons_of_mem _ hx)
      · exact hids
      · intro x hx
        dsimp only at hx ⊢
        rw [List.mem_cons] at hx
        rcases hx with rfl | hx
        · exact hfr b (by simp)
        · exact hfr x (List.mem_cons_of_mem _ hx)

theorem dealloc_inv {Z : Zone} {F : Frames} (I : Inv Z F) (n : Nat) : Inv (dealloc Z n) (F.pop n) := by
  constructor
  · exact I.size
  · show cells (deallocBlocks n Z.blocks) = _
    rw [cells_deallocBlocks, Frames.pop_flatten, I.bytes]
  · show deallocStates n Z.states = _
    rw [I.states, pop_states _ _ I.ne]
  · exact Frames.pop_ne _ _ I.ne
  · exact deallocBlocks_ne _ _ I.bne
  · exact pop_tail _ _ I.recs
  · intro b hb
    obtain ⟨c, hc, _, _, h⟩ := deallocBlocks_mem n Z.blocks hb
    exact Nat.le_trans h (I.off c hc)
  · exact (deallocBlocks_ids n Z.blocks).nodup I.ids
  · intro b hb
    obtain ⟨c, hc, h, _⟩ := deallocBlocks_mem n Z.blocks hb
    rw [← h]
    exact I.fresh c hc

theorem restore_inv {Z : Zone} {F : Frames} (I : Inv Z F) : Inv (restore Z) F.restore := by
  have hs := I.states
  match F, I with
  | [], I => exact absurd rfl I.ne
  | [f], I =>
    simp at hs
    unfold restore
    rw [hs]
    exact I
  | f :: g :: F, I =>
    simp only [List.dropLast_cons_cons, List.map_cons] at hs
    unfold restore
    rw [hs]
    dsimp only
    rw [restore_eq_pop [] f g rfl (I.recs g (by simp))]
    exact dealloc_inv I _

theorem save_inv {Z Z' : Zone} {F : Frames} (I : Inv Z F) {env : Option Nat} {c : Nat × Nat} (h : save Z env = some (Z', c)) :
    Inv Z' ([] :: F.push (regionBytes c 16)) := by
  unfold save at h
  match e : alloc Z stateSize env with
  | none => rw [e] at h; cases h
  | some (Z1, none) => rw [e] at h; cases h
  | some (Z1, some c1) =>
    rw [e] at h
    cases h
    rcases alloc_inv I e with ⟨h, _⟩ | ⟨c, b, bs, h, J, _⟩
    · cases h
    · cases h
      refine ⟨J.size, ?_, ?_, by simp, J.bne, ?_, J.off, J.ids, J.fresh⟩
      · show cells Z1.blocks = _
        rw [J.bytes]
        simp [stateSize]
      · show 0 :: Z1.states = _
        rw [J.states]
        have hne : F.push (regionBytes c stateSize) ≠ [] := J.ne
        show _ = (([] : List (Nat × Nat)) :: F.push (regionBytes c stateSize)).dropLast.map List.length
        rw [List.dropLast_cons_of_ne_nil hne]
        rfl
      · intro g hg
        simp only [List.tail_cons] at hg
        cases hF : F with
        | nil => exact absurd hF I.ne
        | cons f F' =>
          rw [hF] at hg
          simp only [Frames.push, List.mem_cons] at hg
          rcases hg with rfl | hg
          · rw [List.length_append, regionBytes_length]; omega
          · exact I.recs g (by rw [hF]; exact hg)

theorem find_id {bs : List Block} {b : Block} : (b :: bs).find? (fun x => x.id == b.id) = some b := by simp

theorem allocAligned_eq {Z Z' : Zone} {F : Frames} (I : Inv Z F) {n a : Nat} {env : Option Nat} {r : Option ((Nat × Nat) × Nat)}
    (h : allocAligned Z n a env = some (Z', r)) :
    0 < n ∧ n + a < 2 ^ 64 ∧ ((r = none ∧ alloc Z (n + padding Z n a) env = some (Z', none)) ∨
     ∃ c b bs, r = some (c, alignUp (b.base + c.2) a) ∧ alloc Z (n + padding Z n a) env = some (Z', some c) ∧ Z'.blocks = b :: bs ∧ b.id = c.1) := by
  unfold allocAligned at h
  by_cases c0 : n = 0 ∨ ¬ n + a < 2 ^ 64
  · rw [if_pos c0] at h; cases h
  · rw [if_neg c0] at h
    have h2 : n + a < 2 ^ 64 := by
      apply Decidable.byContradiction; intro h; exact c0 (.inr h)
    refine ⟨by omega, h2, ?_⟩
    match e : alloc Z (n + padding Z n a) env with
    | none => rw [e] at h; cases h
    | some (Z1, none) => rw [e] at h; cases h; exact .inl ⟨rfl, rfl⟩
    | some (Z1, some c) =>
      rw [e] at h
      dsimp only at h
      rcases alloc_inv I e with ⟨h', _⟩ | ⟨c', b, bs, h', J, _, _, hb, hid, _⟩
      · cases h'
      · cases h'
        have ha : addr Z1 c = some (b.base + c.2) := by
          unfold addr
          rw [hb, ← hid, find_id]
          rfl
        rw [ha] at h
        cases h
        exact .inr ⟨c, b, bs, rfl, rfl, hb, hid⟩

theorem step_inv {Z Z' : Zone} {F : Frames} (I : Inv Z F) {op : Op} {r : Res} (h : step Z op = some (Z', r)) : Inv Z' (F.after op r) := by
  cases op with
  | alloc n env =>
    simp only [step, Option.map_eq_some_iff] at h
    obtain ⟨⟨Z1, r1⟩, e, h⟩ := h
    rcases alloc_inv I e with ⟨h', rfl, _⟩ | ⟨c, b, bs, h', J, _⟩
    · subst h'; cases h; exact I
    · subst h'; cases h; exact J
  | allocAligned n a env =>
    simp only [step, Option.map_eq_some_iff] at h
    obtain ⟨⟨Z1, r1⟩, e, h⟩ := h
    obtain ⟨_, _, ⟨h', e'⟩ | ⟨c, b, bs, h', e', _⟩⟩ := allocAligned_eq I e
    · subst h'; cases h
      rcases alloc_inv I e' with ⟨_, rfl, _⟩ | ⟨c, b, bs, h', J, _⟩
      · exact I
      · cases h'
    · subst h'; cases h
      rcases alloc_inv I e' with ⟨h', _⟩ | ⟨c', b, bs, h', J, _⟩
      · cases h'
      · cases h'; exact J
  | dealloc n => cases h; exact dealloc_inv I n
  | save env =>
    simp only [step, Option.map_eq_some_iff] at h
    obtain ⟨⟨Z1, c⟩, e, h⟩ := h
    cases h
    exact save_inv I e
  | restore => cases h; exact restore_inv I

theorem reach_inv {bs base : Nat} {Z : Zone} {F : Frames} (h : Reach bs base Z F) : Inv Z F := by
  induction h with
  | create => exact inv_create bs base
  | call _ hs ih => exact step_inv ih hs

/-! ## The property -/

/-- **C37**: in every history the bytes in use are exactly those the frames say; they are pairwise different, and all
inside blocks the zone has. -/
theorem C37_bytes {bs base : Nat} {Z : Zone} {F : Frames} (h : Reach bs base Z F) :
    cells Z.blocks = F.bytes ∧ F.bytes.Nodup ∧
    ∀ x ∈ F.bytes, ∃ b ∈ Z.blocks, b.id = x.1 ∧ x.2 < b.offset ∧ b.offset ≤ Z.blockSize := by
  have I := reach_inv h
  have e : cells Z.blocks = F.bytes := I.bytes
  refine ⟨e, e ▸ cells_nodup I.ids, ?_⟩
  intro x hx
  rw [← e] at hx
  obtain ⟨b, hb, h1, h2⟩ := mem_cells.1 hx
  exact ⟨b, hb, h1, h2, I.off b hb⟩

/-- **C37**: an allocation is defined exactly for sizes from one to the block size.  It fails only if a new block is needed
and cannot be had, and then changes nothing.  Otherwise the region has the size asked for, lies in one block of
the zone, and shares no byte with what was in use. -/
theorem C37_alloc {bs base : Nat} {Z : Zone} {F : Frames} (h : Reach bs base Z F) (n : Nat) (env : Option Nat) :
    (step Z (.alloc n env) = none ↔ n = 0 ∨ Z.blockSize < n) ∧
    ∀ Z' r, step Z (.alloc n env) = some (Z', r) →
      (r = .null ∧ env = none ∧ Z' = Z) ∨
      ∃ c, r = .region c n ∧ (∀ x ∈ regionBytes c n, x ∉ F.bytes) ∧
        ∃ b ∈ Z'.blocks, b.id = c.1 ∧ c.2 + n ≤ b.offset ∧ b.offset ≤ Z.blockSize := by
  have I := reach_inv h
  constructor
  · simp only [step, Option.map_eq_none_iff]
    unfold alloc
    constructor
    · intro h
      apply Decidable.byContradiction
      intro c
      rw [if_neg c] at h
      split at h
      · rename_i e; exact I.bne e
      · split at h
        · split at h <;> cases h
        · cases h
    · intro h
      rw [if_pos h]
  · intro Z' r hs
    simp only [step, Option.map_eq_some_iff] at hs
    obtain ⟨⟨Z1, r1⟩, e, hs⟩ := hs
    rcases alloc_inv I e with ⟨h', rfl, he, _⟩ | ⟨c, b, bs, h', J, _, _, hb, hid, ho, hbs, _⟩
    · subst h'; cases hs; exact .inl ⟨rfl, he, rfl⟩
    · subst h'; cases hs
      refine .inr ⟨c, rfl, ?_, b, by rw [hb]; simp, hid, by omega, hbs⟩
      intro x hx hm
      have nd : (cells Z1.blocks).Nodup := cells_nodup J.ids
      rw [J.bytes, push_flatten _ _ I.ne, List.nodup_append] at nd
      exact nd.2.2 x hx x hm rfl

theorem alignUp_spec {x k : Nat} (hk : k < 64) (hx : x + (2 ^ k - 1) < 2 ^ 64) :
    x ≤ alignUp x (2 ^ k) ∧ 2 ^ k ∣ alignUp x (2 ^ k) ∧ alignUp x (2 ^ k) ≤ x + (2 ^ k - 1) := by
  have hp : 2 ^ k < 2 ^ 64 := Nat.pow_lt_pow_right (by omega) hk
  have hp0 : 0 < 2 ^ k := Nat.pow_pos (by omega)
  have hx' : (BitVec.ofNat 64 x).toNat = x := by rw [BitVec.toNat_ofNat]; exact Nat.mod_eq_of_lt (by omega)
  have ha' : (BitVec.ofNat 64 (2 ^ k)).toNat = 2 ^ k := by rw [BitVec.toNat_ofNat]; exact Nat.mod_eq_of_lt hp
  have A := C50_align (BitVec.ofNat 64 x) (BitVec.ofNat 64 (2 ^ k)) k hk ha' (by omega)
  rw [hx'] at A
  refine ⟨A.1, A.2.1, ?_⟩
  -- the least multiple is below any other multiple
  have := A.2.2 ((x + (2 ^ k - 1)) / 2 ^ k * 2 ^ k) ?_ ⟨_, Nat.mul_comm _ _⟩
  · exact Nat.le_trans this (Nat.div_mul_le_self _ _)
  · have h1 := Nat.div_add_mod (x + (2 ^ k - 1)) (2 ^ k)
    have h2 := Nat.mod_lt (x + (2 ^ k - 1)) hp0
    rw [Nat.mul_comm (_ / _)]
    omega

/-- The addresses of the blocks of a zone, and of a new block, do not run into the top of the address range. -/
def LowAddresses (Z : Zone) (env : Option Nat) (a : Nat) : Prop :=
  (∀ b ∈ Z.blocks, b.base + Z.blockSize + a < 2 ^ 64) ∧ ∀ p, env = some p → p + Z.blockSize + a < 2 ^ 64

/-- **C37**: an aligned allocation returns an address with the alignment asked for, and the bytes from there on, as
many as were asked for, lie inside the region that was allocated for it. -/
theorem C37_aligned {bs base : Nat} {Z Z' : Zone} {F : Frames} (h : Reach bs base Z F) {n k : Nat} (hk : k < 64) {env : Option Nat}
    (hl : LowAddresses Z env (2 ^ k)) {c : Nat × Nat} {p : Nat}
    (hs : allocAligned Z n (2 ^ k) env = some (Z', some (c, p))) :
    2 ^ k ∣ p ∧ ∃ start, addr Z' c = some start ∧ start ≤ p ∧ p + n ≤ start + (n + padding Z n (2 ^ k)) := by
  have I := reach_inv h
  have hp0 : 0 < 2 ^ k := Nat.pow_pos (by omega)
  obtain ⟨hn, _, ⟨h', _⟩ | ⟨c', b, bs', h', e, hb, hid⟩⟩ := allocAligned_eq I hs
  · cases h'
  · cases h'
    have ha : addr Z' c = some (b.base + c.2) := by
      unfold addr
      rw [hb, ← hid, find_id]
      rfl
    rcases alloc_inv I e with ⟨h', _⟩ | ⟨c', b', bs2, h', J, _, hZ, hb', _, ho, hle, hcase⟩
    · cases h'
    · cases h'
      rw [hb] at hb'
      cases hb'
      rcases hcase with ⟨a, hZb, hfit, rfl⟩ | ⟨hc0, hbs, henv, _, a, as, hZb, hbig⟩
      · -- the allocation fits the current block
        have hlow : a.base + Z.blockSize + 2 ^ k < 2 ^ 64 := hl.1 a (by rw [hZb]; simp)
        have hc2 : c.2 = a.offset := by simp at ho; omega
        have A := alignUp_spec (x := a.base + a.offset) hk (by omega)
        have hpad : padding Z n (2 ^ k) = alignUp (a.base + a.offset) (2 ^ k) - (a.base + a.offset) := by
          unfold padding at hfit ⊢
          rw [hZb] at hfit ⊢
          dsimp only at hfit ⊢
          split at hfit
          · omega
          · rename_i c1; rw [if_neg c1]
        rw [ha]
        dsimp only
        rw [hc2]
        refine ⟨A.2.1, _, rfl, A.1, ?_⟩
        rw [hpad]
        omega
      · -- a new block
        have hlow : b.base + Z.blockSize + 2 ^ k < 2 ^ 64 := hl.2 b.base henv
        have A := alignUp_spec (x := b.base + 0) hk (by omega)
        have hpad : padding Z n (2 ^ k) = 2 ^ k := by
          unfold padding at hbig ⊢
          rw [hZb] at hbig ⊢
          dsimp only at hbig ⊢
          split at hbig
          · rename_i c1; rw [if_pos c1]
          · omega
        rw [ha, hc0]
        refine ⟨A.2.1, _, rfl, A.1, ?_⟩
        rw [hpad]
        omega

/-- **C37**: when an aligned allocation is defined: the size is not zero, size and alignment do not wrap together, and
the padded size is at most the block size. -/
theorem C37_aligned_defined {bs base : Nat} {Z : Zone} {F : Frames} (h : Reach bs base Z F) (n a : Nat) (env : Option Nat) :
    step Z (.allocAligned n a env) ≠ none ↔ 0 < n ∧ n + a < 2 ^ 64 ∧ n + padding Z n a ≤ Z.blockSize := by
  have I := reach_inv h
  have hnone := (C37_alloc h (n + padding Z n a) env).1
  simp only [step, Option.map_eq_none_iff] at hnone
  simp only [step, ne_eq, Option.map_eq_none_iff]
  constructor
  · intro hd
    match e : allocAligned Z n a env with
    | none => exact absurd e hd
    | some (Z', r) =>
      obtain ⟨h1, h2, h3⟩ := allocAligned_eq I e
      refine ⟨h1, h2, ?_⟩
      have : alloc Z (n + padding Z n a) env ≠ none := by
        rcases h3 with ⟨_, h3⟩ | ⟨c, b, bs, _, h3, _⟩ <;> rw [h3] <;> simp
      rw [ne_eq, hnone] at this
      omega
  · rintro ⟨h1, h2, h3⟩ e
    unfold allocAligned at e
    rw [if_neg (by rintro (x | x) <;> omega)] at e
    match e2 : alloc Z (n + padding Z n a) env with
    | none => rw [hnone] at e2; omega
    | some (Z1, none) => rw [e2] at e; cases e
    | some (Z1, some c) =>
      rw [e2] at e
      rcases alloc_inv I e2 with ⟨h', _⟩ | ⟨c', b, bs, h', J, _, _, hb, hid, _⟩
      · cases h'
      · cases h'
        have ha : addr Z1 c = some (b.base + c.2) := by
          unfold addr
          rw [hb, ← hid, find_id]
          rfl
        simp [ha] at e

/-- An aligned allocation of a size below the block size (all the documentation asks for) can trip an assertion: 60
bytes aligned to 16, from a zone with blocks of 64 bytes that has 8 bytes in use. -/
theorem C37_aligned_refuted :
    ∃ Z F, Reach 64 4096 Z F ∧ 60 < Z.blockSize ∧ step Z (.allocAligned 60 16 (some 8192)) = none :=
  ⟨_, _, Reach.call (op := .alloc 8 none) Reach.create rfl, by decide, by decide⟩

/-! ## Saving and restoring -/

/-- A call, with the books. -/
def Call (x : Zone × Frames) (op : Op) (y : Zone × Frames) : Prop :=
  ∃ r, step x.1 op = some (y.1, r) ∧ y.2 = x.2.after op r

/-- What a client may do between a save and the restore that belongs to it: allocate, deallocate no more than what is
in the frame, and save and restore in pairs, at any nesting. -/
inductive Inner : Zone × Frames → Zone × Frames → Prop
  | refl {x} : Inner x x
  | alloc {x y z n env} : Inner x y → Call y (.alloc n env) z → Inner x z
  | allocAligned {x y z n a env} : Inner x y → Call y (.allocAligned n a env) z → Inner x z
  | dealloc {x y z n f G} : Inner x y → y.2 = f :: G → n ≤ f.length → Call y (.dealloc n) z → Inner x z
  | nested {x y z w v env} : Inner x y → Call y (.save env) z → Inner z w → Call w .restore v → Inner x v

theorem restore_push (c : Nat × Nat) (f : List (Nat × Nat)) (F : Frames) (h : F ≠ []) : Frames.restore (f :: F.push (regionBytes c 16)) = F := by
  cases F with
  | nil => exact absurd rfl h
  | cons g F =>
    simp only [Frames.push, Frames.restore]
    rw [List.drop_append_of_le_length (by rw [regionBytes_length]; omega), List.drop_eq_nil_of_le (by rw [regionBytes_length]; omega)]
    rfl

theorem save_frames {y z : Zone × Frames} {env : Option Nat} (h : Call y (.save env) z) : ∃ c, z.2 = [] :: y.2.push (regionBytes c 16) := by
  obtain ⟨r, hs, e⟩ := h
  simp only [step, Option.map_eq_some_iff] at hs
  obtain ⟨⟨Z1, c⟩, _, hs⟩ := hs
  cases hs
  exact ⟨c, e⟩

theorem after_push (y : Frames) (hne : y ≠ []) {op : Op} {r : Res} (hop : (∃ n env, op = .alloc n env) ∨ ∃ n a env, op = .allocAligned n a env) :
    ∃ l, y.after op r = y.push l := by
  have e0 : y = y.push [] := by
    cases y with
    | nil => exact absurd rfl hne
    | cons f F => rfl
  rcases hop with ⟨n, env, rfl⟩ | ⟨n, a, env, rfl⟩ <;> cases r
  · exact ⟨_, rfl⟩
  · exact ⟨[], e0⟩
  · exact ⟨[], e0⟩
  · exact ⟨_, rfl⟩
  · exact ⟨[], e0⟩
  · exact ⟨[], e0⟩

theorem inner_frames {x y : Zone × Frames} (h : Inner x y) : ∀ {f G}, x.2 = f :: G → ∃ f', y.2 = f' :: G := by
  induction h with
  | refl => exact fun e => ⟨_, e⟩
  | @alloc x y z n env _ hc ih =>
    intro f G e
    obtain ⟨f', hy⟩ := ih e
    obtain ⟨r, _, hz⟩ := hc
    obtain ⟨l, hl⟩ := after_push y.2 (fun q => by rw [hy] at q; cases q) (r := r) (.inl ⟨_, _, rfl⟩)
    rw [hz, hl, hy]
    exact ⟨_, rfl⟩
  | @allocAligned x y z n a env _ hc ih =>
    intro f G e
    obtain ⟨f', hy⟩ := ih e
    obtain ⟨r, _, hz⟩ := hc
    obtain ⟨l, hl⟩ := after_push y.2 (fun q => by rw [hy] at q; cases q) (r := r) (.inr ⟨_, _, _, rfl⟩)
    rw [hz, hl, hy]
    exact ⟨_, rfl⟩
  | @dealloc x y z n f0 G0 _ hy0 hn hc ih =>
    intro f G e
    obtain ⟨f', hy⟩ := ih e
    obtain ⟨r, _, hz⟩ := hc
    rw [hy0] at hy
    cases hy
    rw [hz, hy0]
    show ∃ f', Frames.pop n (f0 :: G0) = f' :: G0
    cases G0 with
    | nil => exact ⟨f0.drop n, rfl⟩
    | cons g G0 => unfold Frames.pop; rw [if_pos hn]; exact ⟨_, rfl⟩
  | nested _ hs _ hr ih1 ih2 =>
    intro f G e
    obtain ⟨f', hy⟩ := ih1 e
    obtain ⟨c, hz⟩ := save_frames hs
    obtain ⟨f'', hw⟩ := ih2 hz
    obtain ⟨r, _, hv⟩ := hr
    rw [hv]
    show ∃ f', Frames.restore _ = f' :: G
    rw [hw, restore_push _ _ _ (by rw [hy]; simp), hy]
    exact ⟨_, rfl⟩

/-- **C37**: restoring brings back exactly the bytes that were in use when the state was saved, whatever was done in
between, at any nesting. -/
theorem C37_restore {bs base : Nat} {Z : Zone} {F : Frames} (h : Reach bs base Z F) {z w v : Zone × Frames} {env : Option Nat}
    (hs : Call (Z, F) (.save env) z) (hi : Inner z w) (hr : Call w .restore v) :
    v.2 = F ∧ (Reach bs base v.1 v.2 → cells v.1.blocks = cells Z.blocks ∧ v.1.states = Z.states) := by
  have I := reach_inv h
  obtain ⟨c, hz⟩ := save_frames hs
  obtain ⟨f, hw⟩ := inner_frames hi hz
  obtain ⟨r, _, hv⟩ := hr
  have e : v.2 = F := by
    rw [hv]
    show Frames.restore w.2 = F
    rw [hw, restore_push _ _ _ I.ne]
  refine ⟨e, fun hv' => ?_⟩
  have J := reach_inv hv'
  rw [J.bytes, J.states, e, I.bytes, I.states]
  exact ⟨rfl, rfl⟩

theorem Call.reach {bs base : Nat} {x y : Zone × Frames} {op : Op} (h : Reach bs base x.1 x.2) (hc : Call x op y) : Reach bs base y.1 y.2 := by
  obtain ⟨r, hs, e⟩ := hc
  rw [e]
  exact Reach.call h hs

theorem inner_reach {bs base : Nat} {x y : Zone × Frames} (hi : Inner x y) : Reach bs base x.1 x.2 → Reach bs base y.1 y.2 := by
  induction hi with
  | refl => exact id
  | alloc _ hc ih => exact fun h => Call.reach (ih h) hc
  | allocAligned _ hc ih => exact fun h => Call.reach (ih h) hc
  | dealloc _ _ _ hc ih => exact fun h => Call.reach (ih h) hc
  | nested _ hs _ hr ih1 ih2 => exact fun h => Call.reach (ih2 (Call.reach (ih1 h) hs)) hr

/-- **C37**: the same, with the histories put together. -/
theorem C37_restore_bytes {bs base : Nat} {Z : Zone} {F : Frames} (h : Reach bs base Z F) {z w v : Zone × Frames} {env : Option Nat}
    (hs : Call (Z, F) (.save env) z) (hi : Inner z w) (hr : Call w .restore v) :
    cells v.1.blocks = cells Z.blocks ∧ v.1.states = Z.states :=
  (C37_restore h hs hi hr).2 (Call.reach (inner_reach hi (Call.reach h hs)) hr)

/-- **C37**: deallocating takes away the most recent bytes; deallocating as much as is in use, or more, empties the
zone. -/
theorem C37_dealloc {bs base : Nat} {Z : Zone} {F : Frames} (h : Reach bs base Z F) (n : Nat) :
    cells (dealloc Z n).blocks = (cells Z.blocks).drop n ∧ ((cells Z.blocks).length ≤ n → cells (dealloc Z n).blocks = []) := by
  have e : cells (dealloc Z n).blocks = (cells Z.blocks).drop n := cells_deallocBlocks n Z.blocks
  refine ⟨e, fun hn => ?_⟩
  rw [e, List.drop_eq_nil_of_le hn]

/-! ## Finding bytes again (C51) -/

/-- The bytes of a chain in the order they were allocated. -/
def forwardBytes (bs : List Block) : List (Nat × Nat) := bs.flatMap fun b => (List.range b.offset).map fun k => (b.id, k)

theorem cells_reverse (bs : List Block) : (cells bs).reverse = forwardBytes bs.reverse := by
  induction bs with
  | nil => rfl
  | cons b bs ih =>
    rw [cells_cons, List.reverse_append, ih]
    simp [forwardBytes, regionBytes]

theorem getPointer_spec (bs : List Block) (k : Nat) :
    (getPointer bs k).map Prod.fst = (forwardBytes bs)[k]? ∧
    ∀ c m, getPointer bs k = some (c, m) → 0 < m ∧ ∀ j, j < m → (forwardBytes bs)[k + j]? = some (c.1, c.2 + j) := by
  induction bs generalizing k with
  | nil => simp [getPointer, forwardBytes]
  | cons b bs ih =>
    have hf : forwardBytes (b :: bs) = ((List.range b.offset).map fun k => (b.id, k)) ++ forwardBytes bs := by
      simp [forwardBytes]
    unfold getPointer
    split
    · rename_i hk
      constructor
      · rw [hf, List.getElem?_append_left (by simpa using hk)]
        simp [List.getElem?_range hk]
      · intro c m e
        cases e
        refine ⟨by omega, fun j hj => ?_⟩
        rw [hf, List.getElem?_append_left (by simp; omega)]
        rw [List.getElem?_map, List.getElem?_range (by omega)]
        rfl
    · rename_i hk
      obtain ⟨h1, h2⟩ := ih (k - b.offset)
      constructor
      · rw [h1, hf, List.getElem?_append_right (by simp; omega)]
        simp
      · intro c m e
        obtain ⟨h3, h4⟩ := h2 c m e
        refine ⟨h3, fun j hj => ?_⟩
        rw [hf, List.getElem?_append_right (by simp; omega)]
        rw [← h4 j hj]
        simp
        congr 1
        omega

/-- **C51**: the pointer at offset `k` of a zone is the `k`-th byte in use, counted in the order of the allocations;
there is none exactly when fewer bytes are in use; and as many bytes as reported can be read from there. -/
theorem C51_get_pointer {bs base : Nat} {Z : Zone} {F : Frames} (h : Reach bs base Z F) (k : Nat) :
    (zoneGetPointer Z k).map Prod.fst = F.bytes.reverse[k]? ∧
    ∀ c m, zoneGetPointer Z k = some (c, m) → 0 < m ∧ ∀ j, j < m → F.bytes.reverse[k + j]? = some (c.1, c.2 + j) := by
  have I := reach_inv h
  have e : F.bytes.reverse = forwardBytes Z.blocks.reverse := by
    rw [← cells_reverse, I.bytes]; rfl
  rw [e]
  exact getPointer_spec _ _

/-- The blocks do not share addresses, which is what the allocator they come from gives. -/
def DisjointBlocks (Z : Zone) : Prop :=
  Z.blocks.Pairwise fun a b => a.base + Z.blockSize ≤ b.base ∨ b.base + Z.blockSize ≤ a.base

theorem blockForPointer_of_mem {bs : List Block} {size : Nat} (hd : bs.Pairwise fun a b => a.base + size ≤ b.base ∨ b.base + size ≤ a.base)
    (ho : ∀ b ∈ bs, b.offset ≤ size) {b : Block} (hb : b ∈ bs) {k : Nat} (hk : k < b.offset) :
    blockForPointer bs (b.base + k) = some (b.id, k) := by
  induction bs with
  | nil => simp at hb
  | cons a bs ih =>
    rw [List.pairwise_cons] at hd
    unfold blockForPointer
    rw [List.mem_cons] at hb
    rcases hb with rfl | hb
    · rw [if_pos (by omega), Nat.add_sub_cancel_left]
    · have h1 := hd.1 b hb
      have h2 := ho a (by simp)
      have h3 := ho b (by simp [hb])
      rw [if_neg (by omega)]
      exact ih hd.2 (fun x hx => ho x (by simp [hx])) hb

/-- **C51**: looking up the address of a byte in use gives the block and the offset of that byte. -/
theorem C51_block_for_pointer {bs base : Nat} {Z : Zone} {F : Frames} (h : Reach bs base Z F) (hd : DisjointBlocks Z)
    {x : Nat × Nat} (hx : x ∈ F.bytes) : ∃ p, addr Z x = some p ∧ blockForPointer Z.blocks.reverse p = some x := by
  have I := reach_inv h
  obtain ⟨b, hb, h1, h2, h3⟩ := (C37_bytes h).2.2 x hx
  have ha : addr Z x = some (b.base + x.2) := by
    unfold addr
    have : Z.blocks.find? (fun y => y.id == x.1) = some b := by
      rw [List.find?_eq_some_iff_append]
      refine ⟨by simpa using h1, ?_⟩
      obtain ⟨l, r, e⟩ := List.append_of_mem hb
      refine ⟨l, r, e, ?_⟩
      intro y hy
      have nd := I.ids
      rw [e, List.map_append, List.nodup_append] at nd
      have := nd.2.2 y.id (List.mem_map_of_mem hy) b.id (by simp)
      simp only [Bool.not_eq_true', beq_eq_false_iff_ne]
      rw [← h1]
      exact this
    rw [this]
    rfl
  refine ⟨_, ha, ?_⟩
  have hd' : Z.blocks.reverse.Pairwise fun a b => a.base + Z.blockSize ≤ b.base ∨ b.base + Z.blockSize ≤ a.base := by
    rw [List.pairwise_reverse]
    exact List.Pairwise.imp (fun h => h.symm) hd
  rw [blockForPointer_of_mem hd' (fun y hy => I.off y (by simpa using hy)) (by simpa using hb) h2, h1]

/-! ## The hypotheses can be met -/

example : ∃ Z F, Reach 64 4096 Z F ∧ LowAddresses Z (some 8192) (2 ^ 4) ∧
    ∃ Z', allocAligned Z 20 (2 ^ 4) (some 8192) = some (Z', some ((0, 10), 4112)) := by
  refine ⟨_, _, Reach.call (op := .alloc 10 none) (r := .region (0, 0) 10) (Z' := ⟨64, [⟨0, 4096, 10⟩], [], 1⟩) Reach.create (by decide), ⟨?_, ?_⟩,
    ⟨64, [⟨0, 4096, 36⟩], [], 1⟩, by decide⟩
  · decide
  · intro p hp; cases hp; decide

/-- Making a call. -/
def go (x : Zone × Frames) (op : Op) : Zone × Frames :=
  match step x.1 op with
  | some (Z, r) => (Z, x.2.after op r)
  | none => x

theorem call_go {x : Zone × Frames} {op : Op} (h : (step x.1 op).isSome) : Call x op (go x op) := by
  obtain ⟨⟨Z, r⟩, e⟩ := Option.isSome_iff_exists.1 h
  exact ⟨r, by simp [go, e], by simp [go, e]⟩

/-- A state is saved, 40 bytes are allocated, then another state is saved and restored again, then the first one. -/
example : ∃ z w v : Zone × Frames, Call (create 64 4096, [[]]) (.save none) z ∧ Inner z w ∧ Call w .restore v := by
  have h1 : Call (create 64 4096, [[]]) (.save none) _ := call_go (by decide)
  have h2 : Inner (go (create 64 4096, [[]]) (.save none)) _ := .alloc .refl (call_go (op := .alloc 40 none) (by decide))
  have h3 := h2.nested (call_go (op := .save (some 8192)) (by decide)) .refl (call_go (by decide))
  exact ⟨_, _, _, h1, h3, call_go (by decide)⟩

example : DisjointBlocks (create 64 4096) := by simp [DisjointBlocks, create]

#print axioms C37_bytes
#print axioms C37_alloc
#print axioms C37_aligned
#print axioms C37_aligned_defined
#print axioms C37_aligned_refuted
#print axioms C37_restore_bytes
#print axioms C37_dealloc
#print axioms C51_get_pointer
#print axioms C51_block_for_pointer

end Verif.Zone
