import Verif.ZoneAlloc
import Verif.ZoneProps
/-!
# C61: reallocation in a memory zone
-/
namespace Verif.ZoneAlloc

open Verif.Zone

/-- The allocation lies in the memory in use of the zone. -/
def Own (Z : Zone) (al : Alloc) : Prop :=
  0 < al.size ∧ ∃ b ∈ Z.blocks, b.id = al.ptr.1 ∧ al.ptr.2 + al.size ≤ b.offset

/-- The bytes of an allocation. -/
def Alloc.bytes (al : Alloc) : List (Nat × Nat) := regionBytes al.ptr al.size

theorem fresh_spec {bs base : Nat} {Z Z' : Zone} {F : Frames} (h : Reach bs base Z F) {size : Nat} {env : Option Nat}
    (hl : LowAddresses Z env 16) {dst : Nat × Nat} (hs : fresh Z size env = some (Z', dst)) :
    (∃ G, Reach bs base Z' G) ∧ Z'.blockSize = Z.blockSize ∧ (∃ b ∈ Z'.blocks, b.id = dst.1 ∧ dst.2 + size ≤ b.offset) ∧
      (∀ x ∈ regionBytes dst size, x ∉ cells Z.blocks) ∧ (∀ x ∈ cells Z.blocks, x ∈ cells Z'.blocks) := by
  have I := reach_inv h
  unfold fresh at hs
  split at hs
  · rename_i Z1 c p e
    simp only [Option.map_eq_some_iff] at hs
    obtain ⟨start, hst, hs⟩ := hs
    injection hs with e1 e2
    subst e1
    obtain ⟨_, st', hst', hp1, hp2⟩ := C37_aligned h (k := 4) (by omega) hl (n := size + 16) e
    have hp2 : p + (size + 16) ≤ st' + (size + 16 + padding Z (size + 16) 16) := hp2
    rw [hst] at hst'
    injection hst' with hst'
    subst hst'
    obtain ⟨_, _, ⟨h', _⟩ | ⟨c', b, bs', h', ea, hb, hid⟩⟩ := allocAligned_eq I e
    · cases h'
    · injection h' with h'
      injection h' with hcc hpp
      subst hcc
      have hreach : Reach bs base Z1 (F.after (.allocAligned (size + 16) 16 env) (.region c (size + 16 + padding Z (size + 16) 16))) := by
        refine Reach.call h (op := .allocAligned (size + 16) 16 env) ?_
        simp only [step, e, Option.map_some]
      rcases alloc_inv I ea with ⟨h', _⟩ | ⟨c', b', bs2, h', J, _, hZ, hb', hid', ho, hle, hcase⟩
      · cases h'
      · cases h'
        rw [hb] at hb'
        cases hb'
        have hsub : ∀ x, x ∈ regionBytes dst size → x ∈ regionBytes c (size + 16 + padding Z (size + 16) 16) := by
          intro x hx
          rw [mem_regionBytes] at hx ⊢
          rw [← e2] at hx
          dsimp only at hx
          refine ⟨hx.1, by omega, by omega⟩
        refine ⟨⟨_, hreach⟩, hZ, ⟨b, by rw [hb]; simp, by rw [← e2]; exact hid, by rw [← e2]; dsimp only; omega⟩, ?_, ?_⟩
        · intro x hx hm
          have nd : (cells Z1.blocks).Nodup := cells_nodup J.ids
          rw [J.bytes, push_flatten _ _ I.ne, List.nodup_append] at nd
          exact nd.2.2 x (hsub x hx) x (by rw [← I.bytes]; exact hm) rfl
        · intro x hx
          rw [J.bytes, push_flatten _ _ I.ne, List.mem_append, ← I.bytes]
          exact Or.inr hx
  · cases hs

/-- **C61, allocation.**  Memory allocated in a zone has the size asked for and was not in use; what was in use still is. -/
theorem C61_alloc {bs base : Nat} {Z Z' : Zone} {F : Frames} (h : Reach bs base Z F) {al : Alloc} {size : Nat} (hsz : 0 < size)
    {env : Option Nat} (hl : LowAddresses Z env 16) (hs : zoneAlloc Z size env = some (Z', al)) :
    (∃ G, Reach bs base Z' G) ∧ al.size = size ∧ Own Z' al ∧ (∀ x ∈ al.bytes, x ∉ cells Z.blocks) ∧
      (∀ x ∈ cells Z.blocks, x ∈ cells Z'.blocks) := by
  unfold zoneAlloc at hs
  split at hs
  · simp only [Option.map_eq_some_iff] at hs
    obtain ⟨⟨Z1, dst⟩, hf, hs⟩ := hs
    cases hs
    obtain ⟨hr, _, hown, hnew, hold⟩ := fresh_spec h hl hf
    exact ⟨hr, rfl, ⟨hsz, hown⟩, hnew, hold⟩
  · cases hs

example : (zoneAlloc (create 128 0) 32 none).map (·.2) = some ⟨(0, 16), 32⟩ := by decide

/-- **C61.**  In every reachable zone, if a reallocation of memory the client owns is defined, then: the memory has the size asked for
(or is still the larger one), the bytes the client had are the first bytes of the new memory, no byte in use before has changed, and
what is new about the memory was not in use. -/
theorem C61_keeps {bs base : Nat} {Z Z' : Zone} {F : Frames} (h : Reach bs base Z F) {m m' : Bytes} {al al' : Alloc} (ho : Own Z al)
    {size : Nat} {env : Option Nat} (hl : LowAddresses Z env 16) (hs : zoneRealloc Z m al size env = some (Z', m', al')) :
    (∃ G, Reach bs base Z' G) ∧ size ≤ al'.size ∧ Own Z' al' ∧
      (∀ i, i < al.size → m' (al'.ptr.1, al'.ptr.2 + i) = m (al.ptr.1, al.ptr.2 + i)) ∧
      (∀ x ∈ cells Z.blocks, m' x = m x) ∧
      (∀ x ∈ al'.bytes, x ∈ al.bytes ∨ x ∉ cells Z.blocks) := by
  have I := reach_inv h
  unfold zoneRealloc at hs
  by_cases c0 : size + 16 < Z.blockSize
  · rw [if_neg (by omega)] at hs
    by_cases c1 : size ≤ al.size
    · rw [if_pos c1] at hs
      cases hs
      exact ⟨⟨F, h⟩, c1, ho, fun _ _ => rfl, fun _ _ => rfl, fun x hx => Or.inl hx⟩
    · rw [if_neg c1] at hs
      split at hs
      · cases hs
      · rename_i b bs' hb
        by_cases c2 : b.id = al.ptr.1 ∧ b.offset - al.size = al.ptr.2 ∧ al.ptr.2 + size ≤ Z.blockSize
        · rw [if_pos c2] at hs
          simp only [Option.map_eq_some_iff] at hs
          obtain ⟨⟨Z1, r⟩, ha, hs⟩ := hs
          injection hs with e1 e2
          injection e2 with e2 e3
          dsimp only at e1
          subst e1 e2 e3
          have hsz := ho.1
          obtain ⟨b', hb', hid', hob⟩ := ho.2
          have hbb : b' = b := by
            rw [hb] at hb'
            rcases List.mem_cons.1 hb' with h | h
            · exact h
            · have nd := I.ids
              rw [hb, List.map_cons, List.nodup_cons] at nd
              exact absurd (List.mem_map.2 ⟨b', h, by rw [hid', c2.1]⟩) nd.1
          subst hbb
          rcases alloc_inv I ha with ⟨rfl, rfl, henv, _, _⟩ | ⟨c, b2, bs2, rfl, J, _, hZ, hb2, hid2, ho2, hle2, hcase⟩
          · -- the allocation cannot fail: the block has room
            exfalso
            unfold alloc at ha
            rw [if_neg (by omega), hb] at ha
            dsimp only at ha
            rw [if_neg (by omega)] at ha
            simp at ha
          · have hr : Reach bs base Z1 (F.after (.alloc (size - al.size) env) (.region c (size - al.size))) := by
              refine Reach.call h (op := .alloc (size - al.size) env) ?_
              simp only [step, ha, Option.map_some]
            rcases hcase with ⟨a, hZb, hfit, rfl⟩ | ⟨hc0, hbs, henv, _, a, as, hZb, hbig⟩
            · rw [hb] at hZb
              injection hZb with hab _
              subst hab
              dsimp only at ho2
              have hoff : b'.offset = al.ptr.2 + al.size := by omega
              refine ⟨⟨_, hr⟩, Nat.le_refl _, ⟨by dsimp only; omega, { b' with offset := b'.offset + (size - al.size) },
                by rw [hb2]; exact List.mem_cons_self, c2.1, by dsimp only; omega⟩,
                fun _ _ => rfl, fun _ _ => rfl, ?_⟩
              intro x hx
              simp only [Alloc.bytes, mem_regionBytes] at hx ⊢
              by_cases hx2 : x.2 < al.ptr.2 + al.size
              · exact Or.inl ⟨hx.1, hx.2.1, hx2⟩
              · right
                intro hc
                obtain ⟨d, hd, hdi, hdo⟩ := mem_cells.1 hc
                rw [hb] at hd
                rcases List.mem_cons.1 hd with rfl | hd
                · omega
                · have nd := I.ids
                  rw [hb, List.map_cons, List.nodup_cons] at nd
                  exact nd.1 (List.mem_map.2 ⟨d, hd, by rw [hdi, hx.1, c2.1]⟩)
            · exfalso
              rw [hb] at hZb
              injection hZb with hab _
              subst hab
              omega
        · rw [if_neg c2] at hs
          simp only [Option.bind_eq_bind, Option.bind_eq_some_iff] at hs
          obtain ⟨⟨Z1, dst⟩, hf, hs⟩ := hs
          obtain ⟨hr, hZ, hown, hnew, hold⟩ := fresh_spec h hl hf
          by_cases c3 : al.ptr.2 + size ≤ Z.blockSize ∧ ¬ Overlap dst al.ptr size
          · dsimp only at hs
            rw [if_pos c3] at hs
            cases hs
            refine ⟨hr, Nat.le_refl _, ⟨by dsimp only; omega, hown⟩, ?_, ?_, ?_⟩
            · intro i hi
              dsimp only [copy]
              rw [if_pos ⟨rfl, by omega, by omega⟩]
              congr 2
              omega
            · intro x hx
              unfold copy
              rw [if_neg]
              intro hin
              exact hnew x (mem_regionBytes.2 hin) hx
            · intro x hx
              exact Or.inr (hnew x hx)
          · dsimp only at hs
            rw [if_neg c3] at hs
            cases hs
  · rw [if_pos c0] at hs
    cases hs

/-- A zone with blocks of 128 bytes, its first allocation of 32 bytes, extended to 48 bytes. -/
example : ((zoneAlloc (create 128 0) 32 none).bind fun r => (zoneRealloc r.1 (fun _ => 0) r.2 48 none).map fun r => r.2.2) =
    some ⟨(0, 16), 48⟩ := by decide

/-- **C61 refuted, for every zone and every such allocation.**  When the memory is the last one allocated and its block has no room for
the new size, the reallocation copies the new size from the old place and so reads behind the end of the block. -/
theorem C61_last_refuted {bs base : Nat} {Z : Zone} {F : Frames} (h : Reach bs base Z F) (m : Bytes) (al : Alloc) (b : Block) (rest : List Block)
    (hb : Z.blocks = b :: rest) (hid : b.id = al.ptr.1) (hsz : 0 < al.size) (hlast : al.ptr.2 + al.size = b.offset) (size : Nat)
    (hbig : Z.blockSize < al.ptr.2 + size) (env : Option Nat) : zoneRealloc Z m al size env = none := by
  have I := reach_inv h
  have hoff := I.off b (by rw [hb]; simp)
  unfold zoneRealloc
  split
  · rfl
  · rw [if_neg (by omega), hb]
    dsimp only
    rw [if_neg (by omega)]
    cases fresh Z size env with
    | none => rfl
    | some r =>
      simp only [Option.bind_eq_bind, Option.bind_some]
      rw [if_neg (by omega)]

/-- Such states are met: the second allocation of 32 bytes in a zone with blocks of 128 bytes, extended to 80 bytes. -/
example : ((zoneAlloc (create 128 0) 32 none).bind fun r => (zoneAlloc r.1 32 none).map fun q => (q.1.blocks, q.2)) =
      some ([⟨0, 0, 96⟩], ⟨(0, 64), 32⟩) ∧
    ((zoneAlloc (create 128 0) 32 none).bind fun r => (zoneAlloc r.1 32 none).bind fun q =>
      (zoneRealloc q.1 (fun _ => 0) q.2 80 (some 4096)).map fun r => r.2.2) = none := by
  decide

/-- **C61 refuted.**  Memory that is not the last one allocated: growing from 16 to 48 bytes copies between overlapping ranges, because the
bytes read behind the old memory reach into the new one. -/
theorem C61_overlap_refuted :
    ((zoneAlloc (create 256 0) 16 none).bind fun r => (Zone.alloc r.1 4 none).bind fun q =>
      (fresh q.1 48 none).map fun f => (r.2, f.2)) = some (⟨(0, 16), 16⟩, (0, 64)) ∧
    Overlap (0, 64) (0, 16) 49 ∧
    ((zoneAlloc (create 256 0) 16 none).bind fun r => (Zone.alloc r.1 4 none).bind fun q =>
      (zoneRealloc q.1 (fun _ => 0) r.2 49 none).map fun x => x.2.2) = none := by decide

/-- **C61, exactly.**  Growing memory is defined exactly if it can be extended in place, or if memory can be had elsewhere, the whole new size can be
read at the old place, and the two places do not overlap. -/
theorem C61_exact {bs base : Nat} {Z : Zone} {F : Frames} (h : Reach bs base Z F) (m : Bytes) (al : Alloc) (ho : Own Z al) (size : Nat)
    (hgrow : al.size < size) (env : Option Nat) :
    zoneRealloc Z m al size env ≠ none ↔
      size + 16 < Z.blockSize ∧
        ((∃ b rest, Z.blocks = b :: rest ∧ b.id = al.ptr.1 ∧ al.ptr.2 + al.size = b.offset ∧ al.ptr.2 + size ≤ Z.blockSize) ∨
         ((¬ ∃ b rest, Z.blocks = b :: rest ∧ b.id = al.ptr.1 ∧ al.ptr.2 + al.size = b.offset) ∧
          al.ptr.2 + size ≤ Z.blockSize ∧ ∃ Z' dst, fresh Z size env = some (Z', dst) ∧ ¬ Overlap dst al.ptr size)) := by
  have I := reach_inv h
  obtain ⟨b, rest, hb⟩ : ∃ b rest, Z.blocks = b :: rest := by
    cases e : Z.blocks with
    | nil => exact absurd e I.bne
    | cons b bs => exact ⟨b, bs, rfl⟩
  have hsz := ho.1
  have hob : b.id = al.ptr.1 → al.ptr.2 + al.size ≤ b.offset := by
    intro hid
    obtain ⟨b', hb', hid', hob⟩ := ho.2
    rw [hb] at hb'
    rcases List.mem_cons.1 hb' with rfl | h
    · exact hob
    · have nd := I.ids
      rw [hb, List.map_cons, List.nodup_cons] at nd
      exact absurd (List.mem_map.2 ⟨b', h, by rw [hid', hid]⟩) nd.1
  have hoff := I.off b (by rw [hb]; simp)
  unfold zoneRealloc
  by_cases c0 : size + 16 < Z.blockSize
  · rw [if_neg (by omega), if_neg (by omega), hb]
    dsimp only
    by_cases c2 : b.id = al.ptr.1 ∧ b.offset - al.size = al.ptr.2 ∧ al.ptr.2 + size ≤ Z.blockSize
    · have := hob c2.1
      rw [if_pos c2]
      have ha : ∃ r, alloc Z (size - al.size) env = some r := by
        unfold alloc
        rw [if_neg (by omega), hb]
        dsimp only
        rw [if_neg (by omega)]
        exact ⟨_, rfl⟩
      obtain ⟨r, ha⟩ := ha
      rw [ha]
      simp only [Option.map_some, ne_eq, reduceCtorEq, not_false_eq_true, true_iff]
      exact ⟨c0, Or.inl ⟨b, rest, rfl, c2.1, by omega, c2.2.2⟩⟩
    · rw [if_neg c2]
      have hne : (∃ b' rest', b :: rest = b' :: rest' ∧ b'.id = al.ptr.1 ∧ al.ptr.2 + al.size = b'.offset) → ¬ al.ptr.2 + size ≤ Z.blockSize := by
        rintro ⟨b', rest', e, h1, h2⟩ h3
        injection e with e _
        subst e
        exact c2 ⟨h1, by omega, h3⟩
      constructor
      · intro hd
        cases hf : fresh Z size env with
        | none => rw [hf] at hd; exact absurd rfl hd
        | some r =>
          rw [hf] at hd
          simp only [Option.bind_eq_bind, Option.bind_some] at hd
          by_cases c3 : al.ptr.2 + size ≤ Z.blockSize ∧ ¬ Overlap r.2 al.ptr size
          · exact ⟨c0, Or.inr ⟨fun hx => hne hx c3.1, c3.1, r.1, r.2, rfl, c3.2⟩⟩
          · rw [if_neg c3] at hd
            exact absurd rfl hd
      · rintro ⟨_, ⟨b', rest', e, h1, h2, h3⟩ | ⟨_, h1, Z', dst, hf, h2⟩⟩
        · exact absurd h3 (hne ⟨b', rest', e, h1, h2⟩)
        · rw [hf]
          simp only [Option.bind_eq_bind, Option.bind_some]
          rw [if_pos ⟨h1, h2⟩]
          simp
  · rw [if_pos c0]
    simp only [ne_eq, not_true_eq_false, false_iff]
    exact fun h => c0 h.1

/-- A move that is defined: the memory is in an older block and the new one is elsewhere. -/
example : ((zoneAlloc (create 128 0) 16 none).bind fun r => (Zone.alloc r.1 120 (some 4096)).bind fun q =>
      (zoneRealloc q.1 (fun _ => 0) r.2 32 (some 8192)).map fun x => x.2.2) = some ⟨(2, 16), 32⟩ := by decide

#print axioms C61_alloc
#print axioms C61_keeps
#print axioms C61_last_refuted
#print axioms C61_overlap_refuted
#print axioms C61_exact

end Verif.ZoneAlloc
