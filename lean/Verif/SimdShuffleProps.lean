import Verif.SimdShuffleLemmas

/-!
# C93: swizzling, interleaving and merging put every lane where it was asked for
-/
namespace Verif.SimdShuffle

open Spec

/-! ## The tables, case by case on the numbers of the lanes -/

theorem Q.swizzle2_spec {α : Type} : Swizzles (α := α) 2 Q.swizzle2 :=
  swizzles_of_table rfl (by decide +kernel)

theorem Q.swizzle4_spec {α : Type} : Swizzles (α := α) 4 Q.swizzle4 :=
  swizzles_of_table rfl (by decide +kernel)

theorem Q.swizzle16_spec {α : Type} : Swizzles (α := α) 16 Q.swizzle16 := swizzles_tbl 16

theorem Q.swizzle8_spec {β : Type} : Swizzles (α := β × β) 8 Q.swizzle8 := by
  intro a vs ha hvs
  obtain ⟨h1, h2⟩ := swizzles_tbl (α := β × β) 8 a vs ha hvs
  constructor
  · intro hv
    obtain ⟨r, hr, hs⟩ := h1 hv
    have hall : vs.all (fun v => decide (v < 8)) = true := by
      rw [List.all_eq_true]; intro v h; simpa using hv v h
    simp only [hall, if_true] at hr
    have hall2 : (vs.flatMap (fun v => [v * 2, v * 2 + 1])).all (fun v => decide (v < 16)) =
        true := by
      rw [List.all_eq_true]
      intro u hu
      obtain ⟨v, hvm, huv⟩ := List.mem_flatMap.mp hu
      have := hv v hvm
      simp at huv
      simp only [decide_eq_true_eq]
      omega
    refine ⟨r, ?_, hs⟩
    rw [Q.swizzle8, if_pos hall, Q.swizzle16, if_pos hall2, tbl_unpairs a vs r hr, Option.map_some,
      pairs_unpairs]
  · intro hb
    rw [Q.swizzle8, if_neg]
    obtain ⟨v, hv, hle⟩ := hb
    intro hall
    have := List.all_eq_true.mp hall v hv
    simp at this
    omega

theorem D.swizzle2_spec {α : Type} : Swizzles (α := α) 2 D.swizzle2 :=
  swizzles_of_table rfl (by decide +kernel)

theorem D.swizzle4_spec {α : Type} : Swizzles (α := α) 4 D.swizzle4 :=
  swizzles_of_table rfl (by decide +kernel)

theorem D.swizzle8_spec {α : Type} : Swizzles (α := α) 8 D.swizzle8 := swizzles_tbl 8

theorem Q.interleave2_spec {α : Type} : Interleaves (α := α) 2 Q.interleave2 :=
  interleaves_of_index (F' := Q.interleave2) (by decide) Q.interleave2_map
    (index_of_all (by decide +kernel)) interleaveBy_bad

theorem Q.interleave4_spec {α : Type} : Interleaves (α := α) 4 Q.interleave4 :=
  interleaves_of_index (F' := Q.interleave4) (by decide) Q.interleave4_map
    (index_of_all (by decide +kernel)) interleaveBy_bad

theorem Q.interleave8_spec {α : Type} : Interleaves (α := α) 8 Q.interleave8 :=
  interleaves_of_index (F' := Q.interleave8) (by decide) Q.interleave8_map
    (index_of_all (by decide +kernel)) interleaveBy_bad

theorem interleaveTable16_right : ∀ p ∈ Q.interleaveTable16,
    Q.interleave16 (List.range 16) (List.range' 16 16) (digits 1 16 p.1) =
      some (pick 16 0 (digits 1 16 p.1)) := by
  have h : (Q.interleaveTable16.map Prod.fst).all (fun k =>
      Q.interleave16 (List.range 16) (List.range' 16 16) (digits 1 16 k) ==
        some (pick 16 0 (digits 1 16 k))) = true := by decide +kernel
  intro p hp
  have := List.all_eq_true.mp h p.1 (List.mem_map_of_mem hp)
  simpa using this

theorem Q.interleave16_spec {α : Type} : Interleaves (α := α) 16 Q.interleave16 :=
  interleaves_of_index (F' := Q.interleave16) (by decide) Q.interleave16_map
    (index_of_table interleaveTable16_right) interleaveBy_bad

theorem D.interleave2_spec {α : Type} : Interleaves (α := α) 2 D.interleave2 :=
  interleaves_of_index (F' := D.interleave2) (by decide) D.interleave2_map
    (index_of_all (by decide +kernel)) interleaveBy_bad

theorem D.interleave4_spec {α : Type} : Interleaves (α := α) 4 D.interleave4 :=
  interleaves_of_index (F' := D.interleave4) (by decide) D.interleave4_map
    (index_of_all (by decide +kernel)) interleaveBy_bad

theorem D.interleave8_spec {α : Type} : Interleaves (α := α) 8 D.interleave8 :=
  interleaves_of_index (F' := D.interleave8) (by decide) D.interleave8_map
    (index_of_all (by decide +kernel)) interleaveBy_bad

/-- What is checked of a case of a merge: the lanes it selects. -/
theorem mergeTable_right {n : Nat} {t : List (Nat × E)}
    (h : t.all (fun p => p.2.eval (List.range n) (List.range' n n) ==
      some ((digits 5 n p.1).map (mergeIndex n))) = true) :
    ∀ p ∈ t, p.2.eval (List.range n) (List.range' n n) =
      some ((digits 5 n p.1).map (mergeIndex n)) := by
  intro p hp
  have := List.all_eq_true.mp h p hp
  simpa using this

theorem Q.merge2_spec {α : Type} : Merges (α := α) 2 Q.merge2 :=
  merges_of (by decide) (by decide) Q.swizzle2_spec Q.interleave2_spec (by decide) (by decide)
    (by decide) (mergeTable_right (by decide +kernel))

theorem Q.merge4_spec {α : Type} : Merges (α := α) 4 Q.merge4 :=
  merges_of (by decide) (by decide) Q.swizzle4_spec Q.interleave4_spec (by decide) (by decide)
    (by decide) (mergeTable_right (by decide +kernel))

theorem Q.merge8_spec {β : Type} : Merges (α := β × β) 8 Q.merge8 :=
  merges_of (by decide) (by decide) Q.swizzle8_spec Q.interleave8_spec (by decide) (by decide)
    (by decide) (by intro p hp; cases hp)

theorem Q.merge16_spec {α : Type} : Merges (α := α) 16 Q.merge16 :=
  merges_of (by decide) (by decide) Q.swizzle16_spec Q.interleave16_spec (by decide) (by decide)
    (by decide) (by intro p hp; cases hp)

theorem D.merge2_spec {α : Type} : Merges (α := α) 2 D.merge2 :=
  merges_of (by decide) (by decide) D.swizzle2_spec D.interleave2_spec (by decide) (by decide)
    (by decide) (mergeTable_right (by decide +kernel))

theorem D.merge4_spec {α : Type} : Merges (α := α) 4 D.merge4 :=
  merges_of (by decide) (by decide) D.swizzle4_spec D.interleave4_spec (by decide) (by decide)
    (by decide) (mergeTable_right (by decide +kernel))

theorem D.merge8_spec {α : Type} : Merges (α := α) 8 D.merge8 :=
  merges_of (by decide) (by decide) D.swizzle8_spec D.interleave8_spec (by decide) (by decide)
    (by decide) (by intro p hp; cases hp)

/-! ## C93 -/

/-- **C93, swizzling.**  For every vector of 2, 4, 8 or 16 lanes of a 128-bit register and of 2, 4
or 8 lanes of a 64-bit register, whatever the values of the lanes, and for all lane numbers given:
lane `j` of the result is the lane asked for; a number that is not a lane number aborts. -/
theorem C93_swizzle {α β : Type} :
    Swizzles (α := α) 2 Q.swizzle2 ∧ Swizzles (α := α) 4 Q.swizzle4 ∧
    Swizzles (α := β × β) 8 Q.swizzle8 ∧ Swizzles (α := α) 16 Q.swizzle16 ∧
    Swizzles (α := α) 2 D.swizzle2 ∧ Swizzles (α := α) 4 D.swizzle4 ∧
    Swizzles (α := α) 8 D.swizzle8 :=
  ⟨Q.swizzle2_spec, Q.swizzle4_spec, Q.swizzle8_spec, Q.swizzle16_spec, D.swizzle2_spec,
    D.swizzle4_spec, D.swizzle8_spec⟩

/-- The arguments of a swizzle that repeats a lane are accepted, and the result is the one asked
for; the argument 4 aborts. -/
example : Q.swizzle4 ['a', 'b', 'c', 'd'] [2, 0, 2, 3] = some ['c', 'a', 'c', 'd'] ∧
    (∀ v ∈ [2, 0, 2, 3], v < 4) ∧ Q.swizzle4 ['a', 'b', 'c', 'd'] [2, 0, 4, 3] = none := by
  refine ⟨by decide +kernel, by decide, by decide +kernel⟩

/-- **C93, interleaving.**  Likewise for interleaving: lane `j` of the result is lane `j` of the
vector asked for; an argument other than 0 and 1 aborts. -/
theorem C93_interleave {α : Type} :
    Interleaves (α := α) 2 Q.interleave2 ∧ Interleaves (α := α) 4 Q.interleave4 ∧
    Interleaves (α := α) 8 Q.interleave8 ∧ Interleaves (α := α) 16 Q.interleave16 ∧
    Interleaves (α := α) 2 D.interleave2 ∧ Interleaves (α := α) 4 D.interleave4 ∧
    Interleaves (α := α) 8 D.interleave8 :=
  ⟨Q.interleave2_spec, Q.interleave4_spec, Q.interleave8_spec, Q.interleave16_spec,
    D.interleave2_spec, D.interleave4_spec, D.interleave8_spec⟩

/-- A case of the table, a case without one, and an argument that aborts. -/
example :
    Q.interleave8 [0, 1, 2, 3, 4, 5, 6, 7] [8, 9, 10, 11, 12, 13, 14, 15] [0, 0, 1, 1, 0, 0, 1, 1]
      = some [0, 1, 10, 11, 4, 5, 14, 15] ∧
    Q.interleave8 [0, 1, 2, 3, 4, 5, 6, 7] [8, 9, 10, 11, 12, 13, 14, 15] [0, 1, 1, 0, 0, 0, 0, 1]
      = some [0, 9, 10, 3, 4, 5, 6, 15] ∧
    Q.interleave2 [0, 1] [2, 3] [0, 2] = none := by
  refine ⟨by decide +kernel, by decide +kernel, by decide +kernel⟩

/-- **C93, merging.**  Likewise for merging: lane `j` of the result is the lane of the vector
asked for by `CC_SIMD_An` or `CC_SIMD_Bn`; any other argument aborts. -/
theorem C93_merge {α β : Type} :
    Merges (α := α) 2 Q.merge2 ∧ Merges (α := α) 4 Q.merge4 ∧
    Merges (α := β × β) 8 Q.merge8 ∧ Merges (α := α) 16 Q.merge16 ∧
    Merges (α := α) 2 D.merge2 ∧ Merges (α := α) 4 D.merge4 ∧ Merges (α := α) 8 D.merge8 :=
  ⟨Q.merge2_spec, Q.merge4_spec, Q.merge8_spec, Q.merge16_spec, D.merge2_spec, D.merge4_spec,
    D.merge8_spec⟩

/-- A case of the table, a case without one, and an argument that aborts. -/
example :
    Q.merge4 [0, 1, 2, 3] [4, 5, 6, 7] [2, 1, 0, 17] = some [2, 1, 0, 5] ∧
    Q.merge4 [0, 1, 2, 3] [4, 5, 6, 7] [1, 17, 1, 17] = some [1, 5, 1, 5] ∧
    Q.merge4 [0, 1, 2, 3] [4, 5, 6, 7] [1, 20, 1, 17] = none := by
  refine ⟨by decide +kernel, by decide +kernel, by decide +kernel⟩

#print axioms C93_swizzle
#print axioms C93_interleave
#print axioms C93_merge

end Verif.SimdShuffle
