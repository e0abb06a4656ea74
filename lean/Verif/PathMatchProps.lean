import Verif.PathMatchSpec
/-!
# C68: matching paths
-/
namespace Verif.PathMatch
open Spec

theorem lower_some {c : UInt8} (h : c.toNat < 128) : lower c = some (low c) := by
  unfold lower low
  rw [if_neg (by omega)]
  split <;> rfl

theorem sameNoCase_iff (a b : Str) (ha : ∀ x ∈ a, x.toNat < 128) (hb : ∀ x ∈ b, x.toNat < 128) :
    sameNoCase a b = some (decide (a.map low = b.map low)) := by
  induction a generalizing b with
  | nil => cases b <;> simp [sameNoCase]
  | cons x a ih =>
    cases b with
    | nil => simp [sameNoCase]
    | cons y b =>
      unfold sameNoCase
      rw [lower_some (ha x (by simp)), lower_some (hb y (by simp))]
      dsimp only
      by_cases h : low x = low y
      · rw [if_pos h, ih b (fun z hz => ha z (by simp [hz])) (fun z hz => hb z (by simp [hz]))]
        simp [h]
      · rw [if_neg h]
        have : x ≠ y := fun e => h (by rw [e])
        simp [h, this]

theorem sameNoCase_comm (a b : Str) : sameNoCase a b = sameNoCase b a := by
  induction a generalizing b with
  | nil => cases b <;> rfl
  | cons x a ih =>
    cases b with
    | nil => rfl
    | cons y b =>
      unfold sameNoCase
      rw [ih b]
      cases hx : lower x <;> cases hy : lower y <;> try rfl
      rename_i u v
      dsimp only
      by_cases h : u = v
      · rw [if_pos h, if_pos h.symm]
      · rw [if_neg h, if_neg (fun e => h e.symm)]
        simp [eq_comm]

theorem sameNoCase_self (a : Str) : sameNoCase a a = some true ∨ sameNoCase a a = none := by
  induction a with
  | nil => exact .inl rfl
  | cons x a ih =>
    unfold sameNoCase
    cases hx : lower x
    · exact .inr rfl
    · dsimp only; rw [if_pos rfl]; exact ih

theorem one_comm (o : BitVec 32) (l r : Comp) : one o l r = one o r l := by
  unfold one
  by_cases h : l.ty = r.ty
  · rw [if_pos h, if_pos h.symm]
    by_cases hw : wildcard o ≠ 0 ∧ (starts (wildcard o) l.str ∨ starts (wildcard o) r.str)
    · rw [if_pos hw, if_pos ⟨hw.1, hw.2.symm⟩]
    · rw [if_neg hw, if_neg (fun e => hw ⟨e.1, e.2.symm⟩)]
      rcases hl : l.str with _ | ⟨p, a⟩ <;> rcases hr : r.str with _ | ⟨q, b⟩ <;> try rfl
      dsimp only
      by_cases hp : p = q
      · rw [if_pos hp, if_pos hp.symm]
      · rw [if_neg hp, if_neg (show ¬ q = p from fun e => hp e.symm), sameNoCase_comm a b,
          show decide (a = b) = decide (b = a) by rw [decide_eq_decide]; exact eq_comm]
  · rw [if_neg h, if_neg (show ¬ r.ty = l.ty from fun e => h e.symm)]
    by_cases hr : requireRel o ∨ (l.ty ≠ relRoot ∧ r.ty ≠ relRoot)
    · rw [if_pos hr, if_pos (hr.imp id And.symm)]
    · rw [if_neg hr, if_neg (fun e => hr (e.imp id And.symm))]

theorem loop_comm (o : BitVec 32) (l r : List Comp) : loop o l r = loop o r l := by
  induction l generalizing r with
  | nil => cases r <;> rfl
  | cons a l ih =>
    cases r with
    | nil => rfl
    | cons b r => unfold loop; rw [one_comm o a b, ih r]

/-- **C68, symmetric.**  Whether two paths match does not depend on their order. -/
theorem C68_symmetric (l r : List Comp) (o : BitVec 32) : pathMatch l r o = pathMatch r l o :=
  loop_comm o _ _

theorem one_self (o : BitVec 32) (a : Comp) : one o a a = some true := by
  unfold one
  rw [if_pos rfl]
  split
  · rfl
  · rcases h : a.str with _ | ⟨p, s⟩
    · rfl
    · dsimp only; rw [if_pos rfl]

/-- **C68, reflexive.**  A path matches itself, whatever its names and the options. -/
theorem C68_reflexive (l : List Comp) (o : BitVec 32) : pathMatch l l o = some true := by
  unfold pathMatch
  generalize l.reverse = m
  induction m with
  | nil => rfl
  | cons a m ih => unfold loop; rw [one_self]; exact ih

/-! ## What matching means -/

theorem wildcard_spec (o : BitVec 32) (w : UInt8) : (wildcard o ≠ 0 ∧ w = wildcard o) ↔ Wild o w := by
  unfold wildcard Wild literal
  have hs : (o >>> 25).toNat = o.toNat / 2 ^ 25 := by rw [BitVec.toNat_ushiftRight, Nat.shiftRight_eq_div_pow]
  have hlt : o.toNat / 2 ^ 25 < 128 := by have := o.isLt; omega
  cases h6 : o.getLsbD 6
  · simp only [Bool.false_eq_true, if_false, true_and]
    by_cases hz : o.toNat / 2 ^ 25 = 0
    · have : o >>> 25 = 0 := by apply BitVec.eq_of_toNat_eq; rw [hs, hz]; rfl
      rw [if_neg (by simp [this]), if_pos hz]
      constructor
      · rintro ⟨_, rfl⟩; rfl
      · intro h; exact ⟨by decide, UInt8.toNat_inj.1 h⟩
    · have : o >>> 25 ≠ 0 := by intro e; rw [e] at hs; exact hz hs.symm
      rw [if_pos this, if_neg hz]
      have ht : (UInt8.ofBitVec ((o >>> 25).setWidth 8)).toNat = o.toNat / 2 ^ 25 := by
        show ((o >>> 25).setWidth 8).toNat = _
        rw [BitVec.toNat_setWidth, hs]
        omega
      constructor
      · rintro ⟨_, rfl⟩; exact ht
      · intro h
        refine ⟨?_, UInt8.toNat_inj.1 (h.trans ht.symm)⟩
        intro e
        rw [e] at ht
        exact hz ht.symm
  · simp

theorem starts_iff (o : BitVec 32) (c : Comp) : (wildcard o ≠ 0 ∧ starts (wildcard o) c.str = true) ↔ Joker o c := by
  unfold Joker
  constructor
  · rintro ⟨h1, h2⟩
    rcases hc : c.str with _ | ⟨p, _ | ⟨x, s⟩⟩
    · simp [hc, starts] at h2
    · simp [hc, starts] at h2
    · rw [hc] at h2
      simp only [starts, beq_iff_eq] at h2
      exact ⟨x, p, s, (wildcard_spec o x).1 ⟨h1, h2⟩, rfl⟩
  · rintro ⟨w, p, s, hw, hc⟩
    obtain ⟨h1, h2⟩ := (wildcard_spec o w).2 hw
    refine ⟨h1, ?_⟩
    rw [hc]
    simp [starts, h2]

theorem one_agree (o : BitVec 32) (a b : Comp) (hc : Consistent [a, b]) (ha : caseSensitive o = true ∨ Ascii [a, b]) :
    (one o a b = some true ∧ Agree o a b) ∨ (one o a b = some false ∧ ¬ Agree o a b) := by
  unfold one Agree
  by_cases h : a.ty = b.ty
  · rw [if_pos h, if_pos h]
    by_cases hw : wildcard o ≠ 0 ∧ (starts (wildcard o) a.str ∨ starts (wildcard o) b.str)
    · rw [if_pos hw]
      refine .inl ⟨rfl, ?_⟩
      rcases hw.2 with h2 | h2
      · exact .inl ((starts_iff o a).1 ⟨hw.1, h2⟩)
      · exact .inr (.inl ((starts_iff o b).1 ⟨hw.1, h2⟩))
    · rw [if_neg hw]
      have n1 : ¬ Joker o a := fun e => by
        obtain ⟨e1, e2⟩ := (starts_iff o a).2 e; exact hw ⟨e1, .inl e2⟩
      have n2 : ¬ Joker o b := fun e => by
        obtain ⟨e1, e2⟩ := (starts_iff o b).2 e; exact hw ⟨e1, .inr e2⟩
      rcases hl : a.str with _ | ⟨p, s⟩
      · exact .inl ⟨rfl, .inr (.inr (by simp))⟩
      rcases hr : b.str with _ | ⟨q, t⟩
      · exact .inl ⟨rfl, .inr (.inr (by simp))⟩
      dsimp only
      have key : ∀ P : Prop, (P ↔ SameName o s t) →
          (Joker o a ∨ Joker o b ∨ ∀ p' s' q' t', some (p, s) = some (p', s') → some (q, t) = some (q', t') →
            SameName o s' t') = P := by
        intro P hP
        apply propext
        rw [hP]
        constructor
        · rintro (e | e | e)
          · exact absurd e n1
          · exact absurd e n2
          · exact e p s q t rfl rfl
        · intro e
          refine .inr (.inr ?_)
          intro p' s' q' t' h1 h2
          simp only [Option.some.injEq, Prod.mk.injEq] at h1 h2
          rw [← h1.2, ← h2.2]; exact e
      by_cases hp : p = q
      · rw [if_pos hp]
        refine .inl ⟨rfl, ?_⟩
        rw [key _ Iff.rfl]
        have : s = t := hc a (by simp) b (by simp) p s t hl (hp ▸ hr)
        subst this
        unfold SameName; split <;> rfl
      · rw [if_neg hp]
        by_cases hcs : caseSensitive o = true
        · rw [if_pos hcs, key (s = t) (by unfold SameName; rw [if_pos (show o.getLsbD 5 = true from hcs)])]
          by_cases e : s = t
          · exact .inl ⟨by simp [e], e⟩
          · exact .inr ⟨by simp [e], e⟩
        · rw [if_neg hcs, key (s.map low = t.map low)
            (by unfold SameName; rw [if_neg (show ¬ o.getLsbD 5 = true from hcs)])]
          have ha := ha.resolve_left hcs
          rw [sameNoCase_iff s t (ha a (by simp) p s hl) (ha b (by simp) q t hr)]
          by_cases e : s.map low = t.map low
          · exact .inl ⟨by simp [e], e⟩
          · exact .inr ⟨by simp [e], e⟩
  · rw [if_neg h, if_neg h]
    unfold requireRel relRoot
    cases h7 : o.getLsbD 7
    · by_cases hr : a.ty ≠ 3 ∧ b.ty ≠ 3
      · rw [if_pos (.inr hr)]
        exact .inr ⟨rfl, fun ⟨_, e⟩ => e.elim hr.1 hr.2⟩
      · rw [if_neg (show ¬ (false = true ∨ a.ty ≠ 3 ∧ b.ty ≠ 3) from fun e => e.elim (fun h => by cases h) hr)]
        refine .inl ⟨rfl, rfl, ?_⟩
        by_cases e : a.ty = 3
        · exact .inl e
        · exact .inr (Classical.byContradiction fun e2 => hr ⟨e, e2⟩)
    · rw [if_pos (.inl rfl)]
      exact .inr ⟨rfl, by simp⟩

theorem consistent_sub {cs ds : List Comp} (h : Consistent cs) (hs : ∀ c ∈ ds, c ∈ cs) : Consistent ds :=
  fun a ha b hb => h a (hs a ha) b (hs b hb)

theorem loop_iff (o : BitVec 32) (l r : List Comp) (hc : Consistent (l ++ r))
    (ha : caseSensitive o = true ∨ Ascii (l ++ r)) :
    ∃ v, loop o l r = some v ∧ (v = true ↔ ∀ (k : Nat) x y, l[k]? = some x → r[k]? = some y → Agree o x y) := by
  induction l generalizing r with
  | nil => exact ⟨true, rfl, by simp⟩
  | cons a l ih =>
    cases r with
    | nil => exact ⟨true, rfl, by simp⟩
    | cons b r =>
      have hsub : ∀ c ∈ [a, b], c ∈ a :: l ++ b :: r := by
        intro c h
        rcases List.mem_cons.1 h with rfl | h
        · simp
        · rw [List.mem_singleton.1 h]; simp
      have hsub2 : ∀ c ∈ l ++ r, c ∈ a :: l ++ b :: r := by
        intro c h
        rcases List.mem_append.1 h with h | h
        · simp [h]
        · simp [h]
      have h1 := one_agree o a b (consistent_sub hc hsub) (ha.imp id fun h c hcm => h c (hsub c hcm))
      obtain ⟨v, hv, hiff⟩ := ih r (consistent_sub hc hsub2) (ha.imp id fun h c hcm => h c (hsub2 c hcm))
      unfold loop
      rcases h1 with ⟨e, hA⟩ | ⟨e, hA⟩
      · rw [e]
        refine ⟨v, hv, hiff.trans ?_⟩
        constructor
        · intro H k x y hx hy
          cases k with
          | zero => simp at hx hy; rw [← hx, ← hy]; exact hA
          | succ k => simp at hx hy; exact H k x y hx hy
        · intro H k x y hx hy
          exact H (k + 1) x y (by simpa using hx) (by simpa using hy)
      · rw [e]
        refine ⟨false, rfl, ?_⟩
        constructor
        · intro h; cases h
        · intro H; exact absurd (H 0 a b rfl rfl) hA

/-- **C68, what matching means.**  For names in ASCII, or when case matters: the call is defined, and the paths match if
and only if their components agree, compared from the end as far as both paths have components. -/
theorem C68_match_exact_partial (o : BitVec 32) (l r : List Comp) (hc : Consistent (l ++ r))
    (ha : o.getLsbD 5 = true ∨ Ascii (l ++ r)) :
    ∃ v, pathMatch l r o = some v ∧
      (v = true ↔ ∀ (k : Nat) x y, l.reverse[k]? = some x → r.reverse[k]? = some y → Agree o x y) := by
  refine loop_iff o _ _ (consistent_sub hc ?_) (ha.imp id fun h c hcm => h c ?_)
  · intro c h; simpa using h
  · simpa using hcm

/-- **C68, the other options have no effect.**  Only the name options - bits 5, 6, 7 and the wildcard - count. -/
theorem C68_other_options (l r : List Comp) (o o' : BitVec 32) (h : o &&& 0xFE0000E0#32 = o' &&& 0xFE0000E0#32) :
    pathMatch l r o = pathMatch l r o' := by
  have hb : ∀ i, (0xFE0000E0#32).getLsbD i = true → o.getLsbD i = o'.getLsbD i := by
    intro i hi
    have := congrArg (fun b => b.getLsbD i) h
    simp only [BitVec.getLsbD_and, hi, Bool.and_true] at this
    exact this
  have h5 : caseSensitive o = caseSensitive o' := hb 5 (by decide)
  have h6 : literal o = literal o' := hb 6 (by decide)
  have h7 : requireRel o = requireRel o' := hb 7 (by decide)
  have hs : o >>> 25 = o' >>> 25 := by
    apply BitVec.eq_of_getLsbD_eq
    intro i hi
    rw [BitVec.getLsbD_ushiftRight, BitVec.getLsbD_ushiftRight]
    by_cases hlt : i < 7
    · apply hb
      have : ∀ j : Fin 7, (0xFE0000E0#32).getLsbD (25 + j) = true := by decide
      exact this ⟨i, hlt⟩
    · rw [BitVec.getLsbD_of_ge _ _ (by omega), BitVec.getLsbD_of_ge _ _ (by omega)]
  have hw : wildcard o = wildcard o' := by unfold wildcard; rw [h6, hs]
  have h1 : ∀ a b, one o a b = one o' a b := by intro a b; unfold one; rw [hw, h5, h7]
  unfold pathMatch
  generalize l.reverse = l; generalize r.reverse = r
  induction l generalizing r with
  | nil => cases r <;> rfl
  | cons a l ih =>
    cases r with
    | nil => rfl
    | cons b r => unfold loop; rw [h1, ih r]

/-- **C68, components in front of the shorter path are not looked at.** -/
theorem C68_front_ignored (x l r : List Comp) (o : BitVec 32) (h : r.length ≤ l.length) :
    pathMatch (x ++ l) r o = pathMatch l r o := by
  unfold pathMatch
  rw [List.reverse_append]
  have key : ∀ (l r x : List Comp), r.length ≤ l.length → loop o (l ++ x) r = loop o l r := by
    intro l
    induction l with
    | nil => intro r x h; cases r with
      | nil => cases x <;> rfl
      | cons b r => simp at h
    | cons a l ih =>
      intro r x h
      cases r with
      | nil => rfl
      | cons b r =>
        rw [List.cons_append]
        unfold loop
        rw [ih r x (by simpa using h)]
  exact key _ _ _ (by simpa using h)

/-! ## Where the English claim fails -/

/-- **C68**: matching is not transitive: "a" and "b" both match the empty path but not each other. -/
theorem C68_transitive_refuted :
    pathMatch [⟨6, some (1, [97])⟩] [] 0 = some true ∧ pathMatch [] [⟨6, some (2, [98])⟩] 0 = some true ∧
    pathMatch [⟨6, some (1, [97])⟩] [⟨6, some (2, [98])⟩] 0 = some false := by decide +kernel

/-- **C68**: a wildcard stands for the whole name when it comes first and for nothing otherwise: "*a" matches "b", but "a*"
does not match "ab". -/
theorem C68_wildcard_refuted :
    pathMatch [⟨6, some (1, [42, 97])⟩] [⟨6, some (2, [98])⟩] 0 = some true ∧
    pathMatch [⟨6, some (1, [97, 42])⟩] [⟨6, some (2, [97, 98])⟩] 0 = some false := by decide +kernel

/-- **C68**: comparing names that are not ASCII without case calls `tolower` outside its domain. -/
theorem C68_non_ascii_refuted :
    pathMatch [⟨6, some (1, [195, 164])⟩] [⟨6, some (2, [195, 164])⟩] 0 = none := by decide +kernel

/-- The hypotheses: "A" and "a" match without case and not with it. -/
example : Consistent ([⟨6, some (1, [65])⟩] ++ [⟨6, some (2, [97])⟩]) ∧ Ascii ([⟨6, some (1, [65])⟩] ++ [⟨6, some (2, [97])⟩]) ∧
    pathMatch [⟨6, some (1, [65])⟩] [⟨6, some (2, [97])⟩] 0 = some true ∧
    pathMatch [⟨6, some (1, [65])⟩] [⟨6, some (2, [97])⟩] 32 = some false := by
  refine ⟨?_, ?_, by decide +kernel, by decide +kernel⟩
  · intro a ha b hb p s t h1 h2
    simp at ha hb
    rcases ha with rfl | rfl <;> rcases hb with rfl | rfl <;> simp at h1 h2 <;> first | omega | (rw [← h1.2, ← h2.2])
  · intro c hc p s h
    simp at hc
    rcases hc with rfl | rfl <;> simp at h <;> (obtain ⟨_, rfl⟩ := h; simp)

/-! ## Tagged pointers -/

/-- **C68, components as tagged pointers.**  A name at an address divisible by eight does not disturb the type, nor the
type the address. -/
theorem C68_tagged_pointer (ty addr : BitVec 64) (ht : ty.toNat < 8) (ha : addr.toNat % 8 = 0) :
    getType (create ty (some (some addr))) = ty ∧ getString (create ty (some (some addr))) = addr ∧
    getType (create ty none) = ty ∧ getString (create ty none) = 0 := by
  have h7 : ∀ i, (7 : BitVec 64).getLsbD i = decide (i < 3) := by
    intro i
    by_cases h : i < 64
    · have : ∀ j : Fin 64, (7 : BitVec 64).getLsbD j = decide ((j : Nat) < 3) := by decide
      exact this ⟨i, h⟩
    · rw [BitVec.getLsbD_of_ge _ _ (by omega)]; simp; omega
  have hty : ∀ i, 3 ≤ i → ty.getLsbD i = false := by
    intro i hi
    apply Nat.testBit_lt_two_pow
    exact Nat.lt_of_lt_of_le ht (Nat.pow_le_pow_right (by omega : 0 < 2) hi)
  have had : ∀ i, i < 3 → addr.getLsbD i = false := by
    intro i hi
    have : addr.toNat = 2 ^ 3 * (addr.toNat / 8) := by omega
    show addr.toNat.testBit i = false
    rw [this, Nat.testBit_two_pow_mul]
    simp; omega
  refine ⟨?_, ?_, ?_, ?_⟩ <;> apply BitVec.eq_of_getLsbD_eq <;> intro i hi <;>
    simp only [getType, getString, create, BitVec.getLsbD_and, BitVec.getLsbD_or, BitVec.getLsbD_not, h7, hi,
      decide_true, Bool.true_and]
  · by_cases h : i < 3
    · simp [h, had i h]
    · simp [h, hty i (by omega)]
  · by_cases h : i < 3
    · simp [h, had i h]
    · simp [h, hty i (by omega)]
  · by_cases h : i < 3
    · simp [h]
    · simp [h, hty i (by omega)]
  · by_cases h : i < 3
    · simp [h]
    · simp [h, hty i (by omega)]

/-- Its hypotheses: a file component named at address 4096. -/
example : (6 : BitVec 64).toNat < 8 ∧ (4096 : BitVec 64).toNat % 8 = 0 := by decide

#print axioms C68_symmetric
#print axioms C68_reflexive
#print axioms C68_match_exact_partial
#print axioms C68_other_options
#print axioms C68_front_ignored
#print axioms C68_transitive_refuted
#print axioms C68_wildcard_refuted
#print axioms C68_non_ascii_refuted
#print axioms C68_tagged_pointer

end Verif.PathMatch
