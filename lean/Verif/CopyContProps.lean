import Verif.CopyContLemmas
/-!
# C101: copying data with containers
-/
namespace Verif.CopyCont

theorem copy_cont (k : Kind) (e : Ty) (p : Nat) (h : Heap) : copy (.cont k e) (.ptr p) h =
    (readSeq h p).bind fun vs => (copyAll (copy e) vs h).bind fun r => (make k r.2 r.1).bind fun m =>
      (match m.2 with | .ptr q => (retain m.1 q).bind fun h => free h q | _ => some m.1).bind fun h =>
        (each (destroy e) r.2 h).bind fun h => some (h, m.2) := by
  simp only [copy, Option.bind_eq_bind]
  rfl

/-- C101.  Whenever copying data returns, the copy has the same contents as the original, which is unchanged; and the references to
every object have become as many more as the copy holds, less one for every pointer in an element of one of its containers. -/
theorem C101_count_exact (t : Ty) (v v' : Val) (h h' : Heap) (hf : Fits h t v) (hc : copy t v h = some (h', v')) :
    content h' t v' = content h t v ∧ content h' t v = content h t v ∧
    ∀ q, count h' q + (inElements h' t v').count q = count h q + (held h' t v').count q := by
  have c := copy_spec t _ _ _ _ hc hf
  exact ⟨c.content, (same c.ext t v hf).content, c.count⟩

/-- C101.  The references are as many more as the copy holds just when no element of a container in the data has a pointer. -/
theorem C101_right_exact (t : Ty) (v v' : Val) (h h' : Heap) (hf : Fits h t v) (hc : copy t v h = some (h', v')) :
    (∀ q, count h' q = count h q + (held h' t v').count q) ↔ inElements h t v = [] := by
  have c := copy_spec t _ _ _ _ hc hf
  rw [← List.length_eq_zero_iff, ← c.len.1, List.length_eq_zero_iff]
  constructor
  · intro hq
    apply List.eq_nil_iff_forall_not_mem.2
    intro q hm
    have h1 := c.count q
    have h2 := hq q
    have := List.count_pos_iff.2 hm
    omega
  · intro e q
    have h1 := c.count q
    rw [e] at h1
    simpa using h1

/-- C101 for data whose containers have elements without pointers (numbers, strings, containers and structures of these), when
nothing that it holds is freed and no array in it is empty: copying returns; the copy has the same contents, and it holds exactly
one more reference for every pointer, string and container in it, so that it stays alive when everything that the original holds
is released.  Missing: elements with pointers (`C101_owned_refuted`, `C101_weak_refuted`) and empty arrays
(`C101_empty_refuted`). -/
theorem C101_copy_partial (t : Ty) (v : Val) (h : Heap) (hs : Simple t) (hf : Fits h t v) (hl : Alive h t v) (hn : NoEmptyArray h t v) :
    ∃ h' v', copy t v h = some (h', v') ∧ content h' t v' = content h t v ∧ content h' t v = content h t v ∧
      (∀ q, count h' q = count h q + (held h' t v').count q) ∧ Alive h' t v' ∧
      ((∀ q, (held h t v).count q ≤ count h q) → ∀ q ∈ held h' t v', (held h t v).count q < count h' q) := by
  obtain ⟨h', v', e⟩ := copy_some t v h hs hf hl hn
  have c := copy_spec t _ _ _ _ e hf
  have hq := (C101_right_exact t v v' h h' hf e).2 (simple_none h t v hs)
  refine ⟨h', v', e, c.content, (same c.ext t v hf).content, hq, fun p hp => ?_, fun hc q hm => ?_⟩
  · have := hq p
    have := List.count_pos_iff.2 hp
    omega
  · have := hq q
    have := List.count_pos_iff.2 hm
    have := hc q
    omega

/-- C101.  The memory of the copy is its own: an address that it holds and that was not given out before is held once, by it. -/
theorem C101_fresh (t : Ty) (v v' : Val) (h h' : Heap) (hf : Fits h t v) (hc : copy t v h = some (h', v')) (q : Nat) (hq : h.length ≤ q) :
    (held h' t v').count q ≤ 1 := (fresh t v h h h' v' hc hf (Extends.refl h) q hq).2

/-- C101 fails for elements that own what they point to: in the copy of a container of such pointers every one is freed. -/
theorem C101_owned_refuted (k : Kind) (o : Own) (ho : o ≠ .weak) (t : Ty) (p c : Nat) (h h' : Heap)
    (hf : Fits h (.cont k (.ptr o t)) (.ptr p)) (hc : copy (.cont k (.ptr o t)) (.ptr p) h = some (h', .ptr c)) :
    (elements h' c).length = (elements h p).length ∧
    ∀ x ∈ elements h' c, x = .null ∨ ∃ q, x = .ptr q ∧ h.length ≤ q ∧ count h' q = 0 := by
  have cc := copy_spec _ _ _ _ _ hc hf
  have fr := fresh _ _ _ _ _ _ hc hf (Extends.refl h)
  have hlen : (elements h' c).length = (elements h p).length := by
    have := cc.content
    simp only [content, Tree.seq.injEq] at this
    simpa using congrArg List.length this
  refine ⟨hlen, fun x hx => ?_⟩
  have new_elem : ∀ q, x = .ptr q → h.length ≤ q := by
    rintro q rfl
    rcases hf with hf | ⟨p', xs, n, e, hp, -, hf⟩
    · cases hf
    cases e
    simp only [copy_cont, Option.bind_eq_some_iff] at hc
    obtain ⟨ys, e0, ⟨h1, xs'⟩, e1, ⟨h2, c'⟩, e2, h3, e3, h4, e4, e5⟩ := hc
    dsimp only at e2 e3 e4
    simp only [Option.some.injEq, Prod.mk.injEq] at e5
    obtain ⟨rfl, rfl⟩ := e5
    obtain ⟨m, e0⟩ := readSeq_some e0
    rw [hp] at e0; cases e0
    rcases make_spec e2 with ⟨rfl, hh⟩ | ⟨-, hh, -⟩
    · cases hh
      obtain ⟨h5, e5, e6⟩ := Option.bind_eq_some_iff.1 e3
      have e7 : (new h1 (.seq xs')).1[h1.length]? = some ⟨.seq xs', 1⟩ := by simp [new]
      obtain ⟨m', e8⟩ := ((retain_spec e5).1.trans ((free_spec e6).1.trans (each_spec _ _ _ _ e4).1)) _ _ e7
      rw [elements_at e8] at hx
      have all : ∀ (vs : List Val) (g g' : Heap) (ws : List Val), copyAll (copy (.ptr o t)) vs g = some (g', ws) → h.length ≤ g.length →
          (∀ v ∈ vs, Fits g (.ptr o t) v) → ∀ q, .ptr q ∈ ws → h.length ≤ q := by
        intro vs
        induction vs with
        | nil => intro g g' ws e _ _ q hq; cases e; simp at hq
        | cons y vs ihv =>
          intro g g' ws e hg f q hq
          simp only [copyAll, Option.bind_eq_bind, Option.bind_eq_some_iff] at e
          obtain ⟨⟨g1, w⟩, e1, ⟨g2, ws⟩, e2, e3⟩ := e
          cases e3
          dsimp only at e2
          have ca := copy_spec _ _ _ _ _ e1 (f y (by simp))
          rcases List.mem_cons.1 hq with hq | hq
          · cases y with
            | ptr r =>
              simp only [copy, if_neg ho, Option.bind_eq_bind, Option.bind_eq_some_iff] at e1
              obtain ⟨z, e0, ⟨g3, z'⟩, e4, e5⟩ := e1
              simp only [Option.some.injEq, Prod.mk.injEq] at e5
              have e6 := e5.2
              dsimp only at hq
              rw [← hq] at e6
              simp only [new, Val.ptr.injEq] at e6
              have fr := f (.ptr r) (by simp)
              have : Fits g t z := by
                obtain ⟨m, e0⟩ := readCell_some e0
                have key : (Val.ptr r = .null ∨ ∃ p x n, Val.ptr r = .ptr p ∧ g[p]? = some ⟨.cell x, n⟩ ∧ Fits g t x) → Fits g t z := by
                  rintro (h | ⟨p, x, n, h, h', h''⟩)
                  · cases h
                  · cases h; rw [e0] at h'; cases h'; exact h''
                cases o with
                | weak => exact absurd rfl ho
                | _ => exact key fr
              have := (copy_spec _ _ _ _ _ e4 this).ext.le
              omega
            | num n => simp only [copy] at e1; cases e1; cases hq
            | null => simp only [copy] at e1; cases e1; cases hq
            | pair a b => simp only [copy] at e1; cases e1; cases hq
          · exact ihv _ _ _ e2 (Nat.le_trans hg ca.ext.le) (fun v hv => (same ca.ext _ v (f v (by simp [hv]))).fits) q hq
      exact all _ _ _ _ e1 (Nat.le_refl _) hf q hx
    · cases hh
  have hfx : Fits h' (.ptr o t) x := by
    rcases cc.fits with h1 | ⟨p', xs, n, e, hp, -, hf⟩
    · cases h1
    · cases e
      rw [elements_at hp] at hx
      exact hf x hx
  have hx' : x = .null ∨ ∃ q, x = .ptr q := by
    have key : (x = .null ∨ ∃ p y n, x = .ptr p ∧ h'[p]? = some ⟨.cell y, n⟩ ∧ Fits h' t y) → x = .null ∨ ∃ q, x = .ptr q := by
      rintro (h | ⟨p, _, _, h, _⟩)
      · exact Or.inl h
      · exact Or.inr ⟨p, h⟩
    cases o with
    | weak => exact absurd rfl ho
    | _ => exact key hfx
  rcases hx' with rfl | ⟨q, rfl⟩
  · exact Or.inl rfl
  · have hq := new_elem q rfl
    refine Or.inr ⟨q, rfl, hq, ?_⟩
    have h1 := cc.count q
    have h2 := (fr q hq).2
    have h3 : 0 < (inElements h' (.cont k (.ptr o t)) (.ptr c)).count q := by
      apply List.count_pos_iff.2
      simp only [inElements]
      exact List.mem_flatMap.2 ⟨.ptr q, hx, by simp [direct]⟩
    have h4 : count h q = 0 := by rw [count, List.getElem?_eq_none hq]
    omega

/-- C101 fails for elements that do not own what they point to: copying a container of such pointers takes away a reference of every
target, which somebody else owns. -/
theorem C101_weak_refuted (k : Kind) (t : Ty) (p c : Nat) (h h' : Heap)
    (hf : Fits h (.cont k (.ptr .weak t)) (.ptr p)) (hc : copy (.cont k (.ptr .weak t)) (.ptr p) h = some (h', .ptr c)) :
    c = h.length ∧ count h' c = 1 ∧ ∀ q, q < h.length → count h' q + (elements h p).count (.ptr q) = count h q := by
  rcases hf with hf | ⟨p', xs, n, e, hp, hl, hf⟩
  · cases hf
  cases e
  have cc := copy_spec _ _ _ _ _ hc (Or.inr ⟨p, xs, n, rfl, hp, hl, hf⟩)
  simp only [copy_cont, Option.bind_eq_some_iff] at hc
  obtain ⟨ys, e0, ⟨h1, xs'⟩, e1, ⟨h2, c'⟩, e2, h3, e3, h4, e4, e5⟩ := hc
  dsimp only at e2 e3 e4
  simp only [Option.some.injEq, Prod.mk.injEq] at e5
  obtain ⟨rfl, rfl⟩ := e5
  obtain ⟨m, e0⟩ := readSeq_some e0
  rw [hp] at e0; cases e0
  have all : ∀ (vs : List Val), (∀ v ∈ vs, Fits h (.ptr .weak t) v) → copyAll (copy (.ptr .weak t)) vs h = some (h, vs) := by
    intro vs
    induction vs with
    | nil => intro _; rfl
    | cons y vs ihv =>
      intro f
      have e : copy (.ptr .weak t) y h = some (h, y) := by
        rcases f y (by simp) with rfl | ⟨q, rfl, _⟩ <;> simp [copy]
      simp [copyAll, e, ihv (fun v hv => f v (by simp [hv]))]
  rw [all xs hf] at e1
  cases e1
  rcases make_spec e2 with ⟨rfl, hh⟩ | ⟨-, hh, -⟩
  · cases hh
    obtain ⟨h5, e5, e6⟩ := Option.bind_eq_some_iff.1 e3
    obtain ⟨d1, d2⟩ := each_spec _ _ _ _ e4
    have e7 : (new h (.seq xs)).1[h.length]? = some ⟨.seq xs, 1⟩ := by simp [new]
    obtain ⟨m', e8⟩ := ((retain_spec e5).1.trans ((free_spec e6).1.trans d1)) _ _ e7
    have cnt : ∀ q, count h4 q + (xs.flatMap (direct (.ptr .weak t))).count q = count h q + [h.length].count q := by
      intro q
      have := count_new h (.seq xs) q
      have := (retain_spec e5).2 q
      have := (free_spec e6).2 q
      have := d2 q
      omega
    have conv : ∀ (vs : List Val) q, (vs.flatMap (direct (.ptr .weak t))).count q = vs.count (.ptr q) := by
      intro vs q
      induction vs with
      | nil => rfl
      | cons y vs ihv =>
        rw [List.flatMap_cons, List.count_append, ihv, List.count_cons]
        cases y with
        | ptr r =>
          by_cases hr : r = q
          · subst hr; simp [direct]; omega
          · simp [direct, List.count_cons, hr]
        | _ => simp [direct]
    refine ⟨rfl, ?_, fun q hq => ?_⟩
    · have h1 := cnt h.length
      rw [conv, List.count_eq_zero.2, List.count_singleton_self] at h1
      · have : count h h.length = 0 := by rw [count, List.getElem?_eq_none (Nat.le_refl _)]
        omega
      · intro hm
        rcases hf _ hm with h1 | ⟨q, h1, h2⟩
        · cases h1
        · cases h1; omega
    · have h1 := cnt q
      rw [conv, List.count_cons_of_ne (by omega), List.count_nil] at h1
      rw [elements_at hp]; exact h1
  · cases hh

/-- C101 fails for empty arrays: an assertion fails. -/
theorem C101_empty_refuted (t : Ty) (p : Nat) (h : Heap) (hp : elements h p = []) : copy (.cont .array t) (.ptr p) h = none := by
  simp only [copy, Option.bind_eq_bind]
  cases e : readSeq h p with
  | none => rfl
  | some xs =>
    obtain ⟨n, e1⟩ := readSeq_some e
    rw [elements_at e1] at hp
    subst hp
    rfl

/-- C101.  Sharing a container gives the same container, with one more reference; transferring it just the container. -/
theorem C101_share (p : Nat) (h : Heap) (hl : 0 < count h p) :
    (∃ h', share (.ptr p) h = some (h', .ptr p) ∧ Extends h h' ∧ ∀ q, count h' q = count h q + [p].count q) ∧
    transfer (.ptr p) h = some (h, .ptr p) ∧ share .null h = some (h, .null) := by
  obtain ⟨h', e⟩ := retain_some hl
  exact ⟨⟨h', by simp [share, e], (retain_spec e).1, (retain_spec e).2⟩, rfl, rfl⟩

/-! ## The hypotheses are met -/

/-- A list of an array of strings and a pointer that owns a number. -/
def exTy : Ty := .pair (.cont .list (.cont .array .str)) (.ptr .transfer .num)

/-- Its memory: two strings, the array, the list, the number. -/
def exHeap : Heap := [⟨.text 7, 1⟩, ⟨.text 8, 2⟩, ⟨.seq [.ptr 0, .ptr 1, .num 5], 1⟩, ⟨.seq [.ptr 2], 1⟩, ⟨.cell (.num 6), 1⟩]

/-- The list and the pointer. -/
def exVal : Val := .pair (.ptr 3) (.ptr 4)

example : Simple exTy ∧ Fits exHeap exTy exVal ∧ Alive exHeap exTy exVal ∧ NoEmptyArray exHeap exTy exVal ∧
    (∀ q, (held exHeap exTy exVal).count q ≤ count exHeap q) := by
  refine ⟨by simp [Simple, exTy, NoPointer], ?_, by unfold Alive; decide, ?_, ?_⟩
  · refine ⟨.ptr 3, .ptr 4, rfl, Or.inr ⟨3, [.ptr 2], 1, rfl, rfl, by simp, fun x hx => ?_⟩, Or.inr ⟨4, .num 6, 1, rfl, rfl, 6, rfl⟩⟩
    simp at hx; subst hx
    refine Or.inr ⟨2, [.ptr 0, .ptr 1, .num 5], 1, rfl, rfl, by simp, fun x hx => ?_⟩
    simp at hx
    rcases hx with rfl | rfl | rfl
    · exact Or.inr ⟨0, 7, 1, rfl, rfl⟩
    · exact Or.inr ⟨1, 8, 2, rfl, rfl⟩
    · exact Or.inl ⟨5, rfl⟩
  · simp [NoEmptyArray, exTy, exVal, elements, exHeap, target]
  · intro q
    have e : held exHeap exTy exVal = [3, 2, 0, 1, 4] := by decide
    rw [e]
    match q with
    | 0 => decide
    | 1 => decide
    | 2 => decide
    | 3 => decide
    | 4 => decide
    | q + 5 => simp [List.count_cons]

example : copy exTy exVal exHeap = some
    ([⟨.text 7, 2⟩, ⟨.text 8, 3⟩, ⟨.seq [.ptr 0, .ptr 1, .num 5], 1⟩, ⟨.seq [.ptr 2], 1⟩, ⟨.cell (.num 6), 1⟩,
      ⟨.seq [.ptr 0, .ptr 1, .num 5], 1⟩, ⟨.seq [.ptr 5], 1⟩, ⟨.cell (.num 6), 1⟩], .pair (.ptr 6) (.ptr 7)) := by decide

/-- Pointers that own: copying returns, and the copied element is freed. -/
example : copy (.cont .list (.ptr .transfer .num)) (.ptr 1) [⟨.cell (.num 6), 1⟩, ⟨.seq [.ptr 0], 1⟩] = some
    ([⟨.cell (.num 6), 1⟩, ⟨.seq [.ptr 0], 1⟩, ⟨.cell (.num 6), 0⟩, ⟨.seq [.ptr 2], 1⟩], .ptr 3) := by decide

/-- Pointers that do not own: copying returns, and the target is freed. -/
example : copy (.cont .array (.ptr .weak .num)) (.ptr 1) [⟨.cell (.num 6), 1⟩, ⟨.seq [.ptr 0], 1⟩] = some
    ([⟨.cell (.num 6), 0⟩, ⟨.seq [.ptr 0], 1⟩, ⟨.seq [.ptr 0], 1⟩], .ptr 2) := by decide

#print axioms C101_count_exact
#print axioms C101_right_exact
#print axioms C101_copy_partial
#print axioms C101_fresh
#print axioms C101_owned_refuted
#print axioms C101_weak_refuted
#print axioms C101_empty_refuted
#print axioms C101_share

end Verif.CopyCont
