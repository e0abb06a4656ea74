import Verif.PtrMapSpec
import Verif.IndexMapProps
/-!
# The index map with elements stored by pointer: the heap and the loops
-/
namespace Verif.PtrMap
open IndexMap (Slot Res maxCount write load shift initLoop appendLoop cells)
variable {α : Type}

/-! ## The heap -/

/-- The reference count of an element. -/
def rc (h : Heap α) (p : Nat) : Nat := match h[p]? with
  | some (_, n) => n
  | none => 0

/-- The value of an element. -/
def val (h : Heap α) (p : Nat) : Option α := h[p]?.map Prod.fst

/-- Is it this pointer? -/
def one (p q : Nat) : Nat := if p = q then 1 else 0

theorem lt_of_rc {h : Heap α} {p : Nat} (hp : 0 < rc h p) : p < h.length := by
  rcases Nat.lt_or_ge p h.length with h1 | h1
  · exact h1
  · rw [rc, List.getElem?_eq_none h1] at hp; exact absurd hp (Nat.lt_irrefl 0)

theorem get_of_rc {h : Heap α} {p : Nat} (hp : 0 < rc h p) : ∃ x n, h[p]? = some (x, n + 1) ∧ rc h p = n + 1 := by
  have h1 := lt_of_rc hp
  have h2 : h[p]? = some h[p] := List.getElem?_eq_getElem h1
  rcases h3 : h[p] with ⟨x, n⟩
  rw [h3] at h2
  cases n with
  | zero => rw [rc, h2] at hp; exact absurd hp (Nat.lt_irrefl 0)
  | succ n => exact ⟨x, n, h2, by rw [rc, h2]⟩

theorem rc_set {h : Heap α} {p : Nat} (hp : p < h.length) (x : α) (n q : Nat) : rc (h.set p (x, n)) q = if p = q then n else rc h q := by
  rw [rc, List.getElem?_set]
  by_cases e : p = q
  · subst e; rw [if_pos rfl, if_pos hp, if_pos rfl]
  · rw [if_neg e, if_neg e, rc]

theorem val_set {h : Heap α} {p : Nat} {x : α} {m : Nat} (hp : h[p]? = some (x, m)) (n q : Nat) : val (h.set p (x, n)) q = val h q := by
  rw [val, val, List.getElem?_set]
  by_cases e : p = q
  · subst e
    have : p < h.length := by
      rcases Nat.lt_or_ge p h.length with h1 | h1
      · exact h1
      · rw [List.getElem?_eq_none h1] at hp; cases hp
    rw [if_pos rfl, if_pos this, hp]; rfl
  · rw [if_neg e]

theorem retain_spec {h : Heap α} {p : Nat} (hp : 0 < rc h p) :
    ∃ h', retain h p = some h' ∧ (∀ q, rc h' q = rc h q + one p q) ∧ (∀ q, val h' q = val h q) := by
  obtain ⟨x, n, h1, h2⟩ := get_of_rc hp
  refine ⟨h.set p (x, n + 2), by rw [retain, h1], fun q => ?_, fun q => val_set h1 _ q⟩
  rw [rc_set (lt_of_rc hp), one]
  split
  · rename_i e; subst e; omega
  · rfl

theorem free_spec {h : Heap α} {p : Nat} (hp : 0 < rc h p) :
    ∃ h', free h p = some h' ∧ (∀ q, rc h' q + one p q = rc h q) ∧ (∀ q, val h' q = val h q) := by
  obtain ⟨x, n, h1, h2⟩ := get_of_rc hp
  refine ⟨h.set p (x, n), by rw [free, h1], fun q => ?_, fun q => val_set h1 _ q⟩
  rw [rc_set (lt_of_rc hp), one]
  split
  · rename_i e; subst e; omega
  · rfl

theorem read_spec {h : Heap α} {p : Nat} (hp : 0 < rc h p) : ∃ x, read h p = some x ∧ val h p = some x := by
  obtain ⟨x, n, h1, h2⟩ := get_of_rc hp
  exact ⟨x, by rw [read, h1], by rw [val, h1]; rfl⟩

theorem new_rc (h : Heap α) (x : α) (q : Nat) : rc (new h x).1 q = rc h q + one h.length q := by
  simp only [new, rc, one]
  rcases Nat.lt_trichotomy q h.length with h1 | h1 | h1
  · rw [List.getElem?_append_left h1, if_neg (by omega)]; rfl
  · subst h1; simp
  · rw [List.getElem?_eq_none (by simp; omega), List.getElem?_eq_none (by omega), if_neg (by omega)]

theorem new_val (h : Heap α) (x : α) (q : Nat) (hq : q < h.length) : val (new h x).1 q = val h q := by
  simp only [new, val]; rw [List.getElem?_append_left hq]

theorem new_val_self (h : Heap α) (x : α) : val (new h x).1 h.length = some x := by simp [new, val]

theorem count_cons_one (p : Nat) (L : List Nat) (q : Nat) : (p :: L).count q = L.count q + one p q := by
  rw [List.count_cons, one]; simp [beq_iff_eq]

/-! ## The loops -/

/-- The pointers in a buffer. -/
def ptrs (b : List (Slot Nat)) : List Nat := b.filterMap fun | .set p => some p | _ => none

theorem ptrs_cells (ps : List Nat) (max : Nat) : ptrs (cells ps max) = ps := by
  rw [ptrs, cells, List.filterMap_append, List.filterMap_map]
  have h1 : ∀ l : List Nat, List.filterMap ((fun | Slot.set p => some p | _ => none) ∘ Slot.set) l = l := by
    intro l; induction l with
    | nil => rfl
    | cons a l ih => rw [List.filterMap_cons]; simp only [Function.comp]; rw [ih]
  have h2 : ∀ n, List.filterMap (fun | Slot.set p => some p | _ => none) (List.replicate n (Slot.unset : Slot Nat)) = [] := by
    intro n; induction n with
    | zero => rfl
    | succ n ih => rw [List.replicate_succ, List.filterMap_cons]; exact ih
  rw [h1, h2, List.append_nil]

theorem cleanup_spec (n : Nat) : ∀ (h : Heap α) (b : List (Slot Nat)) (i : Nat), b.length = i + n → (∀ j, i ≤ j → b[j]? ≠ some .raw) →
    (∀ q, (ptrs (b.drop i)).count q ≤ rc h q) →
    ∃ h', cleanup h b i n = some h' ∧ (∀ q, rc h' q + (ptrs (b.drop i)).count q = rc h q) ∧ (∀ q, val h' q = val h q) := by
  induction n with
  | zero =>
    intro h b i hb _ _
    refine ⟨h, rfl, fun q => ?_, fun _ => rfl⟩
    rw [List.drop_of_length_le (by omega)]; rfl
  | succ n ih =>
    intro h b i hb hraw hc
    have hi : i < b.length := by omega
    have hg : b[i]? = some b[i] := List.getElem?_eq_getElem hi
    have hd : b.drop i = b[i] :: b.drop (i + 1) := List.drop_eq_getElem_cons hi
    have hr := hraw i (Nat.le_refl i)
    rw [hd] at hc ⊢
    rw [hg] at hr
    rw [cleanup, load, hg]
    cases hbi : b[i] with
    | raw => rw [hbi] at hr; exact absurd rfl hr
    | unset =>
      rw [hbi] at hc
      obtain ⟨h', h1, h2, h3⟩ := ih h b (i + 1) (by omega) (fun j hj => hraw j (by omega)) hc
      exact ⟨h', h1, h2, h3⟩
    | set p =>
      rw [hbi] at hc
      have hpt : ∀ l, ptrs (.set p :: l) = p :: ptrs l := fun l => rfl
      rw [hpt] at hc ⊢
      have hp : 0 < rc h p := by have := hc p; rw [count_cons_one, one, if_pos rfl] at this; omega
      obtain ⟨h0, f1, f2, f3⟩ := free_spec hp
      obtain ⟨h', h1, h2, h3⟩ := ih h0 b (i + 1) (by omega) (fun j hj => hraw j (by omega))
        (fun q => by have := hc q; have := f2 q; rw [count_cons_one] at *; omega)
      refine ⟨h', ?_, fun q => ?_, fun q => (h3 q).trans (f3 q)⟩
      · simp only [Option.bind_eq_bind, Option.bind_some]; rw [f1]; exact h1
      · have := h2 q; have := f2 q; rw [count_cons_one]; omega

/-- Data with the pointers `ps`. -/
def dat (chunk : Nat) (ps : List Nat) : Data := ⟨ps.length, cells ps (maxCount chunk ps.length)⟩

theorem cells_raw {ps : List Nat} {max : Nat} (h : ps.length ≤ max) (j : Nat) : (cells ps max)[j]? ≠ some .raw := by
  rw [IndexMap.cells_get h]
  split
  · simp
  · split <;> simp

theorem freeData_spec {chunk : Nat} (hc : 0 < chunk) {h : Heap α} {ps : List Nat} (hp : ∀ q, ps.count q ≤ rc h q) :
    ∃ h', freeData chunk h (dat chunk ps) = some h' ∧ (∀ q, rc h' q + ps.count q = rc h q) ∧ (∀ q, val h' q = val h q) := by
  have hle := IndexMap.le_maxCount hc ps.length
  have := cleanup_spec (maxCount chunk ps.length) h (cells ps (maxCount chunk ps.length)) 0 (by rw [IndexMap.cells_length hle]; omega)
    (fun j _ => cells_raw hle j) (by rw [List.drop_zero, ptrs_cells]; exact hp)
  rw [List.drop_zero, ptrs_cells] at this
  exact this

theorem copyLoop_eq {src : List (Slot Nat)} {skip extra : Option Nat} {S : Nat → Nat} (n : Nat) : ∀ (h : Heap α) (b b' : List (Slot Nat)) (loop : Nat),
    (∀ k, loop ≤ k → k < loop + n → load src (shift k skip) = some (.set (S k))) → IndexMap.copyLoop src b skip extra loop n = some b' →
    (∀ k, loop ≤ k → k < loop + n → 0 < rc h (S k)) →
    ∃ h', copyLoop h src b skip extra loop n = some (h', b') ∧ (∀ q, rc h' q = rc h q + ((List.range' loop n).map S).count q) ∧ (∀ q, val h' q = val h q) := by
  induction n with
  | zero =>
    intro h b b' loop _ hb _
    rw [IndexMap.copyLoop] at hb
    exact ⟨h, by rw [copyLoop, Option.some.inj hb], fun q => rfl, fun _ => rfl⟩
  | succ n ih =>
    intro h b b' loop hs hb hp
    have h0 := hs loop (by omega) (by omega)
    obtain ⟨h1, r1, r2, r3⟩ := retain_spec (hp loop (by omega) (by omega))
    rw [IndexMap.copyLoop, h0] at hb
    simp only [Option.bind_eq_bind, Option.bind_some] at hb
    cases hw : write b (shift loop extra) (.set (S loop)) with
    | none => rw [hw] at hb; cases hb
    | some b1 =>
      rw [hw] at hb
      obtain ⟨h', e1, e2, e3⟩ := ih h1 b1 b' (loop + 1) (fun k _ _ => hs k (by omega) (by omega)) hb
        (fun k _ _ => by rw [r2]; have := hp k (by omega) (by omega); omega)
      refine ⟨h', ?_, fun q => ?_, fun q => (e3 q).trans (r3 q)⟩
      · rw [copyLoop, h0]
        simp only [Option.bind_eq_bind, Option.bind_some]
        rw [r1, hw]; exact e1
      · rw [e2, r2, List.range'_succ, List.map_cons, count_cons_one]; omega

theorem resize_eq {h : Heap α} {src : List (Slot Nat)} {count max : Nat} {skip extra : Option Nat} {b : List (Slot Nat)} {c : Nat} {L : List Nat}
    (hr : IndexMap.resize src count max skip extra = some (b, c)) (hl : L.length = count)
    (hs : ∀ k (hk : k < L.length), load src (shift k skip) = some (.set L[k])) (hp : ∀ p ∈ L, 0 < rc h p) :
    ∃ h', resize h src count max skip extra = some (h', ⟨c, b⟩) ∧ (∀ q, rc h' q = rc h q + L.count q) ∧ (∀ q, val h' q = val h q) := by
  subst hl
  rw [IndexMap.resize] at hr
  cases h1 : IndexMap.copyLoop src (List.replicate max .raw) skip extra 0 L.length with
  | none => rw [h1] at hr; cases hr
  | some b1 =>
    rw [h1] at hr
    simp only [Option.bind_eq_bind, Option.bind_some] at hr
    have hS : ∀ k (hk : k < L.length), L[k]?.getD 0 = L[k] := fun k hk => by rw [List.getElem?_eq_getElem hk]; rfl
    obtain ⟨h', e1, e2, e3⟩ := copyLoop_eq (S := fun k => L[k]?.getD 0) L.length h _ b1 0
      (fun k _ hk => by rw [hS k (by omega)]; exact hs k (by omega)) h1
      (fun k _ hk => by rw [hS k (by omega)]; exact hp _ (List.getElem_mem _))
    refine ⟨h', ?_, fun q => ?_, e3⟩
    · rw [resize, e1]
      simp only [Option.bind_eq_bind, Option.bind_some]
      cases h2 : initLoop b1 (shift L.length extra) (max - shift L.length extra) with
      | none => rw [h2] at hr; cases hr
      | some b2 =>
        rw [h2] at hr
        simp only [Option.bind_some, Option.pure_def, Option.some.injEq, Prod.mk.injEq] at hr ⊢
        rw [hr.1, hr.2]; exact ⟨trivial, rfl⟩
    · have hL : (List.range' 0 L.length).map (fun k => L[k]?.getD 0) = L := by
        apply List.ext_getElem (by simp)
        intro k hk1 hk2
        rw [List.getElem_map, List.getElem_range']
        rw [show 0 + 1 * k = k by omega, hS k hk2]
      rw [e2, hL]

end Verif.PtrMap
