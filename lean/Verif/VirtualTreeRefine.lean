import Verif.VirtualTreeLemmas
/-!
# The virtual file system refines its specification
-/
namespace Verif.VirtualTree
open Verif.Path (Str Comp)
open Spec

theorem finish_real {fr : Nat} {o : Op} {w : Walk} {l : Loc} {name : Option Str} (hn : w.node = some (.real l))
    (hf : w.file = name) : finish fr o w = finish fr o ⟨w.t, some (.real l), name, []⟩ := by
  unfold finish; dsimp only; rw [hn, hf]

/-- What comes out, `res`, of a walk from `l` along `ds` to the file name `fs`. -/
def Core (f : FS) (l : Loc) (ds fs : List Comp) (o : Op) (inter : Bool) (res : Option (Tree × Option Nd)) : Prop :=
  ∃ t' f' r, Spec.walk (decide (o = .create) && inter) (decide (o = .create) && fs.isEmpty) f l ds = (f', r) ∧
    view t' = f' ∧
    match r with
    | none => res = some (t', none)
    | some l => (∀ b, view t' l ≠ some (.file b)) ∧ (fs ≠ [] → (nameOf fs).isSome) ∧
        res = if view t' l = some .dir then finish 0 o ⟨t', some (.real l), nameOf fs, []⟩ else some (t', none)

/-- The walk from a place. -/
theorem core_at (rel : Walk → Option Walk) (w : Walk) (l : Loc) (ds fs : List Comp) (o : Op) (inter : Bool) (h2 : At 0 w l)
    (hds : ∀ c ∈ ds, IsStep c) (hfs : fs = [] ∨ IsName fs) (hb : w.dirs.length + (ds ++ fs).length ≤ 128) :
    Core (view w.t) l ds fs o inter ((loop 0 rel o inter (ds ++ fs) w).bind (finish 0 o)) := by
  obtain ⟨f', r, hw, hres⟩ := loop_steps 0 rel o inter 128 (Nat.le_refl _) fs ds hds w l h2 hb
  cases r with
  | none =>
    obtain ⟨w', e1, e2, e3, e4⟩ := hres
    refine ⟨w'.t, f', none, hw, e4, ?_⟩
    dsimp only
    rw [e1, Option.bind_some]
    unfold finish
    rw [e2, e3]
    rfl
  | some l =>
    obtain ⟨w', e1, e2, e3, e4⟩ := hres
    have hnf : ∀ b, view w'.t l ≠ some (.file b) := by
      intro b
      have := e2.nofile l.length b
      rwa [List.take_length] at this
    rcases hfs with rfl | hfs
    · refine ⟨w'.t, f', some l, hw, e3, hnf, fun h => absurd rfl h, ?_⟩
      rw [e1, loop, Option.bind_some]
      by_cases hv : view w'.t l = some .dir
      · rw [if_pos hv]
        exact finish_real (by rw [e2.node, ndAt_real hv]) e2.file
      · rw [if_neg hv]
        unfold finish
        rw [e2.node, ndAt_fake hv, e2.file]
        rfl
    · obtain ⟨w'', g1, g2, g3⟩ := loop_name 0 rel o inter fs hfs w' l e2 e4
      have hne : (nameOf fs).isSome := by
        unfold IsName at hfs
        split at hfs
        · rfl
        · rfl
        · exact hfs.elim
      refine ⟨w'.t, f', some l, hw, e3, hnf, fun _ => hne, ?_⟩
      rw [e1, g1, Option.bind_some]
      by_cases hv : view w'.t l = some .dir
      · rw [if_pos hv] at g3
        rw [if_pos hv, ← g2]
        exact finish_real g3.1 g3.2.1
      · rw [if_neg hv] at g3
        rw [if_neg hv]
        unfold finish
        rw [g3]
        dsimp only
        rw [g2]
        cases w''.file <;> rfl

/-- What the function does with a path from the root. -/
theorem nodeOp_core (t : Tree) (cur hd ds fs : List Comp) (o : Op) (inter : Bool) (hr : view t [] = some .dir)
    (hh : IsHead hd) (hds : ∀ c ∈ ds, IsStep c) (hfs : fs = [] ∨ IsName fs) (hb : (hd ++ ds ++ fs).length ≤ 127) :
    Core (view t) [] ds fs o inter (nodeOp t cur (hd ++ ds ++ fs) o inter) := by
  obtain ⟨w, h1, h2, h3, h4⟩ := loop_head (relWalk cur o inter) o inter hd (ds ++ fs) hh t 0 hr
  have hop : nodeOp t cur (hd ++ ds ++ fs) o inter =
      (loop 0 (relWalk cur o inter) o inter (ds ++ fs) w).bind (finish 0 o) := by
    unfold nodeOp
    rw [List.append_assoc, h1]
    cases loop 0 (relWalk cur o inter) o inter (ds ++ fs) w <;> rfl
  rw [hop, ← h3]
  exact core_at _ w [] ds fs o inter h2 hds hfs (by rw [h4]; simp at hb ⊢; omega)

theorem walk_false (f : FS) (l : Loc) (ds : List Comp) : (Spec.walk false false f l ds).1 = f := by
  induction ds generalizing l with
  | nil => rfl
  | cons c ds ih =>
    cases c <;> (unfold Spec.walk; try exact ih _)
    split
    · exact ih _
    · rfl
    · rw [if_neg (by simp)]; exact ih _

/-- The file system has no entries below what is not a directory. -/
theorem parent_dir {t : Tree} {l : Loc} {n : Str} (h : (view t (l ++ [n])).isSome) : view t l = some .dir := by
  apply Classical.byContradiction
  intro hn
  rw [view_below t l n [] hn] at h
  cases h

theorem not_fake (fr : Nat) (l : Loc) :
    (if (some (Nd.real l) = some (Nd.fake fr)) then none else some (Nd.real l)) = some (Nd.real l) :=
  if_neg (by simp)

theorem finish_none {fr : Nat} {t : Tree} {l : Loc} {name : Option Str} (h : view t l = some .dir) :
    finish fr .none ⟨t, some (.real l), name, []⟩ =
      some (t, (match name with
        | none => some l
        | some n => if (view t (l ++ [n])).isSome then some (l ++ [n]) else none).map .real) := by
  obtain ⟨ks, hks⟩ := (view_dir_iff t l).1 h
  unfold finish
  cases name with
  | none => simp
  | some n =>
    have hch := view_child t l n ks hks
    simp only [not_fake, hks]
    cases hl : ks.lookup n with
    | none => rw [hl] at hch; rw [hch]; simp
    | some s => rw [hl] at hch; rw [hch]; simp

/-- **Finding.** -/
theorem find_refines (t : Tree) (ds fs : List Comp) (res : Option (Tree × Option Nd))
    (h : Core (view t) [] ds fs .none false res) :
    ∃ t', view t' = view t ∧ res = some (t', (find (view t) ds (nameOf fs)).map .real) := by
  obtain ⟨t', f', r, hw, hv, hres⟩ := h
  have e : (decide (Op.none = Op.create) && false) = false := rfl
  have e' : (decide (Op.none = Op.create) && fs.isEmpty) = false := rfl
  rw [e, e'] at hw
  have hf : f' = view t := by have := walk_false (view t) [] ds; rw [hw] at this; exact this
  subst hf
  refine ⟨t', hv, ?_⟩
  unfold find
  rw [hw]
  cases r with
  | none => exact hres
  | some l =>
    obtain ⟨h1, h2, h3⟩ := hres
    rw [h3, ← hv]
    by_cases hd : view t' l = some .dir
    · rw [if_pos hd, finish_none hd]
      cases nameOf fs with
      | none => simp [hd]
      | some n => rfl
    · rw [if_neg hd]
      cases hn : nameOf fs with
      | none => simp [hd]
      | some n => simp [view_below t' l n [] hd]

theorem finish_create {fr : Nat} {t : Tree} {l : Loc} {name : Option Str} (h : view t l = some .dir) :
    ∃ t' r, finish fr .create ⟨t, some (.real l), name, []⟩ = some (t', r) ∧
      match name with
      | none => t' = t ∧ r = some (.real l)
      | some n => r = some (.real (l ++ [n])) ∧
          view t' = if (view t (l ++ [n])).isSome then view t else add (view t) (l ++ [n]) (.file []) := by
  obtain ⟨ks, hks⟩ := (view_dir_iff t l).1 h
  unfold finish
  cases name with
  | none => exact ⟨t, some (.real l), by simp, rfl, rfl⟩
  | some n =>
    have hch := view_child t l n ks hks
    simp only [not_fake, hks]
    cases hl : ks.lookup n with
    | none =>
      rw [hl] at hch
      refine ⟨_, _, rfl, rfl, ?_⟩
      rw [view_put_new t l n (.file []) h hch (by intro m q; rfl), hch]
      rfl
    | some s =>
      rw [hl] at hch
      refine ⟨_, _, rfl, rfl, ?_⟩
      rw [hch]; simp

/-- **Creating.** -/
theorem create_refines (t : Tree) (ds fs : List Comp) (inter : Bool) (hfs : fs = [] ∨ IsName fs)
    (res : Option (Tree × Option Nd)) (h : Core (view t) [] ds fs .create inter res) :
    ∃ t', res = some (t', (Spec.create (view t) ds (nameOf fs) inter).2.map .real) ∧
      view t' = (Spec.create (view t) ds (nameOf fs) inter).1 := by
  obtain ⟨t', f', r, hw, hv, hres⟩ := h
  have e : (decide (Op.create = Op.create) && inter) = inter := by simp
  have e' : (decide (Op.create = Op.create) && fs.isEmpty) = (nameOf fs).isNone := by
    rcases hfs with rfl | hfs
    · rfl
    · unfold IsName at hfs
      split at hfs
      · rfl
      · rfl
      · exact hfs.elim
  rw [e, e'] at hw
  unfold Spec.create
  rw [hw]
  cases r with
  | none => exact ⟨t', hres, hv⟩
  | some l =>
    obtain ⟨h1, h2, h3⟩ := hres
    rw [h3, ← hv]
    by_cases hd : view t' l = some .dir
    · rw [if_pos hd]
      obtain ⟨u, r, hu, hm⟩ := finish_create (fr := 0) (name := nameOf fs) hd
      rw [hu]
      cases hn : nameOf fs with
      | none =>
        rw [hn] at hm
        obtain ⟨rfl, rfl⟩ := hm
        exact ⟨u, by simp [hd], rfl⟩
      | some n =>
        rw [hn] at hm
        obtain ⟨rfl, hvu⟩ := hm
        refine ⟨u, ?_, ?_⟩
        · dsimp only; split <;> simp [hd]
        · rw [hvu]; dsimp only; split <;> simp [hd]
    · rw [if_neg hd]
      refine ⟨t', ?_⟩
      cases hn : nameOf fs with
      | none => simp [hd]
      | some n => simp [hd, view_below t' l n [] hd]

theorem finish_remove {fr : Nat} {t : Tree} {l : Loc} {name : Option Str} (h : view t l = some .dir) :
    match name with
    | none => if l = [] then finish fr .remove ⟨t, some (.real l), name, []⟩ = none
        else ∃ t', finish fr .remove ⟨t, some (.real l), name, []⟩ = some (t', none) ∧ view t' = cut (view t) l
    | some n => ∃ t', finish fr .remove ⟨t, some (.real l), name, []⟩ = some (t', none) ∧ view t' = cut (view t) (l ++ [n]) := by
  obtain ⟨ks, hks⟩ := (view_dir_iff t l).1 h
  unfold finish
  cases name with
  | some n =>
    simp only [not_fake, hks]
    exact ⟨_, rfl, view_put_none t l n h⟩
  | none =>
    simp only [not_fake]
    by_cases hl : l = []
    · rw [if_pos hl]; subst hl; rfl
    · rw [if_neg hl]
      obtain ⟨q, n, rfl⟩ : ∃ q n, l = q ++ [n] := ⟨l.dropLast, l.getLast hl, (List.dropLast_concat_getLast hl).symm⟩
      rw [List.getLast?_concat, List.dropLast_concat]
      exact ⟨_, rfl, view_put_none t q n (parent_dir (by rw [h]; rfl))⟩

theorem cut_missing (t : Tree) (l : Loc) (h : view t l = none) : cut (view t) l = view t := by
  funext q
  unfold cut
  split
  · rename_i hp
    obtain ⟨r, rfl⟩ := hp
    cases r with
    | nil => rw [List.append_nil, h]
    | cons m r => rw [view_below t l m r (by rw [h]; simp)]
  · rfl

/-- **Removing.** -/
theorem remove_refines (t : Tree) (ds fs : List Comp) (res : Option (Tree × Option Nd))
    (h : Core (view t) [] ds fs .remove false res) :
    match Spec.remove (view t) ds (nameOf fs) with
    | none => res = none
    | some f' => ∃ t', res = some (t', none) ∧ view t' = f' := by
  obtain ⟨t', f', r, hw, hv, hres⟩ := h
  have e : (decide (Op.remove = Op.create) && false) = false := rfl
  have e' : (decide (Op.remove = Op.create) && fs.isEmpty) = false := rfl
  rw [e, e'] at hw
  have hf : f' = view t := by have := walk_false (view t) [] ds; rw [hw] at this; exact this
  subst hf
  unfold Spec.remove find
  rw [hw]
  cases r with
  | none => exact ⟨t', hres, hv⟩
  | some l =>
    obtain ⟨h1, h2, h3⟩ := hres
    rw [h3, ← hv]
    by_cases hd : view t' l = some .dir
    · rw [if_pos hd]
      have hfin := finish_remove (fr := 0) (name := nameOf fs) hd
      cases hn : nameOf fs with
      | none =>
        rw [hn] at hfin
        dsimp only at hfin ⊢
        rw [if_pos hd]
        by_cases hl : l = []
        · subst hl
          rw [if_pos rfl] at hfin
          exact hfin
        · rw [if_neg hl] at hfin
          cases l with
          | nil => exact absurd rfl hl
          | cons a l => exact hfin
      | some n =>
        rw [hn] at hfin
        obtain ⟨u, hu, hvu⟩ := hfin
        dsimp only
        by_cases hs : (view t' (l ++ [n])).isSome
        · rw [if_pos hs]
          have : ∃ a q, l ++ [n] = a :: q := by cases l <;> simp
          obtain ⟨a, q, haq⟩ := this
          rw [haq] at hvu ⊢
          exact ⟨u, hu, hvu⟩
        · rw [if_neg hs]
          refine ⟨u, hu, ?_⟩
          rw [hvu, cut_missing]
          cases hh : view t' (l ++ [n]) with
          | none => rfl
          | some x => rw [hh] at hs; exact absurd rfl hs
    · rw [if_neg hd]
      cases hn : nameOf fs with
      | none => simp only [hd, if_false]; exact ⟨t', rfl, rfl⟩
      | some n => simp only [view_below t' l n [] hd]; exact ⟨t', rfl, rfl⟩

/-! ## Facts about the specification -/

theorem add_old {f : FS} {l q : Loc} {e : Entry} (hl : f l = none) (x : Entry) (h : f q = some x) : add f l e q = some x := by
  unfold add
  rw [if_neg (by rintro rfl; rw [hl] at h; cases h)]
  exact h

theorem walk_old (mk ml : Bool) (ds : List Comp) (f : FS) (l q : Loc) (x : Entry) (h : f q = some x) :
    (Spec.walk mk ml f l ds).1 q = some x := by
  induction ds generalizing f l with
  | nil => exact h
  | cons c ds ih =>
    cases c <;> (unfold Spec.walk; try exact ih _ _ h)
    split
    · exact ih _ _ h
    · exact h
    · rename_i hn
      split
      · exact ih _ _ (add_old hn x h)
      · exact ih _ _ h

/-- The directories made are on the way, and only made when asked for. -/
theorem walk_new (mk ml : Bool) (ds : List Comp) (f : FS) (l q : Loc) (x : Entry) (hf : f q = none)
    (h : (Spec.walk mk ml f l ds).1 q = some x) :
    x = .dir ∧ (mk = true ∨ ml = true) ∧ ∃ k : Nat, 0 < k ∧ k ≤ ds.length ∧ q = norm l (ds.take k) ∧ (mk = true ∨ k = ds.length) := by
  induction ds generalizing f l with
  | nil => exact absurd (hf.symm.trans h) (by simp)
  | cons c ds ih =>
    have lift : ∀ l', norm l (c :: ds) = norm l' ds → (∀ k : Nat, norm l ((c :: ds).take (k + 1)) = norm l' (ds.take k)) →
        (x = .dir ∧ (mk = true ∨ ml = true) ∧ ∃ k : Nat, 0 < k ∧ k ≤ ds.length ∧ q = norm l' (ds.take k) ∧
          (mk = true ∨ k = ds.length)) →
        x = .dir ∧ (mk = true ∨ ml = true) ∧ ∃ k : Nat, 0 < k ∧ k ≤ (c :: ds).length ∧ q = norm l ((c :: ds).take k) ∧
          (mk = true ∨ k = (c :: ds).length) := by
      rintro l' - hk ⟨h1, h2, k, h3, h4, h5, h6⟩
      refine ⟨h1, h2, k + 1, by omega, by simp; omega, by rw [h5, hk], ?_⟩
      rcases h6 with h6 | h6
      · exact .inl h6
      · exact .inr (by simp [h6])
    cases c with
    | dir n =>
      rw [Spec.walk] at h
      split at h
      · exact lift (l ++ [n]) rfl (fun _ => rfl) (ih _ _ hf h)
      · exact absurd (hf.symm.trans h) (by simp)
      · rename_i hn
        split at h
        · rename_i hc
          by_cases hq : q = l ++ [n]
          · have he : add f (l ++ [n]) .dir q = some .dir := by unfold add; rw [if_pos hq]
            rw [walk_old mk ml ds _ (l ++ [n]) q .dir he] at h
            cases h
            have hm := hc.2
            rw [Bool.or_eq_true, Bool.and_eq_true] at hm
            refine ⟨rfl, hm.imp id And.left, 1, by omega, by simp, by rw [hq]; rfl, ?_⟩
            rcases hm with hm | ⟨-, hm⟩
            · exact .inl hm
            · exact .inr (by rw [List.isEmpty_iff] at hm; simp [hm])
          · exact lift (l ++ [n]) rfl (fun _ => rfl) (ih _ _ (by unfold add; rw [if_neg hq]; exact hf) h)
        · exact lift (l ++ [n]) rfl (fun _ => rfl) (ih _ _ hf h)
    | parent => exact lift l.dropLast rfl (fun _ => rfl) (ih _ _ hf h)
    | volume v => exact lift l rfl (fun _ => rfl) (ih _ _ hf h)
    | root => exact lift l rfl (fun _ => rfl) (ih _ _ hf h)
    | relRoot => exact lift l rfl (fun _ => rfl) (ih _ _ hf h)
    | file v => exact lift l rfl (fun _ => rfl) (ih _ _ hf h)
    | ext v => exact lift l rfl (fun _ => rfl) (ih _ _ hf h)

/-- Where the walk ends: where the components lead, unless a file is in the way. -/
theorem walk_end (mk ml : Bool) (ds : List Comp) (hds : ∀ c ∈ ds, IsStep c) (f : FS) (l m : Loc)
    (hf : ∀ j b, f (l.take j) ≠ some (.file b)) (hd : ∀ q n b, f (q ++ [n]) = some b → f q = some .dir) :
    (Spec.walk mk ml f l ds).2 = some m ↔
      (∀ k : Nat, ∀ b, f (norm l (ds.take k)) ≠ some (.file b)) ∧ m = norm l ds := by
  have hl : ∀ (f : FS) (l : Loc), (∀ j b, f (l.take j) ≠ some (.file b)) → ∀ b, f l ≠ some (.file b) := by
    intro f l h b
    have := h l.length b
    rwa [List.take_length] at this
  induction ds generalizing f l with
  | nil =>
    constructor
    · intro h
      unfold Spec.walk at h
      cases h
      exact ⟨fun k b => by rw [List.take_nil]; exact hl f _ hf b, rfl⟩
    · rintro ⟨-, rfl⟩; rfl
  | cons c ds ih =>
    have ih := fun f l => ih (fun d h => hds d (by simp [h])) f l
    have hc := hds c (by simp)
    have split0 : ∀ l', (∀ k : Nat, norm l ((c :: ds).take (k + 1)) = norm l' (ds.take k)) →
        ((∀ k : Nat, ∀ b, f (norm l ((c :: ds).take k)) ≠ some (.file b)) ↔
          ∀ k : Nat, ∀ b, f (norm l' (ds.take k)) ≠ some (.file b)) := by
      intro l' hk
      constructor
      · intro h k b; rw [← hk]; exact h (k + 1) b
      · intro h k b
        cases k with
        | zero => exact hl f l hf b
        | succ k => rw [hk]; exact h k b
    cases c with
    | dir n =>
      have down : ∀ f' : FS, (∀ b, f' (l ++ [n]) ≠ some (.file b)) → (∀ j b, f' (l.take j) ≠ some (.file b)) →
          ∀ j b, f' ((l ++ [n]).take j) ≠ some (.file b) := by
        intro f' h1 h2 j b
        by_cases hj : j ≤ l.length
        · rw [take_concat_le l n j hj]; exact h2 j b
        · rw [List.take_of_length_le (by simp; omega)]; exact h1 b
      rw [split0 (l ++ [n]) (fun _ => rfl), show norm l (.dir n :: ds) = norm (l ++ [n]) ds from rfl, Spec.walk]
      cases hv : f (l ++ [n]) with
      | none =>
        dsimp only
        split
        · rename_i hcnd
          have hadd : ∀ q b, (add f (l ++ [n]) .dir) q = some (.file b) ↔ f q = some (.file b) := by
            intro q b
            unfold add
            by_cases hq : q = l ++ [n]
            · rw [if_pos hq, hq, hv]; simp
            · rw [if_neg hq]
          refine (ih (add f (l ++ [n]) .dir) (l ++ [n]) (down _ (by intro b h; rw [hadd, hv] at h; cases h)
            (by intro j b h; rw [hadd] at h; exact hf j b h)) (by
            intro q m b h
            unfold add at h ⊢
            by_cases hq : q = l ++ [n]
            · rw [if_pos hq]
            · rw [if_neg hq]
              by_cases hq' : q ++ [m] = l ++ [n]
              · obtain ⟨rfl, -⟩ := List.append_inj' hq' rfl
                exact hcnd.1
              · rw [if_neg hq'] at h
                exact hd q m b h)).trans ?_
          simp only [ne_eq, hadd]
        · exact ih f (l ++ [n]) (down f (by rw [hv]; simp) hf) hd
      | some e =>
        cases e with
        | dir => exact ih f (l ++ [n]) (down f (by rw [hv]; simp) hf) hd
        | file b =>
          constructor
          · intro h; cases h
          · rintro ⟨h, -⟩
            exact absurd hv (h 0 b)
    | parent =>
      rw [split0 l.dropLast (fun _ => rfl), Spec.walk]
      exact ih f l.dropLast (by
        intro j b
        rw [List.dropLast_eq_take, List.take_take]
        exact hf _ b) hd
    | volume v => exact hc.elim
    | root => exact hc.elim
    | relRoot => exact hc.elim
    | file n => exact hc.elim
    | ext n => exact hc.elim

/-- With missing directories made, the walk ends in a directory. -/
theorem walk_made (ml : Bool) (ds : List Comp) (f : FS) (l m : Loc) (hf : ∀ j, f (l.take j) = some .dir)
    (h : (Spec.walk true ml f l ds).2 = some m) : (Spec.walk true ml f l ds).1 m = some .dir := by
  have hl : ∀ (f : FS) (l : Loc), (∀ j, f (l.take j) = some .dir) → f l = some .dir := by
    intro f l h
    have := h l.length
    rwa [List.take_length] at this
  induction ds generalizing f l with
  | nil => cases h; exact hl f _ hf
  | cons c ds ih =>
    cases c with
    | dir n =>
      have down : ∀ f' : FS, f' (l ++ [n]) = some .dir → (∀ j, f' (l.take j) = some .dir) →
          ∀ j, f' ((l ++ [n]).take j) = some .dir := by
        intro f' h1 h2 j
        by_cases hj : j ≤ l.length
        · rw [take_concat_le l n j hj]; exact h2 j
        · rw [List.take_of_length_le (by simp; omega)]; exact h1
      rw [Spec.walk] at h ⊢
      cases hv : f (l ++ [n]) with
      | none =>
        simp only [hv, hl f l hf, Bool.true_or, and_self, if_true] at h ⊢
        refine ih _ _ (down _ (by simp [add]) ?_) h
        intro j
        exact add_old hv _ (hf j)
      | some e =>
        cases e with
        | dir => simp only [hv] at h ⊢; exact ih f _ (down f hv hf) h
        | file b => simp only [hv] at h; cases h
    | parent =>
      rw [Spec.walk] at h ⊢
      exact ih f l.dropLast (by
        intro j
        rw [List.dropLast_eq_take, List.take_take]
        exact hf _) h
    | volume v => exact ih f l hf h
    | root => exact ih f l hf h
    | relRoot => exact ih f l hf h
    | file n => exact ih f l hf h
    | ext n => exact ih f l hf h

/-- Only the last directory is made. -/
theorem walk_last (ml : Bool) (f : FS) (l : Loc) (ds : List Comp) (c : Comp) :
    Spec.walk false ml f l (ds ++ [c]) =
      match (Spec.walk false false f l ds).2 with
      | none => (f, none)
      | some m => Spec.walk false ml f m [c] := by
  induction ds generalizing l with
  | nil => rfl
  | cons d ds ih =>
    rw [List.cons_append]
    cases d with
    | dir n =>
      rw [Spec.walk, Spec.walk]
      split
      · exact ih _
      · rfl
      · rw [if_neg (by cases ds <;> simp), if_neg (by simp)]; exact ih _
    | parent => exact ih _
    | volume n => exact ih _
    | root => exact ih _
    | relRoot => exact ih _
    | file n => exact ih _
    | ext n => exact ih _

end Verif.VirtualTree
