import Verif.VirtualTreeRel
/-!
# C70: the virtual file system

`view t` says what is at each location of the tree `t`; `Means p ds fs` that the path `p` goes from the root along the
directories and parents `ds` to the file name `fs` (a directory when empty) and has at most 127 components; `target` where
that is; `Clear` that no file is used as a directory on the way; `There` that it is there (VirtualTreeSpec.lean).
-/
namespace Verif.VirtualTree
open Verif.Path (Str Comp)
open Spec

theorem view_closed (t : Tree) (q : Loc) (n : Str) (b : Entry) (h : view t (q ++ [n]) = some b) : view t q = some .dir :=
  parent_dir (by rw [h]; rfl)

theorem nofile_root {f : FS} (hr : f [] = some .dir) : ∀ j b, f (([] : Loc).take j) ≠ some (.file b) := by
  intro j b; rw [List.take_nil, hr]; simp

/-- The specification's `find` in words. -/
theorem find_iff (t : Tree) (ds fs : List Comp) (hds : ∀ c ∈ ds, IsStep c) (hr : view t [] = some .dir) (l : Loc) :
    find (view t) ds (nameOf fs) = some l ↔ There (view t) ds fs ∧ l = target ds fs := by
  have hw := fun m => walk_end false false ds hds (view t) [] m (nofile_root hr) (view_closed t)
  unfold find There target
  cases h : (Spec.walk false false (view t) [] ds).2 with
  | none =>
    constructor
    · intro e; cases e
    · rintro ⟨⟨hc, -⟩, -⟩
      have := (hw (norm [] ds)).2 ⟨hc, rfl⟩
      rw [h] at this
      cases this
  | some m =>
    obtain ⟨hc, rfl⟩ := (hw m).1 h
    cases hn : nameOf fs with
    | none =>
      simp only [Option.toList_none, List.append_nil]
      by_cases hv : view t (norm [] ds) = some .dir
      · rw [if_pos hv]
        exact ⟨fun e => (by cases e; exact ⟨⟨hc, hv⟩, rfl⟩), fun e => by rw [e.2]⟩
      · rw [if_neg hv]
        exact ⟨fun e => (by cases e), fun e => absurd e.1.2 hv⟩
    | some n =>
      simp only [Option.toList_some]
      by_cases hv : (view t (norm [] ds ++ [n])).isSome
      · rw [if_pos hv]
        exact ⟨fun e => (by cases e; exact ⟨⟨hc, Option.isSome_iff_exists.1 hv⟩, rfl⟩), fun e => by rw [e.2]⟩
      · rw [if_neg hv]
        exact ⟨fun e => (by cases e), fun e => absurd (Option.isSome_iff_exists.2 e.1.2) hv⟩

theorem find_none (t : Tree) (ds fs : List Comp) (hds : ∀ c ∈ ds, IsStep c) (hr : view t [] = some .dir) :
    find (view t) ds (nameOf fs) = none ↔ ¬ There (view t) ds fs := by
  constructor
  · intro h ht
    rw [(find_iff t ds fs hds hr (target ds fs)).2 ⟨ht, rfl⟩] at h
    cases h
  · intro h
    cases hf : find (view t) ds (nameOf fs) with
    | none => rfl
    | some l => exact absurd ((find_iff t ds fs hds hr l).1 hf).1 h

theorem exist_core (t : Tree) (cur p ds fs : List Comp) (hds : ∀ c ∈ ds, IsStep c) (hr : view t [] = some .dir)
    (h : Core (view t) [] ds fs .none false (nodeOp t cur p .none false)) :
    ∃ b, exist t cur p = some b ∧ (b = true ↔ There (view t) ds fs) := by
  obtain ⟨t', -, h⟩ := find_refines t ds fs _ h
  unfold exist
  rw [h]
  refine ⟨_, rfl, ?_⟩
  dsimp only
  rw [Option.isSome_map]
  cases hf : find (view t) ds (nameOf fs) with
  | none => exact ⟨fun e => (by cases e), fun e => absurd e ((find_none t ds fs hds hr).1 hf)⟩
  | some l => exact ⟨fun _ => ((find_iff t ds fs hds hr l).1 hf).1, fun _ => rfl⟩

/-- **C70, asking.**  `FSManagerExists` never fails on a path from the root, and says whether the path is there; the current
path does not matter. -/
theorem C70_exists (t : Tree) (cur p ds fs : List Comp) (hr : view t [] = some .dir) (hp : Means p ds fs) :
    ∃ b, exist t cur p = some b ∧ (b = true ↔ There (view t) ds fs) := by
  obtain ⟨hd, hh, rfl, hds, hfs, hb⟩ := hp
  exact exist_core t cur _ ds fs hds hr (nodeOp_core t cur hd ds fs .none false hr hh hds hfs hb)

/-- **C70, sizes.**  `FSManagerGetSize` gives the number of bytes of a file, and 0 for everything else. -/
theorem C70_size (t : Tree) (cur p ds fs : List Comp) (hr : view t [] = some .dir) (hp : Means p ds fs) :
    (∀ b, There (view t) ds fs → view t (target ds fs) = some (.file b) → getSize t cur p = some b.length) ∧
    (¬ (There (view t) ds fs ∧ ∃ b, view t (target ds fs) = some (.file b)) → getSize t cur p = some 0) := by
  obtain ⟨hd, hh, rfl, hds, hfs, hb⟩ := hp
  obtain ⟨t', -, h⟩ := find_refines t ds fs _ (nodeOp_core t cur hd ds fs .none false hr hh hds hfs hb)
  unfold getSize
  rw [h]
  have hg : ∀ l e, view t l = some e → match get t l with
      | some (.file b) => e = .file b
      | some (.dir _) => e = .dir
      | none => False := by
    intro l e he
    unfold view at he
    cases hg : get t l with
    | none => rw [hg] at he; cases he
    | some s => rw [hg] at he; cases s <;> (cases he; rfl)
  constructor
  · intro b ht hb
    rw [(find_iff t ds fs hds hr _).2 ⟨ht, rfl⟩]
    simp only [Option.map_some]
    have := hg _ _ hb
    split at this
    · rename_i heq; rw [heq]; cases this; rfl
    · cases this
    · exact this.elim
  · intro hno
    cases hf : find (view t) ds (nameOf fs) with
    | none => rfl
    | some l =>
      obtain ⟨ht, rfl⟩ := (find_iff t ds fs hds hr l).1 hf
      obtain ⟨e, he⟩ : ∃ e, view t (target ds fs) = some e := by
        unfold There at ht
        cases hn : nameOf fs with
        | none => rw [hn] at ht; exact ⟨_, ht.2⟩
        | some n => rw [hn] at ht; exact ht.2
      simp only [Option.map_some]
      have := hg _ _ he
      split at this
      · cases this; exact absurd ⟨ht, _, he⟩ hno
      · rename_i heq; rw [heq]
      · exact this.elim

/-- What `FSManagerCreate` is to do, said without the steps: everything that was there stays; what is new is the empty file
itself or a directory on the way, those only if intermediates were asked for or it is the directory itself; when it reports
success, an entry is where the path leads, and the path is there unless the way to the new file leads through the new file
itself (`/x/../x`); with intermediates it succeeds exactly when no file is in the way; without, the directory above has to
be there as well. -/
structure Created (f f' : FS) (ds fs : List Comp) (inter ok : Bool) : Prop where
  keeps : ∀ q e, f q = some e → f' q = some e
  adds : ∀ q e, f q = none → f' q = some e →
    (q = target ds fs ∧ nameOf fs ≠ none ∧ ok = true ∧ e = .file []) ∨
    (e = .dir ∧ ∃ k : Nat, 0 < k ∧ k ≤ ds.length ∧ q = norm [] (ds.take k) ∧
      (inter = true ∨ (nameOf fs = none ∧ k = ds.length)))
  entry : ok = true → ∃ e, f' (target ds fs) = some e ∧ (nameOf fs = none → e = .dir)
  there : ok = true → (nameOf fs ≠ none → ∀ k : Nat, norm [] (ds.take k) ≠ target ds fs) → There f' ds fs
  all : inter = true → (ok = true ↔ Clear f ds)
  file : inter = false → nameOf fs ≠ none → (ok = true ↔ Clear f ds ∧ f (norm [] ds) = some .dir)
  last : inter = false → nameOf fs = none → ∀ es n, ds = es ++ [.dir n] →
    (ok = true ↔ Clear f ds ∧ f (norm [] es) = some .dir)

theorem norm_append (l : Loc) (es ds : List Comp) : norm l (es ++ ds) = norm (norm l es) ds := by
  induction es generalizing l with
  | nil => rfl
  | cons c es ih => cases c <;> exact ih _

/-- Making the last directory. -/
theorem create_last (t : Tree) (es : List Comp) (n : Str) (hes : ∀ c ∈ es, IsStep c) (hr : view t [] = some .dir) :
    (Spec.create (view t) (es ++ [.dir n]) none false).2.isSome = true ↔
      Clear (view t) (es ++ [.dir n]) ∧ view t (norm [] es) = some .dir := by
  have hend := fun m => walk_end false false es hes (view t) [] m (nofile_root hr) (view_closed t)
  have hcl : Clear (view t) (es ++ [.dir n]) → Clear (view t) es := by
    intro h k b
    by_cases hk : k ≤ es.length
    · have := h k b
      rwa [List.take_append_of_le_length hk] at this
    · have := h es.length b
      rw [List.take_append_of_le_length (Nat.le_refl _), List.take_length] at this
      rwa [List.take_of_length_le (by omega)]
  have hcl' : Clear (view t) es → (∀ b, view t (norm [] es ++ [n]) ≠ some (.file b)) → Clear (view t) (es ++ [.dir n]) := by
    intro h h' k b
    by_cases hk : k ≤ es.length
    · rw [List.take_append_of_le_length hk]; exact h k b
    · rw [List.take_of_length_le (by simp; omega), norm_append]; exact h' b
  have hlast : Clear (view t) (es ++ [.dir n]) → ∀ b, view t (norm [] es ++ [n]) ≠ some (.file b) := by
    intro h b
    have := h (es.length + 1) b
    rw [List.take_of_length_le (by simp), norm_append] at this
    exact this
  unfold Spec.create
  rw [show (none : Option Str).isNone = true from rfl, walk_last]
  cases hw : (Spec.walk false false (view t) [] es).2 with
  | none =>
    constructor
    · intro h; cases h
    · rintro ⟨h, -⟩
      have := (hend (norm [] es)).2 ⟨hcl h, rfl⟩
      rw [hw] at this; cases this
  | some m =>
    obtain ⟨hc, rfl⟩ := (hend m).1 hw
    have hc : Clear (view t) es := hc
    dsimp only
    rw [Spec.walk]
    cases hv : view t (norm [] es ++ [n]) with
    | none =>
      dsimp only
      by_cases hd : view t (norm [] es) = some .dir
      · rw [if_pos ⟨hd, by simp⟩]
        simp only [Spec.walk, add, if_true]
        exact ⟨fun _ => ⟨hcl' hc (by rw [hv]; simp), hd⟩, fun _ => rfl⟩
      · rw [if_neg (fun h => hd h.1)]
        simp only [Spec.walk, hv]
        exact ⟨fun h => (by cases h), fun h => absurd h.2 hd⟩
    | some e =>
      cases e with
      | dir =>
        simp only [Spec.walk, hv, if_true]
        exact ⟨fun _ => ⟨hcl' hc (by rw [hv]; simp), view_closed t _ n _ hv⟩, fun _ => rfl⟩
      | file b =>
        constructor
        · intro h; cases h
        · rintro ⟨h, -⟩
          exact absurd hv (hlast h b)

theorem created_spec (t : Tree) (ds fs : List Comp) (inter : Bool) (hds : ∀ c ∈ ds, IsStep c) (hr : view t [] = some .dir) :
    Created (view t) (Spec.create (view t) ds (nameOf fs) inter).1 ds fs inter
      (Spec.create (view t) ds (nameOf fs) inter).2.isSome := by
  have hend := fun m => walk_end inter (nameOf fs).isNone ds hds (view t) [] m (nofile_root hr) (view_closed t)
  have hold := fun q x h => walk_old inter (nameOf fs).isNone ds (view t) [] q x h
  have hnew := fun q x h1 h2 => walk_new inter (nameOf fs).isNone ds (view t) [] q x h1 h2
  have hmade := fun m => walk_made (nameOf fs).isNone ds (view t) [] m (by intro j; rw [List.take_nil]; exact hr)
  have hdirs : ∀ q e, view t q = none → (Spec.walk inter (nameOf fs).isNone (view t) [] ds).1 q = some e →
      e = .dir ∧ ∃ k : Nat, 0 < k ∧ k ≤ ds.length ∧ q = norm [] (ds.take k) ∧
      (inter = true ∨ (nameOf fs = none ∧ k = ds.length)) := by
    intro q e h1 h2
    obtain ⟨a, b, k, c, d, e', g⟩ := hnew q e h1 h2
    refine ⟨a, k, c, d, e', ?_⟩
    rcases b with b | b
    · exact .inl b
    · rcases g with g | g
      · exact .inl g
      · exact .inr ⟨Option.isNone_iff_eq_none.1 b, g⟩
  have hclear : ∀ g : FS, (∀ q e, g q = some (.file e) → view t q = some (.file e)) → Clear (view t) ds → Clear g ds :=
    fun g h hc k b e => hc k b (h _ _ e)
  have hfile : ∀ q e, (Spec.walk inter (nameOf fs).isNone (view t) [] ds).1 q = some (.file e) →
      view t q = some (.file e) := by
    intro q e h
    cases hv : view t q with
    | none => have := (hnew q _ hv h).1; cases this
    | some x => rw [hold q x hv] at h; rw [h]
  have hlast : inter = false → nameOf fs = none → ∀ es n, ds = es ++ [.dir n] →
      ((Spec.create (view t) ds (nameOf fs) inter).2.isSome = true ↔ Clear (view t) ds ∧ view t (norm [] es) = some .dir) := by
    intro hi hn es n he
    rw [hi, hn, he]
    exact create_last t es n (fun c hc => hds c (by rw [he]; simp [hc])) hr
  unfold Spec.create at hlast ⊢
  cases hw : Spec.walk inter (nameOf fs).isNone (view t) [] ds with
  | mk f' r =>
    rw [hw] at hend hold hfile hdirs hlast
    dsimp only at hend hold hfile hdirs
    cases r with
    | none =>
      have hnc : ¬ Clear (view t) ds := fun hc => by
        have := (hend (norm [] ds)).2 ⟨hc, rfl⟩; cases this
      exact ⟨hold, fun q e h1 h2 => .inr (hdirs q e h1 h2), (fun h => by cases h),
        (fun h => by cases h), fun _ => ⟨fun h => (by cases h), fun h => absurd h hnc⟩,
        fun _ _ => ⟨fun h => (by cases h), fun h => absurd h.1 hnc⟩, hlast⟩
    | some l =>
      obtain ⟨hc, rfl⟩ := (hend l).1 rfl
      have hc : Clear (view t) ds := hc
      have hmk : inter = true → f' (norm [] ds) = some .dir := by
        intro hi
        subst hi
        have := hmade (norm [] ds)
        rw [hw] at this
        exact this rfl
      have hkeepdir : inter = false → nameOf fs ≠ none → f' = view t := by
        intro hi hn
        subst hi
        have hz : (nameOf fs).isNone = false := by
          cases h : nameOf fs with
          | none => exact absurd h hn
          | some n => rfl
        rw [hz] at hw
        have := walk_false (view t) [] ds
        rw [hw] at this
        exact this
      cases hn : nameOf fs with
      | none =>
        have ht : target ds fs = norm [] ds := by unfold target; rw [hn]; simp
        dsimp only
        refine ⟨hold, fun q e h1 h2 => .inr (by rw [hn] at hdirs ⊢; exact hdirs q e h1 h2), ?_, ?_, ?_,
          fun _ h => absurd hn h, by rw [hn] at hlast; exact fun hi _ => hlast hi rfl⟩
        · intro h
          by_cases hv : f' (norm [] ds) = some .dir
          · exact ⟨.dir, by rw [ht]; exact hv, fun _ => rfl⟩
          · rw [if_neg hv] at h; cases h
        · intro h _
          by_cases hv : f' (norm [] ds) = some .dir
          · unfold There
            rw [hn, ht]
            exact ⟨hclear f' hfile hc, hv⟩
          · rw [if_neg hv] at h; cases h
        · intro hi
          rw [if_pos (hmk hi)]
          exact ⟨fun _ => hc, fun _ => rfl⟩
      | some n =>
        have ht : target ds fs = norm [] ds ++ [n] := by unfold target; rw [hn]; simp
        have hnn : nameOf fs ≠ none := by rw [hn]; simp
        rw [hn] at hdirs
        dsimp only
        by_cases hv : (f' (norm [] ds ++ [n])).isSome
        · rw [if_pos hv]
          have hth : There f' ds fs := by
            unfold There
            rw [hn, ht]
            exact ⟨hclear f' hfile hc, Option.isSome_iff_exists.1 hv⟩
          refine ⟨hold, fun q e h1 h2 => .inr (by rw [hn]; exact hdirs q e h1 h2), ?_,
            fun _ _ => hth, fun _ => ⟨fun _ => hc, fun _ => rfl⟩, fun hi hn' => ⟨fun _ => ⟨hc, ?_⟩, fun _ => rfl⟩,
            fun _ h => absurd h hnn⟩
          · obtain ⟨e, he⟩ := Option.isSome_iff_exists.1 hv
            exact fun _ => ⟨e, by rw [ht]; exact he, fun h => absurd h hnn⟩
          have := hkeepdir hi hnn
          rw [this] at hv
          exact parent_dir hv
        · rw [if_neg hv]
          by_cases hd : f' (norm [] ds) = some .dir
          · rw [if_pos hd]
            have hv' : f' (norm [] ds ++ [n]) = none := by
              cases h : f' (norm [] ds ++ [n]) with
              | none => rfl
              | some x => rw [h] at hv; exact absurd rfl hv
            refine ⟨fun q e h => add_old hv' e (hold q e h), ?_, ?_, ?_, fun _ => ⟨fun _ => hc, fun _ => rfl⟩, ?_,
              fun _ h => absurd h hnn⟩
            · intro q e h1 h2
              unfold add at h2
              dsimp only at h2
              by_cases hq : q = norm [] ds ++ [n]
              · rw [if_pos hq] at h2
                cases h2
                exact .inl ⟨hq.trans ht.symm, hnn, rfl, rfl⟩
              · rw [if_neg hq] at h2
                exact .inr (by rw [hn]; exact hdirs q e h1 h2)
            · exact fun _ => ⟨.file [], by rw [ht]; simp [add], fun h => absurd h hnn⟩
            · intro _ hoff
              unfold There
              rw [hn, ht]
              refine ⟨?_, .file [], by simp [add]⟩
              intro k b hb
              unfold add at hb
              dsimp only at hb
              by_cases hq : norm [] (ds.take k) = norm [] ds ++ [n]
              · exact absurd (hq.trans ht.symm) (hoff hnn k)
              · rw [if_neg hq] at hb
                exact hc k b (hfile _ _ hb)
            · intro hi _
              exact ⟨fun _ => ⟨hc, by rw [← hkeepdir hi hnn]; exact hd⟩, fun _ => rfl⟩
          · rw [if_neg hd]
            refine ⟨hold, fun q e h1 h2 => .inr (by rw [hn]; exact hdirs q e h1 h2), (fun h => by cases h),
              (fun h => by cases h), ?_, ?_, fun _ h => absurd h hnn⟩
            · intro hi; exact absurd (hmk hi) hd
            · intro hi _
              refine ⟨fun h => (by cases h), ?_⟩
              rintro ⟨-, h⟩
              rw [← hkeepdir hi hnn] at h
              exact absurd h hd

/-- **C70, creating.**  `FSManagerCreate` on a path from the root does what `Created` says. -/
theorem C70_create (t : Tree) (cur p ds fs : List Comp) (inter : Bool) (hr : view t [] = some .dir) (hp : Means p ds fs) :
    ∃ t' ok, create t cur p inter = some (t', ok) ∧ Created (view t) (view t') ds fs inter ok := by
  obtain ⟨hd, hh, rfl, hds, hfs, hb⟩ := hp
  obtain ⟨t', h1, h2⟩ := create_refines t ds fs inter hfs _ (nodeOp_core t cur hd ds fs .create inter hr hh hds hfs hb)
  unfold create
  rw [h1]
  refine ⟨t', _, rfl, ?_⟩
  rw [h2, Option.isSome_map]
  exact created_spec t ds fs inter hds hr

/-- Removing the place the path leads to, when it is there and not the root. -/
def Removed (f f' : FS) (ds fs : List Comp) : Prop :=
  (There f ds fs → ∀ q, f' q = if target ds fs <+: q then none else f q) ∧ (¬ There f ds fs → f' = f)

theorem remove_core (t : Tree) (cur p ds fs : List Comp) (hds : ∀ c ∈ ds, IsStep c) (hr : view t [] = some .dir)
    (h : Core (view t) [] ds fs .remove false (nodeOp t cur p .remove false)) :
    (target ds fs ≠ [] → ∃ t', remove t cur p = some (t', true) ∧ Removed (view t) (view t') ds fs) ∧
    (target ds fs = [] → There (view t) ds fs → remove t cur p = none) := by
  have h := remove_refines t ds fs _ h
  unfold Spec.remove at h
  unfold remove
  constructor
  · intro hne
    cases hf : find (view t) ds (nameOf fs) with
    | none =>
      rw [hf] at h
      obtain ⟨t', h1, h2⟩ := h
      rw [h1]
      exact ⟨t', rfl, fun ht => absurd ht ((find_none t ds fs hds hr).1 hf), fun _ => h2⟩
    | some l =>
      obtain ⟨ht, rfl⟩ := (find_iff t ds fs hds hr l).1 hf
      rw [hf] at h
      cases hl : target ds fs with
      | nil => exact absurd hl hne
      | cons a q =>
        rw [hl] at h
        obtain ⟨t', h1, h2⟩ := h
        rw [h1]
        refine ⟨t', rfl, fun _ q => ?_, fun hn => absurd ht hn⟩
        rw [h2, hl]
        rfl
  · intro he ht
    rw [(find_iff t ds fs hds hr _).2 ⟨ht, rfl⟩, he] at h
    rw [h]
    rfl

/-- Removed entries cannot stand in the way. -/
theorem removed_gone (f f' : FS) (ds fs : List Comp) (h : Removed f f' ds fs) : ¬ There f' ds fs := by
  intro ht
  by_cases h0 : There f ds fs
  · have hg := h.1 h0 (target ds fs)
    rw [if_pos List.prefix_rfl] at hg
    obtain ⟨-, h2⟩ := ht
    cases hn : nameOf fs with
    | none => rw [hn] at h2; rw [hg] at h2; cases h2
    | some n => rw [hn] at h2; obtain ⟨e, he⟩ := h2; rw [hg] at he; cases he
  · rw [h.2 h0] at ht; exact h0 ht

/-- **C70, removing.**  `FSManagerRemove` on a path from the root that does not lead to the root reports success; what the path
led to is gone with everything below it, everything else is as before, and nothing at all changes when the path was not
there.  Afterwards `FSManagerExists` denies it. -/
theorem C70_remove_partial (t : Tree) (cur p ds fs : List Comp) (hr : view t [] = some .dir) (hp : Means p ds fs)
    (hroot : target ds fs ≠ []) :
    ∃ t', remove t cur p = some (t', true) ∧ Removed (view t) (view t') ds fs ∧ exist t' cur p = some false := by
  have hp' := hp
  obtain ⟨hd, hh, rfl, hds, hfs, hb⟩ := hp
  obtain ⟨t', h1, h2⟩ := (remove_core t cur _ ds fs hds hr
    (nodeOp_core t cur hd ds fs .remove false hr hh hds hfs hb)).1 hroot
  refine ⟨t', h1, h2, ?_⟩
  have hr' : view t' [] = some .dir := by
    by_cases ht : There (view t) ds fs
    · rw [h2.1 ht, if_neg (by intro hpre; exact hroot (List.prefix_nil.1 hpre)), hr]
    · rw [h2.2 ht, hr]
  obtain ⟨b, hb1, hb2⟩ := C70_exists t' cur _ ds fs hr' hp'
  rw [hb1]
  cases b with
  | false => rfl
  | true => exact absurd (hb2.1 rfl) (removed_gone _ _ _ _ h2)

/-- **C70 is false for the root**: its parent is `NULL`, which `CCDictionaryRemoveValue(&Node->parent->nodes, ...)` (690)
dereferences, whatever the tree. -/
theorem C70_remove_root_refuted (t : Tree) (cur p ds fs : List Comp) (hr : view t [] = some .dir) (hp : Means p ds fs)
    (hroot : target ds fs = []) (ht : There (view t) ds fs) : remove t cur p = none := by
  obtain ⟨hd, hh, rfl, hds, hfs, hb⟩ := hp
  exact (remove_core t cur _ ds fs hds hr (nodeOp_core t cur hd ds fs .remove false hr hh hds hfs hb)).2 hroot ht

/-! ## Histories -/

/-- A call with a path from the root. -/
inductive Req where
  | exist (p : List Comp)
  | create (p : List Comp) (inter : Bool)
  | remove (p : List Comp)

/-- The calls of the code, one after the other: the tree and the answers. -/
def runReqs (cur : List Comp) : Tree → List Req → Option (Tree × List Bool)
  | t, [] => some (t, [])
  | t, r :: rs =>
    match (match r with
      | .exist p => (exist t cur p).map fun b => (t, b)
      | .create p i => create t cur p i
      | .remove p => remove t cur p) with
    | none => none
    | some (t', b) => match runReqs cur t' rs with
      | none => none
      | some (t'', bs) => some (t'', b :: bs)

/-- What a history of calls is to do: file systems and answers related step by step. -/
inductive Story : FS → List Req → FS → List Bool → Prop
  | nil (f) : Story f [] f []
  | exist {f p ds fs b rs f' bs} (hp : Means p ds fs) (hb : b = true ↔ There f ds fs) (h : Story f rs f' bs) :
      Story f (.exist p :: rs) f' (b :: bs)
  | create {f p ds fs i ok f1 rs f' bs} (hp : Means p ds fs) (hc : Created f f1 ds fs i ok) (h : Story f1 rs f' bs) :
      Story f (.create p i :: rs) f' (ok :: bs)
  | remove {f p ds fs f1 rs f' bs} (hp : Means p ds fs) (hc : Removed f f1 ds fs) (h : Story f1 rs f' bs) :
      Story f (.remove p :: rs) f' (true :: bs)

/-- **C70, histories.**  From any file system with a root directory, every history of calls with paths from the root - the root
itself never removed - is defined and goes as told, the root staying there. -/
theorem C70_history (cur : List Comp) (rs : List Req) (t : Tree) (hr : view t [] = some .dir)
    (hp : ∀ r ∈ rs, match r with
      | .exist p => ∃ ds fs, Means p ds fs
      | .create p _ => ∃ ds fs, Means p ds fs
      | .remove p => ∃ ds fs, Means p ds fs ∧ target ds fs ≠ []) :
    ∃ t' bs, runReqs cur t rs = some (t', bs) ∧ Story (view t) rs (view t') bs ∧ view t' [] = some .dir := by
  induction rs generalizing t with
  | nil => exact ⟨t, [], rfl, .nil _, hr⟩
  | cons r rs ih =>
    have ih := fun t hr => ih t hr (fun r h => hp r (by simp [h]))
    have h0 := hp r (by simp)
    unfold runReqs
    cases r with
    | exist p =>
      obtain ⟨ds, fs, hm⟩ := h0
      obtain ⟨b, h1, h2⟩ := C70_exists t cur p ds fs hr hm
      obtain ⟨t', bs, h3, h4, h5⟩ := ih t hr
      refine ⟨t', b :: bs, ?_, .exist hm h2 h4, h5⟩
      simp only [h1, Option.map_some, h3]
    | create p i =>
      obtain ⟨ds, fs, hm⟩ := h0
      obtain ⟨t1, ok, h1, h2⟩ := C70_create t cur p ds fs i hr hm
      obtain ⟨t', bs, h3, h4, h5⟩ := ih t1 (h2.keeps _ _ hr)
      refine ⟨t', ok :: bs, ?_, .create hm h2 h4, h5⟩
      simp only [h1, h3]
    | remove p =>
      obtain ⟨ds, fs, hm, hroot⟩ := h0
      obtain ⟨t1, h1, h2, -⟩ := C70_remove_partial t cur p ds fs hr hm hroot
      obtain ⟨t', bs, h3, h4, h5⟩ := ih t1 (by
        by_cases ht : There (view t) ds fs
        · rw [h2.1 ht, if_neg (by intro hpre; exact hroot (List.prefix_nil.1 hpre)), hr]
        · rw [h2.2 ht, hr])
      refine ⟨t', true :: bs, ?_, .remove hm h2 h4, h5⟩
      simp only [h1, h3]

/-! ## Relative paths -/

/-- **C70, relative paths, exactly.**  With the current path `hd ++ cs` a directory that is there, asking for and removing a
relative path does what the current path followed by it means - except that the first `..` leaving the current directory is
dropped (`eat`), as the current directory is put on the stack twice (545, 632). -/
theorem C70_relative_exact (t : Tree) (hd cs ds fs : List Comp) (hr : view t [] = some .dir) (hh : IsHead hd)
    (hcs : ∀ c ∈ cs, IsStep c) (hds : ∀ c ∈ ds, IsStep c) (hfs : fs = [] ∨ IsName fs)
    (hb : (hd ++ cs).length + (.relRoot :: ds ++ fs).length ≤ 127) (hc : There (view t) cs []) :
    (∃ b, exist t (hd ++ cs) (.relRoot :: ds ++ fs) = some b ∧ (b = true ↔ There (view t) (cs ++ eat 0 ds) fs)) ∧
    (target (cs ++ eat 0 ds) fs ≠ [] → ∃ t', remove t (hd ++ cs) (.relRoot :: ds ++ fs) = some (t', true) ∧
      Removed (view t) (view t') (cs ++ eat 0 ds) fs) := by
  have hf : find (view t) cs none = some (target cs []) := (find_iff t cs [] hcs hr _).2 ⟨hc, rfl⟩
  have hst : ∀ c ∈ cs ++ eat 0 ds, IsStep c := by
    intro c hm
    rcases List.mem_append.1 hm with hm | hm
    · exact hcs c hm
    · exact eat_steps 0 ds hds c hm
  exact ⟨exist_core t _ _ _ fs hst hr (rel_core t hd cs ds fs .none (by simp) _ hr hh hcs hds hfs hb hf),
    (remove_core t _ _ _ fs hst hr (rel_core t hd cs ds fs .remove (by simp) _ hr hh hcs hds hfs hb hf)).1⟩

theorem eat_dirs (d : Nat) (ds : List Comp) (h : ∀ c ∈ ds, ∃ n, c = .dir n) : eat d ds = ds := by
  induction ds generalizing d with
  | nil => cases d <;> rfl
  | cons c ds ih =>
    obtain ⟨n, rfl⟩ := h c (by simp)
    rw [show eat d (.dir n :: ds) = .dir n :: eat (d + 1) ds by cases d <;> rfl, ih _ (fun c hc => h c (by simp [hc]))]

/-- **C70, relative paths without `..`**: they mean the current path followed by them. -/
theorem C70_relative_partial (t : Tree) (hd cs ds fs : List Comp) (hr : view t [] = some .dir) (hh : IsHead hd)
    (hcs : ∀ c ∈ cs, IsStep c) (hds : ∀ c ∈ ds, ∃ n, c = .dir n) (hfs : fs = [] ∨ IsName fs)
    (hb : (hd ++ cs).length + (.relRoot :: ds ++ fs).length ≤ 127) (hc : There (view t) cs []) :
    (∃ b, exist t (hd ++ cs) (.relRoot :: ds ++ fs) = some b ∧ (b = true ↔ There (view t) (cs ++ ds) fs)) ∧
    (target (cs ++ ds) fs ≠ [] → ∃ t', remove t (hd ++ cs) (.relRoot :: ds ++ fs) = some (t', true) ∧
      Removed (view t) (view t') (cs ++ ds) fs) := by
  have := C70_relative_exact t hd cs ds fs hr hh hcs (by
    intro c hm
    obtain ⟨n, rfl⟩ := hds c hm
    trivial) hfs hb hc
  rwa [eat_dirs 0 ds hds] at this

/-! ## Where the code differs -/

/-- The tree `/a/x`, `/x` with `/a/x` holding one byte and `/x` two. -/
def demo : Tree := .dir [("a".toList, .dir [("x".toList, .file [1])]), ("x".toList, .file [1, 2])]

/-- **C70 is false for relative paths with `..`**: in the directory `/a`, the path `../x` means `/a/x`, not `/x`. -/
theorem C70_parent_refuted :
    getSize demo [.root, .dir "a".toList] [.relRoot, .parent, .file "x".toList] = some 1 ∧
    getSize demo [.root, .dir "a".toList] [.root, .dir "a".toList, .parent, .file "x".toList] = some 2 := by
  decide +kernel

/-- **C70 is false for long paths**: 128 components are put behind the root in an array of 128 entries (632), even when
nothing is there. -/
theorem C70_long_path_refuted :
    exist (.dir []) [] (.root :: List.replicate 127 (.dir "a".toList)) = none ∧
    exist (.dir []) [] (.root :: List.replicate 126 (.dir "a".toList)) = some false := by
  decide +kernel

/-- **C70, a created file need not be there**: `/x/../x` is created as the file `/x`, which then stands in the way. -/
theorem C70_through_itself_refuted :
    (create (.dir []) [] [.root, .dir "x".toList, .parent, .file "x".toList] false).map
      (fun r => (r.2, exist r.1 [] [.root, .dir "x".toList, .parent, .file "x".toList])) = some (true, some false) := by
  decide +kernel

/-- **C70, a failing creation can leave directories behind**: `/a/../f/x` with a file `/f` fails but makes `/a`. -/
theorem C70_failed_create_refuted :
    (create (.dir [("f".toList, .file [])]) [] [.root, .dir "a".toList, .parent, .dir "f".toList, .file "x".toList] true).map
      (fun r => (r.2, exist r.1 [] [.root, .dir "a".toList])) = some (false, some true) := by
  decide +kernel

/-- **C70, names with a leading dot lose it**: the components of `/.x` - a root and an extension - create the file `x`. -/
theorem C70_dot_refuted :
    (create (.dir []) [] [.root, .ext "x".toList] false).map
      (fun r => (r.2, exist r.1 [] [.root, .file "x".toList])) = some (true, some true) := by
  decide +kernel

/-- **C70, the kind of a path is not looked at**: as a file, the path `/a` of a directory is there, is "created" and removes
the directory with what is in it. -/
theorem C70_kind_refuted :
    exist demo [] [.root, .file "a".toList] = some true ∧
    (create demo [] [.root, .file "a".toList] false).map (fun r => r.2) = some true ∧
    (remove demo [] [.root, .file "a".toList]).map
      (fun r => (r.2, exist r.1 [] [.root, .dir "a".toList, .file "x".toList])) = some (true, some false) := by
  decide +kernel

/-! ## Examples: the hypotheses are met -/

example : Means [.root, .dir "a".toList, .parent, .file "x".toList, .ext "txt".toList] [.dir "a".toList, .parent]
    [.file "x".toList, .ext "txt".toList] ∧ view demo [] = some .dir :=
  ⟨⟨[.root], .inl rfl, rfl, by simp [IsStep], .inr (by simp [IsName, IsExt]), by decide⟩, rfl⟩

example : target [.dir "a".toList, .parent] [.file "x".toList, .ext "txt".toList] = ["x.txt".toList] := by decide

example : There (view demo) [.dir "a".toList] [.file "x".toList] := by
  refine ⟨?_, .file [1], by decide⟩
  intro k b
  match k with
  | 0 => simp [norm, view, demo, get, entry]
  | k + 1 => simp [norm, view, demo, get, entry]

example : ∃ t' ok, create demo [] [.root, .dir "b".toList, .dir "c".toList, .file "y".toList] true = some (t', ok) ∧
    Created (view demo) (view t') [.dir "b".toList, .dir "c".toList] [.file "y".toList] true ok :=
  C70_create demo [] _ _ _ true rfl ⟨[.root], .inl rfl, rfl, by simp [IsStep], .inr (by simp [IsName]), by decide⟩

example : remove demo [] [.root] = none :=
  C70_remove_root_refuted demo [] _ [] [] rfl ⟨[.root], .inl rfl, rfl, by simp, .inl rfl, by decide⟩ rfl
    ⟨fun k b => by simp [norm, view, demo, get, entry], rfl⟩

example : eat 0 [.dir "b".toList, .parent, .parent, .parent, .dir "c".toList] =
    [.dir "b".toList, .parent, .parent, .dir "c".toList] := rfl

#print axioms C70_exists
#print axioms C70_size
#print axioms C70_create
#print axioms C70_remove_partial
#print axioms C70_remove_root_refuted
#print axioms C70_history
#print axioms C70_relative_exact
#print axioms C70_relative_partial
#print axioms C70_parent_refuted
#print axioms C70_long_path_refuted
#print axioms C70_through_itself_refuted
#print axioms C70_failed_create_refuted
#print axioms C70_dot_refuted
#print axioms C70_kind_refuted

end Verif.VirtualTree
