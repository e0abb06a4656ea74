import Verif.VirtualCopyProps
/-!
# C72: copying and moving directories in the virtual file system
-/
namespace Verif.VirtualCopy
open Verif.Path (Str Comp)
open Verif.Path.Spec (Plain Exts FileName text)
open Verif.VirtualTree (Tree Loc Nd get put nodeOp exist getSize create remove)
open Verif.VirtualTree.Spec

/-- The directory `a` can be copied from and to paths of at most `k` components: no directory in it is empty, the names of the
files in it are those of paths, and no path becomes too long. -/
structure CanCopy (f : FS) (a : Loc) (k : Nat) : Prop where
  full : ∀ r, f (a ++ r) = some .dir → ∃ m, f (a ++ r ++ [m]) ≠ none
  names : ∀ r m B, f (a ++ r ++ [m]) = some (.file B) →
    ∃ n es, FileName (.file n :: es) ∧ m = text (.file n :: es) ∧ k + r.length + (es.length + 1) ≤ 127
  short : ∀ r, f (a ++ r) ≠ none → k + r.length ≤ 127

/-! ## Listing -/

theorem keys_mem (ks : List (Str × Tree)) (n : Str) : n ∈ keys ks ↔ (ks.lookup n).isSome = true := by
  induction ks with
  | nil => simp [keys]
  | cons k ks ih =>
    obtain ⟨m, s⟩ := k
    rw [keys, List.mem_cons, List.mem_filter, ih, List.lookup_cons]
    by_cases h : n = m
    · subst h; simp
    · rw [show (n == m) = false by simpa using h]
      simp [h]

theorem keys_nodup (ks : List (Str × Tree)) : (keys ks).Nodup := by
  induction ks with
  | nil => exact List.nodup_nil
  | cons k ks ih =>
    obtain ⟨m, s⟩ := k
    rw [keys, List.nodup_cons]
    refine ⟨?_, ih.filter _⟩
    intro h
    have := (List.mem_filter.1 h).2
    simp at this

theorem mapM_some {α β} (g : α → Option β) (c : α → β) (l : List α) (h : ∀ x ∈ l, g x = some (c x)) :
    l.mapM g = some (l.map c) := by
  induction l with
  | nil => rfl
  | cons x l ih =>
    rw [List.mapM_cons, h x (by simp), ih (fun y hy => h y (by simp [hy]))]
    rfl

theorem nameComps_file (n : Str) (rest es : List Comp) (h : ∀ c ∈ es, IsExt c) :
    nameComps (es.reverse ++ .file n :: rest) = .file n :: es := by
  suffices ∀ rs : List Comp, (∀ c ∈ rs, IsExt c) → nameComps (rs ++ .file n :: rest) = .file n :: rs.reverse by
    rw [this es.reverse (fun c hc => h c (by simpa using hc)), List.reverse_reverse]
  intro rs
  induction rs with
  | nil => intro _; rfl
  | cons e rs ih =>
    intro hr
    have he := hr e (by simp)
    cases e with
    | ext e =>
      have := ih (fun c hc => hr c (by simp [hc]))
      cases rs with
      | nil => rfl
      | cons c rs =>
        rw [List.cons_append, List.cons_append, nameComps, ← List.cons_append, this]
        simp
    | _ => exact he.elim

theorem file_isName {n : Str} {es : List Comp} (h : FileName (.file n :: es)) : IsName (.file n :: es) :=
  exts_isExt es h.1

theorem file_nameOf {n : Str} {es : List Comp} (h : FileName (.file n :: es)) :
    nameOf (.file n :: es) = some (text (.file n :: es)) := nameOf_text n es h.1

theorem file_create {n : Str} {es : List Comp} (h : FileName (.file n :: es)) :
    Path.create (text (.file n :: es)) = some (.relRoot :: .file n :: es) := by
  unfold Path.create
  rw [Path.C66_write_then_read (.file n :: es) ⟨[], _, rfl, .inr h, trivial⟩]
  rfl

/-- The components of an entry in a listing. -/
def childOf (ks : List (Str × Tree)) (m : Str) : List Comp :=
  match ks.lookup m with
  | some (.file _) => ((Path.create m).getD []).drop 1
  | _ => [.dir m]

/-- Listing a directory. -/
theorem listing_dir {p : Addr} (hp : p.Ok) (hf : p.fs = []) (t : Tree) (cur : List Comp) (hr : view t [] = some .dir)
    (ks : List (Str × Tree)) (hk : get t p.dirs = some (.dir ks))
    (hn : ∀ m B, view t (p.dirs ++ [m]) = some (.file B) → ∃ n es, FileName (.file n :: es) ∧ m = text (.file n :: es)) :
    listing t cur p.path = some ((keys ks).map fun m => p.path ++ childOf ks m) := by
  have hl : p.loc = p.dirs := by unfold Addr.loc; rw [hf]; simp [nameOf]
  have hv : view t p.dirs = some .dir := by unfold view; rw [hk]; rfl
  obtain ⟨t', h⟩ := lookup_spec hp t cur hr
  unfold listing
  rw [h, show p.found t = true by unfold Addr.found; rw [hl, hv], if_pos rfl]
  dsimp only
  rw [hl, hk]
  dsimp only
  refine mapM_some _ _ _ fun m hm => ?_
  have hc : view t (p.dirs ++ [m]) = (ks.lookup m).map entry :=
    VirtualTree.view_child t p.dirs m ks (by unfold VirtualTree.nodes; rw [hk])
  rw [keys_mem] at hm
  unfold childPath childOf
  cases hlk : ks.lookup m with
  | none => rw [hlk] at hm; cases hm
  | some s =>
    cases s with
    | dir js => rfl
    | file B =>
      rw [hlk] at hc
      obtain ⟨n, es, h1, rfl⟩ := hn m B hc
      dsimp only
      rw [file_create h1]
      rfl

/-! ## The children -/

/-- The names in `S` have been copied from `a` to `b`. -/
structure Part (f g : FS) (a b : Loc) (S : List Str) : Prop where
  done : ∀ m ∈ S, ∀ r, g (b ++ m :: r) = f (a ++ m :: r)
  todo : ∀ m, m ∉ S → ∀ r, g (b ++ m :: r) = none
  self : g b = some .dir
  other : ∀ x, ¬ b <+: x → g x = f x

theorem prefix_child {b : Loc} {m m' : Str} {r : Loc} (h : b ++ [m] <+: b ++ m' :: r) : m = m' := by
  obtain ⟨y, hy⟩ := h
  rw [List.append_assoc] at hy
  have := List.append_cancel_left hy
  simp at this
  exact this.1

theorem prefix_up {b x : Loc} {m : Str} (h : b ++ [m] <+: x) : b <+: x := (List.prefix_append b [m]).trans h

/-- The paths of copying the directory `a` to `b`. -/
structure Pair (t : Tree) (p d : Addr) (k : Nat) : Prop where
  pok : p.Ok
  dok : d.Ok
  pfs : p.fs = []
  dfs : d.fs = []
  plen : p.path.length ≤ k
  dlen : d.path.length ≤ k
  root : view t [] = some .dir
  src : view t p.dirs = some .dir
  ex : ∃ q n, d.dirs = q ++ [n] ∧ view t q = some .dir
  fresh : view t d.dirs = none
  apart : ¬ p.dirs <+: d.dirs
  can : CanCopy (view t) p.dirs k

theorem Pair.below {t : Tree} {p d : Addr} {k : Nat} (h : Pair t p d k) (x : Loc) : ¬ d.dirs <+: p.dirs ++ x := by
  intro hp
  rcases List.prefix_or_prefix_of_prefix hp (List.prefix_append p.dirs x) with h1 | h1
  · obtain ⟨y, hy⟩ := h1
    cases y with
    | nil => rw [List.append_nil] at hy; have := h.fresh; rw [hy, h.src] at this; cases this
    | cons n y =>
      have := h.src
      rw [← hy, VirtualTree.view_below t _ n y (by rw [h.fresh]; simp)] at this
      cases this
  · exact h.apart h1

/-- What a call of the function does to two such paths. -/
def Does (copy : Tree → List Comp → List Comp → Option (Tree × Ok)) (k : Nat) : Prop :=
  ∀ t p d, Pair t p d k → ∃ t', copy t p.path d.path = some (t', true) ∧
    ∀ x, view t' x = if d.dirs <+: x then view t (p.dirs ++ x.drop d.dirs.length) else view t x

/-- One child. -/
theorem child_step {t t1 : Tree} {p d : Addr} {k : Nat} (h : Pair t p d k) (S : List Str) (hS : Part (view t) (view t1) p.dirs d.dirs S)
    (fuel : Nat) (cur : List Comp) (hfuel : 127 < fuel + (k + 1)) (ih : Does (fun t p d => copy fuel t cur p d) (k + 1))
    (ks : List (Str × Tree)) (m : Str) (hm : m ∉ S) (hks : view t (p.dirs ++ [m]) = (ks.lookup m).map entry)
    (hme : (ks.lookup m).isSome = true) :
    ∃ t2, copy fuel t1 cur (p.path ++ childOf ks m) (d.path ++ nameComps (p.path ++ childOf ks m).reverse) = some (t2, true) ∧
      Part (view t) (view t2) p.dirs d.dirs (S ++ [m]) := by
  have hpp : p.path = p.hd ++ p.dirs.map .dir := by unfold Addr.path; rw [h.pfs, List.append_nil]
  have hdp : d.path = d.hd ++ d.dirs.map .dir := by unfold Addr.path; rw [h.dfs, List.append_nil]
  have hdne : d.dirs ≠ [] := by obtain ⟨q, n, hq, -⟩ := h.ex; rw [hq]; simp
  have hroot : view t1 [] = some .dir := by
    rw [hS.other [] (by rw [List.prefix_nil]; exact hdne)]; exact h.root
  have hsame : ∀ x, view t1 (p.dirs ++ x) = view t (p.dirs ++ x) := fun x => hS.other _ (h.below x)
  have hfree : view t1 (d.dirs ++ [m]) = none := hS.todo m hm []
  unfold childOf
  cases hlk : ks.lookup m with
  | none => rw [hlk] at hme; cases hme
  | some s =>
    rw [hlk] at hks
    cases s with
    | dir js =>
      have hks : view t (p.dirs ++ [m]) = some .dir := hks
      have hk1 : k + 1 ≤ 127 := h.can.short [m] (by rw [hks]; simp)
      dsimp only
      let p' : Addr := ⟨p.hd, p.dirs ++ [m], []⟩
      let d' : Addr := ⟨d.hd, d.dirs ++ [m], []⟩
      have e1 : p.path ++ [.dir m] = p'.path := by rw [hpp]; simp [p', Addr.path]
      have e2 : d.path ++ nameComps (p.path ++ [Comp.dir m]).reverse = d'.path := by
        rw [hdp, List.reverse_append]; simp [d', Addr.path, nameComps]
      have l1 : p'.path.length ≤ k + 1 := by rw [← e1, List.length_append]; have := h.plen; simp; omega
      have l2 : d'.path.length ≤ k + 1 := by
        have := h.dlen; rw [hdp] at this; simp [d', Addr.path] at this ⊢; omega
      have hpair : Pair t1 p' d' (k + 1) := by
        refine ⟨⟨h.pok.head, .inl rfl, by omega⟩, ⟨h.dok.head, .inl rfl, by omega⟩, rfl, rfl, l1, l2, hroot,
          (hsame [m]).trans hks, ⟨d.dirs, m, rfl, hS.self⟩, hfree, ?_, ?_⟩
        · intro hpre
          obtain ⟨y, hy⟩ := prefix_up hpre
          have hcase : y = [] ∨ ∃ z n, y = z ++ [n] := by
            cases hr : y.reverse with
            | nil => left; simpa using hr
            | cons n z => right; exact ⟨z.reverse, n, by rw [← List.reverse_reverse y, hr]; simp⟩
          rcases hcase with rfl | ⟨z, n, rfl⟩
          · rw [List.append_nil] at hy
            have hlen := hpre.length_le
            have hlen' := congrArg List.length hy
            simp only [p', d', List.length_append] at hlen hlen'
            simp at hlen hlen'
            omega
          · rw [← List.append_assoc] at hy
            exact h.apart ⟨z, (List.append_inj' hy rfl).1⟩
        · have hc := h.can
          refine ⟨?_, ?_, ?_⟩
          · intro r hr
            have hr : view t1 (p.dirs ++ [m] ++ r) = some .dir := hr
            show ∃ m', view t1 (p.dirs ++ [m] ++ r ++ [m']) ≠ none
            rw [List.append_assoc, hsame] at hr
            obtain ⟨m', h'⟩ := hc.full _ hr
            refine ⟨m', ?_⟩
            rw [List.append_assoc, List.append_assoc, hsame]
            rw [List.append_assoc, List.append_assoc] at h'
            exact h'
          · intro r m' B hr
            have hr : view t1 (p.dirs ++ [m] ++ r ++ [m']) = some (.file B) := hr
            rw [List.append_assoc, List.append_assoc, hsame] at hr
            obtain ⟨n, es, h1, h2, h3⟩ := hc.names ([m] ++ r) m' B (by rw [List.append_assoc, List.append_assoc]; exact hr)
            refine ⟨n, es, h1, h2, ?_⟩
            simp at h3
            omega
          · intro r hr
            have hr : view t1 (p.dirs ++ [m] ++ r) ≠ none := hr
            rw [List.append_assoc, hsame] at hr
            have := hc.short _ hr
            simp at this
            omega
      obtain ⟨t2, c1, c2⟩ := ih t1 p' d' hpair
      refine ⟨t2, by rw [e2, e1]; exact c1, ?_⟩
      have c2 : ∀ x, view t2 x = if d.dirs ++ [m] <+: x then view t1 (p.dirs ++ [m] ++ x.drop (d.dirs ++ [m]).length) else view t1 x := c2
      refine ⟨?_, ?_, ?_, ?_⟩
      · intro m' hm' r
        rw [c2]
        by_cases he : m = m'
        · subst he
          have hx : d.dirs ++ m :: r = d.dirs ++ [m] ++ r := by simp
          rw [hx, if_pos (List.prefix_append _ _), List.drop_left, List.append_assoc, hsame]
          rfl
        · rw [if_neg (fun hpre => he (prefix_child hpre))]
          refine hS.done m' ?_ r
          rcases List.mem_append.1 hm' with hm' | hm'
          · exact hm'
          · simp at hm'; exact absurd hm'.symm he
      · intro m' hm' r
        rw [c2, if_neg (fun hpre => hm' (by rw [prefix_child hpre]; simp))]
        exact hS.todo m' (fun hh => hm' (by simp [hh])) r
      · rw [c2, if_neg (fun hpre => by have := hpre.length_le; rw [List.length_append, List.length_singleton] at this; omega)]
        exact hS.self
      · intro x hx
        rw [c2, if_neg (fun hpre => hx (prefix_up hpre))]
        exact hS.other x hx
    | file B =>
      have hks : view t (p.dirs ++ [m]) = some (.file B) := hks
      obtain ⟨n, es, hn, rfl, hlen⟩ := h.can.names [] m B (by rw [List.append_nil]; exact hks)
      simp only [List.length_nil] at hlen
      dsimp only
      rw [file_create hn]
      let p' : Addr := ⟨p.hd, p.dirs, .file n :: es⟩
      let d' : Addr := ⟨d.hd, d.dirs, .file n :: es⟩
      have e1 : p.path ++ ((some (.relRoot :: .file n :: es)).getD []).drop 1 = p'.path := by
        rw [hpp]; simp [p', Addr.path]
      have e2 : d.path ++ nameComps (p'.path).reverse = d'.path := by
        have : p'.path.reverse = es.reverse ++ .file n :: (p.hd ++ p.dirs.map Comp.dir).reverse := by
          simp [p', Addr.path]
        rw [this, nameComps_file n _ es (exts_isExt es hn.1), hdp]
        simp [d', Addr.path]
      rw [e1, e2]
      have l1 : p'.path.length ≤ 127 := by
        have := h.plen; rw [hpp] at this; simp [p', Addr.path] at this ⊢; omega
      have l2 : d'.path.length ≤ 127 := by
        have := h.dlen; rw [hdp] at this; simp [d', Addr.path] at this ⊢; omega
      have n1 : p'.loc = p.dirs ++ [text (.file n :: es)] := by
        show p.dirs ++ (nameOf (.file n :: es)).toList = _; rw [file_nameOf hn]; rfl
      have n2 : d'.loc = d.dirs ++ [text (.file n :: es)] := by
        show d.dirs ++ (nameOf (.file n :: es)).toList = _; rw [file_nameOf hn]; rfl
      obtain ⟨f, rfl⟩ : ∃ f, fuel = f + 1 := ⟨fuel - 1, by omega⟩
      have := C71_virtual_copy_exact (p := p') (d := d') ⟨h.pok.head, .inr (file_isName hn), l1⟩
        ⟨h.dok.head, .inr (file_isName hn), l2⟩ t1 cur f hroot (file_isName hn) (file_isName hn) B
        (by rw [n1, hsame]; exact hks)
      rw [n2, hfree] at this
      dsimp only at this
      rw [if_pos (show view t1 d'.dirs = some .dir from hS.self)] at this
      obtain ⟨t2, c1, c2⟩ := this
      refine ⟨t2, c1, ?_⟩
      rw [c2]
      refine ⟨?_, ?_, ?_, ?_⟩
      · intro m' hm' r
        unfold add
        by_cases hx : d.dirs ++ m' :: r = d.dirs ++ [text (.file n :: es)]
        · rw [if_pos hx]
          have := List.append_cancel_left hx
          simp only [List.cons.injEq] at this
          obtain ⟨rfl, rfl⟩ := this
          exact hks.symm
        · rw [if_neg hx]
          by_cases he : text (.file n :: es) = m'
          · subst he
            rw [hS.todo _ hm r]
            cases r with
            | nil => exact absurd rfl hx
            | cons y r =>
              have := VirtualTree.view_below t (p.dirs ++ [text (.file n :: es)]) y r (by rw [hks]; simp)
              rw [List.append_assoc] at this
              exact this.symm
          · refine hS.done m' ?_ r
            rcases List.mem_append.1 hm' with hm' | hm'
            · exact hm'
            · simp at hm'; exact absurd hm'.symm he
      · intro m' hm' r
        unfold add
        rw [if_neg (fun hx => hm' (by have := List.append_cancel_left hx; simp at this; rw [this.1]; simp))]
        exact hS.todo m' (fun hh => hm' (by simp [hh])) r
      · unfold add
        rw [if_neg (by intro hx; have := congrArg List.length hx; simp at this)]
        exact hS.self
      · intro x hx
        unfold add
        rw [if_neg (fun hh => hx (by rw [hh]; exact List.prefix_append _ _))]
        exact hS.other x hx

/-- All children. -/
theorem children {t : Tree} {p d : Addr} {k : Nat} (h : Pair t p d k) (fuel : Nat) (cur : List Comp) (hfuel : 127 < fuel + (k + 1))
    (ih : Does (fun t p d => copy fuel t cur p d) (k + 1)) (ks : List (Str × Tree)) (l : List Str) :
    ∀ (S : List Str) (t1 : Tree), Part (view t) (view t1) p.dirs d.dirs S → (S ++ l).Nodup →
    (∀ m ∈ l, view t (p.dirs ++ [m]) = (ks.lookup m).map entry ∧ (ks.lookup m).isSome = true) →
    ∃ t2, copyAll (fun t p d => copy fuel t cur p d) d.path (l.map fun m => p.path ++ childOf ks m) t1 = some t2 ∧
      Part (view t) (view t2) p.dirs d.dirs (S ++ l) := by
  induction l with
  | nil => intro S t1 hS _ _; exact ⟨t1, rfl, by rw [List.append_nil]; exact hS⟩
  | cons m l ihl =>
    intro S t1 hS hnd hks
    have hm : m ∉ S := by
      intro hm
      have := List.nodup_append.1 hnd
      exact this.2.2 m hm m (by simp) rfl
    obtain ⟨t2, h1, h2⟩ := child_step h S hS fuel cur hfuel ih ks m hm (hks m (by simp)).1 (hks m (by simp)).2
    obtain ⟨t3, h3, h4⟩ := ihl (S ++ [m]) t2 h2 (by simpa using hnd) (fun m' hm' => hks m' (by simp [hm']))
    refine ⟨t3, ?_, by simpa using h4⟩
    rw [List.map_cons, copyAll, h1]
    exact h3

/-- The recursion. -/
theorem copy_dir (cur : List Comp) (fuel : Nat) : ∀ k, 127 < fuel + k → Does (fun t p d => copy fuel t cur p d) k := by
  induction fuel with
  | zero =>
    intro k hk t p d h
    have := h.can.short [] (by rw [List.append_nil, h.src]; simp)
    simp at this
    omega
  | succ fuel ih =>
    intro k hk t p d h
    have hpl : p.loc = p.dirs := by unfold Addr.loc; rw [h.pfs]; simp [nameOf]
    have hdl : d.loc = d.dirs := by unfold Addr.loc; rw [h.dfs]; simp [nameOf]
    obtain ⟨q, n, hq, hqd⟩ := h.ex
    obtain ⟨t1, h1, h2⟩ := create_new h.dok t cur h.root q n (hdl.trans hq) hqd (by rw [← hq]; exact h.fresh)
    rw [if_pos h.dfs, ← hq] at h2
    have hdne : d.dirs ≠ [] := by rw [hq]; simp
    have hroot : view t1 [] = some .dir := by rw [h2]; unfold add; rw [if_neg (Ne.symm hdne)]; exact h.root
    have hsame : ∀ x, view t1 (p.dirs ++ x) = view t (p.dirs ++ x) := by
      intro x
      rw [h2]; unfold add
      rw [if_neg (fun hx => h.below x (by rw [hx]; exact List.prefix_rfl))]
    have hsrc : view t1 p.dirs = some .dir := by
      have := hsame []; rw [List.append_nil] at this; rw [this]; exact h.src
    obtain ⟨ks, hks⟩ := view_dir hsrc
    have hlist := listing_dir h.pok h.pfs t1 cur hroot ks hks (by
      intro m B hB
      rw [hsame] at hB
      obtain ⟨n, es, a, b, -⟩ := h.can.names [] m B (by rw [List.append_nil]; exact hB)
      exact ⟨n, es, a, b⟩)
    have hchild : ∀ m, view t (p.dirs ++ [m]) = (ks.lookup m).map entry := by
      intro m
      rw [← hsame]
      exact VirtualTree.view_child t1 p.dirs m ks (by unfold VirtualTree.nodes; rw [hks])
    have hpart : Part (view t) (view t1) p.dirs d.dirs [] := by
      rw [h2]
      refine ⟨(fun m hm => by cases hm), ?_, ?_, ?_⟩
      · intro m _ r
        unfold add
        rw [if_neg (by intro hx; have := congrArg List.length hx; simp at this)]
        exact VirtualTree.view_below t _ m r (by rw [h.fresh]; simp)
      · unfold add; rw [if_pos rfl]
      · intro x hx
        unfold add
        rw [if_neg (fun hh => hx (by rw [hh]; exact List.prefix_rfl))]
    obtain ⟨t2, h3, h4⟩ := children h fuel cur (by omega) (ih (k + 1) (by omega)) ks (keys ks) [] t1 hpart
      (by simpa using keys_nodup ks) (fun m hm => ⟨hchild m, (keys_mem ks m).1 hm⟩)
    have hne : keys ks ≠ [] := by
      obtain ⟨m, hm⟩ := h.can.full [] (by rw [List.append_nil]; exact h.src)
      rw [List.append_nil, hchild] at hm
      have : m ∈ keys ks := (keys_mem ks m).2 (by cases hl : ks.lookup m with
        | none => rw [hl] at hm; exact absurd rfl hm
        | some s => rfl)
      intro hz; rw [hz] at this; cases this
    refine ⟨t2, ?_, ?_⟩
    · show copy (fuel + 1) t cur p.path d.path = _
      rw [copy, exist_spec h.pok t cur h.root]
      rw [show p.found t = true by unfold Addr.found; rw [hpl, h.src]]
      dsimp only
      rw [isFile_dir h.pok h.pfs, if_neg (by simp), h1]
      dsimp only
      rw [hlist]
      cases hkl : keys ks with
      | nil => exact absurd hkl hne
      | cons m l =>
        rw [hkl] at h3
        rw [List.map_cons] at h3 ⊢
        dsimp only
        rw [h3]
    · intro x
      split
      · rename_i hx
        obtain ⟨y, rfl⟩ := hx
        rw [List.drop_left]
        cases y with
        | nil => rw [List.append_nil, List.append_nil, h4.self, h.src]
        | cons m r =>
          by_cases hm : m ∈ keys ks
          · exact h4.done m (by simpa using hm) r
          · rw [h4.todo m (by simpa using hm) r]
            have hnone : view t (p.dirs ++ [m]) = none := by
              rw [hchild]
              cases hl : ks.lookup m with
              | none => rfl
              | some s => exact absurd ((keys_mem ks m).2 (by rw [hl]; rfl)) hm
            have := VirtualTree.view_below t p.dirs m r
            cases r with
            | nil => exact hnone.symm
            | cons y r =>
              have := VirtualTree.view_below t (p.dirs ++ [m]) y r (by rw [hnone]; simp)
              rw [List.append_assoc] at this
              exact this.symm
      · rename_i hx
        exact h4.other x hx

end Verif.VirtualCopy
