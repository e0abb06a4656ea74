import Verif.VirtualCopy
import Verif.VirtualTreeProps
/-!
# Copying in the virtual file system: lemmas
-/
namespace Verif.VirtualCopy
open Verif.Path (Str Comp)
open Verif.VirtualTree (Tree Loc Nd get put nodeOp exist getSize create remove)
open Verif.VirtualTree.Spec

/-- A path from the root: a head, directories, and a file name or nothing. -/
structure Addr where
  hd : List Comp
  dirs : Loc
  fs : List Comp

/-- The components of the path. -/
def Addr.path (p : Addr) : List Comp := p.hd ++ p.dirs.map .dir ++ p.fs

/-- Where the path leads. -/
def Addr.loc (p : Addr) : Loc := p.dirs ++ (nameOf p.fs).toList

/-- It is a path from the root of at most 127 components. -/
structure Addr.Ok (p : Addr) : Prop where
  head : IsHead p.hd
  name : p.fs = [] ∨ IsName p.fs
  short : p.path.length ≤ 127

theorem norm_dirs (l a : Loc) : norm l (a.map Comp.dir) = l ++ a := by
  induction a generalizing l with
  | nil => simp [norm]
  | cons n a ih => simp [norm, ih]

theorem Addr.Ok.means {p : Addr} (h : p.Ok) : Means p.path (p.dirs.map .dir) p.fs :=
  ⟨p.hd, h.head, rfl, by intro c hc; obtain ⟨n, -, rfl⟩ := List.mem_map.1 hc; trivial, h.name, h.short⟩

theorem Addr.target (p : Addr) : target (p.dirs.map .dir) p.fs = p.loc := by
  unfold VirtualTree.Spec.target Addr.loc
  rw [norm_dirs, List.nil_append]

theorem nameOf_some {fs : List Comp} (h : IsName fs) : ∃ n, nameOf fs = some n := by
  unfold IsName at h
  split at h
  · exact ⟨_, rfl⟩
  · exact ⟨_, rfl⟩
  · exact h.elim

/-- Everything above an entry is a directory. -/
theorem view_above (t : Tree) (l : Loc) (e : Entry) (h : view t l = some e) (k : Nat) (hk : k < l.length) :
    view t (l.take k) = some .dir := by
  rw [← List.take_append_drop k l, List.drop_eq_getElem_cons hk] at h
  exact Classical.byContradiction fun hn => by
    rw [VirtualTree.view_below t (l.take k) _ _ hn] at h; cases h

theorem clear_dirs (t : Tree) (a : Loc) (h : view t a = some .dir) : Clear (view t) (a.map .dir) := by
  intro k b hb
  rw [← List.map_take, norm_dirs, List.nil_append] at hb
  by_cases hk : k < a.length
  · rw [view_above t a .dir h k hk] at hb; cases hb
  · rw [List.take_of_length_le (by omega), h] at hb; cases hb

/-- Is what the path means there?  A directory for a directory, anything for a file name. -/
def Addr.found (p : Addr) (t : Tree) : Bool :=
  match view t p.loc with
  | none => false
  | some .dir => true
  | some (.file _) => !p.fs.isEmpty

theorem Addr.there {p : Addr} (hp : p.Ok) (t : Tree) : There (view t) (p.dirs.map .dir) p.fs ↔ p.found t = true := by
  unfold There Addr.found
  rw [Addr.target]
  rcases hp.name with h | h
  · have hl : p.loc = p.dirs := by unfold Addr.loc; rw [h]; simp [nameOf]
    rw [h, hl]
    constructor
    · rintro ⟨-, h2⟩; have h2 : view t p.dirs = some .dir := h2; rw [h2]
    · intro hx
      cases hv : view t p.dirs with
      | none => rw [hv] at hx; cases hx
      | some e =>
        cases e with
        | dir => exact ⟨clear_dirs t _ hv, rfl⟩
        | file b => rw [hv] at hx; cases hx
  · obtain ⟨n, hn⟩ := nameOf_some h
    have hl : p.loc = p.dirs ++ [n] := by unfold Addr.loc; rw [hn]; rfl
    have he : p.fs.isEmpty = false := by
      cases hf : p.fs with
      | nil => rw [hf] at h; exact h.elim
      | cons c cs => rfl
    rw [hn, hl, he]
    constructor
    · rintro ⟨-, e, h2⟩; rw [h2]; cases e <;> rfl
    · intro hx
      cases hv : view t (p.dirs ++ [n]) with
      | none => rw [hv] at hx; cases hx
      | some e => exact ⟨clear_dirs t _ (VirtualTree.view_closed t _ n e hv), e, rfl⟩

/-- Looking for an entry. -/
theorem lookup_spec {p : Addr} (hp : p.Ok) (t : Tree) (cur : List Comp) (hr : view t [] = some .dir) :
    ∃ t', nodeOp t cur p.path .none false = some (t', if p.found t then some (.real p.loc) else none) := by
  obtain ⟨hd, hh, hpath, hds, hfs, hb⟩ := hp.means
  obtain ⟨t', -, h⟩ := VirtualTree.find_refines t (p.dirs.map .dir) p.fs _
    (VirtualTree.nodeOp_core t cur hd (p.dirs.map .dir) p.fs .none false hr hh hds hfs (by rw [← hpath]; exact hb))
  rw [← hpath] at h
  refine ⟨t', ?_⟩
  rw [h]
  by_cases ht : There (view t) (p.dirs.map .dir) p.fs
  · rw [(VirtualTree.find_iff t _ p.fs hds hr _).2 ⟨ht, rfl⟩, Addr.target, if_pos ((Addr.there hp t).1 ht)]
    rfl
  · rw [(VirtualTree.find_none t _ p.fs hds hr).2 ht, if_neg (fun e => ht ((Addr.there hp t).2 e))]
    rfl

theorem exist_spec {p : Addr} (hp : p.Ok) (t : Tree) (cur : List Comp) (hr : view t [] = some .dir) :
    exist t cur p.path = some (p.found t) := by
  obtain ⟨b, h1, h2⟩ := VirtualTree.C70_exists t cur p.path _ p.fs hr hp.means
  rw [Addr.there hp t] at h2
  rw [h1]
  congr 1
  exact Bool.eq_iff_iff.2 h2

theorem view_file {t : Tree} {l : Loc} {b : List UInt8} (h : view t l = some (.file b)) : get t l = some (.file b) := by
  unfold view at h
  cases hg : get t l with
  | none => rw [hg] at h; cases h
  | some s => rw [hg] at h; cases s <;> (cases h <;> rfl)

theorem view_dir {t : Tree} {l : Loc} (h : view t l = some .dir) : ∃ ks, get t l = some (.dir ks) := by
  unfold view at h
  cases hg : get t l with
  | none => rw [hg] at h; cases h
  | some s =>
    rw [hg] at h
    cases s with
    | file b => cases h
    | dir ks => exact ⟨ks, rfl⟩

/-- Opening a file. -/
theorem open_spec {p : Addr} (hp : p.Ok) (t : Tree) (cur : List Comp) (hr : view t [] = some .dir) (hfs : p.fs ≠ []) :
    openFile t cur p.path = some (match view t p.loc with
      | some (.file b) => some (p.loc, b)
      | _ => none) := by
  obtain ⟨t', h⟩ := lookup_spec hp t cur hr
  have he : p.fs.isEmpty = false := by cases hf : p.fs with
    | nil => exact absurd hf hfs
    | cons c cs => rfl
  unfold openFile
  rw [h]
  unfold Addr.found
  cases hv : view t p.loc with
  | none => rfl
  | some e =>
    cases e with
    | dir => obtain ⟨ks, hk⟩ := view_dir hv; simp [hk]
    | file b => simp [he, view_file hv]

/-- Creating, for a path without `..`. -/
theorem create_spec {p : Addr} (hp : p.Ok) (t : Tree) (cur : List Comp) (hr : view t [] = some .dir) :
    ∃ t' ok, create t cur p.path false = some (t', ok) ∧
      VirtualTree.Created (view t) (view t') (p.dirs.map .dir) p.fs false ok :=
  VirtualTree.C70_create t cur p.path _ p.fs false hr hp.means

/-- Creating what is not there, in a directory that is. -/
theorem create_new {p : Addr} (hp : p.Ok) (t : Tree) (cur : List Comp) (hr : view t [] = some .dir) (q : Loc) (n : Str)
    (hl : p.loc = q ++ [n]) (hq : view t q = some .dir) (hn : view t (q ++ [n]) = none) :
    ∃ t', create t cur p.path false = some (t', true) ∧
      view t' = add (view t) (q ++ [n]) (if p.fs = [] then .dir else .file []) := by
  obtain ⟨t', ok, h1, h2⟩ := create_spec hp t cur hr
  have htl := Addr.target p
  rw [hl] at htl
  have hd : ∀ k : Nat, 0 < k → norm [] ((p.dirs.map Comp.dir).take k) = p.dirs.take k := by
    intro k _; rw [← List.map_take, norm_dirs, List.nil_append]
  have hok : ok = true := by
    rcases hp.name with h | h
    · have hl' : p.dirs = q ++ [n] := by unfold Addr.loc at hl; rw [h] at hl; simpa [nameOf] using hl
      refine (h2.last rfl (by rw [h]; rfl) (q.map .dir) n (by rw [hl']; simp)).2 ⟨?_, by rw [norm_dirs]; exact hq⟩
      intro k b hb
      rw [← List.map_take, norm_dirs, List.nil_append, hl'] at hb
      by_cases hk : k ≤ q.length
      · rw [List.take_append_of_le_length hk] at hb
        exact clear_dirs t q hq k b (by rw [← List.map_take, norm_dirs]; exact hb)
      · rw [List.take_of_length_le (by simp; omega), hn] at hb; cases hb
    · obtain ⟨m, hm⟩ := nameOf_some h
      have hl' : p.dirs = q := by
        unfold Addr.loc at hl
        rw [hm] at hl
        exact (List.append_inj' hl rfl).1
      refine (h2.file rfl (by rw [hm]; simp)).2 ⟨?_, by rw [norm_dirs, hl']; exact hq⟩
      rw [hl']; exact clear_dirs t q hq
  refine ⟨t', by rw [h1, hok], ?_⟩
  subst hok
  funext x
  unfold add
  by_cases hx : x = q ++ [n]
  · rw [if_pos hx]
    obtain ⟨e, he, he'⟩ := h2.entry rfl
    rw [htl, ← hx] at he
    rw [he]
    have hnx : view t x = none := by rw [hx]; exact hn
    rcases hp.name with h | h
    · rw [if_pos h, he' (by rw [h]; rfl)]
    · obtain ⟨m, hm⟩ := nameOf_some h
      rw [if_neg (by intro hz; rw [hz] at h; exact h)]
      rcases h2.adds x e hnx he with ⟨-, -, -, hh⟩ | ⟨-, k, -, -, -, hh⟩
      · rw [hh]
      · rcases hh with hh | ⟨hh, -⟩
        · cases hh
        · rw [hm] at hh; cases hh
  · rw [if_neg hx]
    cases hv : view t x with
    | some e => exact h2.keeps x e hv
    | none =>
      cases hv' : view t' x with
      | none => rfl
      | some e =>
        exfalso
        rcases h2.adds x e hv hv' with ⟨hh, -⟩ | ⟨-, k, -, -, h5, hh⟩
        · exact hx (hh.trans htl)
        · rcases hh with hh | ⟨hh, hk⟩
          · cases hh
          · refine hx (h5.trans ?_)
            rw [hk, List.take_length, ← htl]
            unfold VirtualTree.Spec.target
            rw [hh]
            simp

/-- Creating a file in a directory that is not there does nothing. -/
theorem create_nowhere {p : Addr} (hp : p.Ok) (t : Tree) (cur : List Comp) (hr : view t [] = some .dir) (hf : IsName p.fs)
    (hd : view t p.dirs ≠ some .dir) :
    ∃ t', create t cur p.path false = some (t', false) ∧ view t' = view t := by
  obtain ⟨t', ok, h1, h2⟩ := create_spec hp t cur hr
  obtain ⟨m, hm⟩ := nameOf_some hf
  have hok : ok = false := by
    cases hk : ok with
    | false => rfl
    | true =>
      have := ((h2.file rfl (by rw [hm]; simp)).1 hk).2
      rw [norm_dirs, List.nil_append] at this
      exact absurd this hd
  refine ⟨t', by rw [h1, hok], ?_⟩
  funext x
  cases hv : view t x with
  | some e => exact h2.keeps x e hv
  | none =>
    cases hv' : view t' x with
    | none => rfl
    | some e' =>
      exfalso
      rcases h2.adds x e' hv hv' with ⟨-, -, hh, -⟩ | ⟨-, k, -, -, h5, hh⟩
      · rw [hok] at hh; cases hh
      · rcases hh with hh | ⟨hh, hk⟩
        · cases hh
        · rw [hm] at hh; cases hh

/-- Creating a file that is there changes nothing. -/
theorem create_old {p : Addr} (hp : p.Ok) (t : Tree) (cur : List Comp) (hr : view t [] = some .dir) (hf : IsName p.fs)
    (e : Entry) (he : view t p.loc = some e) :
    ∃ t', create t cur p.path false = some (t', true) ∧ view t' = view t := by
  obtain ⟨t', ok, h1, h2⟩ := create_spec hp t cur hr
  obtain ⟨m, hm⟩ := nameOf_some hf
  have hl : p.loc = p.dirs ++ [m] := by unfold Addr.loc; rw [hm]; rfl
  have hdir : view t p.dirs = some .dir := by rw [hl] at he; exact VirtualTree.view_closed t _ m e he
  have hok : ok = true := by
    refine (h2.file rfl (by rw [hm]; simp)).2 ⟨clear_dirs t _ hdir, ?_⟩
    rw [norm_dirs, List.nil_append]; exact hdir
  refine ⟨t', by rw [h1, hok], ?_⟩
  funext x
  cases hv : view t x with
  | some e => exact h2.keeps x e hv
  | none =>
    cases hv' : view t' x with
    | none => rfl
    | some e' =>
      exfalso
      rcases h2.adds x e' hv hv' with ⟨hh, -⟩ | ⟨-, k, -, -, h5, hh⟩
      · rw [Addr.target] at hh; rw [hh, he] at hv; cases hv
      · rcases hh with hh | ⟨hh, hk⟩
        · cases hh
        · rw [hm] at hh; cases hh

/-- The bytes of a file. -/
theorem view_set (t : Tree) (l : Loc) (D X : List UInt8) (hr : view t [] = some .dir) (h : view t l = some (.file D)) :
    view (setBytes t l X) = add (view t) l (.file X) := by
  cases hl : l.reverse with
  | nil =>
    have : l = [] := by simpa using hl
    rw [this, hr] at h; cases h
  | cons n r =>
    have hl' : l = r.reverse ++ [n] := by rw [← List.reverse_reverse l, hl]; simp
    subst hl'
    have hq := VirtualTree.view_closed t _ n _ h
    unfold setBytes
    rw [List.getLast?_concat, List.dropLast_concat]
    funext x
    dsimp only
    rw [VirtualTree.view_put t _ n _ x hq]
    unfold add
    by_cases hx : x = r.reverse ++ [n]
    · subst hx
      rw [if_pos List.prefix_rfl, if_pos rfl]
      rw [List.drop_of_length_le (by simp)]; rfl
    · rw [if_neg hx]
      split
      · rename_i hpre
        obtain ⟨y, rfl⟩ := hpre
        cases y with
        | nil => simp at hx
        | cons m y =>
          rw [VirtualTree.view_below t _ m y (by rw [h]; simp)]
          rw [List.drop_left' (by simp)]
          rfl
      · rfl

theorem isFile_path {p : Addr} (h : IsName p.fs) : isFile p.path = true := by
  unfold Addr.path isFile
  generalize p.hd ++ p.dirs.map .dir = xs
  cases hf : p.fs with
  | nil => rw [hf] at h; exact h.elim
  | cons c es =>
    rw [hf] at h
    cases hl : es.reverse with
    | nil =>
      have : es = [] := by simpa using hl
      subst this
      rw [List.getLast?_append]
      cases c <;> first | rfl | exact h.elim
    | cons e r =>
      have he : es = r.reverse ++ [e] := by rw [← List.reverse_reverse es, hl]; simp
      subst he
      have hext : IsExt e := by
        cases c <;> first | exact h.elim | exact h e (by simp)
      rw [show xs ++ c :: (r.reverse ++ [e]) = (xs ++ c :: r.reverse) ++ [e] by simp, List.getLast?_concat]
      cases e <;> first | rfl | exact hext.elim

theorem isFile_dir {p : Addr} (hp : p.Ok) (h : p.fs = []) : isFile p.path = false := by
  unfold Addr.path isFile
  rw [h, List.append_nil]
  cases hl : p.dirs.reverse with
  | nil =>
    have : p.dirs = [] := by simpa using hl
    rw [this]
    rcases hp.head with h | ⟨v, h⟩ | ⟨v, h⟩ <;> rw [h] <;> rfl
  | cons n r =>
    have he : p.dirs = r.reverse ++ [n] := by rw [← List.reverse_reverse p.dirs, hl]; simp
    rw [he, List.map_append, ← List.append_assoc]
    rw [show ([n].map Comp.dir) = [.dir n] from rfl, List.getLast?_concat]

theorem fs_ne {p : Addr} (h : IsName p.fs) : p.fs ≠ [] := by intro hz; rw [hz] at h; exact h

theorem found_file {p : Addr} (h : IsName p.fs) (t : Tree) : p.found t = (view t p.loc).isSome := by
  unfold Addr.found
  cases hv : view t p.loc with
  | none => rfl
  | some e =>
    cases e with
    | dir => rfl
    | file b =>
      cases hf : p.fs with
      | nil => exact absurd hf (fs_ne h)
      | cons c cs => rfl

/-- Copying a file: everything that can happen when the destination is a file path. -/
theorem copyFile_spec {p d : Addr} (hp : p.Ok) (hd : d.Ok) (t : Tree) (cur : List Comp) (hr : view t [] = some .dir)
    (hpn : IsName p.fs) (hdn : IsName d.fs) (B : List UInt8) (hB : view t p.loc = some (.file B)) :
    match view t d.loc with
    | some (.file D) => match over D B with
      | none => copyFile t cur p.path d.path = none
      | some X => ∃ t', copyFile t cur p.path d.path = some (t', true) ∧ view t' = add (view t) d.loc (.file X)
    | some .dir => ∃ t', copyFile t cur p.path d.path = some (t', false) ∧ view t' = view t
    | none =>
      if view t d.dirs = some .dir then
        ∃ t', copyFile t cur p.path d.path = some (t', true) ∧ view t' = add (view t) d.loc (.file B)
      else ∃ t', copyFile t cur p.path d.path = some (t', false) ∧ view t' = view t := by
  have ho := open_spec hp t cur hr (fs_ne hpn)
  rw [hB] at ho
  obtain ⟨m, hm⟩ := nameOf_some hdn
  have hl : d.loc = d.dirs ++ [m] := by unfold Addr.loc; rw [hm]; rfl
  unfold copyFile
  rw [ho]
  dsimp only
  cases hv : view t d.loc with
  | some e =>
    obtain ⟨t1, h1, h2⟩ := create_old hd t cur hr hdn e hv
    have hr1 : view t1 [] = some .dir := by rw [h2]; exact hr
    have ho1 := open_spec hd t1 cur hr1 (fs_ne hdn)
    rw [h2, hv] at ho1
    simp only [h1, ho1]
    cases e with
    | dir => exact ⟨t1, rfl, h2⟩
    | file D =>
      dsimp only
      cases ho : over D B with
      | none => rfl
      | some X =>
        dsimp only
        exact ⟨_, rfl, by rw [view_set t1 d.loc D X hr1 (by rw [h2]; exact hv), h2]⟩
  | none =>
    dsimp only
    split
    · rename_i hdir
      obtain ⟨t1, h1, h2⟩ := create_new hd t cur hr d.dirs m hl hdir (by rw [← hl]; exact hv)
      rw [if_neg (fs_ne hdn), ← hl] at h2
      have hne : d.loc ≠ [] := by rw [hl]; simp
      have hr1 : view t1 [] = some .dir := by rw [h2]; unfold add; rw [if_neg (Ne.symm hne)]; exact hr
      have ho1 := open_spec hd t1 cur hr1 (fs_ne hdn)
      have hv1 : view t1 d.loc = some (.file []) := by rw [h2]; unfold add; rw [if_pos rfl]
      rw [hv1] at ho1
      simp only [h1, ho1]
      have hov : over [] B = some B := by unfold over; split <;> simp_all
      rw [hov]
      dsimp only
      refine ⟨_, rfl, ?_⟩
      rw [view_set t1 d.loc [] B hr1 hv1, h2]
      funext x; unfold add; split <;> rfl
    · rename_i hdir
      obtain ⟨t1, h1, h2⟩ := create_nowhere hd t cur hr hdn hdir
      simp only [h1]
      exact ⟨t1, rfl, h2⟩

theorem copy_file_eq {p : Addr} (hp : p.Ok) (t : Tree) (cur d : List Comp) (hr : view t [] = some .dir) (hpn : IsName p.fs)
    (fuel : Nat) : copy (fuel + 1) t cur p.path d =
      if (view t p.loc).isSome then copyFile t cur p.path d else some (t, false) := by
  rw [copy, exist_spec hp t cur hr, found_file hpn]
  cases hv : (view t p.loc).isSome with
  | false => rfl
  | true => dsimp only; rw [isFile_path hpn]; rfl

end Verif.VirtualCopy
