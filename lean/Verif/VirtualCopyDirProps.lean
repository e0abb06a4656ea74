import Verif.VirtualCopyDir
/-!
# C72: copying and moving directories in the virtual file system, the theorems
-/
namespace Verif.VirtualCopy
open Verif.Path (Str Comp)
open Verif.Path.Spec (Plain Exts FileName text)
open Verif.VirtualTree (Tree Loc Nd get put nodeOp exist getSize create remove)
open Verif.VirtualTree.Spec

/-- The path of a directory: a head and names. -/
def dirPath (hd : List Comp) (a : Loc) : List Comp := hd ++ a.map .dir

theorem dirPath_eq (hd : List Comp) (a : Loc) : dirPath hd a = (⟨hd, a, []⟩ : Addr).path := by simp [dirPath, Addr.path]

theorem pair_of {t : Tree} {hp hd : List Comp} {a q : Loc} {n : Str} {k : Nat} (h1 : IsHead hp) (h2 : IsHead hd)
    (hr : view t [] = some .dir) (hs : view t a = some .dir) (hq : view t q = some .dir) (hf : view t (q ++ [n]) = none)
    (hap : ¬ a <+: q ++ [n]) (hkp : (dirPath hp a).length ≤ k) (hkd : (dirPath hd (q ++ [n])).length ≤ k)
    (hc : CanCopy (view t) a k) : Pair t ⟨hp, a, []⟩ ⟨hd, q ++ [n], []⟩ k := by
  have hk : k ≤ 127 := by have := hc.short [] (by rw [List.append_nil, hs]; simp); simpa using this
  rw [dirPath_eq] at hkp hkd
  exact ⟨⟨h1, .inl rfl, by omega⟩, ⟨h2, .inl rfl, by omega⟩, rfl, rfl, hkp, hkd, hr, hs, ⟨q, n, rfl, hq⟩, hf, hap, hc⟩

/-- **C72, copying.**  A directory `a` is copied to a new entry `b = q/n` of a directory `q` that is not in `a`: everything
in `a` is then in `b` as well, everything else is as before, and success is reported.

Missing: directories with an empty directory in them (`C72_empty_directory_exact`), files with names that are not read back
(`C72_names_refuted`), and destinations that are there already (`C72_move_loses_refuted`). -/
theorem C72_copy_partial (t : Tree) (cur hp hd : List Comp) (a q : Loc) (n : Str) (k fuel : Nat) (h1 : IsHead hp) (h2 : IsHead hd)
    (hr : view t [] = some .dir) (hs : view t a = some .dir) (hq : view t q = some .dir) (hf : view t (q ++ [n]) = none)
    (hap : ¬ a <+: q ++ [n]) (hkp : (dirPath hp a).length ≤ k) (hkd : (dirPath hd (q ++ [n])).length ≤ k)
    (hc : CanCopy (view t) a k) (hfuel : 128 ≤ fuel) :
    ∃ t', copy fuel t cur (dirPath hp a) (dirPath hd (q ++ [n])) = some (t', true) ∧
      (∀ r, view t' (q ++ [n] ++ r) = view t (a ++ r)) ∧
      (∀ x, ¬ q ++ [n] <+: x → view t' x = view t x) := by
  obtain ⟨t', h3, h4⟩ := copy_dir cur fuel k (by omega) t _ _ (pair_of h1 h2 hr hs hq hf hap hkp hkd hc)
  rw [dirPath_eq, dirPath_eq]
  refine ⟨t', h3, fun r => ?_, fun x hx => ?_⟩
  · rw [h4, if_pos (List.prefix_append _ _), List.drop_left]
  · rw [h4, if_neg hx]

/-- **C72, moving.**  Afterwards nothing is at the old place any more, and everything else is as before. -/
theorem C72_move_partial (t : Tree) (cur hp hd : List Comp) (a q : Loc) (n : Str) (k fuel : Nat) (h1 : IsHead hp) (h2 : IsHead hd)
    (hr : view t [] = some .dir) (hs : view t a = some .dir) (hq : view t q = some .dir) (hf : view t (q ++ [n]) = none)
    (hap : ¬ a <+: q ++ [n]) (hkp : (dirPath hp a).length ≤ k) (hkd : (dirPath hd (q ++ [n])).length ≤ k)
    (hc : CanCopy (view t) a k) (hfuel : 128 ≤ fuel) :
    ∃ t', move fuel t cur (dirPath hp a) (dirPath hd (q ++ [n])) = some (t', true) ∧
      (∀ r, view t' (q ++ [n] ++ r) = view t (a ++ r)) ∧
      (∀ r, view t' (a ++ r) = none) ∧
      (∀ x, ¬ q ++ [n] <+: x → ¬ a <+: x → view t' x = view t x) := by
  have hpair := pair_of h1 h2 hr hs hq hf hap hkp hkd hc
  have hbelow : ∀ r, ¬ q ++ [n] <+: a ++ r := hpair.below
  have hpok : (⟨hp, a, []⟩ : Addr).Ok := hpair.pok
  obtain ⟨t1, c1, c2, c3⟩ := C72_copy_partial t cur hp hd a q n k fuel h1 h2 hr hs hq hf hap hkp hkd hc hfuel
  have hr1 : view t1 [] = some .dir := by rw [c3 [] (by simp)]; exact hr
  have hs1 : view t1 a = some .dir := by
    have := c3 (a ++ []) (hbelow []); rw [List.append_nil] at this; rw [this]; exact hs
  have hane : a ≠ [] := fun e => hap (by rw [e]; exact List.nil_prefix)
  have htl : target ((⟨hp, a, []⟩ : Addr).dirs.map .dir) [] = a := by
    have := Addr.target ⟨hp, a, []⟩
    rw [show (⟨hp, a, []⟩ : Addr).loc = a by simp [Addr.loc, nameOf]] at this
    exact this
  obtain ⟨t2, d1, d2, -⟩ := VirtualTree.C70_remove_partial t1 cur _ _ [] hr1 hpok.means (by rw [htl]; exact hane)
  have hth := (Addr.there hpok t1).2 (by
    unfold Addr.found
    rw [show (⟨hp, a, []⟩ : Addr).loc = a by simp [Addr.loc, nameOf], hs1])
  have d3 := d2.1 hth
  rw [htl] at d3
  have hnot : ∀ r, ¬ a <+: q ++ [n] ++ r := by
    intro r hpre
    rcases List.prefix_or_prefix_of_prefix hpre (List.prefix_append (q ++ [n]) r) with h | h
    · exact hap h
    · exact hbelow [] (by rw [List.append_nil]; exact h)
  refine ⟨t2, ?_, fun r => ?_, fun r => ?_, fun x hx hy => ?_⟩
  · unfold move; rw [c1]; dsimp only; rw [dirPath_eq]; exact d1
  · rw [d3, if_neg (hnot r), c2]
  · rw [d3, if_pos (List.prefix_append _ _)]
  · rw [d3, if_neg hy, c3 x hx]

/-- **C72, empty directories.**  Copying an empty directory to a new place always aborts: its listing is `NULL`, which the loop
over it asserts against (876); the destination has been created by then. -/
theorem C72_empty_directory_exact (t : Tree) (cur hp hd : List Comp) (a q : Loc) (n : Str) (fuel : Nat) (h1 : IsHead hp) (h2 : IsHead hd)
    (hr : view t [] = some .dir) (hs : view t a = some .dir) (hq : view t q = some .dir) (hf : view t (q ++ [n]) = none)
    (hap : ¬ a <+: q ++ [n]) (hkp : (dirPath hp a).length ≤ 127) (hkd : (dirPath hd (q ++ [n])).length ≤ 127)
    (he : ∀ m, view t (a ++ [m]) = none) :
    copy fuel t cur (dirPath hp a) (dirPath hd (q ++ [n])) = none := by
  rw [dirPath_eq] at hkp hkd ⊢
  rw [dirPath_eq]
  have hpok : (⟨hp, a, []⟩ : Addr).Ok := ⟨h1, .inl rfl, hkp⟩
  have hdok : (⟨hd, q ++ [n], []⟩ : Addr).Ok := ⟨h2, .inl rfl, hkd⟩
  cases fuel with
  | zero => rfl
  | succ fuel =>
    obtain ⟨t1, c1, c2⟩ := create_new hdok t cur hr q n (by simp [Addr.loc, nameOf]) hq hf
    rw [if_pos rfl] at c2
    have hr1 : view t1 [] = some .dir := by rw [c2]; unfold add; rw [if_neg (by simp)]; exact hr
    have hs1 : view t1 a = some .dir := by
      rw [c2]; unfold add; rw [if_neg (by rintro rfl; rw [hs] at hf; cases hf)]; exact hs
    have he1 : ∀ m, view t1 (a ++ [m]) = none := by
      intro m
      rw [c2]; unfold add; rw [if_neg (fun e => hap (by rw [← e]; exact List.prefix_append _ _))]; exact he m
    obtain ⟨ks, hks⟩ := view_dir hs1
    have hlist := listing_dir hpok rfl t1 cur hr1 ks hks (by
      intro m B hB
      have := he1 m
      rw [show (⟨hp, a, []⟩ : Addr).dirs = a from rfl, this] at hB
      cases hB)
    have hnil : keys ks = [] := by
      cases hk : keys ks with
      | nil => rfl
      | cons m l =>
        have hm := (keys_mem ks m).1 (by rw [hk]; simp)
        have hv := VirtualTree.view_child t1 a m ks (by unfold VirtualTree.nodes; rw [hks])
        rw [he1 m] at hv
        cases hl : ks.lookup m with
        | none => rw [hl] at hm; cases hm
        | some s => rw [hl] at hv; cases hv
    rw [copy, exist_spec hpok t cur hr]
    rw [show (⟨hp, a, []⟩ : Addr).found t = true by unfold Addr.found; rw [show (⟨hp, a, []⟩ : Addr).loc = a by simp [Addr.loc, nameOf], hs]]
    dsimp only
    rw [isFile_dir hpok rfl, if_neg (by simp), c1]
    dsimp only
    rw [hlist, hnil]
    rfl

/-! ## What is wrong -/

/-- **C72 is false for destinations that are there**: `/a` with the file `x`, moved onto a directory `/b` in which `x` is a
directory.  The file is not copied, its failure is not looked at (889), success is reported and the source removed: the bytes
of `/a/x` are lost. -/
theorem C72_move_loses_refuted :
    (move 128 (.dir [("a".toList, .dir [("x".toList, .file [7])]), ("b".toList, .dir [("x".toList, .dir [])])]) []
      (dirPath [.root] ["a".toList]) (dirPath [.root] ["b".toList])).map
      (fun r => (r.2, exist r.1 [] [.root, .dir "a".toList], getSize r.1 [] [.root, .dir "b".toList, .file "x".toList])) =
    some (true, some false, some 0) := by
  decide +kernel

/-- **C72 is false for names that are not read back**: a file `.x` (made with a component of that name) is listed by reading its name as a
path (773), which finds the extension `x`, and the file `x` is not there; moving its directory reports success and loses it. -/
theorem C72_names_refuted :
    (move 128 (.dir [("a".toList, .dir [(".x".toList, .file [7]), ("y".toList, .file [8])])]) []
      (dirPath [.root] ["a".toList]) (dirPath [.root] ["b".toList])).map
      (fun r => (r.2, exist r.1 [] [.root, .dir "a".toList], exist r.1 [] [.root, .dir "b".toList, .file ".x".toList],
        exist r.1 [] [.root, .dir "b".toList, .file "y".toList])) =
    some (true, some false, some false, some true) := by
  decide +kernel

/-- **C72 is false for a directory copied into itself**: the copy is listed and copied in turn, until a path has more components
than the array of `FSManagerVirtualNodeOp` (632) has entries - the fuel, 200, is more than the depth that reaches. -/
theorem C72_into_itself_refuted :
    copy 200 (.dir [("a".toList, .dir [("y".toList, .file [8])])]) [] (dirPath [.root] ["a".toList])
      (dirPath [.root] ["a".toList, "b".toList]) = none := by
  decide +kernel

/-- **C71 is false for a destination of the other kind**: copying a file to the path of a directory fails but makes the
directory. -/
theorem C71_kind_refuted :
    (copy 128 (.dir [("x".toList, .file [7])]) [] [.root, .file "x".toList] [.root, .dir "b".toList]).map
      (fun r => (r.2, exist r.1 [] [.root, .dir "b".toList])) = some (false, some true) := by
  decide +kernel

/-- **C71 is false for a file copied over another**: of a longer one the end stays, one of the same length aborts. -/
theorem C71_virtual_copy_refuted :
    (copy 128 (.dir [("x".toList, .file [7]), ("y".toList, .file [1, 2, 3])]) [] [.root, .file "x".toList] [.root, .file "y".toList]).map
      (fun r => (r.2, view r.1 ["y".toList])) = some (true, some (.file [7, 2, 3])) ∧
    (copy 128 (.dir [("x".toList, .file [7]), ("y".toList, .file [1])]) [] [.root, .file "x".toList] [.root, .file "y".toList]).isNone = true := by
  decide +kernel

/-- **C71 is false for a file moved onto itself**: an empty one is deleted, any other aborts. -/
theorem C71_move_self_refuted :
    (move 128 (.dir [("x".toList, .file [])]) [] [.root, .file "x".toList] [.root, .file "x".toList]).map
      (fun r => (r.2, exist r.1 [] [.root, .file "x".toList])) = some (true, some false) ∧
    (move 128 (.dir [("x".toList, .file [7])]) [] [.root, .file "x".toList] [.root, .file "x".toList]).isNone = true := by
  decide +kernel

/-! ## The hypotheses can be met -/

/-- A directory with a file and a directory with a file in it. -/
def sample : Tree := .dir [("a".toList, .dir [("x.t".toList, .file [1]), ("c".toList, .dir [("y".toList, .file [2, 3])])])]

theorem sample_all (r : Loc) (e : Entry) (h : view sample ("a".toList :: r) = some e) :
    (r = [] ∧ e = .dir) ∨ (r = ["x.t".toList] ∧ e = .file [1]) ∨ (r = ["c".toList] ∧ e = .dir) ∨
    (r = ["c".toList, "y".toList] ∧ e = .file [2, 3]) := by
  unfold view sample at h
  rw [VirtualTree.get, List.lookup_cons_self] at h
  cases r with
  | nil => left; cases h; exact ⟨rfl, rfl⟩
  | cons m r =>
    dsimp only at h
    rw [VirtualTree.get] at h
    by_cases h1 : m = "x.t".toList
    · subst h1
      rw [List.lookup_cons_self] at h
      cases r with
      | nil => cases h; exact .inr (.inl ⟨rfl, rfl⟩)
      | cons y r => cases h
    · rw [List.lookup_cons, show (m == "x.t".toList) = false by simpa using h1] at h
      by_cases h2 : m = "c".toList
      · subst h2
        dsimp only at h
        rw [List.lookup_cons_self] at h
        cases r with
        | nil => cases h; exact .inr (.inr (.inl ⟨rfl, rfl⟩))
        | cons y r =>
          dsimp only at h
          rw [VirtualTree.get] at h
          by_cases h3 : y = "y".toList
          · subst h3
            rw [List.lookup_cons_self] at h
            cases r with
            | nil => cases h; exact .inr (.inr (.inr ⟨rfl, rfl⟩))
            | cons z r => cases h
          · rw [List.lookup_cons, show (y == "y".toList) = false by simpa using h3] at h
            cases h
      · dsimp only at h
        rw [List.lookup_cons, show (m == "c".toList) = false by simpa using h2] at h
        cases h

theorem sample_can : CanCopy (view sample) ["a".toList] 2 := by
  refine ⟨?_, ?_, ?_⟩
  · intro r hr
    rcases sample_all r _ hr with ⟨rfl, -⟩ | ⟨-, h⟩ | ⟨rfl, -⟩ | ⟨-, h⟩
    · exact ⟨"c".toList, by decide⟩
    · cases h
    · exact ⟨"y".toList, by decide⟩
    · cases h
  · intro r m B h
    rw [List.append_assoc] at h
    rcases sample_all (r ++ [m]) _ h with ⟨h1, -⟩ | ⟨h1, -⟩ | ⟨-, h⟩ | ⟨h1, -⟩
    · simp at h1
    · obtain ⟨rfl, h1⟩ := List.append_inj' (s₁ := r) (t₁ := [m]) (s₂ := []) (t₂ := ["x.t".toList]) h1 rfl
      cases h1
      exact ⟨['x'], [.ext ['t']], ⟨⟨⟨by decide, by decide, by decide⟩, trivial⟩, .inl ⟨by decide, by decide, by decide⟩⟩, by decide, by decide⟩
    · cases h
    · obtain ⟨rfl, h1⟩ := List.append_inj' (s₁ := r) (t₁ := [m]) (s₂ := ["c".toList]) (t₂ := ["y".toList]) h1 rfl
      cases h1
      exact ⟨['y'], [], ⟨trivial, .inl ⟨by decide, by decide, by decide⟩⟩, by decide, by decide⟩
  · intro r hr
    cases hv : view sample ("a".toList :: r) with
    | none => exact absurd hv hr
    | some e =>
      rcases sample_all r e hv with ⟨rfl, -⟩ | ⟨rfl, -⟩ | ⟨rfl, -⟩ | ⟨rfl, -⟩ <;> decide

/-- Copying and moving it. -/
example : ∃ t', copy 128 sample [] (dirPath [.root] ["a".toList]) (dirPath [.root] ["b".toList]) = some (t', true) ∧
    view t' ["b".toList, "c".toList, "y".toList] = some (.file [2, 3]) := by
  obtain ⟨t', h1, h2, -⟩ := C72_copy_partial sample [] [.root] [.root] ["a".toList] [] "b".toList 2 128 (.inl rfl) (.inl rfl)
    rfl rfl rfl (by decide) (by decide) (by decide) (by decide) sample_can (by omega)
  exact ⟨t', h1, by rw [show ["b".toList, "c".toList, "y".toList] = [] ++ ["b".toList] ++ ["c".toList, "y".toList] from rfl, h2]; rfl⟩

example : ∃ t', move 128 sample [] (dirPath [.root] ["a".toList]) (dirPath [.root] ["b".toList]) = some (t', true) ∧
    view t' ["b".toList, "x.t".toList] = some (.file [1]) := by
  obtain ⟨t', h1, h2, -⟩ := C72_move_partial sample [] [.root] [.root] ["a".toList] [] "b".toList 2 128 (.inl rfl) (.inl rfl)
    rfl rfl rfl (by decide) (by decide) (by decide) (by decide) sample_can (by omega)
  exact ⟨t', h1, by rw [show ["b".toList, "x.t".toList] = [] ++ ["b".toList] ++ ["x.t".toList] from rfl, h2]; rfl⟩

/-- An empty directory. -/
example : copy 128 (.dir [("a".toList, .dir [])]) [] (dirPath [.root] ["a".toList]) (dirPath [.root] ["b".toList]) = none :=
  C72_empty_directory_exact _ [] [.root] [.root] ["a".toList] [] "b".toList 128 (.inl rfl) (.inl rfl) rfl rfl rfl rfl (by decide)
    (by decide) (by decide) (fun m => by unfold view; rw [List.singleton_append, VirtualTree.get, List.lookup_cons_self]; rfl)

/-- A file copied, moved and renamed. -/
example : ∃ t', copy 1 sample [] [.root, .dir "a".toList, .file "x".toList, .ext "t".toList] [.root, .file "z".toList] = some (t', true) ∧
    view t' = add (view sample) ["z".toList] (.file [1]) :=
  C71_virtual_copy_exact (p := ⟨[.root], ["a".toList], [.file "x".toList, .ext "t".toList]⟩) (d := ⟨[.root], [], [.file "z".toList]⟩)
    ⟨.inl rfl, .inr (by intro c hc; simp at hc; subst hc; trivial), by decide⟩ ⟨.inl rfl, .inr (by intro c hc; cases hc), by decide⟩
    sample [] 0 rfl (by intro c hc; simp at hc; subst hc; trivial) (by intro c hc; cases hc) [1] (by decide)

example : ∃ t', move 1 sample [] [.root, .dir "a".toList, .file "x".toList, .ext "t".toList] [.root, .file "z".toList] = some (t', true) ∧
    view t' = moved (view sample) ["a".toList, "x.t".toList] ["z".toList] [1] :=
  C71_virtual_move_exact (p := ⟨[.root], ["a".toList], [.file "x".toList, .ext "t".toList]⟩) (d := ⟨[.root], [], [.file "z".toList]⟩)
    ⟨.inl rfl, .inr (by intro c hc; simp at hc; subst hc; trivial), by decide⟩ ⟨.inl rfl, .inr (by intro c hc; cases hc), by decide⟩
    sample [] 0 rfl (by intro c hc; simp at hc; subst hc; trivial) (by intro c hc; cases hc) [1] (by decide)

example : rename 1 sample [] [.root, .dir "a".toList, .file "x".toList, .ext "t".toList] "w.u".toList =
    move 1 sample [] [.root, .dir "a".toList, .file "x".toList, .ext "t".toList] [.root, .dir "a".toList, .file "w".toList, .ext "u".toList] :=
  C71_rename_file (p := ⟨[.root], ["a".toList], [.file "x".toList, .ext "t".toList]⟩)
    ⟨.inl rfl, .inr (by intro c hc; simp at hc; subst hc; trivial), by decide⟩ (by intro c hc; simp at hc; subst hc; trivial)
    ['w'] [.ext ['u']] ⟨⟨⟨by decide, by decide, by decide⟩, trivial⟩, .inl ⟨by decide, by decide, by decide⟩⟩ sample [] 1

example : rename 1 sample [] [.root, .dir "a".toList, .dir "c".toList] "d".toList =
    move 1 sample [] [.root, .dir "a".toList, .dir "c".toList] [.root, .dir "a".toList, .dir "d".toList] :=
  C71_rename_directory (p := ⟨[.root], ["a".toList, "c".toList], []⟩) ⟨.inl rfl, .inl rfl, by decide⟩ rfl ["a".toList] "c".toList
    "d".toList rfl sample [] 1

#print axioms C71_over
#print axioms C71_virtual_copy_exact
#print axioms C71_virtual_move_exact
#print axioms C72_copy_partial
#print axioms C72_move_partial
#print axioms C72_empty_directory_exact
#print axioms C72_into_itself_refuted

end Verif.VirtualCopy
