import Verif.VirtualCopyLemmas
import Verif.VirtualFileProps
import Verif.PathProps
/-!
# C71: copying, moving and renaming files in the virtual file system
-/
namespace Verif.VirtualCopy
open Verif.Path (Str Comp)
open Verif.Path.Spec (Plain Exts FileName text)
open Verif.VirtualTree (Tree Loc Nd get put nodeOp exist getSize create remove)
open Verif.VirtualTree.Spec

/-! ## Writing over a file -/

/-- `over` is what `FSHandleVirtualWrite` does at offset 0 (C64), for files that fit into memory. -/
theorem C71_over (y : VirtualFile.Sys) (h : Nat) (D B : List UInt8) (upd : Bool) (hm : y.mode h ≠ .read) (ho : y.off h = 0)
    (hg : Array.Good y.file (D.map some)) (hB : B.length < FileHandle.W) :
    match over D B with
    | none => VirtualFile.overwrite y h B true upd = .error .assertion
    | some X => ∃ y', VirtualFile.overwrite y h B true upd = .ok (.success, y') ∧ Array.Spec.Shows y'.file (X.map some) := by
  have key : (B ≠ [] → 0 < D.length → B.length ≠ D.length) →
      ∃ y', VirtualFile.overwrite y h B true upd = .ok (.success, y') ∧
        Array.Spec.Shows y'.file ((FileHandle.Spec.overwrite D 0 B).map some) := by
    intro hc
    obtain ⟨y', h1, h2⟩ := VirtualFile.step_good (mode := y.mode) (y := y) (f := ⟨D, y.off⟩) ⟨rfl, hg, rfl⟩ h (.overwrite none B upd)
      ⟨hm, by show y.off h + _ < _; rw [ho]; omega, by
        show B ≠ [] → y.off h < D.length → y.off h + _ ≠ _
        rw [ho, Nat.zero_add]; exact hc⟩
    have hs : VirtualFile.step y h (fun _ => true) (.overwrite none B upd) =
        (VirtualFile.overwrite y h B true upd).bind fun r => .ok (r.1, [], r.2) := rfl
    rw [hs] at h1
    cases hov : VirtualFile.overwrite y h B true upd with
    | error e => rw [hov] at h1; cases h1
    | ok r =>
      rw [hov] at h1
      obtain ⟨r, z⟩ := r
      cases h1
      refine ⟨_, rfl, ?_⟩
      have hb := h2.good
      have : (VirtualFile.Files.step ⟨D, y.off⟩ h (.overwrite none B upd)).1.bytes = FileHandle.Spec.overwrite D 0 B := by
        show FileHandle.Spec.overwrite D (y.off h) B = _
        rw [ho]
      rw [this] at hb
      exact Array.good_shows hb
  unfold over
  by_cases h1 : B = []
  · rw [if_pos h1]
    obtain ⟨y', a, b⟩ := key (fun h => absurd h1 h)
    refine ⟨y', a, ?_⟩
    rw [h1] at b
    exact b
  · rw [if_neg h1]
    by_cases h2 : D = []
    · rw [if_pos h2]
      subst h2
      obtain ⟨y', a, b⟩ := key (fun _ h => by cases h)
      refine ⟨y', a, ?_⟩
      unfold FileHandle.Spec.overwrite at b
      rw [if_neg h1] at b
      simpa using b
    · rw [if_neg h2]
      have hdl : 0 < D.length := List.length_pos_iff.2 h2
      have hbl : 0 < B.length := List.length_pos_iff.2 h1
      by_cases h3 : B.length = D.length
      · rw [if_pos h3]
        have hc := hg.cnt
        rw [List.length_map] at hc
        show VirtualFile.overwrite y h B true upd = .error .assertion
        unfold VirtualFile.overwrite
        rw [if_neg hm, if_neg (by omega), ho]
        unfold VirtualFile.room
        rw [if_neg (by omega), Nat.zero_add, Nat.mod_eq_of_lt hB, if_pos (by omega), h3, hc, Nat.sub_self]
        rfl
      · rw [if_neg h3]
        obtain ⟨y', a, b⟩ := key (fun _ _ => h3)
        unfold FileHandle.Spec.overwrite at b
        rw [if_neg h1] at b
        by_cases h4 : D.length < B.length
        · rw [if_pos h4]
          exact ⟨y', a, by simpa [List.drop_of_length_le (Nat.le_of_lt h4)] using b⟩
        · rw [if_neg h4]
          exact ⟨y', a, by simpa using b⟩

/-- **C71, copying a virtual file** with the bytes `B` to the path of a file.  When nothing is there and its directory is, the file
is there with the bytes afterwards, and everything else is as before; when its directory is not there, or a directory is in its
place, it fails and nothing changes; when a file is there, see `over`. -/
theorem C71_virtual_copy_exact {p d : Addr} (hp : p.Ok) (hd : d.Ok) (t : Tree) (cur : List Comp) (fuel : Nat)
    (hr : view t [] = some .dir) (hpn : IsName p.fs) (hdn : IsName d.fs) (B : List UInt8)
    (hB : view t p.loc = some (.file B)) :
    match view t d.loc with
    | some (.file D) => match over D B with
      | none => copy (fuel + 1) t cur p.path d.path = none
      | some X => ∃ t', copy (fuel + 1) t cur p.path d.path = some (t', true) ∧ view t' = add (view t) d.loc (.file X)
    | some .dir => ∃ t', copy (fuel + 1) t cur p.path d.path = some (t', false) ∧ view t' = view t
    | none =>
      if view t d.dirs = some .dir then
        ∃ t', copy (fuel + 1) t cur p.path d.path = some (t', true) ∧ view t' = add (view t) d.loc (.file B)
      else ∃ t', copy (fuel + 1) t cur p.path d.path = some (t', false) ∧ view t' = view t := by
  rw [copy_file_eq hp t cur d.path hr hpn, hB]
  exact copyFile_spec hp hd t cur hr hpn hdn B hB

/-- **C71**: what is not there is not copied. -/
theorem C71_virtual_copy_missing {p : Addr} (hp : p.Ok) (t : Tree) (cur d : List Comp) (fuel : Nat)
    (hr : view t [] = some .dir) (hpn : IsName p.fs) (hB : view t p.loc = none) :
    copy (fuel + 1) t cur p.path d = some (t, false) := by
  rw [copy_file_eq hp t cur d hr hpn, hB]; rfl

/-- Removing a file. -/
theorem remove_file {p : Addr} (hp : p.Ok) (t : Tree) (cur : List Comp) (hr : view t [] = some .dir) (hpn : IsName p.fs)
    (B : List UInt8) (hB : view t p.loc = some (.file B)) :
    ∃ t', remove t cur p.path = some (t', true) ∧ ∀ x, view t' x = if x = p.loc then none else view t x := by
  obtain ⟨m, hm⟩ := nameOf_some hpn
  have hl : p.loc = p.dirs ++ [m] := by unfold Addr.loc; rw [hm]; rfl
  obtain ⟨t', h1, h2, -⟩ := VirtualTree.C70_remove_partial t cur p.path _ p.fs hr hp.means
    (by rw [Addr.target, hl]; simp)
  refine ⟨t', h1, fun x => ?_⟩
  have := h2.1 ((Addr.there hp t).2 (by rw [found_file hpn, hB]; rfl)) x
  rw [Addr.target] at this
  rw [this]
  by_cases hx : x = p.loc
  · rw [if_pos hx, if_pos (by rw [hx]; exact List.prefix_rfl)]
  · rw [if_neg hx]
    split
    · rename_i hpre
      obtain ⟨y, rfl⟩ := hpre
      cases y with
      | nil => simp at hx
      | cons n y => rw [VirtualTree.view_below t _ n y (by rw [hB]; simp)]
    · rfl

/-- The file system after the file at `a` has gone to `b` as the bytes `X`. -/
def moved (f : FS) (a b : Loc) (X : List UInt8) : FS :=
  fun x => if x = a then none else if x = b then some (.file X) else f x

/-- **C71, moving a virtual file**: as copying, and the file is no longer in its old place; when it fails nothing changes. -/
theorem C71_virtual_move_exact {p d : Addr} (hp : p.Ok) (hd : d.Ok) (t : Tree) (cur : List Comp) (fuel : Nat)
    (hr : view t [] = some .dir) (hpn : IsName p.fs) (hdn : IsName d.fs) (B : List UInt8)
    (hB : view t p.loc = some (.file B)) :
    match view t d.loc with
    | some (.file D) => match over D B with
      | none => move (fuel + 1) t cur p.path d.path = none
      | some X => ∃ t', move (fuel + 1) t cur p.path d.path = some (t', true) ∧ view t' = moved (view t) p.loc d.loc X
    | some .dir => ∃ t', move (fuel + 1) t cur p.path d.path = some (t', false) ∧ view t' = view t
    | none =>
      if view t d.dirs = some .dir then
        ∃ t', move (fuel + 1) t cur p.path d.path = some (t', true) ∧ view t' = moved (view t) p.loc d.loc B
      else ∃ t', move (fuel + 1) t cur p.path d.path = some (t', false) ∧ view t' = view t := by
  have hc := C71_virtual_copy_exact hp hd t cur fuel hr hpn hdn B hB
  have hne : d.loc ≠ [] := by
    obtain ⟨m, hm⟩ := nameOf_some hdn
    unfold Addr.loc; rw [hm]; simp
  have key : ∀ (t1 : Tree) (X : List UInt8), copy (fuel + 1) t cur p.path d.path = some (t1, true) →
      view t1 = add (view t) d.loc (.file X) →
      ∃ t', move (fuel + 1) t cur p.path d.path = some (t', true) ∧ view t' = moved (view t) p.loc d.loc X := by
    intro t1 X h1 h2
    have hr1 : view t1 [] = some .dir := by rw [h2]; unfold add; rw [if_neg (Ne.symm hne)]; exact hr
    have hb1 : ∃ Y, view t1 p.loc = some (.file Y) := by
      rw [h2]; unfold add
      split
      · exact ⟨X, rfl⟩
      · exact ⟨B, hB⟩
    obtain ⟨Y, hY⟩ := hb1
    obtain ⟨t', h3, h4⟩ := remove_file hp t1 cur hr1 hpn Y hY
    refine ⟨t', ?_, ?_⟩
    · unfold move; rw [h1]; exact h3
    · funext x; rw [h4 x, h2]; rfl
  have keep : ∀ t1 : Tree, copy (fuel + 1) t cur p.path d.path = some (t1, false) → view t1 = view t →
      ∃ t', move (fuel + 1) t cur p.path d.path = some (t', false) ∧ view t' = view t := by
    intro t1 h1 h2
    exact ⟨t1, by unfold move; rw [h1], h2⟩
  cases hv : view t d.loc with
  | none =>
    rw [hv] at hc
    dsimp only at hc ⊢
    split
    · rename_i hdir
      rw [if_pos hdir] at hc
      obtain ⟨t1, h1, h2⟩ := hc
      exact key t1 B h1 h2
    · rename_i hdir
      rw [if_neg hdir] at hc
      obtain ⟨t1, h1, h2⟩ := hc
      exact keep t1 h1 h2
  | some e =>
    rw [hv] at hc
    cases e with
    | dir =>
      obtain ⟨t1, h1, h2⟩ := hc
      exact keep t1 h1 h2
    | file D =>
      dsimp only at hc ⊢
      cases ho : over D B with
      | none => rw [ho] at hc; dsimp only at hc ⊢; unfold move; rw [hc]
      | some X =>
        rw [ho] at hc
        obtain ⟨t1, h1, h2⟩ := hc
        exact key t1 X h1 h2

/-! ## Renaming -/

theorem nameOf_text (n : Str) (es : List Comp) (h : Exts es) : nameOf (.file n :: es) = some (text (.file n :: es)) := by
  suffices ∀ s : Str, es.foldl (fun s c => match c with | .ext e => s ++ '.' :: e | _ => s) s = s ++ text es by
    exact congrArg some ((this n).trans rfl)
  induction es with
  | nil => intro s; simp [text]
  | cons e es ih =>
    cases e with
    | ext e =>
      intro s
      rw [List.foldl_cons, ih h.2]
      simp [text, Path.Spec.written]
    | _ => exact h.elim

theorem exts_isExt (es : List Comp) (h : Exts es) : ∀ c ∈ es, IsExt c := by
  induction es with
  | nil => intro c hc; cases hc
  | cons e es ih =>
    cases e with
    | ext e =>
      intro c hc
      rcases List.mem_cons.1 hc with rfl | hc
      · trivial
      · exact ih h.2 c hc
    | _ => exact h.elim

theorem names_isName {fs : List Comp} (h : IsName fs) : ∀ c ∈ fs, c.isName = true := by
  intro c hc
  cases fs with
  | nil => cases hc
  | cons x es =>
    have hes : ∀ c ∈ es, IsExt c := by cases x <;> first | exact h.elim | exact h
    rcases List.mem_cons.1 hc with rfl | hc
    · cases c <;> first | exact h.elim | rfl
    · have := hes c hc
      cases c <;> first | exact this.elim | rfl

theorem dropWhile_names (xs fs : List Comp) (hfs : ∀ c ∈ fs, c.isName = true) (hxs : ∀ c ∈ xs, c.isName = false) :
    ((xs ++ fs).reverse.dropWhile fun c => c.isName).reverse = xs := by
  rw [List.reverse_append, List.dropWhile_append_of_pos (by intro c hc; exact hfs c (by simpa using hc))]
  cases hx : xs.reverse with
  | nil => simpa using hx.symm
  | cons c r =>
    rw [List.dropWhile_cons_of_neg (by rw [hxs c (by rw [← List.mem_reverse, hx]; simp)]; simp), ← hx, List.reverse_reverse]

theorem front_names {p : Addr} (hp : p.Ok) : ∀ c ∈ p.hd ++ p.dirs.map .dir, c.isName = false := by
  intro c hc
  rcases List.mem_append.1 hc with hc | hc
  · rcases hp.head with h | ⟨v, h⟩ | ⟨v, h⟩ <;> rw [h] at hc <;> simp at hc
    · subst hc; rfl
    · subst hc; rfl
    · rcases hc with rfl | rfl <;> rfl
  · obtain ⟨n, -, rfl⟩ := List.mem_map.1 hc; rfl

/-- Renaming a file is moving it to the new name in the same directory. -/
theorem C71_rename_file {p : Addr} (hp : p.Ok) (hpn : IsName p.fs) (n : Str) (es : List Comp) (hn : FileName (.file n :: es))
    (t : Tree) (cur : List Comp) (fuel : Nat) :
    rename fuel t cur p.path (text (.file n :: es)) =
      move fuel t cur p.path ({ p with fs := .file n :: es } : Addr).path := by
  have h := Path.C66_write_then_read (.file n :: es) ⟨[], _, rfl, .inr hn, trivial⟩
  unfold rename renamed
  rw [isFile_path hpn, h]
  dsimp only
  rw [if_pos rfl]
  unfold Addr.path
  rw [dropWhile_names _ _ (names_isName hpn) (front_names hp)]

/-- Renaming a directory is moving it to the new name in the same directory. -/
theorem C71_rename_directory {p : Addr} (hp : p.Ok) (hpn : p.fs = []) (q : Loc) (m n : Str) (hq : p.dirs = q ++ [m])
    (t : Tree) (cur : List Comp) (fuel : Nat) :
    rename fuel t cur p.path n = move fuel t cur p.path ({ p with dirs := q ++ [n] } : Addr).path := by
  unfold rename renamed
  rw [isFile_dir hp hpn]
  unfold Addr.path
  rw [hpn, hq]
  simp only [List.map_append, List.map_cons, List.map_nil, List.append_nil, ← List.append_assoc, List.dropLast_concat,
    Bool.false_eq_true, if_false]

end Verif.VirtualCopy
