import Verif.VirtualList
import Verif.VirtualCopyDirProps
/-!
# C73: listing a directory of a virtual volume
-/
namespace Verif.VirtualList
open Verif.Path (Str Comp)
open Verif.Path.Spec (Plain Exts FileName text)
open Verif.VirtualTree (Tree Loc get nodeOp)
open Verif.VirtualTree.Spec
open Verif.VirtualCopy (keys childPath dirPath Addr keys_mem keys_nodup childOf lookup_spec dirPath_eq)

/-! ## Specification -/

/-- The files in the directory `a` have names that are read back, and the paths in it, from one of `k` components, are short
enough. -/
structure Readable (f : FS) (a : Loc) (k : Nat) : Prop where
  names : ∀ r m B, f (a ++ r ++ [m]) = some (.file B) → ∃ n es, FileName (.file n :: es) ∧ m = text (.file n :: es)
  short : ∀ r, f (a ++ r) = some .dir → k + r.length ≤ 127

/-- `x` is the path, from the directory `p`, of the entry `e` with the name `m` in the directory reached by `rs`. -/
def Shown (p : List Comp) (rs : Loc) (m : Str) (e : Entry) (x : List Comp) : Prop :=
  match e with
  | .dir => x = p ++ rs.map .dir ++ [.dir m]
  | .file _ => ∃ n es, FileName (.file n :: es) ∧ m = text (.file n :: es) ∧ x = p ++ rs.map .dir ++ .file n :: es

/-- Is the entry asked for?  The kind is not to be skipped, and its path matches one of the paths - or none of them, for a
blacklist. -/
def Wanted {α : Type} (o : Opts) (mt : α → List Comp → Bool) (ns : List α) (e : Entry) (x : List Comp) : Prop :=
  (match e with
    | .dir => o.skipDir = false
    | .file _ => o.skipFile = false) ∧
  if o.blacklist then ∀ n ∈ ns, mt n x = false else ∃ n ∈ ns, mt n x = true

/-- The paths to list. -/
def Listed {α : Type} (o : Opts) (mt : α → List Comp → Bool) (ns : Option (List α)) (f : FS) (a : Loc) (p : List Comp)
    (x : List Comp) : Prop :=
  ∃ rs m e, (rs = [] ∨ o.recursive = true) ∧ f (a ++ rs ++ [m]) = some e ∧ Shown p rs m e x ∧
    chosen o mt ns (decide (e = .dir)) x = true

/-! ## Lemmas -/

variable {α : Type}

theorem chosen_iff (o : Opts) (mt : α → List Comp → Bool) (n : α) (ns : List α) (e : Entry) (x : List Comp) :
    chosen o mt (some (n :: ns)) (decide (e = .dir)) x = true ↔ Wanted o mt (n :: ns) e x := by
  unfold chosen Wanted isMatch
  cases e <;> cases o.blacklist <;> simp <;> (try constructor) <;> (try intro h) <;> simp_all

theorem shown_len {p : List Comp} {rs : Loc} {m : Str} {e : Entry} {x : List Comp} (h : Shown p rs m e x) :
    p.length + rs.length < x.length := by
  unfold Shown at h
  cases e with
  | dir => simp only at h; rw [h]; simp
  | file b => obtain ⟨n, es, -, -, h⟩ := h; rw [h]; simp

/-- The first component behind `p` of what is shown of the entry `m` of `p`. -/
theorem shown_first {p : List Comp} {rs : Loc} {m : Str} {e : Entry} {x : List Comp} (h : Shown p (m :: rs) n e x) :
    ∃ y, x = p ++ .dir m :: y := by
  unfold Shown at h
  cases e with
  | dir => simp only at h; exact ⟨rs.map .dir ++ [.dir n], by rw [h]; simp⟩
  | file b => obtain ⟨k, es, -, -, h⟩ := h; exact ⟨rs.map .dir ++ .file k :: es, by rw [h]; simp⟩

theorem shown_down (p : List Comp) (c m : Str) (rs : Loc) (e : Entry) (x : List Comp) :
    Shown (p ++ [.dir c]) rs m e x ↔ Shown p (c :: rs) m e x := by
  unfold Shown
  cases e <;> simp

/-- What one entry `m` adds to the list. -/
def Child (o : Opts) (mt : α → List Comp → Bool) (ns : Option (List α)) (f : FS) (a : Loc) (p : List Comp) (m : Str)
    (x : List Comp) : Prop :=
  (∃ e, f (a ++ [m]) = some e ∧ Shown p [] m e x ∧ chosen o mt ns (decide (e = .dir)) x = true) ∨
  (o.recursive = true ∧ Listed o mt ns f (a ++ [m]) (p ++ [.dir m]) x)

theorem listed_child (o : Opts) (mt : α → List Comp → Bool) (ns : Option (List α)) (f : FS) (a : Loc) (p x : List Comp) :
    Listed o mt ns f a p x ↔ ∃ m, Child o mt ns f a p m x := by
  constructor
  · rintro ⟨rs, m, e, h1, h2, h3, h4⟩
    cases rs with
    | nil => exact ⟨m, .inl ⟨e, by simpa using h2, h3, h4⟩⟩
    | cons c rs =>
      have h1 : o.recursive = true := by rcases h1 with h | h; cases h; exact h
      exact ⟨c, .inr ⟨h1, rs, m, e, .inr h1, by simpa using h2, (shown_down p c m rs e x).2 h3, h4⟩⟩
  · rintro ⟨c, h | ⟨h, rs, m, e, -, h2, h3, h4⟩⟩
    · obtain ⟨e, h1, h2, h3⟩ := h
      exact ⟨[], c, e, .inl rfl, by simpa using h1, h2, h3⟩
    · exact ⟨c :: rs, m, e, .inr h, by simpa using h2, (shown_down p c m rs e x).1 h3, h4⟩

/-- The entry is determined by the path. -/
theorem child_name {o : Opts} {mt : α → List Comp → Bool} {ns : Option (List α)} {f : FS} {a : Loc} {p x : List Comp} {m m' : Str}
    (h : Child o mt ns f a p m x) (h' : Child o mt ns f a p m' x) : m = m' := by
  have key : ∀ m, Child o mt ns f a p m x → (∃ y, x = p ++ .dir m :: y) ∨ (∃ n es, m = text (.file n :: es) ∧ x = p ++ .file n :: es) := by
    rintro m (⟨e, -, h, -⟩ | ⟨-, rs, m', e, -, -, h, -⟩)
    · unfold Shown at h
      cases e with
      | dir => exact .inl ⟨[], by simpa using h⟩
      | file b => obtain ⟨n, es, -, h1, h2⟩ := h; exact .inr ⟨n, es, h1, by simpa using h2⟩
    · exact .inl (shown_first ((shown_down p m m' rs e x).1 h))
  rcases key m h with ⟨y, hy⟩ | ⟨n, es, hm, hy⟩ <;> rcases key m' h' with ⟨y', hy'⟩ | ⟨n', es', hm', hy'⟩ <;>
    rw [hy] at hy' <;> have := List.append_cancel_left hy'
  · simp at this; exact this.1
  · simp at this
  · simp at this
  · rw [hm, hm', this]

/-- What the loop over the keys does, when the recursive call lists. -/
theorem contentsOf_spec (o : Opts) (mt : α → List Comp → Bool) (ns : Option (List α)) (f : FS) (a : Loc) (p : List Comp)
    (ks : List (Str × Tree)) (rec : List Comp → Option (List (List Comp)))
    (hks : ∀ m, f (a ++ [m]) = (ks.lookup m).map entry)
    (hnm : ∀ m B, f (a ++ [m]) = some (.file B) → ∃ n es, FileName (.file n :: es) ∧ m = text (.file n :: es))
    (hrec : ∀ m, f (a ++ [m]) = some .dir → ∃ L, rec (p ++ [.dir m]) = some L ∧ L.Nodup ∧
      ∀ x, x ∈ L ↔ Listed o mt ns f (a ++ [m]) (p ++ [.dir m]) x)
    (hbelow : ∀ m B, f (a ++ [m]) = some (.file B) → ∀ r y, f (a ++ [m] ++ r ++ [y]) = none) :
    ∀ l : List Str, l.Nodup → (∀ m ∈ l, (ks.lookup m).isSome = true) →
    ∃ L, contentsOf o mt ns rec p ks l = some L ∧ L.Nodup ∧ ∀ x, x ∈ L ↔ ∃ m ∈ l, Child o mt ns f a p m x := by
  intro l
  induction l with
  | nil => intro _ _; exact ⟨[], rfl, List.nodup_nil, by simp⟩
  | cons m l ih =>
    intro hnd hmem
    rw [List.nodup_cons] at hnd
    obtain ⟨R, hR1, hR2, hR3⟩ := ih hnd.2 (fun m hm => hmem m (by simp [hm]))
    have hm := hmem m (by simp)
    -- what this entry adds
    suffices ∃ path below, childPath p ks m = some path ∧
        (if o.recursive && (match ks.lookup m with | some (.dir _) => true | _ => false) then rec path else some []) = some below ∧
        ((if chosen o mt ns (match ks.lookup m with | some (.dir _) => true | _ => false) path then [path] else []) ++ below).Nodup ∧
        ∀ x, x ∈ (if chosen o mt ns (match ks.lookup m with | some (.dir _) => true | _ => false) path then [path] else []) ++ below ↔
          Child o mt ns f a p m x by
      obtain ⟨path, below, h1, h2, h3, h4⟩ := this
      refine ⟨((if chosen o mt ns (match ks.lookup m with | some (.dir _) => true | _ => false) path then [path] else []) ++ below) ++ R,
        ?_, ?_, ?_⟩
      · unfold contentsOf
        rw [h1]
        dsimp only
        erw [h2, hR1]
        rfl
      · rw [List.nodup_append]
        refine ⟨h3, hR2, ?_⟩
        intro x hx y hy hxy
        subst hxy
        obtain ⟨m', hm', hc⟩ := (hR3 x).1 hy
        have := child_name ((h4 x).1 hx) hc
        subst this
        exact hnd.1 hm'
      · intro x
        rw [List.mem_append, h4, hR3]
        simp
    have hc := hks m
    cases hlk : ks.lookup m with
    | none => rw [hlk] at hm; cases hm
    | some s =>
      rw [hlk] at hc
      cases s with
      | dir js =>
        have hc : f (a ++ [m]) = some .dir := hc
        obtain ⟨L, hL1, hL2, hL3⟩ := hrec m hc
        refine ⟨p ++ [.dir m], if o.recursive then L else [], by unfold childPath; rw [hlk], ?_, ?_, ?_⟩ <;> dsimp only
        · cases o.recursive
          · rfl
          · exact hL1
        · rw [List.nodup_append]
          refine ⟨by split <;> simp, by split; exact hL2; exact List.nodup_nil, ?_⟩
          intro x hx y hy hxy
          subst hxy
          have hx : x = p ++ [.dir m] := by
            split at hx
            · simpa using hx
            · cases hx
          split at hy
          · obtain ⟨rs, m', e, -, -, h, -⟩ := (hL3 x).1 hy
            have := shown_len h
            rw [hx] at this
            omega
          · cases hy
        · intro x
          rw [List.mem_append]
          unfold Child
          refine or_congr ?_ ?_
          · constructor
            · intro hx
              split at hx
              · rename_i hch
                simp only [List.mem_singleton] at hx
                subst hx
                exact ⟨.dir, hc, by unfold Shown; simp, hch⟩
              · cases hx
            · rintro ⟨e, h1, h2, h3⟩
              rw [hc] at h1
              cases h1
              unfold Shown at h2
              simp only [List.map_nil, List.append_nil] at h2
              subst h2
              have h3 : chosen o mt ns true (p ++ [.dir m]) = true := h3
              rw [if_pos h3]; simp
          · cases hrc : o.recursive
            · simp
            · simp only [if_true]; rw [hL3]; simp
      | file B =>
        have hc : f (a ++ [m]) = some (.file B) := hc
        obtain ⟨n, es, hn, rfl⟩ := hnm m B hc
        refine ⟨p ++ .file n :: es, [], by unfold childPath; rw [hlk]; dsimp only; rw [VirtualCopy.file_create hn]; rfl, ?_, ?_, ?_⟩ <;> dsimp only
        · rw [Bool.and_false]; rfl
        · rw [List.append_nil]; split <;> simp
        · intro x
          rw [List.append_nil]
          unfold Child
          constructor
          · intro hx
            left
            split at hx
            · rename_i hch
              simp only [List.mem_singleton] at hx
              subst hx
              exact ⟨.file B, hc, ⟨n, es, hn, rfl, by simp⟩, hch⟩
            · cases hx
          · rintro (⟨e, h1, h2, h3⟩ | ⟨-, rs, y, e, -, h, -⟩)
            · rw [hc] at h1
              cases h1
              obtain ⟨n', es', hn', ht, hx⟩ := h2
              have hnn : (.file n :: es : List Comp) = .file n' :: es' := by
                have e1 := VirtualCopy.file_create hn
                have e2 := VirtualCopy.file_create hn'
                rw [ht, e2] at e1
                simpa using e1.symm
              rw [← hnn] at hx
              simp only [List.map_nil, List.append_nil] at hx
              subst hx
              have h3 : chosen o mt ns false (p ++ .file n :: es) = true := h3
              rw [if_pos h3]; simp
            · rw [hbelow _ B hc rs y] at h; cases h

theorem contents_spec (o : Opts) (mt : α → List Comp → Bool) (ns : Option (List α)) (t : Tree) (cur hd : List Comp) (hh : IsHead hd)
    (hr : view t [] = some .dir) (fuel : Nat) : ∀ (k : Nat) (a : Loc), (dirPath hd a).length ≤ k → view t a = some .dir →
    Readable (view t) a k → 127 < fuel + k →
    ∃ L, contents o mt ns t cur fuel (dirPath hd a) = some L ∧ L.Nodup ∧ ∀ x, x ∈ L ↔ Listed o mt ns (view t) a (dirPath hd a) x := by
  induction fuel with
  | zero =>
    intro k a hk hv hR hf
    have := hR.short [] (by rw [List.append_nil]; exact hv)
    simp at this; omega
  | succ fuel ih =>
    intro k a hk hv hR hf
    have hk' : k ≤ 127 := by have := hR.short [] (by rw [List.append_nil]; exact hv); simpa using this
    have hp : (⟨hd, a, []⟩ : Addr).Ok := ⟨hh, .inl rfl, by rw [← dirPath_eq]; omega⟩
    have hloc : (⟨hd, a, []⟩ : Addr).loc = a := by simp [Addr.loc, nameOf]
    obtain ⟨t', hl⟩ := lookup_spec hp t cur hr
    rw [show (⟨hd, a, []⟩ : Addr).found t = true by unfold Addr.found; rw [hloc, hv], if_pos rfl, hloc, ← dirPath_eq] at hl
    obtain ⟨ks, hks⟩ := VirtualCopy.view_dir hv
    have hchild : ∀ m, view t (a ++ [m]) = (ks.lookup m).map entry := fun m =>
      VirtualTree.view_child t a m ks (by unfold VirtualTree.nodes; rw [hks])
    obtain ⟨L, h1, h2, h3⟩ := contentsOf_spec o mt ns (view t) a (dirPath hd a) ks (contents o mt ns t cur fuel) hchild
      (fun m B h => hR.names [] m B (by rw [List.append_nil]; exact h))
      (by
        intro m hm
        have hle : k + 1 ≤ 127 := hR.short [m] hm
        have := ih (k + 1) (a ++ [m]) (by unfold dirPath at hk ⊢; simp at hk ⊢; omega) hm ⟨?_, ?_⟩ (by omega)
        · have e : dirPath hd (a ++ [m]) = dirPath hd a ++ [.dir m] := by unfold dirPath; simp
          rw [e] at this
          exact this
        · intro r n B h
          exact hR.names ([m] ++ r) n B (by simpa using h)
        · intro r h
          have := hR.short ([m] ++ r) (by simpa using h)
          simp at this
          omega)
      (by
        intro m B h r y
        cases r with
        | nil => rw [List.append_nil]; exact VirtualTree.view_below t _ y [] (by rw [h]; simp)
        | cons c r =>
          have := VirtualTree.view_below t (a ++ [m]) c (r ++ [y]) (by rw [h]; simp)
          simpa using this)
      (keys ks) (keys_nodup ks) (fun m hm => (keys_mem ks m).1 hm)
    refine ⟨L, ?_, h2, ?_⟩
    · rw [contents, hl]; dsimp only; rw [hks]; exact h1
    · intro x
      rw [h3, listed_child]
      constructor
      · rintro ⟨m, -, h⟩; exact ⟨m, h⟩
      · rintro ⟨m, h⟩
        refine ⟨m, ?_, h⟩
        rw [keys_mem]
        have hex : ∃ e, view t (a ++ [m]) = some e := by
          rcases h with ⟨e, h, -⟩ | ⟨-, rs, y, e, -, h, -⟩
          · exact ⟨e, h⟩
          · have := VirtualCopy.view_above t _ e h (a ++ [m]).length (by simp)
            rw [List.append_assoc, List.take_left] at this
            exact ⟨_, this⟩
        obtain ⟨e, he⟩ := hex
        rw [hchild] at he
        cases hlk : ks.lookup m with
        | none => rw [hlk] at he; cases he
        | some s => rfl

/-! ## Theorems -/

/-- **C73.**  Listing a directory with at least one path to match gives every entry of it - and of the directories in it, at
every depth, when it is to be searched recursively - that is asked for, under its path, exactly once, and nothing else. -/
theorem C73_listing_partial (o : Opts) (mt : α → List Comp → Bool) (n : α) (ns : List α) (t : Tree) (cur hd : List Comp) (a : Loc)
    (k fuel : Nat) (hh : IsHead hd) (hr : view t [] = some .dir) (hk : (dirPath hd a).length ≤ k) (hv : view t a = some .dir)
    (hR : Readable (view t) a k) (hf : 128 ≤ fuel) :
    ∃ L, contents o mt (some (n :: ns)) t cur fuel (dirPath hd a) = some L ∧ L.Nodup ∧
      ∀ x, x ∈ L ↔ ∃ rs m e, (rs = [] ∨ o.recursive = true) ∧ view t (a ++ rs ++ [m]) = some e ∧
        Shown (dirPath hd a) rs m e x ∧ Wanted o mt (n :: ns) e x := by
  obtain ⟨L, h1, h2, h3⟩ := contents_spec o mt (some (n :: ns)) t cur hd hh hr fuel k a hk hv hR (by omega)
  refine ⟨L, h1, h2, fun x => ?_⟩
  rw [h3]
  unfold Listed
  simp only [chosen_iff]

/-- **C73, nothing to match.**  With `NULL` or an empty collection a whitelist lets everything through and a blacklist nothing. -/
theorem C73_no_matches_exact (o : Opts) (mt : α → List Comp → Bool) (ns : Option (List α)) (hns : ns = none ∨ ns = some []) (t : Tree)
    (cur hd : List Comp) (a : Loc)
    (k fuel : Nat) (hh : IsHead hd) (hr : view t [] = some .dir) (hk : (dirPath hd a).length ≤ k) (hv : view t a = some .dir)
    (hR : Readable (view t) a k) (hf : 128 ≤ fuel) :
    ∃ L, contents o mt ns t cur fuel (dirPath hd a) = some L ∧ L.Nodup ∧
      ∀ x, x ∈ L ↔ o.blacklist = false ∧ ∃ rs m e, (rs = [] ∨ o.recursive = true) ∧ view t (a ++ rs ++ [m]) = some e ∧
        Shown (dirPath hd a) rs m e x ∧ (match e with
          | .dir => o.skipDir = false
          | .file _ => o.skipFile = false) := by
  obtain ⟨L, h1, h2, h3⟩ := contents_spec o mt ns t cur hd hh hr fuel k a hk hv hR (by omega)
  refine ⟨L, h1, h2, fun x => ?_⟩
  rw [h3]
  unfold Listed
  have hch : ∀ e : Entry, chosen o mt ns (decide (e = .dir)) x = true ↔ o.blacklist = false ∧ (match e with
      | .dir => o.skipDir = false
      | .file _ => o.skipFile = false) := by
    intro e
    have : isMatch mt ns x = true := by rcases hns with h | h <;> rw [h] <;> rfl
    unfold chosen
    rw [this]
    cases e <;> cases o.blacklist <;> simp
  simp only [hch]
  constructor
  · rintro ⟨rs, m, e, h1, h2, h3, h4, h5⟩; exact ⟨h4, rs, m, e, h1, h2, h3, h5⟩
  · rintro ⟨h4, rs, m, e, h1, h2, h3, h5⟩; exact ⟨rs, m, e, h1, h2, h3, h4, h5⟩

/-- **C73 is false for a blacklist of nothing**: nothing is listed although nothing is to be left out. -/
theorem C73_blacklist_refuted :
    contents (α := Unit) ⟨false, false, false, false, true⟩ (fun _ _ => true) (some []) VirtualCopy.sample [] 128 [.root] = some [] := by
  decide +kernel

/-- **C73, the option to skip hidden entries does nothing.** -/
theorem C73_hidden_refuted (o : Opts) (mt : α → List Comp → Bool) (ns : Option (List α)) (t : Tree) (cur : List Comp) (fuel : Nat)
    (p : List Comp) (b : Bool) : contents { o with skipHidden := b } mt ns t cur fuel p = contents o mt ns t cur fuel p := by
  have hof : ∀ rec p ks l, contentsOf { o with skipHidden := b } mt ns rec p ks l = contentsOf o mt ns rec p ks l := by
    intro rec p ks l
    induction l with
    | nil => rfl
    | cons n l ih => rw [contentsOf, contentsOf, ih]; rfl
  induction fuel generalizing p with
  | zero => rfl
  | succ fuel ih =>
    have : contents { o with skipHidden := b } mt ns t cur fuel = contents o mt ns t cur fuel := funext ih
    rw [contents, contents, this]
    simp only [hof]

/-- **C73 is false for names that are not read back**: the file `a..b` is listed as `a`, the file `..` as its own directory, and
listed recursively it is not. -/
theorem C73_names_refuted :
    contents (α := Unit) ⟨false, false, false, false, false⟩ (fun _ _ => true) none
      (.dir [("a..b".toList, .file [1]), ("..".toList, .file [2])]) [] 128 [.root] = some [[.root, .file "a".toList], [.root]] := by
  decide +kernel

theorem sample_readable : Readable (view VirtualCopy.sample) ["a".toList] 2 :=
  ⟨fun r m B h => by obtain ⟨n, es, h1, h2, -⟩ := VirtualCopy.sample_can.names r m B h; exact ⟨n, es, h1, h2⟩,
    fun r h => VirtualCopy.sample_can.short r (by rw [h]; simp)⟩

/-- A directory with files and directories, searched recursively for files. -/
example : ∃ L, contents (α := Unit) ⟨false, true, false, true, false⟩ (fun _ _ => true) (some [()]) VirtualCopy.sample [] 128
    (dirPath [.root] ["a".toList]) = some L ∧ [.root, .dir "a".toList, .dir "c".toList, .file "y".toList] ∈ L := by
  obtain ⟨L, h1, -, h3⟩ := C73_listing_partial (α := Unit) ⟨false, true, false, true, false⟩ (fun _ _ => true) () [] VirtualCopy.sample []
    [.root] ["a".toList] 2 128 (.inl rfl) rfl (by decide) rfl sample_readable (by omega)
  exact ⟨L, h1, (h3 _).2 ⟨["c".toList], "y".toList, .file [2, 3], .inr rfl, rfl,
    ⟨['y'], [], ⟨trivial, .inl ⟨by decide, by decide, by decide⟩⟩, by decide, rfl⟩, rfl, (), by simp, rfl⟩⟩

example : ∃ L, contents (α := Unit) ⟨false, false, false, false, false⟩ (fun _ _ => true) none VirtualCopy.sample [] 128
    (dirPath [.root] ["a".toList]) = some L ∧ [.root, .dir "a".toList, .dir "c".toList] ∈ L := by
  obtain ⟨L, h1, -, h3⟩ := C73_no_matches_exact (α := Unit) ⟨false, false, false, false, false⟩ (fun _ _ => true) none (.inl rfl)
    VirtualCopy.sample [] [.root] ["a".toList] 2 128 (.inl rfl) rfl (by decide) rfl sample_readable (by omega)
  exact ⟨L, h1, (h3 _).2 ⟨rfl, [], "c".toList, .dir, .inl rfl, rfl, rfl, rfl⟩⟩

#print axioms C73_listing_partial
#print axioms C73_no_matches_exact
#print axioms C73_hidden_refuted

end Verif.VirtualList
