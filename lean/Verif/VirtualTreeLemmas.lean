import Verif.VirtualTreeSpec
/-!
# Lemmas about the tree of the virtual file system
-/
namespace Verif.VirtualTree
open Verif.Path (Str Comp)
open Spec

theorem lookup_filter (ks : List (Str × Tree)) (n m : Str) :
    (ks.filter fun k => k.1 != n).lookup m = if m = n then none else ks.lookup m := by
  induction ks with
  | nil => simp
  | cons k ks ih =>
    obtain ⟨a, v⟩ := k
    by_cases ha : a = n
    · subst ha
      rw [List.filter_cons_of_neg (by simp), ih]
      by_cases hm : m = a
      · simp [hm]
      · rw [if_neg hm, if_neg hm, List.lookup_cons]
        have : (m == a) = false := by simpa using hm
        rw [this]
    · rw [List.filter_cons_of_pos (by simpa using ha), List.lookup_cons, List.lookup_cons, ih]
      by_cases hm : m = n
      · have : (m == a) = false := by simp [hm, Ne.symm ha]
        rw [this]
      · simp [hm]

theorem lookup_setKey (ks : List (Str × Tree)) (n m : Str) (v : Option Tree) :
    (setKey ks n v).lookup m = if m = n then v else ks.lookup m := by
  cases v with
  | none => exact lookup_filter ks n m
  | some v =>
    unfold setKey
    rw [List.lookup_cons, lookup_filter]
    by_cases hm : m = n
    · simp [hm]
    · have : (m == n) = false := by simpa using hm
      rw [this, if_neg hm, if_neg hm]

theorem get_cons (ks : List (Str × Tree)) (n : Str) (l : Loc) :
    get (.dir ks) (n :: l) = (ks.lookup n).bind fun s => get s l := by
  rw [get]; cases ks.lookup n <;> rfl

theorem get_append (t : Tree) (a b : Loc) : get t (a ++ b) = (get t a).bind fun s => get s b := by
  induction a generalizing t with
  | nil => simp [get]
  | cons n a ih =>
    cases t with
    | file c => simp [get]
    | dir ks =>
      rw [List.cons_append, get_cons, get_cons]
      cases h : ks.lookup n with
      | none => rfl
      | some s => exact ih s

theorem view_nil (t : Tree) : view t [] = some (entry t) := by cases t <;> rfl

/-- Nothing is below nothing, and nothing below a file. -/
theorem view_below (t : Tree) (l : Loc) (n : Str) (q : Loc) (h : view t l ≠ some .dir) : view t (l ++ n :: q) = none := by
  unfold view at h ⊢
  rw [get_append]
  cases hg : get t l with
  | none => rfl
  | some s =>
    rw [hg] at h
    cases s with
    | file b => rfl
    | dir ks => exact absurd rfl h

theorem view_put (t : Tree) (l : Loc) (n : Str) (v : Option Tree) (q : Loc) (h : view t l = some .dir) :
    view (put t l n v) q = if l ++ [n] <+: q then v.bind fun s => view s (q.drop (l.length + 1)) else view t q := by
  induction l generalizing t q with
  | nil =>
    cases t with
    | file b => simp [view, get, entry] at h
    | dir ks =>
      cases q with
      | nil => simp [put, view, get, entry]
      | cons m q =>
        show view (.dir (setKey ks n v)) (m :: q) = _
        have hp : ([] ++ [n] <+: m :: q) ↔ m = n := by
          simp [List.cons_prefix_cons, eq_comm]
        simp only [hp, List.length_nil, Nat.zero_add, List.drop_succ_cons, List.drop_zero]
        unfold view
        rw [get_cons, get_cons, lookup_setKey]
        by_cases hm : m = n
        · simp only [hm, if_true]; cases v <;> rfl
        · simp only [hm, if_false]
  | cons a l ih =>
    cases t with
    | file b => simp [view, get] at h
    | dir ks =>
      cases hs : ks.lookup a with
      | none => simp [view, get, hs] at h
      | some s =>
        have h' : view s l = some .dir := by simpa [view, get, hs] using h
        have hput : put (.dir ks) (a :: l) n v = .dir (setKey ks a (some (put s l n v))) := by
          rw [put, hs]
        rw [hput]
        cases q with
        | nil => simp [view, get, entry]
        | cons m q =>
          by_cases hm : m = a
          · subst hm
            have h1 : view (.dir (setKey ks m (some (put s l n v)))) (m :: q) = view (put s l n v) q := by
              unfold view; rw [get_cons, lookup_setKey, if_pos rfl]; rfl
            have h2 : view (.dir ks) (m :: q) = view s q := by unfold view; rw [get_cons, hs]; rfl
            rw [h1, h2, ih s q h']
            simp only [List.cons_append, List.cons_prefix_cons, true_and, List.length_cons, List.drop_succ_cons]
          · have h1 : view (.dir (setKey ks a (some (put s l n v)))) (m :: q) = view (.dir ks) (m :: q) := by
              unfold view; rw [get_cons, get_cons, lookup_setKey, if_neg hm]
            rw [h1, if_neg]
            rw [List.cons_append, List.cons_prefix_cons]
            exact fun e => hm e.1.symm

/-- A new entry without anything below it. -/
theorem view_put_new (t : Tree) (l : Loc) (n : Str) (s : Tree) (h : view t l = some .dir) (hn : view t (l ++ [n]) = none)
    (hs : ∀ m q, view s (m :: q) = none) : view (put t l n (some s)) = add (view t) (l ++ [n]) (entry s) := by
  funext q
  rw [view_put t l n _ q h]
  unfold add
  by_cases hq : l ++ [n] <+: q
  · rw [if_pos hq]
    obtain ⟨r, rfl⟩ := hq
    have hd : (l ++ [n] ++ r).drop (l.length + 1) = r := by
      rw [List.drop_append_of_le_length (by simp), List.drop_eq_nil_of_le (by simp)]; rfl
    rw [hd]
    cases r with
    | nil => simp [view_nil]
    | cons m r =>
      rw [if_neg (by simp), view_below t _ m r (by rw [hn]; simp)]
      exact hs m r
  · rw [if_neg hq, if_neg]
    rintro rfl
    exact hq (List.prefix_refl _)

theorem view_put_none (t : Tree) (l : Loc) (n : Str) (h : view t l = some .dir) :
    view (put t l n none) = cut (view t) (l ++ [n]) := by
  funext q
  rw [view_put t l n _ q h]
  rfl

theorem view_dir_iff (t : Tree) (l : Loc) : view t l = some .dir ↔ ∃ ks, nodes t l = some ks := by
  unfold view nodes
  cases hg : get t l with
  | none => simp
  | some s => cases s <;> simp [entry]

theorem view_child (t : Tree) (l : Loc) (n : Str) (ks) (h : nodes t l = some ks) :
    view t (l ++ [n]) = (ks.lookup n).map entry := by
  unfold nodes at h
  unfold view
  rw [get_append]
  cases hg : get t l with
  | none => rw [hg] at h; cases h
  | some s =>
    rw [hg] at h
    cases s with
    | file b => cases h
    | dir k =>
      simp only [Option.some.injEq] at h
      subst h
      rw [Option.bind_some, get_cons]
      cases k.lookup n <;> rfl

/-- Directories have directories above them. -/
theorem view_take (t : Tree) (l : Loc) (j : Nat) (h : view t l = some .dir) : view t (l.take j) = some .dir := by
  by_cases hj : j < l.length
  · apply Classical.byContradiction
    intro hn
    have h1 : l = l.take j ++ l[j] :: l.drop (j + 1) := by
      rw [← List.drop_eq_getElem_cons hj, List.take_append_drop]
    rw [h1, view_below t _ _ _ hn] at h
    cases h
  · rw [List.take_of_length_le (by omega)]; exact h

/-! ## The walk -/

/-- The pointer for a location: the node when it is a directory, otherwise `FakeNode`. -/
def ndAt (fr : Nat) (t : Tree) (l : Loc) : Nd := if view t l = some .dir then .real l else .fake fr

theorem isDir_ndAt (fr : Nat) (t : Tree) (l : Loc) : isDir fr t (ndAt fr t l) = some true := by
  unfold ndAt
  split
  · rename_i h
    unfold view at h
    cases hg : get t l with
    | none => rw [hg] at h; cases h
    | some s => cases s with
      | file b => rw [hg] at h; cases h
      | dir ks => simp [isDir, hg]
  · simp [isDir]

/-- Standing at `l` in the call `fr`, with `k` roots at the bottom of `dirs`. -/
structure At (fr : Nat) (w : Walk) (l : Loc) : Prop where
  node : w.node = some (ndAt fr w.t l)
  file : w.file = none
  root : view w.t [] = some .dir
  nofile : ∀ j b, view w.t (l.take j) ≠ some (.file b)
  dirs : ∃ k, 1 ≤ k ∧ w.dirs.length = k + l.length ∧
    ∀ i, i < w.dirs.length → w.dirs[i]? = some (ndAt fr w.t (l.take (i + 1 - k)))

/-- The same without the last entry of `dirs`. -/
theorem push_at {fr : Nat} {w : Walk} {l : Loc} {k : Nat} (hn : w.node = some (ndAt fr w.t l)) (hf : w.file = none)
    (hr : view w.t [] = some .dir) (hnf : ∀ j b, view w.t (l.take j) ≠ some (.file b)) (hk : 1 ≤ k)
    (hlen : w.dirs.length + 1 = k + l.length)
    (hd : ∀ i, i < w.dirs.length → w.dirs[i]? = some (ndAt fr w.t (l.take (i + 1 - k)))) (hb : w.dirs.length < 128) :
    ∃ w', push fr w (ndAt fr w.t l) = some w' ∧ At fr w' l ∧ w'.t = w.t ∧ w'.dirs.length = w.dirs.length + 1 := by
  refine ⟨{ w with dirs := w.dirs ++ [ndAt fr w.t l] }, ?_, ⟨hn, hf, hr, hnf, k, hk, ?_, ?_⟩, rfl, by simp⟩
  · unfold push
    rw [isDir_ndAt]
    dsimp only
    rw [if_pos hb]
  · simp; omega
  · intro i hi
    simp only [List.length_append, List.length_singleton] at hi
    dsimp only
    by_cases h : i < w.dirs.length
    · rw [List.getElem?_append_left h]; exact hd i h
    · have : i = w.dirs.length := by omega
      subst this
      rw [List.getElem?_concat_length, List.take_of_length_le (by omega)]

theorem ndAt_real {fr : Nat} {t : Tree} {l : Loc} (h : view t l = some .dir) : ndAt fr t l = .real l := if_pos h

theorem ndAt_fake {fr : Nat} {t : Tree} {l : Loc} (h : view t l ≠ some .dir) : ndAt fr t l = .fake fr := if_neg h

theorem take_concat_le (l : Loc) (n : Str) (j : Nat) (h : j ≤ l.length) : (l ++ [n]).take j = l.take j :=
  List.take_append_of_le_length h

/-- Going down: the new place `l ++ [n]` in a tree that agrees on the way there. -/
theorem down_at {fr : Nat} {w : Walk} {l : Loc} (h : At fr w l) (n : Str) (t' : Tree)
    (hb : w.dirs.length < 128)
    (hsame : ∀ j, j ≤ l.length → view t' (l.take j) = view w.t (l.take j))
    (hnf : ∀ b, view t' (l ++ [n]) ≠ some (.file b)) :
    ∃ w', push fr { w with t := t', node := some (ndAt fr t' (l ++ [n])) } (ndAt fr t' (l ++ [n])) = some w' ∧
      At fr w' (l ++ [n]) ∧ w'.t = t' ∧ w'.dirs.length = w.dirs.length + 1 := by
  obtain ⟨k, hk, hlen, hd⟩ := h.dirs
  have hnd : ∀ j, j ≤ l.length → ndAt fr t' (l.take j) = ndAt fr w.t (l.take j) := by
    intro j hj; unfold ndAt; rw [hsame j hj]
  refine push_at (w := { w with t := t', node := some (ndAt fr t' (l ++ [n])) }) (k := k) rfl h.file ?_ ?_ hk ?_ ?_ hb
  · have := hsame 0 (Nat.zero_le _)
    rw [List.take_zero] at this
    exact this.trans h.root
  · intro j b
    dsimp only
    by_cases hj : j ≤ l.length
    · rw [take_concat_le l n j hj, hsame j hj]; exact h.nofile j b
    · rw [List.take_of_length_le (by simp; omega)]; exact hnf b
  · simp [hlen]; omega
  · intro i hi
    dsimp only at hi ⊢
    rw [take_concat_le l n _ (by omega), hnd _ (by omega)]
    exact hd i hi

/-- The walk along directories and parents. -/
theorem loop_steps (fr : Nat) (rel : Walk → Option Walk) (o : Op) (inter : Bool) (B : Nat) (hB : B ≤ 128) (tail ds : List Comp)
    (hds : ∀ c ∈ ds, IsStep c) (w : Walk) (l : Loc) (h : At fr w l) (hb : w.dirs.length + (ds ++ tail).length ≤ B) :
    ∃ f' r, Spec.walk (decide (o = .create) && inter) (decide (o = .create) && tail.isEmpty) (view w.t) l ds = (f', r) ∧
    match r with
    | none => ∃ w', loop fr rel o inter (ds ++ tail) w = some w' ∧ w'.node = none ∧ w'.file = none ∧ view w'.t = f'
    | some l' => ∃ w', loop fr rel o inter (ds ++ tail) w = loop fr rel o inter tail w' ∧ At fr w' l' ∧ view w'.t = f' ∧
        w'.dirs.length + tail.length ≤ B := by
  induction ds generalizing w l with
  | nil => exact ⟨view w.t, some l, rfl, w, rfl, h, rfl, by simpa using hb⟩
  | cons c ds ih =>
    have ih := ih (fun d hd => hds d (by simp [hd]))
    have hlt : w.dirs.length < 128 := by simp at hb; omega
    have hc := hds c (by simp)
    cases c with
    | dir n =>
      -- a common end: walking on from `l ++ [n]`
      have go : ∀ t', (∀ j, j ≤ l.length → view t' (l.take j) = view w.t (l.take j)) →
          (∀ b, view t' (l ++ [n]) ≠ some (.file b)) →
          comp fr rel o inter (ds ++ tail).isEmpty w (.dir n) =
            some { w with t := t', node := some (ndAt fr t' (l ++ [n])) } →
          ∃ w1, loop fr rel o inter (.dir n :: ds ++ tail) w = loop fr rel o inter (ds ++ tail) w1 ∧
            At fr w1 (l ++ [n]) ∧ w1.t = t' ∧ w1.dirs.length + (ds ++ tail).length ≤ B := by
        intro t' h1 h2 hcomp
        obtain ⟨w1, hp, ha, ht, hl⟩ := down_at h n t' hlt h1 h2
        refine ⟨w1, ?_, ha, ht, by rw [hl]; simp at hb ⊢; omega⟩
        rw [List.cons_append, loop, hcomp]
        dsimp only
        rw [hp]
      have hcomp : comp fr rel o inter (ds ++ tail).isEmpty w (.dir n) =
          dirComp fr o ((ds ++ tail).isEmpty || inter) n w := rfl
      unfold dirComp at hcomp
      rw [h.node] at hcomp
      dsimp only at hcomp
      rw [isDir_ndAt] at hcomp
      dsimp only at hcomp
      by_cases hdir : view w.t l = some .dir
      · obtain ⟨ks, hks⟩ := (view_dir_iff _ _).1 hdir
        have hch := view_child w.t l n ks hks
        rw [ndAt_real hdir] at hcomp
        dsimp only at hcomp
        rw [hks] at hcomp
        dsimp only at hcomp
        cases hlk : ks.lookup n with
        | some s =>
          rw [hlk] at hcomp hch
          cases s with
          | dir sub =>
            have hv : view w.t (l ++ [n]) = some .dir := hch
            dsimp only at hcomp
            rw [← ndAt_real (fr := fr) hv] at hcomp
            obtain ⟨w1, e1, e2, e3, e4⟩ := go w.t (fun _ _ => rfl) (by rw [hv]; simp) hcomp
            rw [e1, Spec.walk, hv]
            dsimp only
            rw [← e3]
            exact ih w1 (l ++ [n]) e2 e4
          | file b =>
            have hv : view w.t (l ++ [n]) = some (.file b) := hch
            dsimp only at hcomp
            rw [Spec.walk, hv]
            refine ⟨view w.t, none, rfl, { w with node := none }, ?_, rfl, h.file, rfl⟩
            rw [List.cons_append, loop, hcomp]
        | none =>
          rw [hlk] at hcomp hch
          have hv : view w.t (l ++ [n]) = none := hch
          dsimp only at hcomp
          rw [Spec.walk, hv]
          dsimp only
          have hcond : (o = .create ∧ ((ds ++ tail).isEmpty || inter) = true) ↔
              (view w.t l = some .dir ∧ ((decide (o = .create) && inter) ||
                ((decide (o = .create) && tail.isEmpty) && ds.isEmpty)) = true) := by
            rw [hdir]
            cases ds <;> cases tail <;> cases inter <;> simp
          by_cases hmk : o = .create ∧ ((ds ++ tail).isEmpty || inter) = true
          · rw [if_pos hmk] at hcomp
            rw [if_pos (hcond.1 hmk)]
            have hnew := view_put_new w.t l n (.dir []) hdir hv (by intro m q; rfl)
            have hv' : view (put w.t l n (some (.dir []))) (l ++ [n]) = some .dir := by
              rw [hnew]; simp [add, entry]
            rw [← ndAt_real (fr := fr) hv'] at hcomp
            obtain ⟨w1, e1, e2, e3, e4⟩ := go _ (by
              intro j hj
              rw [hnew]
              unfold add
              rw [if_neg]
              intro e
              have := congrArg List.length e
              simp at this
              omega) (by rw [hv']; simp) hcomp
            rw [e1]
            have e5 : view w1.t = add (view w.t) (l ++ [n]) .dir := by rw [e3, hnew]; rfl
            rw [← e5]
            exact ih w1 (l ++ [n]) e2 e4
          · rw [if_neg hmk] at hcomp
            rw [if_neg (fun e => hmk (hcond.2 e))]
            rw [← ndAt_fake (t := w.t) (l := l ++ [n]) (by rw [hv]; simp)] at hcomp
            obtain ⟨w1, e1, e2, e3, e4⟩ := go w.t (fun _ _ => rfl) (by rw [hv]; simp) hcomp
            rw [e1, ← e3]
            exact ih w1 (l ++ [n]) e2 e4
      · have hv : view w.t (l ++ [n]) = none := view_below w.t l n [] hdir
        rw [ndAt_fake hdir] at hcomp
        dsimp only at hcomp
        have hw : w = { w with t := w.t, node := some (ndAt fr w.t (l ++ [n])) } := by
          rw [ndAt_fake (by rw [hv]; simp), ← ndAt_fake (t := w.t) hdir, ← h.node]
        obtain ⟨w1, e1, e2, e3, e4⟩ := go w.t (fun _ _ => rfl) (by rw [hv]; simp) (by rw [hcomp]; exact congrArg some hw)
        rw [e1, Spec.walk, hv]
        dsimp only
        rw [if_neg (fun e => hdir e.1), ← e3]
        exact ih w1 (l ++ [n]) e2 e4
    | parent =>
      obtain ⟨k, hk, hlen, hd⟩ := h.dirs
      have key : ∃ k', 1 ≤ k' ∧ (if 2 < w.dirs.length then w.dirs.length - 2 else 0) + 1 = k' + l.dropLast.length ∧
          (if 2 < w.dirs.length then w.dirs.length - 2 else 0) < w.dirs.length ∧
          w.dirs[if 2 < w.dirs.length then w.dirs.length - 2 else 0]? = some (ndAt fr w.t l.dropLast) ∧
          ∀ i, i < (if 2 < w.dirs.length then w.dirs.length - 2 else 0) →
            w.dirs[i]? = some (ndAt fr w.t (l.dropLast.take (i + 1 - k'))) := by
        rw [List.dropLast_eq_take]
        by_cases h2 : 2 < w.dirs.length
        · simp only [if_pos h2]
          by_cases h0 : l.length = 0
          · refine ⟨k - 1, by omega, by simp; omega, by omega, ?_, ?_⟩
            · rw [hd _ (by omega), show w.dirs.length - 2 + 1 - k = l.length - 1 by omega]
            · intro i hi
              rw [hd i (by omega)]
              have : l = [] := List.length_eq_zero_iff.1 h0
              subst this
              simp
          · refine ⟨k, hk, by simp; omega, by omega, ?_, ?_⟩
            · rw [hd _ (by omega), show w.dirs.length - 2 + 1 - k = l.length - 1 by omega]
            · intro i hi
              rw [hd i (by omega), List.take_take, Nat.min_eq_left (by omega)]
        · simp only [if_neg h2]
          refine ⟨1, Nat.le_refl 1, by simp; omega, by omega, ?_, by intro i hi; omega⟩
          rw [hd 0 (by omega), show 0 + 1 - k = l.length - 1 by omega]
      obtain ⟨k', hk', hl', hlt', hget, hrest⟩ := key
      have hcomp : comp fr rel o inter (ds ++ tail).isEmpty w .parent =
          some { w with node := some (ndAt fr w.t l.dropLast),
                        dirs := w.dirs.take (if 2 < w.dirs.length then w.dirs.length - 2 else 0) } := by
        unfold comp
        dsimp only
        rw [hget]
      generalize hlev : (if 2 < w.dirs.length then w.dirs.length - 2 else 0) = level at hl' hlt' hget hrest hcomp
      have hll : (w.dirs.take level).length = level := by rw [List.length_take]; omega
      obtain ⟨w1, hp, ha, ht, hl1⟩ := push_at
        (w := { w with node := some (ndAt fr w.t l.dropLast), dirs := w.dirs.take level }) (l := l.dropLast) (k := k')
        rfl h.file h.root (by
          intro j b
          rw [List.dropLast_eq_take, List.take_take]
          exact h.nofile _ b) hk' (by dsimp only; rw [hll]; exact hl') (by
          intro i hi
          dsimp only at hi ⊢
          rw [hll] at hi
          rw [List.getElem?_take_of_lt hi]
          exact hrest i hi) (by dsimp only; rw [hll]; omega)
      dsimp only at hl1
      have e1 : loop fr rel o inter (.parent :: ds ++ tail) w = loop fr rel o inter (ds ++ tail) w1 := by
        rw [List.cons_append, loop, hcomp]
        dsimp only
        rw [hp]
      rw [e1, Spec.walk]
      have ht : w1.t = w.t := ht
      rw [← ht]
      exact ih w1 l.dropLast ha (by rw [hl1, hll]; simp at hb ⊢; omega)
    | volume v => exact hc.elim
    | root => exact hc.elim
    | relRoot => exact hc.elim
    | file n => exact hc.elim
    | ext n => exact hc.elim

/-! ## The file name -/

/-- Behind the first component of a file name: the node stays, the name grows. -/
theorem loop_exts (fr : Nat) (rel : Walk → Option Walk) (o : Op) (inter : Bool) (es : List Comp) (hes : ∀ c ∈ es, IsExt c)
    (w : Walk) (l : Loc) (s : Str) (hn : w.node = some (.real l)) (hf : w.file = some s) (hv : view w.t l = some .dir)
    (hb : w.dirs.length + es.length ≤ 128) :
    ∃ w', loop fr rel o inter es w = some w' ∧ w'.t = w.t ∧ w'.node = some (.real l) ∧
      w'.file = some (es.foldl (fun s c => match c with | .ext e => s ++ '.' :: e | _ => s) s) := by
  induction es generalizing w s with
  | nil => exact ⟨w, rfl, rfl, hn, hf⟩
  | cons c es ih =>
    have hd : isDir fr w.t (.real l) = some true := by rw [← ndAt_real (fr := fr) hv]; exact isDir_ndAt fr w.t l
    have hc := hes c (by simp)
    cases c with
    | ext e =>
      have hcomp : comp fr rel o inter es.isEmpty w (.ext e) = some { w with file := some (s ++ '.' :: e) } := by
        unfold comp inDir
        rw [hn]
        dsimp only
        rw [hd, hf]
        rfl
      have hp : push fr { w with file := some (s ++ '.' :: e) } (.real l) =
          some { w with file := some (s ++ '.' :: e), dirs := w.dirs ++ [.real l] } := by
        unfold push
        dsimp only
        rw [hd]
        dsimp only
        rw [if_pos (by simp at hb; omega)]
      obtain ⟨w', h1, h2, h3, h4⟩ := ih (fun d hd => hes d (by simp [hd]))
        { w with file := some (s ++ '.' :: e), dirs := w.dirs ++ [.real l] } (s ++ '.' :: e) hn rfl hv
        (by simp at hb ⊢; omega)
      refine ⟨w', ?_, h2, h3, h4⟩
      rw [loop, hcomp]
      dsimp only
      rw [hn]
      dsimp only
      rw [← hn, hp]
      exact h1
    | volume v => exact hc.elim
    | root => exact hc.elim
    | relRoot => exact hc.elim
    | file n => exact hc.elim
    | dir n => exact hc.elim
    | parent => exact hc.elim

/-- The whole file name, at `l`. -/
theorem loop_name (fr : Nat) (rel : Walk → Option Walk) (o : Op) (inter : Bool) (fs : List Comp) (hfs : IsName fs)
    (w : Walk) (l : Loc) (h : At fr w l) (hb : w.dirs.length + fs.length ≤ 128) :
    ∃ w', loop fr rel o inter fs w = some w' ∧ w'.t = w.t ∧
      (if view w.t l = some .dir then w'.node = some (.real l) ∧ w'.file = nameOf fs ∧ (nameOf fs).isSome
       else w'.node = none) := by
  have first : ∀ (c : Comp) (n : Str) (es : List Comp), fs = c :: es → (c = .file n ∨ c = .ext n) →
      (∀ d ∈ es, IsExt d) →
      nameOf fs = some (es.foldl (fun s c => match c with | .ext e => s ++ '.' :: e | _ => s) n) →
      ∃ w', loop fr rel o inter fs w = some w' ∧ w'.t = w.t ∧
        (if view w.t l = some .dir then w'.node = some (.real l) ∧ w'.file = nameOf fs ∧ (nameOf fs).isSome
         else w'.node = none) := by
    intro c n es hfs hc hes hname
    rw [hname]
    subst hfs
    have hnode := h.node
    have hid := isDir_ndAt fr w.t l
    by_cases hv : view w.t l = some .dir
    · rw [ndAt_real hv] at hnode hid
      have hcomp : comp fr rel o inter es.isEmpty w c = some { w with file := some n } := by
        rcases hc with rfl | rfl <;>
          (unfold comp inDir; rw [hnode]; dsimp only; rw [hid, h.file]; rfl)
      have hp : push fr { w with file := some n } (.real l) =
          some { w with file := some n, dirs := w.dirs ++ [.real l] } := by
        unfold push
        dsimp only
        rw [hid]
        dsimp only
        rw [if_pos (by simp at hb; omega)]
      obtain ⟨w', h1, h2, h3, h4⟩ := loop_exts fr rel o inter es hes
        { w with file := some n, dirs := w.dirs ++ [.real l] } l n hnode rfl hv (by simp at hb ⊢; omega)
      refine ⟨w', ?_, h2, ?_⟩
      · rw [loop, hcomp]
        dsimp only
        rw [hnode]
        dsimp only
        rw [← hnode, hp]
        exact h1
      · rw [if_pos hv]; exact ⟨h3, h4, rfl⟩
    · rw [ndAt_fake hv] at hnode hid
      have hcomp : comp fr rel o inter es.isEmpty w c = some { w with node := none } := by
        rcases hc with rfl | rfl <;>
          (unfold comp inDir; rw [hnode]; dsimp only; rw [hid]; simp)
      refine ⟨{ w with node := none }, ?_, rfl, by rw [if_neg hv]⟩
      rw [loop, hcomp]
  unfold IsName at hfs
  split at hfs
  · exact first _ _ _ rfl (.inl rfl) hfs rfl
  · exact first _ _ _ rfl (.inr rfl) hfs rfl
  · exact hfs.elim

/-- The head of a path from the root. -/
theorem loop_head (rel : Walk → Option Walk) (o : Op) (inter : Bool) (hd rest : List Comp) (hh : IsHead hd) (t : Tree)
    (fr : Nat) (hr : view t [] = some .dir) :
    ∃ w, loop fr rel o inter (hd ++ rest) ⟨t, none, none, [.real []]⟩ = loop fr rel o inter rest w ∧ At fr w [] ∧ w.t = t ∧
      w.dirs.length = hd.length + 1 := by
  have hnd : ndAt fr t [] = .real [] := ndAt_real hr
  have hid : isDir fr t (.real []) = some true := by rw [← hnd]; exact isDir_ndAt fr t []
  have at1 : ∀ n, 1 ≤ n → At fr ⟨t, some (.real []), none, List.replicate n (.real [])⟩ [] := by
    intro n hn
    refine ⟨by rw [hnd], rfl, hr, ?_, n, hn, by simp, ?_⟩
    · intro j b; simp [hr]
    · intro i hi
      simp only [List.length_replicate] at hi
      dsimp only
      rw [List.take_nil, hnd, List.getElem?_replicate, if_pos hi]
  rcases hh with rfl | ⟨v, rfl⟩ | ⟨v, rfl⟩
  · refine ⟨⟨t, some (.real []), none, List.replicate 2 (.real [])⟩, ?_, at1 2 (by omega), rfl, rfl⟩
    rw [List.singleton_append, loop]
    simp only [comp, push]
    simp [hid]
  · refine ⟨⟨t, some (.real []), none, List.replicate 2 (.real [])⟩, ?_, at1 2 (by omega), rfl, rfl⟩
    rw [List.singleton_append, loop]
    simp only [comp, push]
    simp [hid]
  · refine ⟨⟨t, some (.real []), none, List.replicate 3 (.real [])⟩, ?_, at1 3 (by omega), rfl, rfl⟩
    rw [List.cons_append, loop]
    simp only [comp, push]
    simp [hid]
    rw [loop]
    simp only [comp, push]
    simp [hid]

end Verif.VirtualTree
