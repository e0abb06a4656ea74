import Verif.VirtualTreeRefine
/-!
# Relative paths in the virtual file system
-/
namespace Verif.VirtualTree
open Verif.Path (Str Comp)
open Spec

/-- The walk without its stack. -/
def strip (w : Walk) : Tree × Option Nd × Option Str := (w.t, w.node, w.file)

theorem finish_strip {fr : Nat} {o : Op} {w v : Walk} (h : strip w = strip v) : finish fr o w = finish fr o v := by
  unfold strip at h
  simp only [Prod.mk.injEq] at h
  unfold finish
  rw [h.1, h.2.1, h.2.2]

/-- A file name does not look at the stack. -/
theorem loop_name_strip (fr : Nat) (rel : Walk → Option Walk) (o : Op) (inter : Bool) (fs : List Comp)
    (hfs : ∀ c ∈ fs, (∃ n, c = .file n) ∨ ∃ n, c = .ext n) (w v : Walk) (h : strip w = strip v)
    (hw : w.dirs.length + fs.length ≤ 128) (hv : v.dirs.length + fs.length ≤ 128) :
    (loop fr rel o inter fs w).map strip = (loop fr rel o inter fs v).map strip := by
  induction fs generalizing w v with
  | nil => simp [loop, h]
  | cons c fs ih =>
    obtain ⟨t, nd, f, D⟩ := w
    obtain ⟨t', nd', f', D'⟩ := v
    unfold strip at h
    simp only [Prod.mk.injEq] at h
    obtain ⟨rfl, rfl, rfl⟩ := h
    have hcomp : ∃ r : Option (Option Nd × Option Str), ∀ D, comp fr rel o inter fs.isEmpty ⟨t, nd, f, D⟩ c =
        r.map fun x => ⟨t, x.1, x.2, D⟩ := by
      rcases hfs c (by simp) with ⟨n, rfl⟩ | ⟨n, rfl⟩
      · unfold comp inDir
        cases nd with
        | none => exact ⟨some (none, f), fun D => rfl⟩
        | some nd =>
          dsimp only
          cases isDir fr t nd with
          | none => exact ⟨none, fun D => rfl⟩
          | some d =>
            dsimp only
            cases (d && nd != .fake fr)
            · exact ⟨some (none, f), fun D => rfl⟩
            · cases f
              · exact ⟨some (some nd, some n), fun D => rfl⟩
              · rename_i f; exact ⟨some (none, some f), fun D => rfl⟩
      · unfold comp inDir
        cases nd with
        | none => exact ⟨some (none, f), fun D => rfl⟩
        | some nd =>
          dsimp only
          cases isDir fr t nd with
          | none => exact ⟨none, fun D => rfl⟩
          | some d =>
            dsimp only
            cases (d && nd != .fake fr)
            · exact ⟨some (none, f), fun D => rfl⟩
            · cases f
              · exact ⟨some (some nd, some n), fun D => rfl⟩
              · rename_i f; exact ⟨some (some nd, some (f ++ '.' :: n)), fun D => rfl⟩
    obtain ⟨r, hr⟩ := hcomp
    rw [loop, loop, hr, hr]
    cases r with
    | none => rfl
    | some x =>
      obtain ⟨nd, f⟩ := x
      dsimp only [Option.map]
      cases nd with
      | none => rfl
      | some nd =>
        simp only [List.length_cons] at hw hv
        dsimp only
        unfold push
        dsimp only
        cases isDir fr t nd with
        | none => rfl
        | some d =>
          cases d with
          | false => exact ih (fun c h => hfs c (by simp [h])) _ _ rfl (by dsimp only; omega) (by dsimp only; omega)
          | true =>
            dsimp only
            rw [if_pos (by omega), if_pos (by omega)]
            exact ih (fun c h => hfs c (by simp [h])) _ _ rfl (by simp; omega) (by simp; omega)

/-- One directory, when nothing is created: the node found, and `none` for undefined. -/
theorem dirComp_pure (fr : Nat) (o : Op) (ho : o ≠ .create) (mk : Bool) (n : Str) (t : Tree) (nd : Nd) :
    ∃ r : Option (Option Nd), (∀ D, dirComp fr o mk n ⟨t, some nd, none, D⟩ = r.map fun x => ⟨t, x, none, D⟩) ∧
      ∀ nd', r = some (some nd') → isDir fr t nd' = some true := by
  unfold dirComp
  dsimp only
  cases hd : isDir fr t nd with
  | none => exact ⟨none, fun D => rfl, by simp⟩
  | some d =>
    cases d with
    | false => exact ⟨some none, fun D => rfl, by simp⟩
    | true =>
      dsimp only
      cases nd with
      | fake f => exact ⟨some (some (.fake f)), fun D => rfl, by intro nd' h; cases h; exact hd⟩
      | real l =>
        dsimp only
        cases hk : nodes t l with
        | none => exact ⟨none, fun D => rfl, by simp⟩
        | some ks =>
          dsimp only
          have hg : get t l = some (.dir ks) := by
            unfold nodes at hk
            split at hk
            · rename_i h; rw [h]; cases hk; rfl
            · cases hk
          cases hl : ks.lookup n with
          | none =>
            refine ⟨some (some (.fake fr)), fun D => ?_, by intro nd' h; cases h; simp [isDir]⟩
            dsimp only
            rw [if_neg (by intro h; exact ho h.1)]
            rfl
          | some s =>
            cases s with
            | file b => exact ⟨some none, fun D => rfl, by simp⟩
            | dir sub =>
              refine ⟨some (some (.real (l ++ [n]))), fun D => rfl, ?_⟩
              intro nd' h
              cases h
              have : get t (l ++ [n]) = some (.dir sub) := by
                rw [get_append, hg]
                simp [get_cons, hl, get]
              simp [isDir, this]

/-- The walk with the current directory twice on the stack. -/
theorem loop_dup (fr : Nat) (rel : Walk → Option Walk) (o : Op) (ho : o ≠ .create) (inter : Bool) (ds fs : List Comp)
    (hds : ∀ c ∈ ds, IsStep c) (hfs : ∀ c ∈ fs, (∃ n, c = .file n) ∨ ∃ n, c = .ext n) (t : Tree) (x nd : Nd) (D E : List Nd)
    (hD : ∀ y ∈ D ++ x :: E, isDir fr t y = some true) (hn : (x :: E).getLast? = some nd)
    (hb : (D ++ x :: x :: E).length + (ds ++ fs).length ≤ 128) :
    (loop fr rel o inter (ds ++ fs) ⟨t, some nd, none, D ++ x :: x :: E⟩).map strip =
      (loop fr rel o inter (eat E.length ds ++ fs) ⟨t, some nd, none, D ++ x :: E⟩).map strip := by
  induction ds generalizing nd E with
  | nil =>
    rw [show eat E.length [] = [] by cases E.length <;> rfl]
    refine loop_name_strip fr rel o inter fs hfs _ _ rfl ?_ ?_
    · simp at hb ⊢; omega
    · simp at hb ⊢; omega
  | cons c ds ih =>
    have ih := ih (fun c h => hds c (by simp [h]))
    have hc := hds c (by simp)
    cases c with
    | dir n =>
      rw [show eat E.length (.dir n :: ds) = .dir n :: eat (E.length + 1) ds by cases E.length <;> rfl]
      rw [List.cons_append, List.cons_append, loop, loop]
      unfold comp
      dsimp only
      obtain ⟨r, hr, hr'⟩ := dirComp_pure fr o ho ((ds ++ fs).isEmpty || inter) n t nd
      obtain ⟨r2, hr2, -⟩ := dirComp_pure fr o ho ((eat (E.length + 1) ds ++ fs).isEmpty || inter) n t nd
      have he : (eat (E.length + 1) ds ++ fs).isEmpty = (ds ++ fs).isEmpty := by
        cases ds with
        | nil => rfl
        | cons c ds => cases c <;> rfl
      rw [he, hr, hr]
      cases r with
      | none => rfl
      | some nd' =>
        simp only [Option.map_some]
        cases nd' with
        | none => rfl
        | some nd' =>
          have hi := hr' nd' rfl
          have hlen : (D ++ x :: x :: E).length + 1 ≤ 128 := by simp at hb ⊢; omega
          dsimp only
          unfold push
          dsimp only
          rw [hi]
          dsimp only
          rw [if_pos (by omega), if_pos (by simp at hlen ⊢; omega)]
          have := ih nd' (E ++ [nd']) (by
            intro y hy
            simp only [List.mem_append, List.mem_cons, List.not_mem_nil, or_false] at hy
            rcases hy with h | h | h | h
            · exact hD y (by simp [h])
            · exact hD y (by simp [h])
            · exact hD y (by simp [h])
            · rw [h]; exact hi) (List.getLast?_concat (l := x :: E)) (by simp at hb ⊢; omega)
          simp only [List.length_append, List.length_singleton] at this
          simpa using this
    | parent =>
      rcases List.eq_nil_or_concat E with rfl | ⟨E', z, rfl⟩
      · -- out of the current directory
        cases hn
        rw [show eat ([] : List Nd).length (.parent :: ds) = ds from rfl, List.cons_append, loop]
        unfold comp
        dsimp only
        have hlev : (if 2 < (D ++ [x, x]).length then (D ++ [x, x]).length - 2 else 0) = D.length := by
          rw [show (D ++ [x, x]).length = D.length + 2 by simp]
          split <;> omega
        rw [hlev]
        have h1 : (D ++ [x, x])[D.length]? = some x := by simp
        rw [h1]
        dsimp only
        unfold push
        dsimp only
        rw [hD x (by simp)]
        dsimp only
        have h2 : (D ++ [x, x]).take D.length = D := by simp
        rw [h2, if_pos (by simp at hb; omega)]
        rfl
      · rw [List.concat_eq_append] at hn hD hb ⊢
        have hlen : (E' ++ [z]).length = E'.length + 1 := by simp
        rw [hlen, show eat (E'.length + 1) (.parent :: ds) = .parent :: eat E'.length ds from rfl,
          List.cons_append, List.cons_append]
        obtain ⟨y, hy⟩ : ∃ y, (x :: E').getLast? = some y := by
          cases h : (x :: E').getLast? with
          | none => simp at h
          | some y => exact ⟨y, rfl⟩
        have split : ∀ D0 : List Nd, ∃ F, D0 ++ x :: E' = F ++ [y] ∧ F.length = D0.length + E'.length := by
          intro D0
          refine ⟨(D0 ++ x :: E').dropLast, ?_, by simp⟩
          have hne : D0 ++ x :: E' ≠ [] := by simp
          have : (D0 ++ x :: E').getLast hne = y := by
            have h3 := List.getLast?_eq_some_getLast hne
            rw [List.getLast?_append, hy] at h3
            simpa using h3.symm
          rw [← this, List.dropLast_concat_getLast]
        have step : ∀ D0 : List Nd, ∀ cs : List Comp,
            (D0 ++ x :: (E' ++ [z])).length ≤ 128 →
            loop fr rel o inter (.parent :: cs) ⟨t, some nd, none, D0 ++ x :: (E' ++ [z])⟩ =
            loop fr rel o inter cs ⟨t, some y, none, D0 ++ x :: E'⟩ := by
          intro D0 cs hb0
          obtain ⟨F, hF, hl⟩ := split D0
          have e : D0 ++ x :: (E' ++ [z]) = F ++ [y, z] := by
            rw [show D0 ++ x :: (E' ++ [z]) = (D0 ++ x :: E') ++ [z] by simp, hF]; simp
          rw [e] at hb0 ⊢
          rw [loop]
          unfold comp
          dsimp only
          have hlev : (if 2 < (F ++ [y, z]).length then (F ++ [y, z]).length - 2 else 0) = F.length := by
            rw [show (F ++ [y, z]).length = F.length + 2 by simp]
            split <;> omega
          rw [hlev]
          have h1 : (F ++ [y, z])[F.length]? = some y := by simp
          rw [h1]
          dsimp only
          have h2 : (F ++ [y, z]).take F.length = F := by simp
          unfold push
          dsimp only
          rw [h2, hD y ?_, hF]
          · dsimp only
            rw [if_pos (by simp at hb0; omega)]
          · have : y ∈ x :: E' := List.mem_of_getLast? hy
            simp only [List.mem_append, List.mem_cons] at this ⊢
            rcases this with h | h
            · exact .inr (.inl h)
            · exact .inr (.inr (.inl h))
        have s1 := step (D ++ [x]) (ds ++ fs) (by simp at hb ⊢; omega)
        have s2 := step D (eat E'.length ds ++ fs) (by simp at hb ⊢; omega)
        simp only [List.append_assoc, List.singleton_append] at s1
        rw [s1, s2]
        refine ih y E' ?_ hy (by simp at hb ⊢; omega)
        intro q hq
        refine hD q ?_
        simp only [List.mem_append, List.mem_cons] at hq ⊢
        rcases hq with h | h | h
        · exact .inl h
        · exact .inr (.inl h)
        · exact .inr (.inr (.inl h))
    | volume v => exact hc.elim
    | root => exact hc.elim
    | relRoot => exact hc.elim
    | file n => exact hc.elim
    | ext n => exact hc.elim

theorem walk_append (f : FS) (l : Loc) (cs ds : List Comp) :
    (Spec.walk false false f l (cs ++ ds)) =
      match (Spec.walk false false f l cs).2 with
      | none => (f, none)
      | some m => Spec.walk false false f m ds := by
  induction cs generalizing l with
  | nil => rfl
  | cons c cs ih =>
    rw [List.cons_append]
    cases c with
    | dir n =>
      rw [Spec.walk, Spec.walk]
      split
      · exact ih _
      · rfl
      · rw [if_neg (by simp), if_neg (by simp)]; exact ih _
    | parent => exact ih _
    | volume n => exact ih _
    | root => exact ih _
    | relRoot => exact ih _
    | file n => exact ih _
    | ext n => exact ih _

theorem eat_steps (d : Nat) (ds : List Comp) (h : ∀ c ∈ ds, IsStep c) : ∀ c ∈ eat d ds, IsStep c := by
  induction ds generalizing d with
  | nil => cases d <;> simp [eat]
  | cons c ds ih =>
    have ih := fun d => ih d (fun c hc => h c (by simp [hc]))
    have hc := h c (by simp)
    cases c with
    | dir n =>
      rw [show eat d (.dir n :: ds) = .dir n :: eat (d + 1) ds by cases d <;> rfl]
      intro c hm
      rcases List.mem_cons.1 hm with rfl | hm
      · exact hc
      · exact ih _ c hm
    | parent =>
      cases d with
      | zero => exact fun c hm => h c (by simp [show c ∈ ds from hm])
      | succ d =>
        intro c hm
        rcases List.mem_cons.1 hm with rfl | hm
        · exact hc
        · exact ih _ c hm
    | volume v => exact hc.elim
    | root => exact hc.elim
    | relRoot => exact hc.elim
    | file n => exact hc.elim
    | ext n => exact hc.elim

theorem eat_length (d : Nat) (ds : List Comp) : (eat d ds).length ≤ ds.length := by
  induction ds generalizing d with
  | nil => cases d <;> simp [eat]
  | cons c ds ih =>
    cases c <;> cases d <;> simp [eat] <;> first | exact ih _ | omega

/-- **Relative paths**, when nothing is created and the current directory is there. -/
theorem rel_core (t : Tree) (hd cs ds fs : List Comp) (o : Op) (ho : o ≠ .create) (l : Loc) (hr : view t [] = some .dir)
    (hh : IsHead hd) (hcs : ∀ c ∈ cs, IsStep c) (hds : ∀ c ∈ ds, IsStep c) (hfs : fs = [] ∨ IsName fs)
    (hb : (hd ++ cs).length + (.relRoot :: ds ++ fs).length ≤ 127)
    (hc : find (view t) cs none = some l) :
    Core (view t) [] (cs ++ eat 0 ds) fs o false (nodeOp t (hd ++ cs) (.relRoot :: ds ++ fs) o false) := by
  have hfalse : ∀ b : Bool, (decide (o = .create) && b) = false := by intro b; simp [ho]
  have hwalk : (Spec.walk false false (view t) [] cs).2 = some l ∧ view t l = some .dir := by
    unfold find at hc
    split at hc
    · cases hc
    · rename_i m _ he _
      split at hc
      · cases hc; rename_i hv; exact ⟨he, hv⟩
      · cases hc
    · rename_i h1; cases h1
  obtain ⟨hw1, hvl⟩ := hwalk
  -- the walk for the current path
  obtain ⟨w0, h1, h2, h3, h4⟩ := loop_head (fun _ => none) .none false hd cs hh t 1 hr
  obtain ⟨f', r, hw, hres⟩ := loop_steps 1 (fun _ => none) .none false (1 + (hd ++ cs).length) (by simp at hb ⊢; omega)
    [] cs hcs w0 [] h2 (by rw [h4]; simp; omega)
  rw [h3] at hw
  have hw : Spec.walk false false (view t) [] cs = (f', r) := hw
  have hf' : f' = view t := by have := walk_false (view t) [] cs; rw [hw] at this; exact this
  rw [hw] at hw1
  dsimp only at hw1
  subst hw1
  obtain ⟨w1, e1, e2, e3, e4⟩ := hres
  rw [List.append_nil, loop] at e1
  rw [hf'] at e3
  have e4 : w1.dirs.length ≤ 1 + (hd ++ cs).length := e4
  have hvl1 : view w1.t l = some .dir := by rw [e3]; exact hvl
  have real : ∀ fr j, ndAt fr w1.t (l.take j) = .real (l.take j) := by
    intro fr j
    refine ndAt_real ?_
    by_cases hj : j < l.length
    · have := List.take_append_drop j l
      rw [← this, List.drop_eq_getElem_cons hj] at hvl1
      exact Classical.byContradiction fun hn => by
        rw [view_below w1.t (l.take j) _ _ hn] at hvl1; cases hvl1
    · rw [List.take_of_length_le (by omega)]; exact hvl1
  have reall : ∀ fr, ndAt fr w1.t l = .real l := fun fr => ndAt_real hvl1
  have hat : At 0 ⟨w1.t, some (.real l), none, w1.dirs⟩ l := by
    obtain ⟨k, hk, hlen, hdirs⟩ := e2.dirs
    refine ⟨by dsimp only; rw [reall], rfl, e2.root, e2.nofile, k, hk, hlen, ?_⟩
    intro i hi
    dsimp only at hi ⊢
    rw [hdirs i hi, real 1, real 0]
  have hrel : relWalk (hd ++ cs) o false ⟨t, none, none, [.real []]⟩ = some ⟨w1.t, some (.real l), none, w1.dirs⟩ := by
    unfold relWalk
    rw [if_neg ho]
    dsimp only
    rw [if_pos (by simp), h1, e1]
    dsimp only
    unfold finish
    rw [e2.node, e2.file, reall]
    rfl
  -- the last entry of the stack is the current directory
  obtain ⟨D, hD⟩ : ∃ D, w1.dirs = D ++ [.real l] := by
    obtain ⟨k, hk, hlen, hdirs⟩ := e2.dirs
    have hlast := hdirs (w1.dirs.length - 1) (by omega)
    rw [show w1.dirs.length - 1 + 1 - k = l.length by omega, List.take_length, reall] at hlast
    refine ⟨w1.dirs.dropLast, ?_⟩
    have hne : w1.dirs ≠ [] := by intro h; rw [h] at hlen; simp at hlen; omega
    rw [List.getElem?_eq_getElem (by omega)] at hlast
    have := List.dropLast_concat_getLast hne
    rw [List.getLast_eq_getElem, Option.some.inj hlast] at this
    exact this.symm
  have hall : ∀ y ∈ w1.dirs, isDir 0 w1.t y = some true := by
    intro y hy
    obtain ⟨i, hi, rfl⟩ := List.getElem_of_mem hy
    obtain ⟨k, hk, hlen, hdirs⟩ := hat.dirs
    have := hdirs i hi
    dsimp only at this
    rw [List.getElem?_eq_getElem hi] at this
    rw [Option.some.inj this]
    exact isDir_ndAt 0 w1.t _
  have hfs' : ∀ c ∈ fs, (∃ n, c = .file n) ∨ ∃ n, c = .ext n := by
    intro c hm
    rcases hfs with rfl | hfs
    · cases hm
    · have ext : ∀ es : List Comp, (∀ c ∈ es, IsExt c) → c ∈ es → (∃ n, c = .file n) ∨ ∃ n, c = .ext n := by
        intro es h hm
        have := h c hm
        cases c with
        | ext n => exact .inr ⟨n, rfl⟩
        | _ => exact this.elim
      unfold IsName at hfs
      split at hfs
      · rcases List.mem_cons.1 hm with rfl | hm
        · exact .inl ⟨_, rfl⟩
        · exact ext _ hfs hm
      · rcases List.mem_cons.1 hm with rfl | hm
        · exact .inr ⟨_, rfl⟩
        · exact ext _ hfs hm
      · exact hfs.elim
  have hloop : loop 0 (relWalk (hd ++ cs) o false) o false (.relRoot :: ds ++ fs) ⟨t, none, none, [.real []]⟩ =
      loop 0 (relWalk (hd ++ cs) o false) o false (ds ++ fs) ⟨w1.t, some (.real l), none, D ++ [.real l, .real l]⟩ := by
    rw [List.cons_append, loop]
    unfold comp
    simp only [Option.isSome_none, Bool.false_eq_true, if_false]
    rw [hrel]
    dsimp only
    unfold push
    dsimp only
    rw [hall _ (by rw [hD]; simp)]
    dsimp only
    rw [if_pos (by simp at hb e4 ⊢; omega), hD]
    simp
  have hdup := loop_dup 0 (relWalk (hd ++ cs) o false) o ho false ds fs hds hfs' w1.t (.real l) (.real l) D []
    (by rw [hD] at hall; exact hall) rfl (by rw [hD] at e4; simp at e4 hb ⊢; omega)
  have hfin : nodeOp t (hd ++ cs) (.relRoot :: ds ++ fs) o false =
      (loop 0 (relWalk (hd ++ cs) o false) o false (eat 0 ds ++ fs) ⟨w1.t, some (.real l), none, w1.dirs⟩).bind
        (finish 0 o) := by
    unfold nodeOp
    rw [hloop, hD]
    have hdup : (loop 0 (relWalk (hd ++ cs) o false) o false (ds ++ fs) ⟨w1.t, some (.real l), none, D ++ [.real l, .real l]⟩).map
        strip = (loop 0 (relWalk (hd ++ cs) o false) o false (eat 0 ds ++ fs) ⟨w1.t, some (.real l), none, D ++ [.real l]⟩).map
        strip := hdup
    generalize loop 0 (relWalk (hd ++ cs) o false) o false (ds ++ fs) ⟨w1.t, some (.real l), none, D ++ [.real l, .real l]⟩ = A at hdup ⊢
    generalize loop 0 (relWalk (hd ++ cs) o false) o false (eat 0 ds ++ fs) ⟨w1.t, some (.real l), none, D ++ [.real l]⟩ = B at hdup ⊢
    cases A <;> cases B
    · rfl
    · cases hdup
    · cases hdup
    · exact finish_strip (Option.some.inj hdup)
  have hlen := eat_length 0 ds
  have hcore := core_at (relWalk (hd ++ cs) o false) ⟨w1.t, some (.real l), none, w1.dirs⟩ l (eat 0 ds) fs o false hat
    (eat_steps 0 ds hds) hfs (by dsimp only; simp at hb e4 ⊢; omega)
  rw [hfin]
  dsimp only at hcore
  rw [e3] at hcore
  unfold Core at hcore ⊢
  rw [hfalse, hfalse, walk_append, hw]
  rw [hfalse, hfalse] at hcore
  exact hcore

end Verif.VirtualTree
