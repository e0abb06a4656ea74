import Verif.PathProps
/-!
# C67: the strings of a path
-/
namespace Verif.Path
open Spec

/-- The text of components in which a relative root stands for the current path. -/
def textIn (cur : Str) (cs : List Comp) : Str :=
  cs.flatMap fun c => if c.ty = .relRoot then cur else written c

theorem textIn_cons (cur : Str) (c : Comp) (cs : List Comp) :
    textIn cur (c :: cs) = (if c.ty = .relRoot then cur else written c) ++ textIn cur cs := by
  simp [textIn]

theorem write_buf (cur : Str) (cs : List Comp) (rep : Rep) : (write cur cs rep).buf = rep.buf ++ textIn cur cs := by
  induction cs generalizing rep with
  | nil => simp [write, textIn]
  | cons c cs ih =>
    cases c <;> (unfold write; dsimp only; rw [ih, textIn_cons]; simp [Comp.ty, written])

theorem size_ge (cur : Option Str) (cs : List Comp) (len len' : Nat) (req req' : Bool)
    (h : size cur cs len req = some (len', req')) : len + (textIn (cur.getD []) cs).length ≤ len' := by
  induction cs generalizing len req with
  | nil => simp only [size, Option.some.injEq, Prod.mk.injEq] at h; simp [textIn]; omega
  | cons c cs ih =>
    rw [textIn_cons]
    cases c <;> simp only [size, Comp.ty, Comp.str, Option.getD_some, Option.getD_none, List.length_nil] at h
    case relRoot =>
      cases hc : cur with
      | none => rw [hc] at h; cases h
      | some t =>
        rw [hc] at h
        have := ih _ _ (by rw [hc]; exact h)
        rw [hc] at this
        simp [Comp.ty] at this ⊢
        omega
    all_goals
      have := ih _ _ h
      simp [Comp.ty, written] at this ⊢
      omega

/-- **C67, the buffer suffices.**  Whatever the components, the strings and their terminating zero byte fit into the
memory allocated for them. -/
theorem C67_buffer_suffices (cur vol : Option Str) (cs : List Comp) (alloc : Nat) (r : Rep)
    (h : build cur vol cs = some (.rep alloc r)) : r.buf.length + 1 ≤ alloc := by
  unfold build at h
  split at h
  · cases h
  · rename_i len req hs
    have hg := size_ge _ _ _ _ _ _ hs
    split at h
    · cases h
    · split at h
      · split at h
        · cases h
        · simp only [Option.some.injEq, Built.rep.injEq] at h
          obtain ⟨rfl, rfl⟩ := h
          simp only [write_buf, List.length_append, List.length_cons]
          omega
      · simp only [Option.some.injEq, Built.rep.injEq] at h
        obtain ⟨rfl, rfl⟩ := h
        simp only [write_buf, List.length_append, List.length_nil]
        omega

/-! ## Which strings -/

/-- The string a getter should return: `g` is the getter, `b` what building the strings gives. -/
def wanted (g : Call) (b : Built) : Option Str :=
  match b with
  | .null => none
  | .rep _ r => match g with
    | .full => some r.buf
    | .path => r.path.map fun o => r.buf.drop o
    | .file => r.file.map fun o => r.buf.drop o
    | _ => none

/-- Is the call a getter? -/
def Call.getter : Call → Bool
  | .full => true | .path => true | .file => true | _ => false

/-- The strings kept are those of the components. -/
def Fresh (w : World) : Prop :=
  ∀ i r, w.cache = some (i, r) → ∃ alloc, build (curFull w.cur) (curVol w.cur) w.comps = some (.rep alloc r)

theorem rebuild_fresh {w w' : World} (h : rebuild w = some w') :
    Fresh w' ∧ w'.comps = w.comps ∧ w'.cur = w.cur ∧
    ∃ b, build (curFull w.cur) (curVol w.cur) w.comps = some b ∧
      w'.cache = (match b with | .null => none | .rep _ r => some (w.next, r)) := by
  unfold rebuild at h
  split at h
  · cases h
  · rename_i hb
    simp only [Option.some.injEq] at h
    subst h
    exact ⟨(fun i r hc => by cases hc), rfl, rfl, .null, hb, rfl⟩
  · rename_i alloc r hb
    simp only [Option.some.injEq] at h
    subst h
    refine ⟨?_, rfl, rfl, .rep alloc r, hb, rfl⟩
    intro i r' hc
    simp only [Option.some.injEq, Prod.mk.injEq] at hc
    exact ⟨alloc, hc.2 ▸ hb⟩

/-- What a getter does with the strings kept. -/
theorem getter_spec {w w' : World} {g : Call} {p : Ptr} (hf : Fresh w) (hg : g.getter = true)
    (h : call w g = some (w', p)) :
    Fresh w' ∧ w'.comps = w.comps ∧ w'.cur = w.cur ∧
    ∃ b, build (curFull w.cur) (curVol w.cur) w.comps = some b ∧ p.bind w'.show = wanted g b := by
  have key : ∀ (q : Option (Nat × Rep) → Option Nat) (G : Call),
      (∀ c, q (some c) = (match G with | .full => some 0 | .path => c.2.path | .file => c.2.file | _ => none)) →
      q none = none → G.getter = true →
      ((if (q w.cache).isNone then rebuild w else some w).bind fun w =>
        some (w, w.cache.bind fun c => (q (some c)).map fun o => (c.1, o))) = some (w', p) →
      Fresh w' ∧ w'.comps = w.comps ∧ w'.cur = w.cur ∧
      ∃ b, build (curFull w.cur) (curVol w.cur) w.comps = some b ∧ p.bind w'.show = wanted G b := by
    intro q G hq hq0 hG h
    by_cases hn : (q w.cache).isNone = true
    · rw [if_pos hn] at h
      cases hr : rebuild w with
      | none => rw [hr] at h; cases h
      | some w1 =>
        rw [hr] at h
        simp only [Option.bind_some, Option.some.injEq, Prod.mk.injEq] at h
        obtain ⟨rfl, rfl⟩ := h
        obtain ⟨h1, h2, h3, b, hb, hc⟩ := rebuild_fresh hr
        refine ⟨h1, h2, h3, b, hb, ?_⟩
        cases b with
        | null => rw [hc]; rfl
        | rep alloc r =>
          dsimp only at hc
          rw [hc]
          simp only [Option.bind_some, hq]
          cases G <;> first | cases hG | skip
          · simp [World.show, hc, wanted]
          · cases hp : r.path <;> simp [World.show, hc, wanted, hp]
          · cases hp : r.file <;> simp [World.show, hc, wanted, hp]
    · rw [if_neg hn] at h
      simp only [Option.bind_some, Option.some.injEq, Prod.mk.injEq] at h
      obtain ⟨rfl, rfl⟩ := h
      cases hc : w.cache with
      | none => rw [hc, hq0] at hn; exact absurd rfl hn
      | some c =>
        obtain ⟨i, r⟩ := c
        obtain ⟨alloc, hb⟩ := hf i r hc
        refine ⟨hf, rfl, rfl, .rep alloc r, hb, ?_⟩
        simp only [Option.bind_some, hq]
        cases G <;> first | cases hG | skip
        · simp [World.show, hc, wanted]
        · cases hp : r.path <;> simp [World.show, hc, wanted, hp]
        · cases hp : r.file <;> simp [World.show, hc, wanted, hp]
  cases g with
  | full =>
    refine key (fun c => c.map fun _ => 0) .full (fun c => rfl) rfl rfl ?_
    rw [← h]
    cases hc : w.cache <;> simp [call, hc]
    · cases rebuild w <;> simp [Option.map_eq_bind, Function.comp_def]
  | path =>
    refine key (fun c => c.bind (·.2.path)) .path (fun c => rfl) rfl rfl ?_
    rw [← h]
    simp only [call, Option.bind_eq_bind, Option.bind_some, Option.pure_def]
    split <;> rfl
  | file =>
    refine key (fun c => c.bind (·.2.file)) .file (fun c => rfl) rfl rfl ?_
    rw [← h]
    simp only [call, Option.bind_eq_bind, Option.bind_some, Option.pure_def]
    split <;> rfl
  | change cs => cases hg
  | setCurrent cs => cases hg

/-- Calls in sequence. -/
def calls (w : World) : List Call → Option World
  | [] => some w
  | c :: cs => match call w c with
    | none => none
    | some (w', _) => calls w' cs

theorem call_fresh {w w' : World} {c : Call} {p : Ptr} (hf : Fresh w) (hc : ∀ cs, c ≠ .setCurrent cs)
    (h : call w c = some (w', p)) : Fresh w' ∧ w'.cur = w.cur := by
  by_cases hg : c.getter = true
  · obtain ⟨h1, _, h3, _⟩ := getter_spec hf hg h
    exact ⟨h1, h3⟩
  · cases c with
    | full => exact absurd rfl hg
    | path => exact absurd rfl hg
    | file => exact absurd rfl hg
    | setCurrent cs => exact absurd rfl (hc cs)
    | change cs =>
      simp only [call, Option.some.injEq, Prod.mk.injEq] at h
      obtain ⟨rfl, _⟩ := h
      exact ⟨(fun i r hh => by cases hh), rfl⟩

/-- **C67, the strings are those of the path.**  After any sequence of getters and changes to the path, while the current
path stays the same, a getter returns the string that building it from the present components gives. -/
theorem C67_strings_current_partial (comps cur : List Comp) (cs : List Call) (w w' : World) (g : Call) (p : Ptr)
    (hn : ∀ c ∈ cs, ∀ ds, c ≠ .setCurrent ds) (hr : calls ⟨comps, cur, none, 0⟩ cs = some w) (hg : g.getter = true)
    (h : call w g = some (w', p)) :
    ∃ b, build (curFull cur) (curVol cur) w.comps = some b ∧ p.bind w'.show = wanted g b := by
  have key : ∀ (cs : List Call) (w0 : World), Fresh w0 → (∀ c ∈ cs, ∀ ds, c ≠ .setCurrent ds) →
      calls w0 cs = some w → Fresh w ∧ w.cur = w0.cur := by
    intro cs
    induction cs with
    | nil => intro w0 hf _ h; simp only [calls, Option.some.injEq] at h; subst h; exact ⟨hf, rfl⟩
    | cons c cs ih =>
      intro w0 hf hn h
      unfold calls at h
      split at h
      · cases h
      · rename_i w1 q hc
        obtain ⟨h1, h2⟩ := call_fresh hf (hn c (by simp)) hc
        obtain ⟨h3, h4⟩ := ih w1 h1 (fun d hd => hn d (by simp [hd])) h
        exact ⟨h3, h4.trans h2⟩
  obtain ⟨hf, hcur⟩ := key cs _ (by intro i r hh; cases hh) hn hr
  obtain ⟨_, _, _, b, hb, hp⟩ := getter_spec hf hg h
  rw [hcur] at hb
  exact ⟨b, hb, hp⟩

/-! ## The strings of a path read from a text -/

theorem size_some (t : Str) (cs : List Comp) (len : Nat) (req : Bool) :
    ∃ len', size (some t) cs len req = some (len', req && !cs.any fun c => c.ty = .volume || c.ty = .relRoot) := by
  induction cs generalizing len req with
  | nil => exact ⟨len, by simp [size]⟩
  | cons c cs ih =>
    cases c <;> simp only [size, Comp.ty]
    case volume n => obtain ⟨l, h⟩ := ih (len + ((Comp.volume n).str.getD []).length + 2) false; exact ⟨l, by rw [h]; simp [Comp.ty]⟩
    case relRoot => obtain ⟨l, h⟩ := ih (len + (Comp.relRoot.str.getD []).length + t.length) false; exact ⟨l, by rw [h]; simp [Comp.ty]⟩
    case root => obtain ⟨l, h⟩ := ih (len + (Comp.root.str.getD []).length + 2) req; exact ⟨l, by rw [h]; simp [Comp.ty]⟩
    case dir n => obtain ⟨l, h⟩ := ih (len + ((Comp.dir n).str.getD []).length + 1) req; exact ⟨l, by rw [h]; simp [Comp.ty]⟩
    case parent => obtain ⟨l, h⟩ := ih (len + (Comp.parent.str.getD []).length + 3) req; exact ⟨l, by rw [h]; simp [Comp.ty]⟩
    case file n => obtain ⟨l, h⟩ := ih (len + ((Comp.file n).str.getD []).length) req; exact ⟨l, by rw [h]; simp [Comp.ty]⟩
    case ext n => obtain ⟨l, h⟩ := ih (len + ((Comp.ext n).str.getD []).length + 1) req; exact ⟨l, by rw [h]; simp [Comp.ty]⟩

/-- No relative root. -/
def NoRel (cs : List Comp) : Prop := ∀ c ∈ cs, c ≠ .relRoot

theorem textIn_noRel (t : Str) (cs : List Comp) (h : NoRel cs) : textIn t cs = text cs := by
  induction cs with
  | nil => rfl
  | cons c cs ih =>
    rw [textIn_cons, text_cons, ih (fun d hd => h d (by simp [hd])), if_neg]
    have := h c (by simp)
    cases c <;> simp_all [Comp.ty]

theorem wfDir_noRel {ds : List Comp} {f} (h : WfDir ds f) : NoRel ds ∧ ∀ c ∈ ds, c.isName = false := by
  induction ds with
  | nil => exact ⟨by simp [NoRel], by simp⟩
  | cons c ds ih =>
    obtain ⟨h1, _, h3⟩ := h
    obtain ⟨h4, h5⟩ := ih h3
    refine ⟨?_, ?_⟩
    · intro d hd
      rcases List.mem_cons.1 hd with rfl | hd
      · rintro rfl; exact h1
      · exact h4 d hd
    · intro d hd
      rcases List.mem_cons.1 hd with rfl | hd
      · cases d <;> first | rfl | exact h1.elim
      · exact h5 d hd

theorem exts_name {es : List Comp} (h : Exts es) : NoRel es ∧ ∀ c ∈ es, c.isName = true := by
  induction es with
  | nil => exact ⟨by simp [NoRel], by simp⟩
  | cons c es ih =>
    cases c with
    | ext n =>
      obtain ⟨h4, h5⟩ := ih h.2
      refine ⟨?_, ?_⟩
      · intro d hd
        rcases List.mem_cons.1 hd with rfl | hd
        · simp
        · exact h4 d hd
      · intro d hd
        rcases List.mem_cons.1 hd with rfl | hd
        · rfl
        · exact h5 d hd
    | _ => exact h.elim

theorem fileName_name {fs : List Comp} (h : FileName fs) : NoRel fs ∧ (∀ c ∈ fs, c.isName = true) ∧ fs ≠ [] := by
  unfold FileName at h
  split at h
  · refine ⟨by intro d hd; rw [List.mem_singleton.1 hd]; simp, by intro d hd; rw [List.mem_singleton.1 hd]; rfl, by simp⟩
  · obtain ⟨h1, h2⟩ := exts_name h.1
    refine ⟨?_, ?_, by simp⟩
    · intro d hd
      rcases List.mem_cons.1 hd with rfl | hd
      · simp
      · exact h1 d hd
    · intro d hd
      rcases List.mem_cons.1 hd with rfl | hd
      · rfl
      · exact h2 d hd
  · exact h.elim

/-- The offsets after the directory part. -/
theorem write_dirs (t : Str) (ds : List Comp) (rep : Rep) (hn : NoRel ds) (hd : ∀ c ∈ ds, c.isName = false) :
    (write t ds rep).path = (if ds = [] then rep.path else some (rep.path.getD rep.buf.length)) ∧
    (write t ds rep).file = rep.file := by
  induction ds generalizing rep with
  | nil => exact ⟨rfl, rfl⟩
  | cons c ds ih =>
    have ih' := fun rep => ih rep (fun d h => hn d (by simp [h])) (fun d h => hd d (by simp [h]))
    have h1 := hn c (by simp)
    have h2 := hd c (by simp)
    cases c <;> first
      | exact absurd rfl h1
      | (cases h2; done)
      | (unfold write; dsimp only; rw [(ih' _).1, (ih' _).2]; refine ⟨?_, rfl⟩; simp)

/-- The offsets after the file name. -/
theorem write_files (t : Str) (fs : List Comp) (rep : Rep) (hd : ∀ c ∈ fs, c.isName = true) :
    (write t fs rep).path = rep.path ∧
    (write t fs rep).file = (if fs = [] then rep.file else some (rep.file.getD rep.buf.length)) := by
  induction fs generalizing rep with
  | nil => exact ⟨rfl, rfl⟩
  | cons c fs ih =>
    have ih' := fun rep => ih rep (fun d h => hd d (by simp [h]))
    have h2 := hd c (by simp)
    cases c <;> first
      | (cases h2; done)
      | (unfold write; dsimp only; rw [(ih' _).1, (ih' _).2]; refine ⟨rfl, ?_⟩; simp)

theorem write_append (t : Str) (a b : List Comp) (rep : Rep) : write t (a ++ b) rep = write t b (write t a rep) := by
  induction a generalizing rep with
  | nil => rfl
  | cons c a ih => rw [List.cons_append]; simp only [write]; rw [ih]

/-- What precedes the path in the full string: the current path for a relative path, the volume of the current path when
there is no volume. -/
def front (cur vol : Str) (cs : List Comp) : Str :=
  if (complete cs).head? = some .relRoot then cur
  else if cs.any (fun c => c.ty = .volume) then [] else '/' :: '/' :: vol

theorem rep_eq {r : Rep} {b : Str} {p f : Option Nat} (n : Nat) (h1 : r.buf = b) (h2 : r.path.or r.file = p)
    (h3 : r.file = f) : some (Built.rep n { r with path := r.path.or r.file }) = some (.rep n ⟨b, p, f⟩) := by
  subst h1 h2 h3; rfl

/-- **C67, the strings of a path read from a text.**  For a text `s` of a well formed list of components - directory part
`ds`, file name `fs` - and a current path with a volume: the full string is `s` behind the current path or volume, the
path string is `s`, the file name string is the text of `fs`, or the null pointer when there is none. -/
theorem C67_strings_of_text (ds fs : List Comp) (cur vol : Str) (hne : ds ++ fs ≠ [])
    (hf : fs = [] ∨ FileName fs) (hd : WfDir ds (text fs).head?) :
    ∃ cs b, create (text (ds ++ fs)) = some cs ∧ build (some cur) (some vol) cs = some b ∧
      wanted .full b = some (front cur vol (ds ++ fs) ++ text (ds ++ fs)) ∧
      wanted .path b = some (text (ds ++ fs)) ∧
      wanted .file b = if fs = [] then none else some (text fs) := by
  have hwf : Wf (ds ++ fs) := ⟨ds, fs, rfl, hf, hd⟩
  obtain ⟨d1, d2⟩ := wfDir_noRel hd
  have f1 : NoRel fs ∧ ∀ c ∈ fs, c.isName = true := by
    rcases hf with rfl | hf
    · exact ⟨by simp [NoRel], by simp⟩
    · exact ⟨(fileName_name hf).1, (fileName_name hf).2.1⟩
  have hnr : NoRel (ds ++ fs) := by
    intro c hc
    rcases List.mem_append.1 hc with hc | hc
    · exact d1 c hc
    · exact f1.1 c hc
  -- the offsets, behind a front `fr`
  have hoff : ∀ fr : Str,
      (write cur (ds ++ fs) ⟨fr, none, none⟩).path.or (write cur (ds ++ fs) ⟨fr, none, none⟩).file = some fr.length ∧
      (write cur (ds ++ fs) ⟨fr, none, none⟩).file = (if fs = [] then none else some (fr ++ text ds).length) := by
    intro fr
    rw [write_append]
    obtain ⟨a1, a2⟩ := write_dirs cur ds ⟨fr, none, none⟩ d1 d2
    obtain ⟨b1, b2⟩ := write_files cur fs (write cur ds ⟨fr, none, none⟩) f1.2
    rw [b1, b2, a1, a2, write_buf, textIn_noRel _ _ d1]
    refine ⟨?_, by simp⟩
    by_cases h : ds = []
    · subst h
      have : fs ≠ [] := by simpa using hne
      simp [this, text_nil]
    · simp [h]
  have hbuf : ∀ fr : Str, (write cur (ds ++ fs) ⟨fr, none, none⟩).buf = fr ++ text (ds ++ fs) := by
    intro fr; rw [write_buf, textIn_noRel _ _ hnr]
  have hlast : ∀ fr : Str, (fr ++ text (ds ++ fs)).drop (fr ++ text ds).length = text fs := by
    intro fr
    rw [text_append, ← List.append_assoc, List.drop_left]
  have htne : text (ds ++ fs) ≠ [] := by
    rcases hf with rfl | hf
    · cases ds with
      | nil => simp at hne
      | cons c ds =>
        rw [List.append_nil, text_cons]
        have := hd.1
        cases c <;> first | exact this.elim | simp [written]
    · rw [text_append]; simp [(fileName_noSlash fs hf).2]
  refine ⟨complete (ds ++ fs), ?_⟩
  have hcreate : create (text (ds ++ fs)) = some (complete (ds ++ fs)) := by
    unfold create; rw [C66_write_then_read _ hwf]; rfl
  by_cases hrel : (complete (ds ++ fs)).head? = some .relRoot
  · have hc : complete (ds ++ fs) = .relRoot :: (ds ++ fs) := by
      cases hcs : ds ++ fs with
      | nil => exact absurd hcs hne
      | cons c r =>
        rw [hcs] at hrel
        simp only [complete] at hrel ⊢
        split
        · rfl
        · rename_i hcond
          rw [if_neg hcond] at hrel
          have := hnr c (by rw [hcs]; simp)
          simp at hrel
          exact absurd hrel this
    obtain ⟨len, hs⟩ := size_some cur (complete (ds ++ fs)) 0 true
    have hg := size_ge _ _ _ _ _ _ hs
    rw [hc] at hs hg
    simp only [List.any_cons, Comp.ty, decide_true, Bool.or_true, Bool.true_or, Bool.not_true, Bool.and_false] at hs
    rw [textIn_cons, textIn_noRel _ _ hnr] at hg
    have hlen : len ≠ 0 := by
      have := List.length_pos_iff.2 htne
      simp only [Option.getD_some, List.length_append] at hg
      omega
    refine ⟨.rep (len + 1) ⟨cur ++ text (ds ++ fs), some cur.length,
      if fs = [] then none else some (cur ++ text ds).length⟩, hcreate, ?_, ?_, ?_, ?_⟩
    · unfold build
      rw [hc, hs]
      dsimp only
      rw [if_neg hlen, if_neg (by simp)]
      have hw : write cur (.relRoot :: (ds ++ fs)) ⟨[], none, none⟩ = write cur (ds ++ fs) ⟨cur, none, none⟩ := rfl
      simp only [Option.getD_some, hw]
      exact rep_eq _ (hbuf cur) (hoff cur).1 (hoff cur).2
    · simp [wanted, front, hrel]
    · simp [wanted]
    · by_cases h : fs = []
      · simp [wanted, h]
      · simp only [wanted, h, if_false, Option.map_some, hlast]
  · have hc : complete (ds ++ fs) = ds ++ fs := by
      cases hcs : ds ++ fs with
      | nil => rfl
      | cons c r =>
        rw [hcs] at hrel
        simp only [complete] at hrel ⊢
        split
        · rename_i hcond
          rw [if_pos hcond] at hrel
          exact absurd rfl hrel
        · rfl
    obtain ⟨len, hs⟩ := size_some cur (ds ++ fs) 0 true
    have hg := size_ge _ _ _ _ _ _ hs
    rw [textIn_noRel _ _ hnr] at hg
    have hlen : len ≠ 0 := by
      have := List.length_pos_iff.2 htne
      omega
    have hany : (ds ++ fs).any (fun c => decide (c.ty = .volume) || decide (c.ty = .relRoot)) =
        (ds ++ fs).any (fun c => decide (c.ty = .volume)) := by
      rw [Bool.eq_iff_iff, List.any_eq_true, List.any_eq_true]
      constructor
      · rintro ⟨c, h1, h2⟩
        refine ⟨c, h1, ?_⟩
        have := hnr c h1
        cases c <;> simp_all [Comp.ty]
      · rintro ⟨c, h1, h2⟩
        exact ⟨c, h1, by simp [h2]⟩
    rw [hany, Bool.true_and] at hs
    rw [hc] at hcreate
    rw [hc]
    cases hv : (ds ++ fs).any (fun c => decide (c.ty = .volume)) with
    | true =>
      rw [hv] at hs
      refine ⟨.rep (len + 1) ⟨text (ds ++ fs), some 0,
        if fs = [] then none else some (text ds).length⟩, hcreate, ?_, ?_, ?_, ?_⟩
      · unfold build
        rw [hs]
        dsimp only
        rw [if_neg hlen, if_neg (by simp)]
        have h1 := hoff []
        have h2 := hbuf []
        simp only [List.nil_append, List.length_nil] at h1 h2
        simp only [Option.getD_some]
        exact rep_eq _ h2 h1.1 h1.2
      · simp only [wanted, front, if_neg hrel, hv, if_true, List.nil_append]
      · simp [wanted]
      · have h3 := hlast []
        simp only [List.nil_append] at h3
        by_cases h : fs = []
        · simp [wanted, h]
        · simp only [wanted, h, if_false, Option.map_some, h3]
    | false =>
      rw [hv] at hs
      have hvol : volume (some vol) (ds ++ fs) = some vol := by
        cases hcs : ds ++ fs with
        | nil => rfl
        | cons c r =>
          rw [hcs] at hv
          cases c <;> simp_all [volume, Comp.ty]
      refine ⟨.rep (len + 2 + vol.length + 1) ⟨('/' :: '/' :: vol) ++ text (ds ++ fs), some ('/' :: '/' :: vol).length,
        if fs = [] then none else some (('/' :: '/' :: vol) ++ text ds).length⟩, hcreate, ?_, ?_, ?_, ?_⟩
      · unfold build
        rw [hs]
        dsimp only
        rw [if_neg hlen, if_pos (by simp), hvol]
        dsimp only
        have h1 := hoff ('/' :: '/' :: vol)
        have h2 := hbuf ('/' :: '/' :: vol)
        simp only [Option.getD_some]
        exact rep_eq _ h2 h1.1 h1.2
      · simp only [wanted, front, if_neg hrel, hv]; simp
      · simp [wanted]
      · by_cases h : fs = []
        · simp [wanted, h]
        · simp only [wanted, h, if_false, Option.map_some, hlast]

/-! ## Pointers -/

/-- The strings of a path with a file name are all there. -/
theorem build_file {cur vol : Option Str} {cs : List Comp} {alloc : Nat} {r : Rep}
    (h : build cur vol cs = some (.rep alloc r)) (hf : ∃ c ∈ cs, c.isName = true) : r.path.isSome ∧ r.file.isSome := by
  have key : ∀ (cs : List Comp) (t : Str) (rep : Rep), (rep.file.isSome ∨ ∃ c ∈ cs, c.isName = true) →
      (write t cs rep).file.isSome := by
    intro cs t
    induction cs with
    | nil => intro rep h; rcases h with h | ⟨c, h, _⟩
             · exact h
             · cases h
    | cons c cs ih =>
      intro rep h
      unfold write
      apply ih
      rcases h with h | ⟨d, hd, hn⟩
      · left; cases c <;> first | exact h | rfl
      · rcases List.mem_cons.1 hd with rfl | hd
        · left; cases d <;> first | (cases hn; done) | rfl
        · right; exact ⟨d, hd, hn⟩
  unfold build at h
  split at h
  · cases h
  · split at h
    · cases h
    · split at h
      · split at h
        · cases h
        · rename_i v _
          simp only [Option.some.injEq, Built.rep.injEq] at h
          obtain ⟨rfl, rfl⟩ := h
          have := key cs (cur.getD []) ⟨'/' :: '/' :: v, none, none⟩ (.inr hf)
          exact ⟨by dsimp only; rw [Option.isSome_or, this]; simp, this⟩
      · simp only [Option.some.injEq, Built.rep.injEq] at h
        obtain ⟨rfl, rfl⟩ := h
        have := key cs (cur.getD []) ⟨[], none, none⟩ (.inr hf)
        exact ⟨by dsimp only; rw [Option.isSome_or, this]; simp, this⟩

/-- **C67, pointers of paths with a file name.**  Once a getter has returned a pointer, further getters neither free nor
change the string it points to. -/
theorem C67_pointers_stable_partial (w w1 w2 : World) (g1 : Call) (p : Nat × Nat) (gs : List Call)
    (hf : Fresh w) (hname : ∃ c ∈ w.comps, c.isName = true) (hg1 : g1.getter = true) (hgs : ∀ g ∈ gs, g.getter = true)
    (h1 : call w g1 = some (w1, some p)) (h2 : calls w1 gs = some w2) :
    (w2.show p).isSome ∧ w2.show p = w1.show p := by
  have same : ∀ (w : World) (i : Nat) (r : Rep) (g : Call) (w' : World) (q : Ptr), w.cache = some (i, r) →
      r.path.isSome → r.file.isSome → g.getter = true → call w g = some (w', q) → w' = w := by
    intro w i r g w' q hc hp hf hg h
    obtain ⟨a, ha⟩ := Option.isSome_iff_exists.1 hp
    obtain ⟨b, hb⟩ := Option.isSome_iff_exists.1 hf
    cases g <;> first | (cases hg; done) | (simp [call, hc, ha, hb] at h; exact h.1.symm)
  have many : ∀ (gs : List Call) (w : World) (i : Nat) (r : Rep), w.cache = some (i, r) → r.path.isSome → r.file.isSome →
      (∀ g ∈ gs, g.getter = true) → calls w gs = some w2 → w2 = w := by
    intro gs
    induction gs with
    | nil => intro w i r _ _ _ _ h; simp only [calls, Option.some.injEq] at h; exact h.symm
    | cons g gs ih =>
      intro w i r hc hp hf hg h
      unfold calls at h
      split at h
      · cases h
      · rename_i w' q hq
        have := same w i r g w' q hc hp hf (hg g (by simp)) hq
        subst this
        exact ih w' i r hc hp hf (fun d hd => hg d (by simp [hd])) h
  obtain ⟨hf1, hc1, hcur, b, hb, hshow⟩ := getter_spec hf hg1 h1
  have hsome : (w1.show p).isSome := by
    have : (wanted g1 b).isSome := by
      cases b with
      | null =>
        -- the null pointer is returned when there are no strings
        exfalso
        have : w1.cache = none := by
          cases hc : w1.cache with
          | none => rfl
          | some c =>
            obtain ⟨alloc, hb'⟩ := hf1 c.1 c.2 hc
            rw [hc1, hcur, hb] at hb'
            cases hb'
        cases g1 <;> first
          | (cases hg1; done)
          | (simp only [call, Option.bind_eq_bind, Option.pure_def] at h1
             split at h1
             · cases hr : rebuild w with
               | none => rw [hr] at h1; cases h1
               | some w' =>
                 rw [hr, Option.bind_some] at h1
                 simp only [Option.some.injEq, Prod.mk.injEq] at h1
                 obtain ⟨rfl, h1⟩ := h1
                 rw [this] at h1
                 cases h1
             · simp only [Option.bind_some, Option.some.injEq, Prod.mk.injEq] at h1
               obtain ⟨rfl, h1⟩ := h1
               rw [this] at h1
               cases h1)
      | rep alloc r =>
        obtain ⟨a, b⟩ := build_file hb hname
        cases g1 <;> first | (cases hg1; done) | simp [wanted, a, b]
    rw [← hshow] at this
    exact this
  cases hc : w1.cache with
  | none => simp [World.show, hc] at hsome
  | some c =>
    obtain ⟨alloc, hb'⟩ := hf1 c.1 c.2 hc
    obtain ⟨a, b⟩ := build_file hb' (hc1 ▸ hname)
    have := many gs w1 c.1 c.2 hc a b hgs h2
    rw [this]
    exact ⟨hsome, rfl⟩

/-- **C67**: asking a directory for its file name frees the strings handed out before. -/
theorem C67_directory_pointers_refuted :
    ∃ w w1 w2 p, w = (⟨[.volume ['v'], .root, .dir ['a']], [.volume ['v'], .root], none, 0⟩ : World) ∧
      call w .full = some (w1, some p) ∧ w1.show p = some ['/', '/', 'v', '/', 'a', '/'] ∧
      call w1 .file = some (w2, none) ∧ w2.show p = none := by
  refine ⟨_, _, _, _, rfl, rfl, rfl, rfl, rfl⟩

/-- **C67**: after the current path has changed, a relative path still returns its full string in the old one. -/
theorem C67_stale_after_current_refuted :
    ∃ w1 w2 w3 p q,
      call ⟨[.relRoot, .file ['a']], [.volume ['v'], .root], none, 0⟩ .full = some (w1, some p) ∧
      call w1 (.setCurrent [.volume ['v'], .root, .dir ['b']]) = some (w2, none) ∧
      call w2 .full = some (w3, some q) ∧ w3.show q = some ['/', '/', 'v', '/', 'a'] ∧
      (build (curFull w3.cur) (curVol w3.cur) w3.comps).bind (wanted .full) =
        some ['/', '/', 'v', '/', 'b', '/', 'a'] := by
  refine ⟨_, _, _, _, _, rfl, rfl, rfl, rfl, by decide +kernel⟩

/-- **C67**: with a relative path as current path, the full string of a relative path does not exist: the code calls itself
for ever. -/
theorem C67_relative_current_refuted : call ⟨[.relRoot, .file ['a']], [.relRoot, .dir ['b']], none, 0⟩ .full = none := by
  decide +kernel

/-- The hypotheses of the strings theorem: a relative file path. -/
example : ([Comp.dir ['a']] ++ [Comp.file ['f'], .ext ['t']] ≠ []) ∧ FileName [.file ['f'], .ext ['t']] ∧
    WfDir [.dir ['a']] (text [.file ['f'], .ext ['t']]).head? := by
  refine ⟨by simp, ⟨⟨⟨by decide, by decide, by decide⟩, trivial⟩, .inl ⟨by decide, by decide, by decide⟩⟩,
    ⟨by decide, .inl ⟨'a', _, rfl, by decide⟩⟩, trivial, trivial⟩

/-- The hypotheses of the theorem about pointers. -/
example : ∃ w1 p, Fresh ⟨[.relRoot, .file ['a']], [.volume ['v'], .root], none, 0⟩ ∧
    call ⟨[.relRoot, .file ['a']], [.volume ['v'], .root], none, 0⟩ .path = some (w1, some p) ∧
    w1.show p = some ['a'] := by
  refine ⟨_, _, ?_, rfl, rfl⟩
  intro i r h; cases h

#print axioms C67_buffer_suffices
#print axioms C67_strings_current_partial
#print axioms C67_strings_of_text
#print axioms C67_pointers_stable_partial
#print axioms C67_directory_pointers_refuted
#print axioms C67_stale_after_current_refuted
#print axioms C67_relative_current_refuted

end Verif.Path
