import Verif.CopyContSpec
/-!
# Lemmas for C101
-/
namespace Verif.CopyCont

/-! ## Memory -/

theorem Extends.refl (h : Heap) : Extends h h := fun _ o e => ⟨o.count, e⟩

theorem Extends.trans {h h' h'' : Heap} (a : Extends h h') (b : Extends h' h'') : Extends h h'' := by
  intro p o e
  obtain ⟨n, e1⟩ := a p o e
  exact b p ⟨o.body, n⟩ e1

theorem Extends.le {h h' : Heap} (a : Extends h h') : h.length ≤ h'.length := by
  rcases Nat.lt_or_ge h'.length h.length with hlt | hge
  · obtain ⟨n, e⟩ := a h'.length h[h'.length] (List.getElem?_eq_getElem hlt)
    rw [List.getElem?_eq_none (by omega)] at e; cases e
  · exact hge

theorem new_extends (h : Heap) (b : Body) : Extends h (new h b).1 := by
  intro p o e
  obtain ⟨hp, -⟩ := List.getElem?_eq_some_iff.1 e
  exact ⟨o.count, by rw [new, List.getElem?_append_left hp, e]⟩

theorem count_new (h : Heap) (b : Body) (q : Nat) : count (new h b).1 q = count h q + [h.length].count q := by
  simp only [count, new, List.getElem?_append]
  by_cases h1 : q < h.length
  · rw [if_pos h1, List.count_cons_of_ne (by omega)]; rfl
  · rw [if_neg h1, List.getElem?_eq_none (l := h) (by omega)]
    by_cases h2 : q = h.length
    · subst h2; simp
    · rw [List.count_cons_of_ne (by omega), List.getElem?_eq_none (by simp; omega)]; rfl

theorem set_extends {h : Heap} {p n m : Nat} {b : Body} (e : h[p]? = some ⟨b, n⟩) : Extends h (h.set p ⟨b, m⟩) := by
  intro q o e1
  obtain ⟨hq, -⟩ := List.getElem?_eq_some_iff.1 e1
  by_cases hpq : p = q
  · subst hpq
    rw [e] at e1; cases e1
    exact ⟨m, by simp [hq]⟩
  · exact ⟨o.count, by rw [List.getElem?_set_ne hpq, e1]⟩

theorem count_set {h : Heap} {p n m : Nat} {b : Body} (e : h[p]? = some ⟨b, n⟩) (q : Nat) :
    count (h.set p ⟨b, m⟩) q = if q = p then m else count h q := by
  obtain ⟨hp, -⟩ := List.getElem?_eq_some_iff.1 e
  by_cases hpq : q = p
  · subst hpq; simp [count, hp]
  · rw [if_neg hpq, count, List.getElem?_set_ne (by omega)]; rfl

theorem count_at {h : Heap} {p n : Nat} {b : Body} (e : h[p]? = some ⟨b, n⟩) : count h p = n := by simp [count, e]

theorem retain_spec {h h' : Heap} {p : Nat} (e : retain h p = some h') :
    Extends h h' ∧ ∀ q, count h' q = count h q + [p].count q := by
  rw [retain] at e
  split at e
  · rename_i b n e1
    cases e
    refine ⟨set_extends e1, fun q => ?_⟩
    rw [count_set e1]
    split
    · subst q; rw [count_at e1]; simp
    · rw [List.count_cons_of_ne (by omega)]; simp
  · cases e

theorem retain_some {h : Heap} {p : Nat} (e : 0 < count h p) : ∃ h', retain h p = some h' := by
  rw [count] at e
  rw [retain]
  split at e
  · rename_i o e1
    obtain ⟨b, n⟩ := o
    cases n with
    | zero => simp at e
    | succ n => rw [e1]; exact ⟨_, rfl⟩
  · omega

theorem free_spec {h h' : Heap} {p : Nat} (e : free h p = some h') :
    Extends h h' ∧ ∀ q, count h' q + [p].count q = count h q := by
  rw [free] at e
  split at e
  · rename_i b n e1
    cases e
    refine ⟨set_extends e1, fun q => ?_⟩
    rw [count_set e1]
    split
    · subst q; rw [count_at e1]; simp
    · rw [List.count_cons_of_ne (by omega)]; simp
  · cases e

theorem free_some {h : Heap} {p : Nat} (e : 0 < count h p) : ∃ h', free h p = some h' := by
  rw [count] at e
  rw [free]
  split at e
  · rename_i o e1
    obtain ⟨b, n⟩ := o
    cases n with
    | zero => simp at e
    | succ n => rw [e1]; exact ⟨_, rfl⟩
  · omega

theorem readCell_some {h : Heap} {p : Nat} {x : Val} (e : readCell h p = some x) : ∃ n, h[p]? = some ⟨.cell x, n + 1⟩ := by
  rw [readCell] at e
  split at e
  · rename_i v n e1; cases e; exact ⟨n, e1⟩
  · cases e

theorem readSeq_some {h : Heap} {p : Nat} {xs : List Val} (e : readSeq h p = some xs) : ∃ n, h[p]? = some ⟨.seq xs, n + 1⟩ := by
  rw [readSeq] at e
  split at e
  · rename_i v n e1; cases e; exact ⟨n, e1⟩
  · cases e

/-! ## What does not change when memory is added -/

/-- The data is the same in both memories. -/
structure Same (h h' : Heap) (t : Ty) (v : Val) : Prop where
  fits : Fits h' t v
  content : content h' t v = content h t v
  held : held h' t v = held h t v
  inElements : inElements h' t v = inElements h t v
  noEmpty : NoEmptyArray h t v → NoEmptyArray h' t v

theorem target_at {h : Heap} {p n : Nat} {x : Val} (e : h[p]? = some ⟨.cell x, n⟩) : target h p = x := by simp [target, e]
theorem elements_at {h : Heap} {p n : Nat} {xs : List Val} (e : h[p]? = some ⟨.seq xs, n⟩) : elements h p = xs := by simp [elements, e]
theorem characters_at {h : Heap} {p n s : Nat} (e : h[p]? = some ⟨.text s, n⟩) : characters h p = s := by simp [characters, e]

theorem flatMap_congr {α β : Type} {f g : α → List β} : ∀ {l : List α}, (∀ x ∈ l, f x = g x) → l.flatMap f = l.flatMap g
  | [], _ => rfl
  | x :: l, h => by rw [List.flatMap_cons, List.flatMap_cons, h x (by simp), flatMap_congr fun y hy => h y (by simp [hy])]

theorem same {h h' : Heap} (hx : Extends h h') : ∀ (t : Ty) (v : Val), Fits h t v → Same h h' t v
  | .num, v, f => by
    obtain ⟨n, rfl⟩ := f
    exact ⟨⟨n, rfl⟩, rfl, rfl, rfl, fun _ => trivial⟩
  | .raw r, v, f => by
    rcases f with rfl | ⟨p, rfl, hp⟩
    · exact ⟨Or.inl rfl, by cases r <;> rfl, by cases r <;> rfl, rfl, fun _ => trivial⟩
    · exact ⟨Or.inr ⟨p, rfl, Nat.lt_of_lt_of_le hp hx.le⟩, by cases r <;> rfl, by cases r <;> rfl, rfl, fun _ => trivial⟩
  | .ptr .weak t, v, f => by
    rcases f with rfl | ⟨p, rfl, hp⟩
    · exact ⟨Or.inl rfl, rfl, rfl, rfl, fun _ => trivial⟩
    · exact ⟨Or.inr ⟨p, rfl, Nat.lt_of_lt_of_le hp hx.le⟩, by simp [content], by simp [held], by simp [inElements], fun _ => Or.inl rfl⟩
  | .ptr .transfer t, v, f => by
    rcases f with rfl | ⟨p, x, n, rfl, hp, hf⟩
    · exact ⟨Or.inl rfl, rfl, rfl, rfl, fun _ => trivial⟩
    · obtain ⟨m, hp'⟩ := hx p _ hp
      have s := same hx t x hf
      have e1 := target_at hp
      have e2 := target_at hp'
      exact ⟨Or.inr ⟨p, x, m, rfl, hp', s.fits⟩, by simp [content, e1, e2, s.content], by simp [held, e1, e2, s.held],
        by simp [inElements, e1, e2, s.inElements], by simpa [NoEmptyArray, e1, e2] using s.noEmpty⟩
  | .ptr .retain t, v, f => by
    rcases f with rfl | ⟨p, x, n, rfl, hp, hf⟩
    · exact ⟨Or.inl rfl, rfl, rfl, rfl, fun _ => trivial⟩
    · obtain ⟨m, hp'⟩ := hx p _ hp
      have s := same hx t x hf
      have e1 := target_at hp
      have e2 := target_at hp'
      exact ⟨Or.inr ⟨p, x, m, rfl, hp', s.fits⟩, by simp [content, e1, e2, s.content], by simp [held, e1, e2, s.held],
        by simp [inElements, e1, e2, s.inElements], by simpa [NoEmptyArray, e1, e2] using s.noEmpty⟩
  | .pair a b, v, f => by
    obtain ⟨x, y, rfl, fx, fy⟩ := f
    have sx := same hx a x fx
    have sy := same hx b y fy
    exact ⟨⟨x, y, rfl, sx.fits, sy.fits⟩, by simp [content, sx.content, sy.content], by simp [held, sx.held, sy.held],
      by simp [inElements, sx.inElements, sy.inElements], fun ⟨a, b⟩ => ⟨sx.noEmpty a, sy.noEmpty b⟩⟩
  | .str, v, f => by
    rcases f with ⟨w, rfl⟩ | ⟨p, s, n, rfl, hp⟩
    · exact ⟨Or.inl ⟨w, rfl⟩, rfl, rfl, rfl, fun _ => trivial⟩
    · obtain ⟨m, hp'⟩ := hx p _ hp
      exact ⟨Or.inr ⟨p, s, m, rfl, hp'⟩, by simp [content, characters_at hp, characters_at hp'], rfl, rfl, fun _ => trivial⟩
  | .cont k e, v, f => by
    rcases f with rfl | ⟨p, xs, n, rfl, hp, hl, hf⟩
    · exact ⟨Or.inl rfl, rfl, rfl, rfl, fun _ => trivial⟩
    · obtain ⟨m, hp'⟩ := hx p _ hp
      have s := fun x hx' => same hx e x (hf x hx')
      have e1 := elements_at hp
      have e2 := elements_at hp'
      refine ⟨Or.inr ⟨p, xs, m, rfl, hp', hl, fun x hx' => (s x hx').fits⟩, ?_, ?_, ?_, ?_⟩
      · simp only [content, e1, e2]
        congr 1
        exact List.map_congr_left fun x hx' => (s x hx').content
      · simp only [held, e1, e2]
        congr 1
        exact flatMap_congr fun x hx' => (s x hx').held
      · simp only [inElements, e1, e2]
        exact flatMap_congr fun x hx' => by rw [(s x hx').inElements]
      · simp only [NoEmptyArray, e1, e2]
        exact fun ⟨a, b⟩ => ⟨a, fun x hx' => (s x hx').noEmpty (b x hx')⟩

/-! ## Destroying -/

theorem destroy_spec : ∀ (t : Ty) (v : Val) (h h' : Heap), destroy t v h = some h' →
    Extends h h' ∧ ∀ q, count h' q + (direct t v).count q = count h q := by
  intro t
  induction t with
  | num => intro v h h' e; simp only [destroy] at e; cases e; exact ⟨Extends.refl _, fun q => by simp [direct]⟩
  | str => intro v h h' e; simp only [destroy] at e; cases e; exact ⟨Extends.refl _, fun q => by simp [direct]⟩
  | cont k e _ => intro v h h' e; simp only [destroy] at e; cases e; exact ⟨Extends.refl _, fun q => by simp [direct]⟩
  | raw r =>
    intro v h h' e
    cases v with
    | ptr p => exact free_spec e
    | _ => simp only [destroy] at e; cases e; exact ⟨Extends.refl _, fun q => by simp [direct]⟩
  | ptr o t _ =>
    intro v h h' e
    cases v with
    | ptr p => exact free_spec e
    | _ => simp only [destroy] at e; cases e; exact ⟨Extends.refl _, fun q => by simp [direct]⟩
  | pair a b iha ihb =>
    intro v h h' e
    cases v with
    | pair x y =>
      simp only [destroy, Option.bind_eq_bind, Option.bind_eq_some_iff] at e
      obtain ⟨h1, e1, e2⟩ := e
      obtain ⟨a1, a2⟩ := iha _ _ _ e1
      obtain ⟨b1, b2⟩ := ihb _ _ _ e2
      refine ⟨a1.trans b1, fun q => ?_⟩
      have := a2 q
      have := b2 q
      rw [direct, List.count_append]; omega
    | _ => simp only [destroy] at e; cases e; exact ⟨Extends.refl _, fun q => by simp [direct]⟩

theorem each_spec (t : Ty) : ∀ (vs : List Val) (h h' : Heap), each (destroy t) vs h = some h' →
    Extends h h' ∧ ∀ q, count h' q + (vs.flatMap (direct t)).count q = count h q
  | [], h, h', e => by cases e; exact ⟨Extends.refl _, fun q => by simp⟩
  | v :: vs, h, h', e => by
    simp only [each, Option.bind_eq_bind, Option.bind_eq_some_iff] at e
    obtain ⟨h1, e1, e2⟩ := e
    obtain ⟨a1, a2⟩ := destroy_spec t _ _ _ e1
    obtain ⟨b1, b2⟩ := each_spec t vs _ _ e2
    refine ⟨a1.trans b1, fun q => ?_⟩
    have := a2 q
    have := b2 q
    rw [List.flatMap_cons, List.count_append]; omega

theorem destroy_none : ∀ (t : Ty) (v : Val) (h : Heap), NoPointer t → destroy t v h = some h ∧ direct t v = []
  | .num, v, h, _ => ⟨by simp [destroy], by simp [direct]⟩
  | .str, v, h, _ => ⟨by simp [destroy], by simp [direct]⟩
  | .cont _ _, v, h, _ => ⟨by simp [destroy], by simp [direct]⟩
  | .raw _, _, _, n => n.elim
  | .ptr _ _, _, _, n => n.elim
  | .pair a b, v, h, n => by
    cases v with
    | pair x y => simp [destroy, direct, destroy_none a x h n.1, destroy_none b y h n.2]
    | _ => exact ⟨by simp [destroy], by simp [direct]⟩

theorem each_none (t : Ty) (n : NoPointer t) : ∀ (vs : List Val) (h : Heap), each (destroy t) vs h = some h
  | [], _ => rfl
  | v :: vs, h => by simp [each, destroy_none t v h n, each_none t n vs h]

theorem simple_none (h : Heap) : ∀ (t : Ty) (v : Val), Simple t → inElements h t v = []
  | .num, v, _ => by simp [inElements]
  | .str, v, _ => by simp [inElements]
  | .raw _, v, _ => by simp [inElements]
  | .ptr .weak t, v, _ => by cases v <;> simp [inElements]
  | .ptr .transfer t, v, s => by
    cases v with
    | ptr p => simp [inElements, simple_none h t _ s]
    | _ => simp [inElements]
  | .ptr .retain t, v, s => by
    cases v with
    | ptr p => simp [inElements, simple_none h t _ s]
    | _ => simp [inElements]
  | .pair a b, v, s => by
    cases v with
    | pair x y => simp [inElements, simple_none h a x s.1, simple_none h b y s.2]
    | _ => simp [inElements]
  | .cont k e, v, s => by
    cases v with
    | ptr p => simp [inElements, fun x => simple_none h e x s.2, fun x => (destroy_none e x h s.1).2]
    | _ => simp [inElements]

/-! ## Copying -/

/-- What copying does. -/
structure Copied (h : Heap) (t : Ty) (v : Val) (h' : Heap) (v' : Val) : Prop where
  ext : Extends h h'
  fits : Fits h' t v'
  content : content h' t v' = content h t v
  len : (inElements h' t v').length = (inElements h t v).length ∧ (direct t v').length = (direct t v).length
  count : ∀ q, count h' q + (inElements h' t v').count q = count h q + (held h' t v').count q

theorem count_flatMap_append {α : Type} (f g : α → List Nat) (q : Nat) : ∀ l : List α,
    (l.flatMap fun x => f x ++ g x).count q = (l.flatMap f).count q + (l.flatMap g).count q
  | [] => rfl
  | x :: l => by
    have := count_flatMap_append f g q l
    simp only [List.flatMap_cons, List.count_append, this]; omega

/-- What copying the elements does. -/
structure AllCopied (h : Heap) (t : Ty) (vs : List Val) (h' : Heap) (xs : List Val) : Prop where
  ext : Extends h h'
  fits : ∀ x ∈ xs, Fits h' t x
  content : xs.map (content h' t) = vs.map (content h t)
  len : (xs.flatMap fun x => direct t x ++ inElements h' t x).length = (vs.flatMap fun x => direct t x ++ inElements h t x).length
  count : ∀ q, count h' q + (xs.flatMap (inElements h' t)).count q = count h q + (xs.flatMap (held h' t)).count q
  length : xs.length = vs.length

theorem copyAll_spec (t : Ty) (ih : ∀ v h h' v', copy t v h = some (h', v') → Fits h t v → Copied h t v h' v') :
    ∀ (vs : List Val) (h h' : Heap) (xs : List Val), copyAll (copy t) vs h = some (h', xs) → (∀ v ∈ vs, Fits h t v) → AllCopied h t vs h' xs
  | [], h, h', xs, e, _ => by
    cases e
    exact ⟨Extends.refl _, by simp, rfl, rfl, by simp, rfl⟩
  | v :: vs, h, h', xs, e, f => by
    simp only [copyAll, Option.bind_eq_bind, Option.bind_eq_some_iff] at e
    obtain ⟨⟨h1, x⟩, e1, ⟨h2, xs⟩, e2, e3⟩ := e
    cases e3
    have c := ih _ _ _ _ e1 (f v (by simp))
    have fs : ∀ w ∈ vs, Same h h1 t w := fun w hw => same c.ext t w (f w (by simp [hw]))
    have cs := copyAll_spec t ih vs h1 h2 xs e2 (fun w hw => (fs w hw).fits)
    have s := same cs.ext t x c.fits
    refine ⟨c.ext.trans cs.ext, ?_, ?_, ?_, ?_, by simp [cs.length]⟩
    · intro y hy
      rcases List.mem_cons.1 hy with rfl | hy
      · exact s.fits
      · exact cs.fits y hy
    · rw [List.map_cons, List.map_cons, s.content, c.content, cs.content]
      congr 1
      exact List.map_congr_left fun w hw => (fs w hw).content
    · have e4 := cs.len
      rw [flatMap_congr (l := vs) (f := fun x => direct t x ++ inElements h1 t x) (g := fun x => direct t x ++ inElements h t x)
        (fun w hw => by rw [(fs w hw).inElements])] at e4
      have e5 := c.len
      simp only [List.flatMap_cons, List.length_append, s.inElements] at *
      omega
    · intro q
      have a := c.count q
      have b := cs.count q
      simp only [List.flatMap_cons, List.count_append, s.inElements, s.held]
      omega

theorem make_spec {k : Kind} {vs : List Val} {h h' : Heap} {c : Val} (e : make k vs h = some (h', c)) :
    (h' = (new h (.seq vs)).1 ∧ c = .ptr h.length) ∨ (vs = [] ∧ c = .null ∧ h' = h ∧ k = .linked) := by
  rw [make.eq_def] at e
  split at e
  · cases e
  · cases e; exact Or.inr ⟨rfl, rfl, rfl, rfl⟩
  · simp only [new, Option.some.injEq, Prod.mk.injEq] at e
    exact Or.inl ⟨e.1.symm, e.2.symm⟩

theorem copy_spec : ∀ (t : Ty) (v : Val) (h h' : Heap) (v' : Val), copy t v h = some (h', v') → Fits h t v → Copied h t v h' v' := by
  intro t
  induction t with
  | num =>
    intro v h h' v' e f
    simp only [copy] at e; cases e
    obtain ⟨n, rfl⟩ := f
    exact ⟨Extends.refl _, ⟨n, rfl⟩, rfl, ⟨rfl, rfl⟩, fun q => by simp [inElements, held]⟩
  | raw r =>
    intro v h h' v' e f
    rcases f with rfl | ⟨p, rfl, hp⟩
    · simp only [copy] at e; cases e
      exact ⟨Extends.refl _, Or.inl rfl, rfl, ⟨rfl, rfl⟩, fun q => by simp [inElements, held]⟩
    · cases r with
      | false =>
        simp [copy] at e
        obtain ⟨rfl, rfl⟩ := e
        exact ⟨Extends.refl _, Or.inr ⟨p, rfl, hp⟩, rfl, ⟨rfl, rfl⟩, fun q => by simp [inElements, held]⟩
      | true =>
        simp only [copy, if_true, Option.bind_eq_bind, Option.bind_eq_some_iff] at e
        obtain ⟨h1, e1, e2⟩ := e
        cases e2
        obtain ⟨a, b⟩ := retain_spec e1
        exact ⟨a, Or.inr ⟨p, rfl, Nat.lt_of_lt_of_le hp a.le⟩, rfl, ⟨rfl, rfl⟩, fun q => by rw [b q]; simp [inElements, held]⟩
  | ptr o t ih =>
    intro v h h' v' e f
    have key : o ≠ .weak → (v = .null ∨ ∃ p x n, v = .ptr p ∧ h[p]? = some ⟨.cell x, n⟩ ∧ Fits h t x) → Copied h (.ptr o t) v h' v' := by
      intro ho f
      have mk : ∀ {hh : Heap} {w : Val}, (w = .null ∨ ∃ p x n, w = .ptr p ∧ hh[p]? = some ⟨.cell x, n⟩ ∧ Fits hh t x) → Fits hh (.ptr o t) w := by
        intro hh w hw
        cases o with
        | weak => exact absurd rfl ho
        | _ => exact hw
      rcases f with rfl | ⟨p, x, n, rfl, hp, hf⟩
      · simp only [copy] at e; cases e
        exact ⟨Extends.refl _, mk (Or.inl rfl), rfl, ⟨rfl, rfl⟩, fun q => by simp [inElements, held]⟩
      · simp only [copy, if_neg ho, Option.bind_eq_bind, Option.bind_eq_some_iff] at e
        obtain ⟨y, e0, ⟨h1, x'⟩, e1, e2⟩ := e
        obtain ⟨m, e0⟩ := readCell_some e0
        rw [hp] at e0; cases e0
        have c := ih _ _ _ _ e1 hf
        simp only [Option.some.injEq, Prod.mk.injEq] at e2
        obtain ⟨rfl, rfl⟩ := e2
        have e3 : (new h1 (.cell x')).1[(new h1 (.cell x')).2]? = some ⟨.cell x', 1⟩ := by simp [new]
        have s := same (new_extends h1 (.cell x')) t x' c.fits
        refine ⟨c.ext.trans (new_extends _ _), mk (Or.inr ⟨_, x', 1, rfl, e3, s.fits⟩), ?_, ⟨?_, rfl⟩, ?_⟩
        · simp only [content, if_neg ho, target_at e3, target_at hp, s.content, c.content]
        · simp only [inElements, if_neg ho, target_at e3, target_at hp, s.inElements, c.len]
        · intro q
          have a := c.count q
          have b := count_new h1 (.cell x') q
          simp only [inElements, held, if_neg ho, target_at e3, s.inElements, s.held]
          rw [show (new h1 (.cell x')).2 = h1.length from rfl, ← List.singleton_append, List.count_append]
          omega
    cases o with
    | weak =>
      rcases f with rfl | ⟨p, rfl, hp⟩
      · simp only [copy] at e; cases e
        exact ⟨Extends.refl _, Or.inl rfl, rfl, ⟨rfl, rfl⟩, fun q => by simp [inElements, held]⟩
      · simp [copy] at e
        obtain ⟨rfl, rfl⟩ := e
        exact ⟨Extends.refl _, Or.inr ⟨p, rfl, hp⟩, by simp [content], ⟨by simp [inElements], rfl⟩, fun q => by simp [inElements, held]⟩
    | transfer => exact key (by simp) f
    | retain => exact key (by simp) f
  | pair a b iha ihb =>
    intro v h h' v' e f
    obtain ⟨x, y, rfl, fx, fy⟩ := f
    simp only [copy, Option.bind_eq_bind, Option.bind_eq_some_iff] at e
    obtain ⟨⟨h1, x'⟩, e1, ⟨h2, y'⟩, e2, e3⟩ := e
    cases e3
    dsimp only at e2
    have ca := iha _ _ _ _ e1 fx
    have sy := same ca.ext b y fy
    have cb := ihb _ _ _ _ e2 sy.fits
    have sx := same cb.ext a x' ca.fits
    refine ⟨ca.ext.trans cb.ext, ⟨x', y', rfl, sx.fits, cb.fits⟩, ?_, ⟨?_, ?_⟩, fun q => ?_⟩
    · simp only [content, sx.content, ca.content, cb.content, sy.content]
    · have := ca.len.1; have := cb.len.1
      simp only [inElements, List.length_append, sx.inElements, ← sy.inElements]; omega
    · have := ca.len.2; have := cb.len.2
      simp only [direct, List.length_append]; omega
    · have := ca.count q; have := cb.count q
      simp only [inElements, held, List.count_append, sx.inElements, sx.held]; omega
  | str =>
    intro v h h' v' e f
    rcases f with ⟨w, rfl⟩ | ⟨p, s, n, rfl, hp⟩
    · simp only [copy] at e; cases e
      exact ⟨Extends.refl _, Or.inl ⟨w, rfl⟩, rfl, ⟨rfl, rfl⟩, fun q => by simp [inElements, held]⟩
    · simp only [copy, Option.bind_eq_bind, Option.bind_eq_some_iff] at e
      obtain ⟨h1, e1, h2, e2, h3, e3, h4, e4, h5, e5, e6⟩ := e
      cases e6
      obtain ⟨a1, b1⟩ := retain_spec e1
      obtain ⟨a2, b2⟩ := retain_spec e2
      obtain ⟨a3, b3⟩ := retain_spec e3
      obtain ⟨a4, b4⟩ := free_spec e4
      obtain ⟨a5, b5⟩ := free_spec e5
      have ex := a1.trans (a2.trans (a3.trans (a4.trans a5)))
      obtain ⟨m, hp'⟩ := ex p _ hp
      refine ⟨ex, Or.inr ⟨p, s, m, rfl, hp'⟩, by simp [content, characters_at hp, characters_at hp'], ⟨rfl, rfl⟩, fun q => ?_⟩
      have := b1 q; have := b2 q; have := b3 q; have := b4 q; have := b5 q
      simp only [inElements, held, List.count_nil]; omega
  | cont k t ih =>
    intro v h h' v' e f
    rcases f with rfl | ⟨p, xs, n, rfl, hp, hl, hf⟩
    · simp only [copy] at e; cases e
      exact ⟨Extends.refl _, Or.inl rfl, rfl, ⟨rfl, rfl⟩, fun q => by simp [inElements, held]⟩
    · simp only [copy, Option.bind_eq_bind, Option.bind_eq_some_iff] at e
      obtain ⟨ys, e0, ⟨h1, xs'⟩, e1, ⟨h2, c⟩, e2, h3, e3, h4, e4, e5⟩ := e
      cases e5
      dsimp only at e2 e3 e4
      obtain ⟨m, e0⟩ := readSeq_some e0
      rw [hp] at e0; cases e0
      have cs := copyAll_spec t ih _ _ _ _ e1 hf
      obtain ⟨d1, d2⟩ := each_spec t _ _ _ e4
      rcases make_spec e2 with ⟨rfl, rfl⟩ | ⟨rfl, rfl, rfl, rfl⟩
      · dsimp only [Option.bind_eq_some_iff] at e3
        obtain ⟨h5, e5, e6⟩ := Option.bind_eq_some_iff.1 e3
        obtain ⟨a1, a2⟩ := retain_spec e5
        obtain ⟨b1, b2⟩ := free_spec e6
        have e7 : (new h1 (.seq xs')).1[h1.length]? = some ⟨.seq xs', 1⟩ := by simp [new]
        have ex : Extends h1 h' := (new_extends _ _).trans (a1.trans (b1.trans d1))
        obtain ⟨m', e8⟩ := (a1.trans (b1.trans d1)) _ _ e7
        have s := fun x hx => same ex t x (cs.fits x hx)
        have s1 : xs'.flatMap (held h' t) = xs'.flatMap (held h1 t) := flatMap_congr fun x hx => (s x hx).held
        have s2 : (xs'.flatMap fun x => direct t x ++ inElements h' t x) = xs'.flatMap fun x => direct t x ++ inElements h1 t x :=
          flatMap_congr fun x hx => by rw [(s x hx).inElements]
        refine ⟨cs.ext.trans ex, Or.inr ⟨_, xs', m', rfl, e8, fun hk e => hl hk (List.length_eq_zero_iff.1 (by rw [← cs.length, e]; rfl)), fun x hx => (s x hx).fits⟩, ?_, ⟨?_, rfl⟩, fun q => ?_⟩
        · simp only [content, elements_at hp, elements_at e8]
          rw [← cs.content]
          congr 1
          exact List.map_congr_left fun x hx => (s x hx).content
        · simp only [inElements, elements_at hp, elements_at e8]
          rw [s2, cs.len]
        · have c1 := cs.count q
          have c2 := count_new h1 (.seq xs') q
          have c3 := a2 q
          have c4 := b2 q
          have c5 := d2 q
          simp only [inElements, held, elements_at e8]
          rw [s1, s2, count_flatMap_append, ← List.singleton_append, List.count_append]
          omega
      · cases e3
        have e6 : xs = [] := by have := cs.length; exact List.length_eq_zero_iff.1 (by simpa using this.symm)
        exact absurd e6 (hl rfl)

/-! ## Copying succeeds -/

theorem held_lt {h : Heap} : ∀ (t : Ty) (v : Val), Fits h t v → ∀ p ∈ held h t v, p < h.length
  | .num, v, f, p, hp => by simp [held] at hp
  | .raw r, v, f, p, hp => by
    rcases f with rfl | ⟨q, rfl, hq⟩
    · cases r <;> simp [held] at hp
    · cases r
      · simp [held] at hp
      · simp [held] at hp; omega
  | .ptr .weak t, v, f, p, hp => by cases v <;> simp [held] at hp
  | .ptr .transfer t, v, f, p, hp => by
    rcases f with rfl | ⟨q, x, n, rfl, hq, hf⟩
    · simp [held] at hp
    · simp only [held, target_at hq] at hp
      rcases List.mem_cons.1 hp with rfl | hp
      · exact (List.getElem?_eq_some_iff.1 hq).1
      · exact held_lt t x hf p hp
  | .ptr .retain t, v, f, p, hp => by
    rcases f with rfl | ⟨q, x, n, rfl, hq, hf⟩
    · simp [held] at hp
    · simp only [held, target_at hq] at hp
      rcases List.mem_cons.1 hp with rfl | hp
      · exact (List.getElem?_eq_some_iff.1 hq).1
      · exact held_lt t x hf p hp
  | .pair a b, v, f, p, hp => by
    obtain ⟨x, y, rfl, fx, fy⟩ := f
    rcases List.mem_append.1 hp with hp | hp
    · exact held_lt a x fx p hp
    · exact held_lt b y fy p hp
  | .str, v, f, p, hp => by
    rcases f with ⟨w, rfl⟩ | ⟨q, s, n, rfl, hq⟩
    · simp [held] at hp
    · simp only [held, List.mem_singleton] at hp; subst hp; exact (List.getElem?_eq_some_iff.1 hq).1
  | .cont k e, v, f, p, hp => by
    rcases f with rfl | ⟨q, xs, n, rfl, hq, -, hf⟩
    · simp [held] at hp
    · simp only [held, elements_at hq] at hp
      rcases List.mem_cons.1 hp with rfl | hp
      · exact (List.getElem?_eq_some_iff.1 hq).1
      · obtain ⟨x, hx, hp⟩ := List.mem_flatMap.1 hp
        exact held_lt e x (hf x hx) p hp

theorem grows {h h' : Heap} {t : Ty} {v v' : Val} (c : Copied h t v h' v') (s : Simple t) (q : Nat) : count h q ≤ count h' q := by
  have := c.count q
  rw [simple_none h' t v' s] at this
  simp at this; omega

theorem copyAll_some (t : Ty) (hs : Simple t)
    (ih : ∀ (v : Val) (h : Heap), Fits h t v → Alive h t v → NoEmptyArray h t v → ∃ h' v', copy t v h = some (h', v')) :
    ∀ (vs : List Val) (h : Heap), (∀ v ∈ vs, Fits h t v) → (∀ v ∈ vs, Alive h t v) → (∀ v ∈ vs, NoEmptyArray h t v) →
      ∃ h' xs, copyAll (copy t) vs h = some (h', xs)
  | [], h, _, _, _ => ⟨h, [], rfl⟩
  | v :: vs, h, f, l, n => by
    obtain ⟨h1, x, e1⟩ := ih v h (f v (by simp)) (l v (by simp)) (n v (by simp))
    have c := copy_spec t _ _ _ _ e1 (f v (by simp))
    have s : ∀ w ∈ vs, Same h h1 t w := fun w hw => same c.ext t w (f w (by simp [hw]))
    obtain ⟨h2, xs, e2⟩ := copyAll_some t hs ih vs h1 (fun w hw => (s w hw).fits)
      (fun w hw p hp => by
        rw [(s w hw).held] at hp
        exact Nat.lt_of_lt_of_le (l w (by simp [hw]) p hp) (grows c hs p))
      (fun w hw => (s w hw).noEmpty (n w (by simp [hw])))
    exact ⟨h2, x :: xs, by simp [copyAll, e1, e2]⟩

theorem copy_some : ∀ (t : Ty) (v : Val) (h : Heap), Simple t → Fits h t v → Alive h t v → NoEmptyArray h t v →
    ∃ h' v', copy t v h = some (h', v') := by
  intro t
  induction t with
  | num => intro v h _ f _ _; exact ⟨h, v, by simp [copy]⟩
  | raw r =>
    intro v h _ f l _
    rcases f with rfl | ⟨p, rfl, hp⟩
    · exact ⟨h, .null, by simp [copy]⟩
    · cases r with
      | false => exact ⟨h, .ptr p, by simp [copy]⟩
      | true =>
        obtain ⟨h1, e⟩ := retain_some (l p (by simp [held]))
        exact ⟨h1, .ptr p, by simp [copy, e]⟩
  | ptr o t ih =>
    intro v h s f l n
    have key : o ≠ .weak → Simple t → (v = .null ∨ ∃ p x n, v = .ptr p ∧ h[p]? = some ⟨.cell x, n⟩ ∧ Fits h t x) →
        ∃ h' v', copy (.ptr o t) v h = some (h', v') := by
      intro ho s f
      rcases f with rfl | ⟨p, x, m, rfl, hp, hf⟩
      · exact ⟨h, .null, by simp [copy]⟩
      · have hl : 0 < count h p := l p (by simp [held, ho])
        rw [count_at hp] at hl
        obtain ⟨m, rfl⟩ := Nat.exists_eq_succ_of_ne_zero (by omega : m ≠ 0)
        obtain ⟨h1, x', e⟩ := ih x h s hf
          (fun q hq => l q (by simp [held, ho, target_at hp, hq]))
          (by simpa [NoEmptyArray, ho, target_at hp] using n)
        exact ⟨(new h1 (.cell x')).1, .ptr h1.length, by simp [copy, ho, readCell, hp, e, new]⟩
    cases o with
    | weak =>
      rcases f with rfl | ⟨p, rfl, hp⟩
      · exact ⟨h, .null, by simp [copy]⟩
      · exact ⟨h, .ptr p, by simp [copy]⟩
    | transfer => exact key (by simp) s f
    | retain => exact key (by simp) s f
  | pair a b iha ihb =>
    intro v h s f l n
    obtain ⟨x, y, rfl, fx, fy⟩ := f
    obtain ⟨h1, x', e1⟩ := iha x h s.1 fx (fun p hp => l p (by simp [held, hp])) n.1
    have c := copy_spec a _ _ _ _ e1 fx
    have sy := same c.ext b y fy
    obtain ⟨h2, y', e2⟩ := ihb y h1 s.2 sy.fits (fun p hp => by
        rw [sy.held] at hp
        exact Nat.lt_of_lt_of_le (l p (by simp [held, hp])) (grows c s.1 p)) (sy.noEmpty n.2)
    exact ⟨h2, .pair x' y', by simp [copy, e1, e2]⟩
  | str =>
    intro v h _ f l _
    rcases f with ⟨w, rfl⟩ | ⟨p, s, n, rfl, hp⟩
    · exact ⟨h, .num w, by simp [copy]⟩
    · have h0 : 0 < count h p := l p (by simp [held])
      obtain ⟨h1, e1⟩ := retain_some h0
      have c1 := (retain_spec e1).2 p
      obtain ⟨h2, e2⟩ := retain_some (h := h1) (p := p) (by omega)
      have c2 := (retain_spec e2).2 p
      obtain ⟨h3, e3⟩ := retain_some (h := h2) (p := p) (by omega)
      have c3 := (retain_spec e3).2 p
      simp only [List.count_singleton_self] at c1 c2 c3
      obtain ⟨h4, e4⟩ := free_some (h := h3) (p := p) (by omega)
      have c4 := (free_spec e4).2 p
      simp only [List.count_singleton_self] at c4
      obtain ⟨h5, e5⟩ := free_some (h := h4) (p := p) (by omega)
      exact ⟨h5, .ptr p, by simp [copy, e1, e2, e3, e4, e5]⟩
  | cont k t ih =>
    intro v h s f l n
    rcases f with rfl | ⟨p, xs, m, rfl, hp, hl, hf⟩
    · exact ⟨h, .null, by simp [copy]⟩
    · have h0 : 0 < count h p := l p (by simp [held])
      rw [count_at hp] at h0
      obtain ⟨m, rfl⟩ := Nat.exists_eq_succ_of_ne_zero (by omega : m ≠ 0)
      simp only [NoEmptyArray, elements_at hp] at n
      obtain ⟨h1, xs', e1⟩ := copyAll_some t s.2 (fun v h => ih v h s.2) xs h hf
        (fun x hx q hq => l q (by simp only [held, elements_at hp]; exact List.mem_cons_of_mem _ (List.mem_flatMap.2 ⟨x, hx, hq⟩))) n.2
      have cs := copyAll_spec t (copy_spec t) _ _ _ _ e1 hf
      have hne : k = .array ∨ k = .linked → xs' ≠ [] := by
        rintro hk rfl
        have h4 := cs.length
        have e4 : xs = [] := List.length_eq_zero_iff.1 (by simpa using h4.symm)
        rcases hk with hk | hk
        · exact n.1 hk e4
        · exact hl hk e4
      have e2 : make k xs' h1 = some ((new h1 (.seq xs')).1, .ptr h1.length) := by
        rw [make.eq_def]
        split
        · exact absurd rfl (hne (Or.inl rfl))
        · exact absurd rfl (hne (Or.inr rfl))
        · rfl
      have c1 := count_new h1 (.seq xs') h1.length
      simp only [List.count_singleton_self] at c1
      obtain ⟨h3, e3⟩ := retain_some (h := (new h1 (.seq xs')).1) (p := h1.length) (by omega)
      have c3 := (retain_spec e3).2 h1.length
      obtain ⟨h4, e4⟩ := free_some (h := h3) (p := h1.length) (by omega)
      exact ⟨h4, .ptr h1.length, by simp [copy, readSeq, hp, e1, e2, e3, e4, each_none t s.1]⟩

/-! ## New objects are held once -/

/-- Of the new objects the copy holds each at most once. -/
theorem fresh : ∀ (t : Ty) (v : Val) (h0 h h' : Heap) (v' : Val), copy t v h = some (h', v') → Fits h0 t v → Extends h0 h →
    ∀ q, h0.length ≤ q → (q < h.length → (held h' t v').count q = 0) ∧ (held h' t v').count q ≤ 1 := by
  intro t
  induction t with
  | num => intro v h0 h h' v' e f x q hq; simp [held]
  | raw r =>
    intro v h0 h h' v' e f x q hq
    rcases f with rfl | ⟨p, rfl, hp⟩
    · simp only [copy] at e; cases e; cases r <;> simp [held]
    · cases r with
      | false => simp [copy] at e; obtain ⟨rfl, rfl⟩ := e; simp [held]
      | true =>
        simp only [copy, if_true, Option.bind_eq_bind, Option.bind_eq_some_iff] at e
        obtain ⟨h1, e1, e2⟩ := e
        cases e2
        have : ¬ p = q := by omega
        simp [held, List.count_cons, this]
  | ptr o t ih =>
    intro v h0 h h' v' e f x q hq
    have key : o ≠ .weak → (v = .null ∨ ∃ p x n, v = .ptr p ∧ h0[p]? = some ⟨.cell x, n⟩ ∧ Fits h0 t x) →
        (q < h.length → (held h' (.ptr o t) v').count q = 0) ∧ (held h' (.ptr o t) v').count q ≤ 1 := by
      intro ho f
      rcases f with rfl | ⟨p, y, n, rfl, hp, hf⟩
      · simp only [copy] at e; cases e; simp [held]
      · simp only [copy, if_neg ho, Option.bind_eq_bind, Option.bind_eq_some_iff] at e
        obtain ⟨y', e0, ⟨h1, x'⟩, e1, e2⟩ := e
        obtain ⟨m, e0⟩ := readCell_some e0
        obtain ⟨m', hp'⟩ := x _ _ hp
        rw [hp'] at e0; cases e0
        have c := copy_spec t _ _ _ _ e1 (same x t y hf).fits
        have d := ih _ _ _ _ _ e1 hf x q hq
        have hlt := held_lt t x' c.fits
        simp only [Option.some.injEq, Prod.mk.injEq] at e2
        obtain ⟨rfl, rfl⟩ := e2
        have e3 : (new h1 (.cell x')).1[(new h1 (.cell x')).2]? = some ⟨.cell x', 1⟩ := by simp [new]
        have s := same (new_extends h1 (.cell x')) t x' c.fits
        simp only [held, if_neg ho, target_at e3, s.held]
        rw [show (new h1 (.cell x')).2 = h1.length from rfl, List.count_cons]
        have hle := c.ext.le
        by_cases hqe : h1.length = q
        · have : (held h1 t x').count q = 0 := List.count_eq_zero.2 fun hm => by have := hlt q hm; omega
          rw [this]; simp [hqe]; omega
        · simp only [beq_iff_eq, hqe, if_false, Nat.add_zero]; exact d
    cases o with
    | weak => cases v' <;> simp [held]
    | transfer => exact key (by simp) f
    | retain => exact key (by simp) f
  | pair a b iha ihb =>
    intro v h0 h h' v' e f x q hq
    obtain ⟨y, z, rfl, fx, fy⟩ := f
    simp only [copy, Option.bind_eq_bind, Option.bind_eq_some_iff] at e
    obtain ⟨⟨h1, x'⟩, e1, ⟨h2, y'⟩, e2, e3⟩ := e
    cases e3
    dsimp only at e2
    have ca := copy_spec a _ _ _ _ e1 (same x a y fx).fits
    have cb := copy_spec b _ _ _ _ e2 (same (x.trans ca.ext) b z fy).fits
    have sx := same cb.ext a x' ca.fits
    have da := iha _ _ _ _ _ e1 fx x q hq
    have db := ihb _ _ _ _ _ e2 fy (x.trans ca.ext) q hq
    have hlt := held_lt a x' ca.fits
    simp only [held, List.count_append, sx.held]
    have hle := ca.ext.le
    by_cases hq1 : q < h1.length
    · have := db.1 hq1
      omega
    · have : (held h1 a x').count q = 0 := List.count_eq_zero.2 fun hm => by have := hlt q hm; omega
      omega
  | str =>
    intro v h0 h h' v' e f x q hq
    rcases f with ⟨w, rfl⟩ | ⟨p, s, n, rfl, hp⟩
    · simp only [copy] at e; cases e; simp [held]
    · simp only [copy, Option.bind_eq_bind, Option.bind_eq_some_iff] at e
      obtain ⟨h1, e1, h2, e2, h3, e3, h4, e4, h5, e5, e6⟩ := e
      cases e6
      have := (List.getElem?_eq_some_iff.1 hp).1
      have : ¬ p = q := by omega
      simp [held, List.count_cons, this]
  | cont k t ih =>
    intro v h0 h h' v' e f x q hq
    rcases f with rfl | ⟨p, xs, n, rfl, hp, hl, hf⟩
    · simp only [copy] at e; cases e; simp [held]
    · have ef : Fits h (.cont k t) (.ptr p) := (same x (.cont k t) (.ptr p) (Or.inr ⟨p, xs, n, rfl, hp, hl, hf⟩)).fits
      have cc := copy_spec _ _ _ _ _ e ef
      simp only [copy, Option.bind_eq_bind, Option.bind_eq_some_iff] at e
      obtain ⟨ys, e0, ⟨h1, xs'⟩, e1, ⟨h2, c⟩, e2, h3, e3, h4, e4, e5⟩ := e
      cases e5
      dsimp only at e2 e3 e4
      obtain ⟨m, e0⟩ := readSeq_some e0
      obtain ⟨m', hp'⟩ := x _ _ hp
      rw [hp'] at e0; cases e0
      obtain ⟨d1, d2⟩ := each_spec t _ _ _ e4
      have hf' : ∀ y ∈ xs, Fits h t y := fun y hy => (same x t y (hf y hy)).fits
      have cs := copyAll_spec t (copy_spec t) _ _ _ _ e1 hf'
      have all : ∀ (vs : List Val) (h h1 : Heap) (ws : List Val), copyAll (copy t) vs h = some (h1, ws) → (∀ y ∈ vs, Fits h0 t y) → Extends h0 h →
          (q < h.length → (ws.flatMap (held h1 t)).count q = 0) ∧ (ws.flatMap (held h1 t)).count q ≤ 1 := by
        intro vs
        induction vs with
        | nil => intro h h1 ws e f x; cases e; simp
        | cons y vs ihv =>
          intro h h1 ws e f x
          simp only [copyAll, Option.bind_eq_bind, Option.bind_eq_some_iff] at e
          obtain ⟨⟨h2, w⟩, e1, ⟨h3, ws⟩, e2, e3⟩ := e
          cases e3
          dsimp only at e2
          have ca := copy_spec t _ _ _ _ e1 (same x t y (f y (by simp))).fits
          have cb := copyAll_spec t (copy_spec t) _ _ _ _ e2 (fun z hz => (same (x.trans ca.ext) t z (f z (by simp [hz]))).fits)
          have sx := same cb.ext t w ca.fits
          have da := ih _ _ _ _ _ e1 (f y (by simp)) x q hq
          have db := ihv _ _ _ e2 (fun z hz => f z (by simp [hz])) (x.trans ca.ext)
          have hlt := held_lt t w ca.fits
          simp only [List.flatMap_cons, List.count_append, sx.held]
          have hle := ca.ext.le
          by_cases hq1 : q < h2.length
          · have := db.1 hq1
            omega
          · have : (held h2 t w).count q = 0 := List.count_eq_zero.2 fun hm => by have := hlt q hm; omega
            omega
      have da := all _ _ _ _ e1 hf x
      rcases make_spec e2 with ⟨rfl, rfl⟩ | ⟨rfl, rfl, rfl, rfl⟩
      · obtain ⟨h5, e5, e6⟩ := Option.bind_eq_some_iff.1 e3
        obtain ⟨a1, a2⟩ := retain_spec e5
        obtain ⟨b1, b2⟩ := free_spec e6
        have e7 : (new h1 (.seq xs')).1[h1.length]? = some ⟨.seq xs', 1⟩ := by simp [new]
        have ex : Extends h1 h' := (new_extends _ _).trans (a1.trans (b1.trans d1))
        obtain ⟨m', e8⟩ := (a1.trans (b1.trans d1)) _ _ e7
        have s1 : xs'.flatMap (held h' t) = xs'.flatMap (held h1 t) := flatMap_congr fun y hy => (same ex t y (cs.fits y hy)).held
        simp only [held, elements_at e8, s1, List.count_cons]
        have hle := cs.ext.le
        by_cases hqe : h1.length = q
        · have : (xs'.flatMap (held h1 t)).count q = 0 := List.count_eq_zero.2 fun hm => by
            obtain ⟨y, hy, hm⟩ := List.mem_flatMap.1 hm
            have := held_lt t y (cs.fits y hy) q hm
            omega
          rw [this]; simp [hqe]; omega
        · simp only [beq_iff_eq, hqe, if_false, Nat.add_zero]; exact da
      · simp [held]

end Verif.CopyCont
