import Verif.StreamContSpec
import Verif.CopyContLemmas
/-!
# Lemmas for C104
-/
namespace Verif.StreamCont

open Verif.CopyCont (Heap Obj Ty Val Kind Own Body new retain free readCell readSeq make count Extends target elements characters
  new_extends target_at elements_at characters_at count_at flatMap_congr readCell_some readSeq_some)

/-- What does not change when memory is added. -/
structure Same (h h' : Heap) (t : Ty) (v : Val) : Prop where
  fits : Fits h' t v
  whole : whole h' t v = whole h t v
  reached : reached h' t v = reached h t v

theorem same {h h' : Heap} (hx : Extends h h') : ∀ (t : Ty) (v : Val), Fits h t v → Same h h' t v := by
  intro t
  induction t with
  | num => rintro v ⟨n, rfl⟩; exact ⟨⟨n, rfl⟩, rfl, rfl⟩
  | raw r =>
    rintro v (rfl | ⟨p, rfl, hp⟩)
    · exact ⟨.inl rfl, rfl, rfl⟩
    · exact ⟨.inr ⟨p, rfl, Nat.lt_of_lt_of_le hp hx.le⟩, rfl, rfl⟩
  | ptr o t ih =>
    rintro v (rfl | ⟨p, x, n, rfl, hp, hf⟩)
    · exact ⟨.inl rfl, rfl, rfl⟩
    · obtain ⟨m, hp'⟩ := hx p _ hp
      have s := ih x hf
      refine ⟨.inr ⟨p, x, m, rfl, hp', s.fits⟩, ?_, ?_⟩
      · simp only [StreamCont.whole, target_at hp, target_at hp', s.whole]
      · simp only [StreamCont.reached, target_at hp, target_at hp', s.reached]
  | pair a b iha ihb =>
    rintro v ⟨x, y, rfl, hx', hy'⟩
    have s := iha x hx'
    have s' := ihb y hy'
    exact ⟨⟨x, y, rfl, s.fits, s'.fits⟩, by simp only [StreamCont.whole, s.whole, s'.whole], by simp only [StreamCont.reached, s.reached, s'.reached]⟩
  | str =>
    rintro v (⟨w, rfl⟩ | ⟨p, s, n, rfl, hp⟩)
    · exact ⟨.inl ⟨w, rfl⟩, rfl, rfl⟩
    · obtain ⟨m, hp'⟩ := hx p _ hp
      exact ⟨.inr ⟨p, s, m, rfl, hp'⟩, by simp only [StreamCont.whole, characters_at hp, characters_at hp'], rfl⟩
  | cont k e ih =>
    rintro v (rfl | ⟨p, xs, n, rfl, hp, hk, hf⟩)
    · exact ⟨.inl rfl, rfl, rfl⟩
    · obtain ⟨m, hp'⟩ := hx p _ hp
      refine ⟨.inr ⟨p, xs, m, rfl, hp', hk, fun x hx => (ih x (hf x hx)).fits⟩, ?_, ?_⟩
      · simp only [StreamCont.whole, elements_at hp, elements_at hp']
        congr 1
        exact List.map_congr_left fun x hx => (ih x (hf x hx)).whole
      · simp only [StreamCont.reached, elements_at hp, elements_at hp']
        congr 1
        exact flatMap_congr fun x hx => (ih x (hf x hx)).reached

theorem append_extends (h ex : Heap) : Extends h (h ++ ex) := by
  intro p o e
  exact ⟨o.count, by rw [List.getElem?_append_left (List.getElem?_eq_some_iff.1 e).1]; exact e⟩

/-- What reading a value gives. -/
structure Got (h : Heap) (t : Ty) (w : Tree) (ex : Heap) (v : Val) : Prop where
  fits : Fits (h ++ ex) t v
  whole : whole (h ++ ex) t v = w
  perm : (reached (h ++ ex) t v).Perm (List.range' h.length ex.length)
  ones : ∀ o ∈ ex, o.count = 1

/-- What reading elements gives. -/
structure GotAll (h : Heap) (t : Ty) (ws : List Tree) (ex : Heap) (vs : List Val) : Prop where
  fits : ∀ v ∈ vs, Fits (h ++ ex) t v
  whole : vs.map (StreamCont.whole (h ++ ex) t) = ws
  perm : (vs.flatMap (reached (h ++ ex) t)).Perm (List.range' h.length ex.length)
  ones : ∀ o ∈ ex, o.count = 1

theorem GotAll.nil (h : Heap) (t : Ty) : GotAll h t [] [] [] := ⟨by simp, rfl, .refl _, by simp⟩

theorem GotAll.cons {h : Heap} {t : Ty} {w : Tree} {ws : List Tree} {ex ex' : Heap} {v : Val} {vs : List Val} (g : Got h t w ex v)
    (gs : GotAll (h ++ ex) t ws ex' vs) : GotAll h t (w :: ws) (ex ++ ex') (v :: vs) := by
  have s := same (append_extends (h ++ ex) ex') t v g.fits
  rw [List.append_assoc] at s
  have hw := gs.whole
  have hp := gs.perm
  have hf := gs.fits
  rw [List.append_assoc] at hw hp hf
  refine ⟨?_, ?_, ?_, ?_⟩
  · intro x hx
    rcases List.mem_cons.1 hx with rfl | hx
    · exact s.fits
    · exact hf x hx
  · rw [List.map_cons, s.whole, hw, g.whole]
  · rw [List.flatMap_cons, s.reached, List.length_append, ← List.range'_append_1]
    rw [List.length_append] at hp
    exact g.perm.append hp
  · intro o ho
    rcases List.mem_append.1 ho with ho | ho
    · exact g.ones o ho
    · exact gs.ones o ho

theorem perm_snoc (a n : Nat) {l : List Nat} (h : l.Perm (List.range' a n)) : ((a + n) :: l).Perm (List.range' a (n + 1)) := by
  rw [← List.range'_append_1 (s := a) (m := n) (n := 1)]
  exact (List.perm_append_comm (l₁ := [a + n]) (l₂ := l)).trans (h.append (.refl _))

/-- A new container. -/
theorem finish_got {h : Heap} {k : Kind} {e : Ty} {ws : List Tree} {ex : Heap} {vs : List Val} (g : GotAll h e ws ex vs) (hv : vs ≠ [] ∨ k = .list)
    (ts : List Tok) : ∃ v, finish k vs ts (h ++ ex) = some (h ++ (ex ++ [⟨.seq vs, 1⟩]), v, ts) ∧
      Got h (.cont k e) (.seq ws) (ex ++ [⟨.seq vs, 1⟩]) v := by
  have hm : make k vs (h ++ ex) = some (h ++ ex ++ [⟨.seq vs, 1⟩], .ptr (h ++ ex).length) := by
    cases k with
    | list => cases vs <;> rfl
    | array =>
      cases vs with
      | nil => rcases hv with hv | hv <;> simp at hv
      | cons _ _ => rfl
    | linked =>
      cases vs with
      | nil => rcases hv with hv | hv <;> simp at hv
      | cons _ _ => rfl
  have hg : (h ++ ex ++ [⟨.seq vs, 1⟩])[(h ++ ex).length]? = some (⟨.seq vs, 1⟩ : Obj) := by simp
  refine ⟨.ptr (h ++ ex).length, ?_, ?_⟩
  · simp only [finish, hm, Option.bind_eq_bind, Option.bind_some]
    have e1 : retain (h ++ ex ++ [⟨.seq vs, 1⟩]) (h ++ ex).length = some (h ++ ex ++ [⟨.seq vs, 2⟩]) := by
      rw [retain, hg]
      simp
    have e2 : free (h ++ ex ++ [⟨.seq vs, 2⟩]) (h ++ ex).length = some (h ++ ex ++ [⟨.seq vs, 1⟩]) := by
      have hg2 : (h ++ ex ++ [⟨.seq vs, 2⟩])[(h ++ ex).length]? = some (⟨.seq vs, 2⟩ : Obj) := by simp
      rw [free, hg2]
      simp
    rw [e1]
    simp only [Option.bind_some]
    rw [e2]
    simp only [Option.bind_some, List.append_assoc]
  · rw [List.append_assoc] at hg
    have st : ∀ v ∈ vs, Same (h ++ ex) (h ++ (ex ++ [⟨.seq vs, 1⟩])) e v := fun v hv => by
      rw [← List.append_assoc]
      exact same (append_extends _ _) e v (g.fits v hv)
    refine ⟨.inr ⟨_, vs, 1, rfl, hg, ?_, fun v hv => (st v hv).fits⟩, ?_, ?_, ?_⟩
    · rintro rfl
      rcases hv with hv | hv
      · exact hv
      · cases hv
    · simp only [StreamCont.whole, elements_at hg]
      rw [← g.whole]
      congr 1
      exact List.map_congr_left fun v hv => (st v hv).whole
    · simp only [StreamCont.reached, elements_at hg]
      rw [flatMap_congr (fun v hv => (st v hv).reached), List.length_append, List.length_append]
      exact perm_snoc _ _ g.perm
    · intro o ho
      rcases List.mem_append.1 ho with ho | ho
      · exact g.ones o ho
      · simp at ho; subst ho; rfl

/-- Reading gives back what was written. -/
def Back (h : Heap) (t : Ty) (v : Val) : Prop := ∀ ts, write h t v = some ts → ∀ (h2 : Heap) (rest : List Tok),
  ∃ ex v', read t (ts ++ rest) h2 = some (h2 ++ ex, v', rest) ∧ Got h2 t (whole h t v) ex v'

theorem readN_back {h : Heap} {t : Ty} : ∀ (vs : List Val), (∀ v ∈ vs, Back h t v) → ∀ tss, writeAll (write h t) vs = some tss →
    ∀ (h2 : Heap) (rest : List Tok), ∃ ex vs', readN (read t) tss.length (tss.flatten ++ rest) h2 = some (h2 ++ ex, vs', rest) ∧
      GotAll h2 t (vs.map (whole h t)) ex vs' ∧ vs'.length = vs.length
  | [], _, tss, hw, h2, rest => by
    cases hw
    exact ⟨[], [], by simp [readN], .nil _ _, rfl⟩
  | v :: vs, hb, tss, hw, h2, rest => by
    simp only [writeAll, Option.bind_eq_bind, Option.bind_eq_some_iff, Option.some.injEq] at hw
    obtain ⟨ts, e1, tss', e2, rfl⟩ := hw
    obtain ⟨ex, v', e3, g⟩ := hb v (by simp) ts e1 h2 (tss'.flatten ++ rest)
    obtain ⟨ex', vs', e4, gs, hl⟩ := readN_back vs (fun x hx => hb x (List.mem_cons_of_mem _ hx)) tss' e2 (h2 ++ ex) rest
    refine ⟨ex ++ ex', v' :: vs', ?_, GotAll.cons g gs, by simp [hl]⟩
    simp only [List.length_cons, readN, List.flatten_cons, List.append_assoc, e3, e4, Option.bind_eq_bind, Option.bind_some]

theorem readWhile_back {h : Heap} {t : Ty} : ∀ (vs : List Val), (∀ v ∈ vs, Back h t v) → ∀ tss, writeAll (write h t) vs = some tss →
    ∀ (h2 : Heap) (rest : List Tok) (fuel : Nat), vs.length ≤ fuel →
    ∃ ex vs', readWhile (read t) fuel ((tss.flatMap fun ts => .flag true :: ts) ++ .flag false :: rest) h2 = some (h2 ++ ex, vs', rest) ∧
      GotAll h2 t (vs.map (whole h t)) ex vs' ∧ vs'.length = vs.length
  | [], _, tss, hw, h2, rest, fuel, _ => by
    cases hw
    refine ⟨[], [], ?_, .nil _ _, rfl⟩
    cases fuel <;> simp [readWhile]
  | v :: vs, hb, tss, hw, h2, rest, 0, hf => absurd hf (by simp)
  | v :: vs, hb, tss, hw, h2, rest, fuel + 1, hf => by
    simp only [writeAll, Option.bind_eq_bind, Option.bind_eq_some_iff, Option.some.injEq] at hw
    obtain ⟨ts, e1, tss', e2, rfl⟩ := hw
    obtain ⟨ex, v', e3, g⟩ := hb v (by simp) ts e1 h2 ((tss'.flatMap fun ts => .flag true :: ts) ++ .flag false :: rest)
    obtain ⟨ex', vs', e4, gs, hl⟩ := readWhile_back vs (fun x hx => hb x (List.mem_cons_of_mem _ hx)) tss' e2 (h2 ++ ex) rest fuel
      (by simpa using hf)
    refine ⟨ex ++ ex', v' :: vs', ?_, GotAll.cons g gs, by simp [hl]⟩
    simp only [List.flatMap_cons, List.cons_append, readWhile, List.append_assoc, e3, e4, Option.bind_eq_bind, Option.bind_some]

theorem writeAll_length {f : Val → Option (List Tok)} : ∀ (vs : List Val) (tss), writeAll f vs = some tss → tss.length = vs.length
  | [], tss, h => by cases h; rfl
  | v :: vs, tss, h => by
    simp only [writeAll, Option.bind_eq_bind, Option.bind_eq_some_iff, Option.some.injEq] at h
    obtain ⟨ts, _, tss', e2, rfl⟩ := h
    simp [writeAll_length vs tss' e2]

/-- Reading the container of kind `k'` that was written as one of kind `k`. -/
theorem container_back {h : Heap} {e : Ty} {vs : List Val} (hb : ∀ v ∈ vs, Back h e v) {tss : List (List Tok)}
    (hw : writeAll (write h e) vs = some tss) (k k' : Kind) (hk : k = .array ↔ k' = .array) (hv : vs ≠ [] ∨ k' = .list) (h2 : Heap) (rest : List Tok) :
    ∃ ex v', read (.cont k' e) (container k e tss ++ rest) h2 = some (h2 ++ ex, v', rest) ∧
      Got h2 (.cont k' e) (.seq (vs.map (whole h e))) ex v' := by
  have hlen := writeAll_length vs tss hw
  have fin : ∀ ex vs', GotAll h2 e (vs.map (whole h e)) ex vs' → vs'.length = vs.length →
      ∃ v, finish k' vs' rest (h2 ++ ex) = some (h2 ++ (ex ++ [⟨.seq vs', 1⟩]), v, rest) ∧
        Got h2 (.cont k' e) (.seq (vs.map (whole h e))) (ex ++ [⟨.seq vs', 1⟩]) v := by
    intro ex vs' g hl
    apply finish_got g
    rcases hv with hv | hv
    · left
      rintro rfl
      simp at hl
      exact hv (List.length_eq_zero_iff.1 hl.symm)
    · exact .inr hv
  cases k with
  | array =>
    have := hk.1 rfl
    subst this
    obtain ⟨ex, vs', e1, g, hl⟩ := readN_back vs hb tss hw h2 rest
    obtain ⟨v, e2, g'⟩ := fin ex vs' g hl
    refine ⟨_, v, ?_, g'⟩
    simp only [container, List.cons_append, read, if_true, e1, Option.bind_eq_bind, Option.bind_some, e2]
  | list =>
    have hne : k' ≠ .array := fun h => by have := hk.2 h; cases this
    obtain ⟨ex, vs', e1, g, hl⟩ := readN_back vs hb tss hw h2 rest
    obtain ⟨v, e2, g'⟩ := fin ex vs' g hl
    refine ⟨_, v, ?_, g'⟩
    simp only [container, List.cons_append, read, hne, ne_eq, not_false_eq_true, and_true, if_true, e1, Option.bind_eq_bind, Option.bind_some, e2]
  | linked =>
    have hne : k' ≠ .array := fun h => by have := hk.2 h; cases this
    obtain ⟨ex, vs', e1, g, hl⟩ := readWhile_back vs hb tss hw h2 rest
      ((tss.flatMap fun ts => .flag true :: ts) ++ .flag false :: rest).length (by
        have : tss.length ≤ (tss.flatMap fun ts => Tok.flag true :: ts).length := by
          clear hw hlen
          induction tss with
          | nil => simp
          | cons x xs ih => simp at ih ⊢; omega
        rw [List.length_append]
        omega)
    obtain ⟨v, e2, g'⟩ := fin ex vs' g hl
    refine ⟨_, v, ?_, g'⟩
    simp only [container, List.cons_append, List.append_assoc, List.nil_append, read, hne, ne_eq, not_false_eq_true, and_true, if_true, e1, Option.bind_eq_bind, Option.bind_some, e2]

theorem back {h : Heap} : ∀ (t : Ty) (v : Val), Fits h t v → NoEmptyArray h t v → Back h t v := by
  intro t
  induction t with
  | num =>
    rintro v ⟨n, rfl⟩ _ ts hw h2 rest
    cases hw
    exact ⟨[], .num n, by simp [read], ⟨⟨n, rfl⟩, rfl, .refl _, by simp⟩⟩
  | raw r =>
    rintro v (rfl | ⟨p, rfl, hp⟩) _ ts hw h2 rest
    · cases hw
      exact ⟨[], .null, by simp [read], ⟨.inl rfl, rfl, .refl _, by simp⟩⟩
    · cases hw
      refine ⟨[⟨.cell .null, 1⟩], .ptr h2.length, by simp [read, new], ⟨.inr ⟨_, rfl, by simp⟩, rfl, ?_, by simp⟩⟩
      simp [StreamCont.reached, List.range'_one]
  | ptr o t ih =>
    rintro v (rfl | ⟨p, x, n, rfl, hp, hf⟩) hn ts hw h2 rest
    · cases hw
      exact ⟨[], .null, by simp [read], ⟨.inl rfl, rfl, .refl _, by simp⟩⟩
    · simp only [write, Option.bind_eq_bind, Option.bind_eq_some_iff, Option.some.injEq] at hw
      obtain ⟨y, e1, us, e2, rfl⟩ := hw
      obtain ⟨m, e1⟩ := readCell_some e1
      rw [hp] at e1
      cases e1
      simp only [NoEmptyArray, target_at hp] at hn
      obtain ⟨ex, x', e3, g⟩ := ih x hf hn us e2 h2 rest
      have hg : (h2 ++ (ex ++ [⟨.cell x', 1⟩]))[(h2 ++ ex).length]? = some (⟨.cell x', 1⟩ : Obj) := by
        rw [← List.append_assoc]; simp
      have s := same (append_extends (h2 ++ ex) [⟨.cell x', 1⟩]) t x' g.fits
      rw [List.append_assoc] at s
      refine ⟨ex ++ [⟨.cell x', 1⟩], .ptr (h2 ++ ex).length, ?_, ⟨.inr ⟨_, x', 1, rfl, hg, s.fits⟩, ?_, ?_, ?_⟩⟩
      · simp only [List.cons_append, read, e3, Option.bind_eq_bind, Option.bind_some, new, List.append_assoc]
      · simp only [StreamCont.whole, target_at hg, target_at hp, s.whole, g.whole]
      · simp only [StreamCont.reached, target_at hg, s.reached]
        rw [List.length_append, List.length_append]
        exact perm_snoc _ _ g.perm
      · intro q hq
        rcases List.mem_append.1 hq with hq | hq
        · exact g.ones q hq
        · simp at hq; subst hq; rfl
  | pair a b iha ihb =>
    rintro v ⟨x, y, rfl, hx, hy⟩ hn ts hw h2 rest
    simp only [write, Option.bind_eq_bind, Option.bind_eq_some_iff, Option.some.injEq] at hw
    obtain ⟨us, e1, ws, e2, rfl⟩ := hw
    obtain ⟨ex, x', e3, g⟩ := iha x hx hn.1 us e1 h2 (ws ++ rest)
    obtain ⟨ex', y', e4, g'⟩ := ihb y hy hn.2 ws e2 (h2 ++ ex) rest
    have s := same (append_extends (h2 ++ ex) ex') a x' g.fits
    rw [List.append_assoc] at s
    have hf := g'.fits
    have hw := g'.whole
    have hp := g'.perm
    rw [List.append_assoc] at hf hw hp
    refine ⟨ex ++ ex', .pair x' y', ?_, ⟨⟨x', y', rfl, s.fits, hf⟩, ?_, ?_, ?_⟩⟩
    · simp only [read, List.append_assoc, e3, e4, Option.bind_eq_bind, Option.bind_some]
    · simp only [StreamCont.whole, s.whole, g.whole, hw]
    · simp only [StreamCont.reached, s.reached]
      rw [List.length_append, ← List.range'_append_1]
      rw [List.length_append] at hp
      exact g.perm.append hp
    · intro o ho
      rcases List.mem_append.1 ho with ho | ho
      · exact g.ones o ho
      · exact g'.ones o ho
  | str =>
    rintro v (⟨w, rfl⟩ | ⟨p, s, n, rfl, hp⟩) _ ts hw h2 rest
    · cases hw
      exact ⟨[], .num w, by simp [read], ⟨.inl ⟨w, rfl⟩, rfl, .refl _, by simp⟩⟩
    · simp only [write, hp] at hw
      cases n with
      | zero => cases hw
      | succ n =>
        cases hw
        refine ⟨[⟨.text s, 1⟩], .ptr h2.length, by simp [read, new], ⟨.inr ⟨_, s, 1, rfl, by simp⟩, ?_, ?_, by simp⟩⟩
        · simp only [StreamCont.whole, characters_at hp]
          rw [characters_at (n := 1) (s := s) (by simp)]
        · simp [StreamCont.reached, List.range'_one]
  | cont k e ih =>
    rintro v (rfl | ⟨p, xs, n, rfl, hp, hk, hf⟩) hn ts hw h2 rest
    · cases hw
      exact ⟨[], .null, by simp [read], ⟨.inl rfl, rfl, .refl _, by simp⟩⟩
    · simp only [write, Option.bind_eq_bind, Option.bind_eq_some_iff, Option.some.injEq] at hw
      obtain ⟨ys, e1, tss, e2, rfl⟩ := hw
      obtain ⟨m, e1⟩ := readSeq_some e1
      rw [hp] at e1
      cases e1
      simp only [NoEmptyArray, elements_at hp] at hn
      have := container_back (fun v hv => ih v (hf v hv) (hn.2 v hv)) e2 k k Iff.rfl (by
        cases k with
        | array => exact .inl (hn.1 rfl)
        | list => exact .inr rfl
        | linked => exact .inl (hk rfl)) h2 rest
      simpa only [StreamCont.whole, elements_at hp] using this

/-! ## Writing -/

theorem writeAll_some {f : Val → Option (List Tok)} : ∀ (vs : List Val), (∀ v ∈ vs, ∃ ts, f v = some ts) → ∃ tss, writeAll f vs = some tss
  | [], _ => ⟨[], rfl⟩
  | v :: vs, h => by
    obtain ⟨ts, e⟩ := h v (by simp)
    obtain ⟨tss, e'⟩ := writeAll_some vs (fun x hx => h x (List.mem_cons_of_mem _ hx))
    exact ⟨ts :: tss, by simp [writeAll, e, e']⟩

theorem write_some {h : Heap} : ∀ (t : Ty) (v : Val), Fits h t v → Alive h t v → ∃ ts, write h t v = some ts := by
  intro t
  induction t with
  | num => rintro v ⟨n, rfl⟩ _; exact ⟨_, rfl⟩
  | raw r => rintro v (rfl | ⟨p, rfl, hp⟩) _ <;> exact ⟨_, rfl⟩
  | ptr o t ih =>
    rintro v (rfl | ⟨p, x, n, rfl, hp, hf⟩) ha
    · exact ⟨_, rfl⟩
    · simp only [Alive, reached, target_at hp, List.mem_cons] at ha
      obtain ⟨ts, e⟩ := ih x hf (fun q hq => ha q (.inr hq))
      have hn := ha p (.inl rfl)
      rw [count_at hp] at hn
      obtain ⟨n, rfl⟩ : ∃ m, n = m + 1 := ⟨n - 1, by omega⟩
      exact ⟨.flag true :: ts, by simp [write, readCell, hp, e]⟩
  | pair a b iha ihb =>
    rintro v ⟨x, y, rfl, hx, hy⟩ ha
    simp only [Alive, reached, List.mem_append] at ha
    obtain ⟨ts, e⟩ := iha x hx (fun q hq => ha q (.inl hq))
    obtain ⟨us, e'⟩ := ihb y hy (fun q hq => ha q (.inr hq))
    exact ⟨ts ++ us, by simp [write, e, e']⟩
  | str =>
    rintro v (⟨w, rfl⟩ | ⟨p, s, n, rfl, hp⟩) ha
    · exact ⟨_, rfl⟩
    · have hn := ha p (by simp [reached])
      rw [count_at hp] at hn
      obtain ⟨n, rfl⟩ : ∃ m, n = m + 1 := ⟨n - 1, by omega⟩
      exact ⟨[.text s], by simp [write, hp]⟩
  | cont k e ih =>
    rintro v (rfl | ⟨p, xs, n, rfl, hp, hk, hf⟩) ha
    · exact ⟨_, rfl⟩
    · simp only [Alive, reached, elements_at hp, List.mem_cons, List.mem_flatMap] at ha
      obtain ⟨tss, e'⟩ := writeAll_some (f := write h e) xs (fun x hx => ih x (hf x hx) (fun q hq => ha q (.inr ⟨x, hx, hq⟩)))
      have hn := ha p (.inl rfl)
      rw [count_at hp] at hn
      obtain ⟨n, rfl⟩ : ∃ m, n = m + 1 := ⟨n - 1, by omega⟩
      exact ⟨container k e tss, by simp [write, readSeq, hp, e']⟩

/-! ## What is held -/

theorem held_loose (h : Heap) : ∀ (t : Ty) (v : Val) (q : Nat), (reached h t v).count q = (CopyCont.held h t v).count q + (loose h t v).count q := by
  intro t
  induction t with
  | num => intro v q; cases v <;> simp [reached, CopyCont.held, loose]
  | raw r => intro v q; cases v <;> cases r <;> simp [reached, CopyCont.held, loose]
  | ptr o t ih =>
    intro v q
    cases v with
    | ptr p =>
      by_cases ho : o = .weak
      · simp [reached, CopyCont.held, loose, ho]
      · have := ih (target h p) q
        simp only [reached, CopyCont.held, loose, ho, if_false, List.count_cons, this]
        omega
    | num _ => simp [reached, CopyCont.held, loose]
    | null => simp [reached, CopyCont.held, loose]
    | pair _ _ => simp [reached, CopyCont.held, loose]
  | pair a b iha ihb =>
    intro v q
    cases v with
    | pair x y =>
      have := iha x q
      have := ihb y q
      simp only [reached, CopyCont.held, loose, List.count_append]
      omega
    | num _ => simp [reached, CopyCont.held, loose]
    | null => simp [reached, CopyCont.held, loose]
    | ptr _ => simp [reached, CopyCont.held, loose]
  | str => intro v q; cases v <;> simp [reached, CopyCont.held, loose]
  | cont k e ih =>
    intro v q
    cases v with
    | ptr p =>
      simp only [reached, CopyCont.held, loose, List.count_cons]
      have : ∀ l : List Val, (l.flatMap (reached h e)).count q = (l.flatMap (CopyCont.held h e)).count q + (l.flatMap (loose h e)).count q := by
        intro l
        induction l with
        | nil => rfl
        | cons x xs ihl =>
          have := ih x q
          simp only [List.flatMap_cons, List.count_append]
          omega
      have := this (elements h p)
      omega
    | num _ => simp [reached, CopyCont.held, loose]
    | null => simp [reached, CopyCont.held, loose]
    | pair _ _ => simp [reached, CopyCont.held, loose]

/-- Whether the data leads to something without holding it, told from what it is. -/
def Tight : Ty → Tree → Prop
  | .raw false, .blank => False
  | .ptr o t, .target x => o ≠ .weak ∧ Tight t x
  | .pair a b, .pair x y => Tight a x ∧ Tight b y
  | .cont _ e, .seq ts => ∀ x ∈ ts, Tight e x
  | _, _ => True

theorem loose_nil (h : Heap) : ∀ (t : Ty) (v : Val), loose h t v = [] ↔ Tight t (whole h t v) := by
  intro t
  induction t with
  | num => intro v; cases v <;> simp [loose, whole, Tight]
  | raw r => intro v; cases v <;> cases r <;> simp [loose, whole, Tight]
  | ptr o t ih =>
    intro v
    cases v with
    | ptr p =>
      by_cases ho : o = .weak
      · simp [loose, whole, Tight, ho]
      · simp [loose, whole, Tight, ho, ih]
    | num _ => simp [loose, whole, Tight]
    | null => simp [loose, whole, Tight]
    | pair _ _ => simp [loose, whole, Tight]
  | pair a b iha ihb => intro v; cases v <;> simp [loose, whole, Tight, iha, ihb]
  | str => intro v; cases v <;> simp [loose, whole, Tight]
  | cont k e ih =>
    intro v
    cases v with
    | ptr p => simp [loose, whole, Tight, ih]
    | num _ => simp [loose, whole, Tight]
    | null => simp [loose, whole, Tight]
    | pair _ _ => simp [loose, whole, Tight]

end Verif.StreamCont
