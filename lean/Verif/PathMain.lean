import Verif.PathLemmas
/-!
# The parser computes `seg`
-/
namespace Verif.Path
open Spec

/-- No '/' and no '.'. -/
def Oth (q : Str) : Prop := ∀ c ∈ q, c ≠ '/' ∧ c ≠ '.'

theorem Oth.cs {q} (h : Oth q) : q.count '/' = 0 :=
  List.count_eq_zero.2 fun hm => (h _ hm).1 rfl
theorem Oth.cd {q} (h : Oth q) : q.count '.' = 0 :=
  List.count_eq_zero.2 fun hm => (h _ hm).2 rfl
theorem Oth.co {q} (h : Oth q) : q.countP oth = q.length :=
  List.countP_eq_length.2 fun c hm => (oth_iff c).2 (h c hm)
theorem Oth.tail {c q} (h : Oth (c :: q)) : Oth q := fun d hd => h d (by simp [hd])
theorem Oth.snoc {c q} (h : Oth q) (hc : c ≠ '/' ∧ c ≠ '.') : Oth (q ++ [c]) := by
  intro d hd
  rcases List.mem_append.1 hd with hd | hd
  · exact h d hd
  · rw [List.mem_singleton.1 hd]; exact hc

theorem Plain.oth {q} (h : Plain q) : Oth q := fun c hc =>
  ⟨fun e => h.2.1 (e ▸ hc), fun e => h.2.2 (e ▸ hc)⟩

/-- Characters other than '/' and '.' are only counted while no '/' is pending, or behind "//". -/
theorem acc {pre base ch lw r} (q : Str) (hq : Oth q) (p : Str)
    (hp : p.count '/' = 0 ∨ (p.head? = some '/' ∧ p.count '/' = 2)) :
    O pre base ch p lw (q ++ r) = O pre base ch (p ++ q) lw r := by
  induction q generalizing p with
  | nil => simp
  | cons c q ih =>
    have hc := hq c (by simp)
    have hf : fnd (some c) p = none := by
      unfold fnd found
      rcases hp with hp | ⟨h1, h2⟩
      · rw [hp]
        (repeat' split) <;> simp_all
      · rw [h1, h2]
        simp [hc.1]
    rw [List.cons_append, S_count hf (.inr hc.1), ih hq.tail]
    · simp
    · rcases hp with hp | ⟨h1, h2⟩
      · left; simp [List.count_append, List.count_cons, hp, hc.1]
      · right
        refine ⟨?_, by simp [List.count_append, List.count_cons, h2, hc.1]⟩
        cases p with
        | nil => cases h1
        | cons a p => simpa using h1

/-- Pending text that can no longer become a component. -/
def Stuck (p : Str) : Prop :=
  (p.head? = some '/' ∧ (0 < p.count '.' ∨ 3 ≤ p.count '/')) ∨
  (p.head? = some '.' ∧ ((0 < p.count '/' ∧ 0 < p.countP oth) ∨ 3 ≤ p.count '.' ∨
    (2 ≤ p.count '.' ∧ 0 < p.countP oth)))

theorem Stuck.fnd {p} (h : Stuck p) (c : Option Char) : fnd c p = none := by
  unfold Verif.Path.fnd found
  rcases h with ⟨h1, h2⟩ | ⟨h1, h2⟩
  · rw [h1, if_pos rfl, if_neg (by omega), if_neg (by omega)]
  · rw [h1, if_neg (by decide), if_pos rfl, if_neg (by omega), if_neg (by omega)]

theorem Stuck.snoc {p} (h : Stuck p) (c : Char) : Stuck (p ++ [c]) := by
  have hh : ∀ x, p.head? = some x → (p ++ [c]).head? = some x := by
    intro x hx; cases p with
    | nil => cases hx
    | cons a p => simpa using hx
  have a1 : p.count '/' ≤ (p ++ [c]).count '/' := by rw [List.count_append]; omega
  have a2 : p.count '.' ≤ (p ++ [c]).count '.' := by rw [List.count_append]; omega
  have a3 : p.countP oth ≤ (p ++ [c]).countP oth := by rw [List.countP_append]; omega
  rcases h with ⟨h1, h2⟩ | ⟨h1, h2⟩
  · exact .inl ⟨hh _ h1, by omega⟩
  · exact .inr ⟨hh _ h1, by omega⟩

theorem stuck {pre base lw} (r : Str) (p : Str) (h : Stuck p) : O pre base [] p lw r = some base := by
  induction r generalizing p with
  | nil => rw [E_none (h.fnd none)]; simp
  | cons c r ih => rw [S_count (h.fnd _) (.inl rfl), ih _ (h.snoc c)]

/-- A component that is found whatever follows. -/
theorem flush_all {pre base p lw ty} (r : Str) (h : ∀ c, (c = none ∨ ∃ d, c = some d ∧ r.head? = some d) → fnd c p = some ty)
    (ht : ty ≠ .file ∧ ty ≠ .ext) :
    O pre base [] p lw r = O (pre ++ p) (base ++ [mkc ty p]) [] [] lw r := by
  cases r with
  | nil => rw [E_some (h none (.inl rfl)), E_none (fnd_nil _)]; simp
  | cons c r => exact S_flush (h _ (.inr ⟨c, rfl, rfl⟩)) ht

/-- A file name with a '/' behind it becomes a directory. -/
theorem chain_dir {pre base lw t} (hb : ∀ c ∈ base, c.isName = false) (y : Str) (hy : '/' ∉ y) (ch : List Comp)
    (hch : Chain ch) (p : Str) (hp : '/' ∉ p) (hf : ∀ c, (p ++ y).head? = some c → c = '.') :
    ∃ lw', O pre base ch p lw (y ++ '/' :: t) =
      O (pre ++ (text ch ++ p ++ y ++ ['/'])) (base ++ [.dir (text ch ++ p ++ y)]) [] [] lw' t := by
  induction y generalizing ch p with
  | nil =>
    have h : fnd (some '/') p = none := by
      unfold fnd found
      rw [List.count_eq_zero.2 hp]
      cases p with
      | nil => simp
      | cons a p =>
        have := hf a (by simp); subst this
        simp
    obtain ⟨lw', e⟩ := S_fix (pre := pre) (lw := lw) (r := t) hch hb h
    refine ⟨lw', ?_⟩
    rw [List.nil_append, e]; simp
  | cons c y ih =>
    have hc : c ≠ '/' := fun e => hy (by simp [e])
    have hy' : '/' ∉ y := fun e => hy (by simp [e])
    cases hfd : fnd (some c) p with
    | none =>
      rw [List.cons_append, S_count hfd (.inr hc)]
      obtain ⟨lw', e⟩ := ih hy' ch hch (p ++ [c]) (by simp [hp, Ne.symm hc]) (by simpa using hf)
      refine ⟨lw', ?_⟩
      rw [e]; simp
    | some ty =>
      cases p with
      | nil => rw [fnd_nil] at hfd; cases hfd
      | cons a q =>
        have ha := hf a (by simp); subst ha
        have : ty = .ext ∧ c = '.' := by
          unfold fnd found at hfd
          rw [List.count_eq_zero.2 hp] at hfd
          simp only [List.head?_cons, Option.some.injEq, Char.reduceEq, ↓reduceIte, ne_eq, not_true_eq_false,
            false_and, reduceCtorEq, false_or, true_and] at hfd
          split at hfd
          · rename_i h; cases hfd; exact ⟨rfl, h.1⟩
          · cases hfd
        obtain ⟨rfl, rfl⟩ := this
        rw [List.cons_append, S_ext hch.ne hfd rfl, ← List.cons_append]
        have hq : '/' ∉ q := fun e => hp (by simp [e])
        have hfd' := fnd_nil (some '.')
        rw [List.cons_append, S_count hfd' (.inr (by decide))]
        obtain ⟨lw', e⟩ := ih hy' (ch ++ [.ext q]) (hch.snoc q) ([] ++ ['.']) (by simp) (by simp)
        refine ⟨lw', ?_⟩
        rw [e, text_append, text_cons, text_nil]
        simp [written]

theorem dropWhile_ne_head (c : Char) (m : Str) :
    m.dropWhile (· ≠ c) = [] ∨ ∃ r, m.dropWhile (· ≠ c) = c :: r := by
  induction m with
  | nil => left; rfl
  | cons a m ih =>
    by_cases h : a = c
    · subst h; right; exact ⟨m, by simp [List.dropWhile]⟩
    · rw [List.dropWhile_cons_of_pos (by simpa using h)]; exact ih

theorem not_mem_takeWhile_ne (c : Char) (m : Str) : c ∉ m.takeWhile (· ≠ c) := by
  intro h
  have := List.all_takeWhile (p := fun x => decide (x ≠ c)) (l := m)
  rw [List.all_eq_true] at this
  simpa using this c h

theorem mem_of_takeWhile {c : Char} {f : Char → Bool} {m : Str} (h : c ∈ m.takeWhile f) : c ∈ m :=
  (List.takeWhile_sublist f).subset h

theorem oth_takeWhile_dot (m : Str) (h : '/' ∉ m) : Oth (m.takeWhile (· ≠ '.')) := by
  intro c hc
  exact ⟨fun e => h (e ▸ mem_of_takeWhile hc), fun e => not_mem_takeWhile_ne '.' m (e ▸ hc)⟩

/-- Behind a file name the text can no longer become a component once two '.' are pending. -/
theorem stuck_chain {pre base ch lw} (hch : ch ≠ []) (r : Str) (hr : '/' ∉ r) (p : Str)
    (h : p.head? = some '.' ∧ p.count '/' = 0 ∧ 2 ≤ p.count '.') : O pre base ch p lw r = some (base ++ ch) := by
  have hf : ∀ c, fnd c p = none := by
    intro c
    unfold fnd found
    rw [h.1, h.2.1, if_neg (by decide), if_pos rfl, if_neg (by omega), if_neg (by omega)]
  induction r generalizing p with
  | nil => rw [E_none (hf none)]
  | cons c r ih =>
    have hc : c ≠ '/' := fun e => hr (by simp [e])
    have hh : (p ++ [c]).head? = some '.' := by
      cases p with
      | nil => cases h.1
      | cons a p => simpa using h.1
    rw [S_count (hf _) (.inr hc)]
    have h' : (p ++ [c]).head? = some '.' ∧ (p ++ [c]).count '/' = 0 ∧ 2 ≤ (p ++ [c]).count '.' :=
      ⟨hh, by simp [List.count_append, List.count_cons, h.2.1, hc], by rw [List.count_append]; omega⟩
    refine ih (fun e => hr (by simp [e])) (p ++ [c]) h' ?_
    intro d
    unfold fnd found
    rw [h'.1, h'.2.1, if_neg (by decide), if_pos rfl, if_neg (by omega), if_neg (by omega)]

theorem counts_dot {e : Str} (h : Oth e) :
    ('.' :: e).count '/' = 0 ∧ ('.' :: e).count '.' = 1 ∧ ('.' :: e).countP oth = e.length := by
  refine ⟨?_, ?_, ?_⟩
  · rw [List.count_cons, h.cs]; rfl
  · rw [List.count_cons, h.cd]; rfl
  · rw [List.countP_cons, h.co]; rfl

theorem fnd_dot {e : Str} (h : Oth e) (he : e ≠ []) (c : Option Char) (hc : c = none ∨ c = some '.') :
    fnd c ('.' :: e) = some .ext := by
  obtain ⟨h1, h2, h3⟩ := counts_dot h
  have hpos : 0 < e.length := List.length_pos_iff.2 he
  unfold fnd found
  rw [h1, h2, h3, if_neg (show ¬ ('.' :: e).head? = some '/' by simp), if_pos (show ('.' :: e).head? = some '.' from rfl),
    if_neg (by omega), if_pos ⟨hc, rfl, rfl, by omega⟩]

/-- The extensions. -/
theorem exts {pre base lw} (n : Nat) (r : Str) (hn : r.length ≤ n) (hr : '/' ∉ r) (ch : List Comp) (hch : ch ≠ [])
    (hf : ∀ c, r.head? = some c → c = '.') :
    O pre base ch [] lw r = some (base ++ ch ++ segExts r) := by
  induction n generalizing r ch with
  | zero =>
    cases r with
    | nil => rw [E_none (fnd_nil _), segExts]; simp
    | cons c r => simp at hn
  | succ n ih =>
    cases r with
    | nil => rw [E_none (fnd_nil _), segExts]; simp
    | cons c m =>
      have hc := hf c rfl; subst hc
      have hm : '/' ∉ m := fun e => hr (by simp [e])
      rw [S_count (fnd_nil _) (.inr (by decide)), segExts]
      have hsplit : m = m.takeWhile (· ≠ '.') ++ m.dropWhile (· ≠ '.') := List.takeWhile_append_dropWhile.symm
      have hoth := oth_takeWhile_dot m hm
      have hlen : (m.dropWhile (· ≠ '.')).length ≤ m.length := (List.dropWhile_suffix _).length_le
      have hdw := dropWhile_ne_head '.' m
      have hmd : '/' ∉ m.dropWhile (· ≠ '.') := fun e => hm ((List.dropWhile_suffix _).mem e)
      generalize he : m.takeWhile (· ≠ '.') = e at *
      generalize hd : m.dropWhile (· ≠ '.') = d at *
      rw [hsplit, acc e hoth _ (.inl (by simp)), List.nil_append]
      by_cases hee : e = []
      · rw [if_pos hee]; subst hee
        rcases hdw with rfl | ⟨d', rfl⟩
        · rw [E_none (by decide)]; simp
        · rw [S_count (by decide) (.inr (by decide)), stuck_chain hch _ (fun e => hmd (by simp [e])) _ (by decide)]
          simp
      · rw [if_neg hee]
        have hpos : 0 < e.length := List.length_pos_iff.2 hee
        have hfd : ∀ c, (c = none ∨ c = some '.') → fnd c ('.' :: e) = some .ext := fnd_dot hoth hee
        rw [show ['.'] ++ e = '.' :: e from rfl]
        rcases hdw with rfl | ⟨d', rfl⟩
        · rw [E_some (hfd none (.inl rfl)), segExts]
          simp [mkc]
        · rw [S_ext hch (hfd _ (.inr rfl)) rfl,
            ih ('.' :: d') (by simp only [List.length_cons] at hn hlen ⊢; omega) hmd _ (by simp) (by simp)]
          simp

/-- A file name. -/
theorem file_run {pre base lw} (r : Str) (hr : '/' ∉ r) : O pre base [] [] lw r = some (base ++ segFile r) := by
  cases r with
  | nil => rw [E_none (fnd_nil _)]; rfl
  | cons c m =>
    have hm : '/' ∉ m := fun e => hr (by simp [e])
    unfold segFile
    dsimp only
    by_cases hc : c = '.'
    · subst hc
      rw [S_count (fnd_nil _) (.inl rfl)]
      have hsplit : m = m.takeWhile (· ≠ '.') ++ m.dropWhile (· ≠ '.') := List.takeWhile_append_dropWhile.symm
      have hoth := oth_takeWhile_dot m hm
      have hdw := dropWhile_ne_head '.' m
      have hmd : '/' ∉ m.dropWhile (· ≠ '.') := fun e => hm ((List.dropWhile_suffix _).mem e)
      generalize he : m.takeWhile (· ≠ '.') = e at *
      generalize hd : m.dropWhile (· ≠ '.') = d at *
      rw [if_pos rfl, hsplit, acc e hoth _ (.inl (by simp)), List.nil_append]
      by_cases hee : e = []
      · rw [if_pos hee]; subst hee
        rcases hdw with rfl | ⟨d', rfl⟩
        · rw [E_none (by decide)]
        · rw [S_count (by decide) (.inl rfl)]
          cases d' with
          | nil => rw [E_none (by decide)]
          | cons x d' =>
            have hx : x ≠ '/' := fun e => hmd (by simp [e])
            rw [S_count _ (.inl rfl), stuck, List.append_nil]
            · right
              refine ⟨by simp, ?_⟩
              by_cases hxd : x = '.'
              · subst hxd; decide
              · have : oth x = true := (oth_iff x).2 ⟨hx, hxd⟩
                right; right
                simp [List.count_cons, List.countP_cons, this]
                omega
            · unfold fnd found
              simp
      · rw [if_neg hee]
        have hpos : 0 < e.length := List.length_pos_iff.2 hee
        have hfd : ∀ c, (c = none ∨ c = some '.') → fnd c ('.' :: e) = some .ext := fnd_dot hoth hee
        rw [show ['.'] ++ e = '.' :: e from rfl]
        rcases hdw with rfl | ⟨d', rfl⟩
        · rw [E_some (hfd none (.inl rfl)), if_pos rfl]
          simp [mkc]
        · rw [if_neg (by simp), S_file (hfd _ (.inr rfl)) (.inr rfl) rfl,
            exts _ ('.' :: d') (Nat.le_refl _) hmd _ (by simp) (by simp)]
          simp
    · rw [if_neg hc]
      have hsplit : c :: m = (c :: m).takeWhile (· ≠ '.') ++ (c :: m).dropWhile (· ≠ '.') :=
        List.takeWhile_append_dropWhile.symm
      have hoth := oth_takeWhile_dot (c :: m) hr
      have hdw := dropWhile_ne_head '.' (c :: m)
      have hmd : '/' ∉ (c :: m).dropWhile (· ≠ '.') := fun e => hr ((List.dropWhile_suffix _).mem e)
      have hne : (c :: m).takeWhile (· ≠ '.') ≠ [] := by
        rw [List.takeWhile_cons_of_pos (by simpa using hc)]; simp
      generalize he : (c :: m).takeWhile (· ≠ '.') = e at *
      generalize hd : (c :: m).dropWhile (· ≠ '.') = d at *
      rw [hsplit, acc e hoth _ (.inl (by simp)), List.nil_append]
      have hfd : ∀ c, (c = none ∨ c = some '.') → fnd c e = some .file := by
        intro c hc
        unfold fnd found
        rw [hoth.cs, hoth.cd, hoth.co]
        cases e with
        | nil => exact absurd rfl hne
        | cons a e =>
          have ha := hoth a (by simp)
          rw [List.head?_cons, if_neg (by simpa using ha.1), if_neg (by simpa using ha.2), if_neg (by simp), if_pos]
          exact ⟨hc, rfl, rfl, by simp⟩
      rcases hdw with rfl | ⟨d', rfl⟩
      · rw [E_some (hfd none (.inl rfl)), segExts]
        simp [mkc]
      · rw [S_file (hfd _ (.inr rfl)) (.inl rfl) rfl,
          exts _ ('.' :: d') (Nat.le_refl _) hmd _ (by simp) (by simp)]
        simp

theorem counts_app {n : Str} (h : '/' ∉ n) : n.count '/' = 0 := List.count_eq_zero.2 h

/-- Behind a directory named '.'. -/
theorem dot_run {pre base lw} (r : Str) (k : Nat) :
    O pre base [] ('.' :: List.replicate (k + 1) '/') lw r =
      (let u := r.dropWhile (· = '/')
       if u.head? = some '.' then
         O (pre ++ ('.' :: List.replicate (k + 1 + (r.takeWhile (· = '/')).length) '/' ++ ['.'])) (base ++ [.parent]) [] [] lw
           (u.drop 1)
       else some base) := by
  have c1 : ∀ k : Nat, ('.' :: List.replicate k '/').count '/' = k := by
    intro k; rw [List.count_cons, List.count_replicate_self]; rfl
  have c2 : ∀ k : Nat, ('.' :: List.replicate k '/').count '.' = 1 := by
    intro k; rw [List.count_cons, List.count_replicate]; rfl
  have c3 : ∀ k : Nat, ('.' :: List.replicate k '/').countP oth = 0 := by
    intro k; rw [List.countP_cons, List.countP_replicate]; rfl
  have hn : ∀ c, fnd c ('.' :: List.replicate (k + 1) '/') = none := by
    intro c
    unfold fnd found
    rw [c1, c2, c3, if_neg (show ¬ ('.' :: List.replicate (k + 1) '/').head? = some '/' by simp), if_pos List.head?_cons,
      if_neg (by omega), if_neg (by omega)]
  induction r generalizing k with
  | nil => rw [E_none (hn none)]; simp
  | cons c r ih =>
    rw [S_count (hn _) (.inl rfl)]
    by_cases h1 : c = '/'
    · subst h1
      have e : '.' :: List.replicate (k + 1) '/' ++ ['/'] = '.' :: List.replicate (k + 1 + 1) '/' := by
        rw [List.cons_append, ← List.replicate_succ']
      rw [e, ih (k + 1) (by
        intro c
        unfold fnd found
        rw [c1, c2, c3, if_neg (show ¬ ('.' :: List.replicate (k + 1 + 1) '/').head? = some '/' by simp), if_pos List.head?_cons,
          if_neg (by omega), if_neg (by omega)])]
      rw [List.dropWhile_cons_of_pos (by simp), List.takeWhile_cons_of_pos (by simp)]
      dsimp only
      rw [List.length_cons, show k + 1 + 1 + (List.takeWhile (fun x => decide (x = '/')) r).length =
        k + 1 + ((List.takeWhile (fun x => decide (x = '/')) r).length + 1) by omega]
    · rw [List.dropWhile_cons_of_neg (by simpa using h1), List.takeWhile_cons_of_neg (by simpa using h1)]
      dsimp only
      by_cases h2 : c = '.'
      · subst h2
        rw [if_pos List.head?_cons, flush_all (ty := .parent) r]
        · simp [mkc]
        · intro d _
          have d1 : ('.' :: List.replicate (k + 1) '/' ++ ['.']).count '/' = k + 1 := by
            rw [List.count_append, c1]; rfl
          have d2 : ('.' :: List.replicate (k + 1) '/' ++ ['.']).count '.' = 2 := by
            rw [List.count_append, c2]; rfl
          have d3 : ('.' :: List.replicate (k + 1) '/' ++ ['.']).countP oth = 0 := by
            rw [List.countP_append, c3]; rfl
          unfold fnd found
          rw [d1, d2, d3, if_neg (show ¬ ('.' :: List.replicate (k + 1) '/' ++ ['.']).head? = some '/' by simp),
            if_pos (by simp), if_pos ⟨by omega, rfl, rfl⟩]
        · exact ⟨by decide, by decide⟩
      · rw [if_neg (by simpa using h2), stuck]
        right
        refine ⟨by simp, .inl ⟨?_, ?_⟩⟩
        · rw [List.count_append, c1]; omega
        · rw [List.countP_append, show [c].countP oth = 1 by simp [(oth_iff c).2 ⟨h1, h2⟩]]
          omega

theorem first_dot (n : Str) (h : '.' ∈ n) : ∃ y, n = n.takeWhile (· ≠ '.') ++ '.' :: y := by
  rcases dropWhile_ne_head '.' n with hd | ⟨y, hy⟩
  · have e : n = n.takeWhile (· ≠ '.') ++ n.dropWhile (· ≠ '.') := List.takeWhile_append_dropWhile.symm
    rw [hd, List.append_nil] at e
    exact absurd (e ▸ h) (not_mem_takeWhile_ne '.' n)
  · exact ⟨y, by rw [← hy]; exact List.takeWhile_append_dropWhile.symm⟩

theorem fnd_plain {e : Str} (h : Oth e) (he : e ≠ []) (c : Option Char) (hc : c = none ∨ c = some '.') :
    fnd c e = some .file := by
  unfold fnd found
  rw [h.cs, h.cd, h.co]
  cases e with
  | nil => exact absurd rfl he
  | cons a e =>
    have ha := h a (by simp)
    rw [List.head?_cons, if_neg (by simpa using ha.1), if_neg (by simpa using ha.2), if_neg (by simp), if_pos]
    exact ⟨hc, rfl, rfl, by simp⟩

/-- A directory with a name the parser accepts. -/
theorem dir_run {pre base lw} (hb : ∀ c ∈ base, c.isName = false) (n t : Str) (hn : '/' ∉ n) (hd : dotted n = true) :
    ∃ lw', O pre base [] [] lw (n ++ '/' :: t) =
      O (pre ++ (n ++ ['/'])) (base ++ [.dir n]) [] [] lw' t := by
  cases n with
  | nil => cases hd
  | cons c m =>
    by_cases hdots : '.' ∈ (if c = '.' then m else c :: m)
    · by_cases hc : c = '.'
      · subst hc
        rw [if_pos rfl] at hdots
        have hm : '/' ∉ m := fun e => hn (by simp [e])
        obtain ⟨y, hy⟩ := first_dot m hdots
        have hoth := oth_takeWhile_dot m hm
        have hne : m.takeWhile (· ≠ '.') ≠ [] := by
          intro he
          rw [he, List.nil_append] at hy
          subst hy
          simp [dotted] at hd
        generalize m.takeWhile (· ≠ '.') = x at *
        subst hy
        rw [List.cons_append, List.append_assoc, S_count (fnd_nil _) (.inl rfl), acc x hoth _ (.inl (by simp)),
          List.nil_append, show ['.'] ++ x = '.' :: x from rfl, List.cons_append,
          S_file (fnd_dot hoth hne _ (.inr rfl)) (.inr rfl) rfl, ← List.cons_append]
        obtain ⟨lw', e⟩ := chain_dir (pre := pre) (lw := lw) (t := t) hb ('.' :: y)
          (fun e => hm (by simp at e; simp [e])) [.file ('.' :: x)] ⟨_, [], rfl, by simp⟩ [] (by simp) (by simp)
        refine ⟨lw', ?_⟩
        rw [e]
        simp [text_cons, text_nil, written]
      · rw [if_neg hc] at hdots
        obtain ⟨y, hy⟩ := first_dot (c :: m) hdots
        have hoth := oth_takeWhile_dot (c :: m) hn
        have hne : (c :: m).takeWhile (· ≠ '.') ≠ [] := by
          rw [List.takeWhile_cons_of_pos (by simpa using hc)]; simp
        generalize (c :: m).takeWhile (· ≠ '.') = x at *
        rw [hy] at hn ⊢
        rw [List.append_assoc, acc x hoth _ (.inl (by simp)), List.nil_append, List.cons_append,
          S_file (fnd_plain hoth hne _ (.inr rfl)) (.inl rfl) rfl, ← List.cons_append]
        obtain ⟨lw', e⟩ := chain_dir (pre := pre) (lw := lw) (t := t) hb ('.' :: y)
          (fun e => hn (by simp at e; simp [e])) [.file x] ⟨_, [], rfl, by simp⟩ [] (by simp) (by simp)
        refine ⟨lw', ?_⟩
        rw [e]
        simp [text_cons, text_nil, written]
    · have hc : c ≠ '.' := by
        rintro rfl
        rw [if_pos rfl] at hdots
        simp [dotted, hdots] at hd
      rw [if_neg hc] at hdots
      have hoth : Oth (c :: m) := fun d hd => ⟨fun e => hn (e ▸ hd), fun e => hdots (e ▸ hd)⟩
      refine ⟨lw, ?_⟩
      rw [acc (c :: m) hoth _ (.inl (by simp)), List.nil_append, S_count _ (.inl rfl), flush_all (ty := .dir) t]
      · rw [show mkc .dir (c :: m ++ ['/']) = .dir (c :: m) by rw [mkc, List.dropLast_concat]]
      · intro d _
        have d1 : (c :: m ++ ['/']).count '/' = 1 := by rw [List.count_append, hoth.cs]; rfl
        have d2 : (c :: m ++ ['/']).count '.' = 0 := by rw [List.count_append, hoth.cd]; rfl
        have d3 : (c :: m ++ ['/']).countP oth = m.length + 1 := by rw [List.countP_append, hoth.co]; rfl
        have hc2 := hoth c (by simp)
        unfold fnd found
        rw [d1, d2, d3, if_neg (show ¬ (c :: m ++ ['/']).head? = some '/' by simpa using hc2.1),
          if_neg (show ¬ (c :: m ++ ['/']).head? = some '.' by simpa using hc2.2), if_pos ⟨by omega, rfl, by omega⟩]
      · exact ⟨by decide, by decide⟩
      · have hc2 := hoth c (by simp)
        unfold fnd found
        rw [hoth.cs, hoth.cd, hoth.co, List.head?_cons, if_neg (by simpa using hc2.1), if_neg (by simpa using hc2.2),
          if_neg (by simp), if_neg (by simp)]

/-- A directory with a name the parser does not accept: nothing more is read. -/
theorem hidden_run {pre base lw} (n t : Str) (hn : '/' ∉ n) (hne : n ≠ []) (hd : dotted n = false) (h1 : n ≠ ['.'])
    (h2 : n ≠ ['.', '.']) : O pre base [] [] lw (n ++ '/' :: t) = some base := by
  cases n with
  | nil => exact absurd rfl hne
  | cons c m =>
    have hc : c = '.' := by
      by_cases hc : c = '.'
      · exact hc
      · simp [dotted, hc] at hd
    subst hc
    rw [List.cons_append, S_count (fnd_nil _) (.inl rfl), List.nil_append]
    cases m with
    | nil => exact absurd rfl h1
    | cons d m =>
      have hdn : d ≠ '/' := fun e => hn (by simp [e])
      by_cases hdd : d = '.'
      · subst hdd
        rw [List.cons_append, S_count (by decide) (.inl rfl)]
        cases m with
        | nil => exact absurd rfl h2
        | cons x m =>
          have hx : x ≠ '/' := fun e => hn (by simp [e])
          rw [show x :: m ++ '/' :: t = x :: (m ++ '/' :: t) from rfl, S_count _ (.inl rfl), stuck]
          · right
            refine ⟨by simp, ?_⟩
            by_cases hxd : x = '.'
            · subst hxd; decide
            · have : oth x = true := (oth_iff x).2 ⟨hx, hxd⟩
              right; right
              simp [List.count_cons, List.countP_cons, this]
              omega
          · unfold fnd found
            simp
      · have hoth : Oth (d :: m) := by
          intro x hx
          refine ⟨fun e => hn (e ▸ List.mem_cons_of_mem _ hx), ?_⟩
          rintro rfl
          have : (d :: m).contains '.' = true := by simpa using hx
          simp [dotted, hdd] at hd
          rcases List.mem_cons.1 hx with e | e
          · exact hdd e.symm
          · exact hd.2 e
        obtain ⟨c1, c2, c3⟩ := counts_dot hoth
        rw [acc (d :: m) hoth _ (.inl (by simp)), S_count _ (.inl rfl), stuck]
        · right
          refine ⟨by simp, .inl ⟨?_, ?_⟩⟩
          · rw [List.count_append]; simp
          · rw [List.countP_append, show ['.'] ++ d :: m = '.' :: (d :: m) from rfl, c3, List.length_cons]; omega
        · unfold fnd found
          rw [show ['.'] ++ d :: m = '.' :: (d :: m) from rfl, c1, c2, c3, List.head?_cons]
          simp

/-- The parser reads as `seg` does. -/
theorem main (k : Nat) (r : Str) (hk : r.length ≤ k) (pre : Str) (base : List Comp) (lw : Bool)
    (hb : ∀ c ∈ base, c.isName = false) : O pre base [] [] lw r = some (base ++ seg r) := by
  induction k generalizing r pre base lw with
  | zero =>
    cases r with
    | nil => rw [E_none (fnd_nil _), seg]
    | cons c r => simp at hk
  | succ k ih =>
    cases r with
    | nil => rw [E_none (fnd_nil _), seg]
    | cons c r =>
      have hb' : ∀ x : Comp, x.isName = false → ∀ c ∈ base ++ [x], c.isName = false := by
        intro x hx c hc
        rcases List.mem_append.1 hc with hc | hc
        · exact hb c hc
        · rw [List.mem_singleton.1 hc]; exact hx
      simp only [List.length_cons] at hk
      rw [seg]
      by_cases hc : c = '/'
      · subst hc
        rw [if_pos rfl, S_count (fnd_nil _) (.inl rfl), List.nil_append]
        by_cases hr : r.head? = some '/'
        · rw [if_pos hr]
          cases r with
          | nil => cases hr
          | cons c r =>
            have : c = '/' := by simpa using hr
            subst this
            rw [S_count (by decide) (.inl rfl)]
            simp only [List.drop_succ_cons, List.drop_zero]
            have hsplit : r = r.takeWhile (· ≠ '/') ++ r.dropWhile (· ≠ '/') := List.takeWhile_append_dropWhile.symm
            have hdw := dropWhile_ne_head '/' r
            have hns := not_mem_takeWhile_ne '/' r
            have hlen : (r.dropWhile (· ≠ '/')).length ≤ r.length := (List.dropWhile_suffix _).length_le
            simp only [List.length_cons] at hk
            generalize r.takeWhile (· ≠ '/') = n at *
            generalize r.dropWhile (· ≠ '/') = t at *
            subst hsplit
            by_cases hdot : '.' ∈ n
            · rw [if_neg (by simp [hdot])]
              obtain ⟨y, hy⟩ := first_dot n hdot
              have hoth := oth_takeWhile_dot n hns
              generalize n.takeWhile (· ≠ '.') = x at *
              subst hy
              rw [List.append_assoc, acc x hoth _ (.inr ⟨rfl, rfl⟩),
                show '.' :: y ++ t = '.' :: (y ++ t) from rfl, S_count _ (.inl rfl), stuck,
                List.append_nil]
              · left; exact ⟨rfl, .inl (by rw [List.count_append]; simp)⟩
              · unfold fnd found
                simp [List.count_cons, hoth.cs]
            · have hoth : Oth n := fun d hd => ⟨fun e => hns (e ▸ hd), fun e => hdot (e ▸ hd)⟩
              rw [acc n hoth _ (.inr ⟨rfl, rfl⟩)]
              by_cases hn : n = []
              · subst hn
                rw [if_neg (by simp)]
                rcases hdw with rfl | ⟨t, rfl⟩
                · rw [E_none (by decide)]
                · rw [S_count (by decide) (.inl rfl), stuck, List.append_nil]
                  left; decide
              · rw [if_pos ⟨hn, hdot⟩]
                have hpos : 0 < n.length := List.length_pos_iff.2 hn
                rw [flush_all (ty := .volume) t, ih t (by simp only [List.length_append] at hk; omega) _ _ _ (hb' _ rfl)]
                · simp [mkc]
                · intro d hd
                  have e1 : (['/'] ++ ['/'] ++ n).count '/' = 2 := by
                    rw [List.count_append, hoth.cs]; rfl
                  have e2 : (['/'] ++ ['/'] ++ n).count '.' = 0 := by
                    rw [List.count_append, hoth.cd]; rfl
                  have e3 : (['/'] ++ ['/'] ++ n).countP oth = n.length := by
                    rw [List.countP_append, hoth.co, show (['/'] ++ ['/']).countP oth = 0 from rfl, Nat.zero_add]
                  unfold fnd found
                  rw [e1, e2, e3, if_pos (by simp), if_pos]
                  refine ⟨?_, rfl, rfl, by omega⟩
                  rcases hd with hd | ⟨d', hd, ht⟩
                  · exact .inl hd
                  · rcases hdw with rfl | ⟨t, rfl⟩
                    · cases ht
                    · right; rw [hd]; simpa using ht.symm
                · exact ⟨by decide, by decide⟩
        · rw [if_neg hr, flush_all (ty := .root) r, ih r (by omega) _ _ _ (hb' _ rfl)]
          · simp [mkc]
          · intro d hd
            unfold fnd found
            rw [if_pos List.head?_cons, if_neg (fun h => absurd h.2.1 (by decide)), if_pos]
            refine ⟨?_, rfl, rfl, rfl⟩
            rcases hd with hd | ⟨d', hd, ht⟩
            · exact .inl hd
            · right; rw [hd, ← ht]; exact hr
          · exact ⟨by decide, by decide⟩
      · rw [if_neg hc]
        have hsplit : c :: r = (c :: r).takeWhile (· ≠ '/') ++ (c :: r).dropWhile (· ≠ '/') :=
          List.takeWhile_append_dropWhile.symm
        have hdw := dropWhile_ne_head '/' (c :: r)
        have hns := not_mem_takeWhile_ne '/' (c :: r)
        have hne : (c :: r).takeWhile (· ≠ '/') ≠ [] := by
          rw [List.takeWhile_cons_of_pos (by simpa using hc)]; simp
        have hlen : (c :: r).length = r.length + 1 := rfl
        dsimp only
        generalize (c :: r).takeWhile (· ≠ '/') = n at *
        generalize (c :: r).dropWhile (· ≠ '/') = t at *
        rw [hsplit]
        rcases hdw with rfl | ⟨t, rfl⟩
        · rw [if_pos rfl, List.append_nil, file_run n hns]
        · rw [if_neg (by simp)]
          simp only [List.drop_succ_cons, List.drop_zero]
          have hl2 : t.length + n.length = r.length := by
            have := congrArg List.length hsplit
            simp only [List.length_cons, List.length_append] at this
            omega
          by_cases h2 : n = ['.', '.']
          · rw [if_pos h2]; subst h2
            rw [show ['.', '.'] ++ '/' :: t = '.' :: '.' :: '/' :: t from rfl, S_count (fnd_nil _) (.inl rfl),
              S_count (by decide) (.inl rfl), S_count (by decide) (.inl rfl), flush_all (ty := .parent) t,
              ih t (by omega) _ _ _ (hb' _ rfl)]
            · simp [mkc]
            · intro d _; rfl
            · exact ⟨by decide, by decide⟩
          · rw [if_neg h2]
            by_cases h1 : n = ['.']
            · rw [if_pos h1]; subst h1
              rw [show ['.'] ++ '/' :: t = '.' :: '/' :: t from rfl, S_count (fnd_nil _) (.inl rfl),
                S_count (by decide) (.inl rfl), show [] ++ ['.'] ++ ['/'] = '.' :: List.replicate (0 + 1) '/' from rfl,
                dot_run t 0]
              dsimp only
              have hl3 : (t.dropWhile (· = '/')).length ≤ t.length := (List.dropWhile_suffix _).length_le
              split
              · rw [ih _ (by simp only [List.length_drop]; omega) _ _ _ (hb' _ rfl)]
                simp
              · simp
            · rw [if_neg h1]
              cases hd : dotted n with
              | true =>
                rw [if_pos rfl]
                obtain ⟨lw', e⟩ := dir_run (pre := pre) (lw := lw) hb n t hns hd
                rw [e, ih t (by omega) _ _ _ (hb' _ rfl)]
                simp
              | false =>
                rw [if_neg (by simp), hidden_run n t hns hne hd h1 h2, List.append_nil]

/-- The parser on a whole text. -/
theorem parse_eq (s : Str) : parse s = some (seg s) := by
  have h := main s.length s (Nat.le_refl _) [] [] false (by simp)
  have e : O [] [] [] [] false s = parse s := by
    unfold O out parse parseSt
    rfl
  rw [← e, h, List.nil_append]

end Verif.Path
