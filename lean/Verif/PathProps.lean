import Verif.PathMain
import Verif.PathText
/-!
# C66: reading and writing paths
-/
namespace Verif.Path
open Spec

theorem takeWhile_ne_append (n u : Str) (c : Char) (h : c ∉ n) (hu : u.head? = none ∨ u.head? = some c) :
    (n ++ u).takeWhile (· ≠ c) = n ∧ (n ++ u).dropWhile (· ≠ c) = u := by
  induction n with
  | nil =>
    cases u with
    | nil => exact ⟨rfl, rfl⟩
    | cons a u =>
      have : a = c := by rcases hu with hu | hu <;> simp_all
      subst this
      simp [List.takeWhile, List.dropWhile]
  | cons a n ih =>
    have ha : a ≠ c := fun e => h (by simp [e])
    have := ih (fun e => h (by simp [e]))
    rw [List.cons_append, List.takeWhile_cons_of_pos (by simpa using ha), List.dropWhile_cons_of_pos (by simpa using ha),
      this.1, this.2]
    exact ⟨rfl, rfl⟩

theorem DirName.facts {n : Str} (h : DirName n) :
    n ≠ [] ∧ n ≠ ['.'] ∧ n ≠ ['.', '.'] ∧ dotted n = true ∧ ∃ c m, n = c :: m ∧ c ≠ '/' := by
  obtain ⟨hs, h | h⟩ := h
  · obtain ⟨c, m, rfl, hc⟩ := h
    exact ⟨by simp, by simp [hc], by simp [hc], by simp [dotted, hc], c, m, rfl, fun e => hs (by simp [e])⟩
  · obtain ⟨x, y, rfl, hx⟩ := h
    obtain ⟨hne, h1, h2⟩ := hx
    cases x with
    | nil => exact absurd rfl hne
    | cons a x =>
      have ha : a ≠ '.' := fun e => h2 (by simp [e])
      exact ⟨by simp, by simp, by simp, by simp [dotted, ha], '.', _, rfl, by decide⟩

/-- One component is read back, whatever follows it. -/
theorem seg_step (c : Comp) (u : Str) (hs : Step c) (hf : Follows c u.head?) : seg (written c ++ u) = c :: seg u := by
  cases c with
  | relRoot => exact hs.elim
  | file n => exact hs.elim
  | ext n => exact hs.elim
  | root =>
    rw [written, List.singleton_append, seg, if_pos rfl, if_neg hf]
  | volume n =>
    obtain ⟨h1, h2⟩ := takeWhile_ne_append n u '/' hs.2.1 hf
    rw [written, List.cons_append, List.cons_append, seg, if_pos rfl, if_pos List.head?_cons]
    simp only [List.drop_succ_cons, List.drop_zero]
    rw [h1, h2, if_pos ⟨hs.1, hs.2.2⟩]
  | parent =>
    rw [written, show ['.', '.', '/'] ++ u = '.' :: ('.' :: '/' :: u) from rfl, seg, if_neg (by decide)]
    have := takeWhile_ne_append ['.', '.'] ('/' :: u) '/' (by decide) (.inr rfl)
    rw [show ['.', '.'] ++ '/' :: u = '.' :: ('.' :: '/' :: u) from rfl] at this
    dsimp only
    rw [this.1, this.2, if_neg (by simp), if_pos rfl]
    rfl
  | dir n =>
    obtain ⟨_, h1, h2, h3, c, m, rfl, hc⟩ := DirName.facts hs
    have := takeWhile_ne_append (c :: m) ('/' :: u) '/' hs.1 (.inr rfl)
    rw [written, List.append_assoc, List.singleton_append, List.cons_append, seg, if_neg hc]
    rw [List.cons_append] at this
    dsimp only
    rw [this.1, this.2, if_neg (by simp), if_neg h2, if_neg h1, if_pos h3]
    rfl

theorem head_append (a b : Str) : (a ++ b).head? = a.head?.or b.head? := by
  cases a <;> rfl

/-- A directory part is read back, whatever follows it. -/
theorem seg_dirs (ds : List Comp) (u : Str) (h : WfDir ds u.head?) : seg (text ds ++ u) = ds ++ seg u := by
  induction ds with
  | nil => rfl
  | cons c ds ih =>
    obtain ⟨h1, h2, h3⟩ := h
    rw [text_cons, List.append_assoc, seg_step c _ h1 (by rw [head_append]; exact h2), ih h3, List.cons_append]

theorem exts_head (es : List Comp) (h : Exts es) : (text es).head? = none ∨ (text es).head? = some '.' := by
  cases es with
  | nil => exact .inl rfl
  | cons e es =>
    cases e with
    | ext n => right; rw [text_cons]; rfl
    | _ => exact h.elim

theorem segExts_text (es : List Comp) (h : Exts es) : segExts (text es) = es := by
  induction es with
  | nil => rw [text_nil, segExts]
  | cons e es ih =>
    cases e with
    | ext n =>
      obtain ⟨⟨hne, _, hd⟩, h2⟩ := h
      obtain ⟨h3, h4⟩ := takeWhile_ne_append n (text es) '.' hd (exts_head es h2)
      rw [text_cons, written, List.cons_append, segExts]
      rw [h3, h4, if_neg hne, ih h2]
    | _ => exact h.elim

theorem exts_noSlash (es : List Comp) (h : Exts es) : '/' ∉ text es := by
  induction es with
  | nil => simp [text_nil]
  | cons e es ih =>
    cases e with
    | ext n =>
      rw [text_cons, written]
      simp [h.1.2.1, ih h.2]
    | _ => exact h.elim

theorem fileName_noSlash (fs : List Comp) (h : FileName fs) : '/' ∉ text fs ∧ text fs ≠ [] := by
  unfold FileName at h
  split at h
  · rw [text_cons, text_nil]; simp [written, h.2.1]
  · rename_i n es
    have he := exts_noSlash es h.1
    rw [text_cons]
    rcases h.2 with h2 | ⟨x, rfl, h2, _⟩
    · simp [written, he, h2.2.1, h2.1]
    · simp [written, he, h2.2.1]
  · exact h.elim

theorem segFile_text (fs : List Comp) (h : FileName fs) : segFile (text fs) = fs := by
  unfold FileName at h
  split at h
  · rename_i n
    obtain ⟨h3, h4⟩ := takeWhile_ne_append n [] '.' h.2.2 (.inl rfl)
    rw [List.append_nil] at h3 h4
    rw [text_cons, text_nil, written, List.append_nil, segFile]
    dsimp only
    rw [if_pos rfl, h3, h4, if_neg h.1, if_pos rfl]
  · rename_i n es
    rw [text_cons]
    rcases h.2 with h2 | ⟨x, rfl, h2, h5⟩
    · obtain ⟨h3, h4⟩ := takeWhile_ne_append n (text es) '.' h2.2.2 (exts_head es h.1)
      cases n with
      | nil => exact absurd rfl h2.1
      | cons c m =>
        have hc : c ≠ '.' := fun e => h2.2.2 (by simp [e])
        rw [List.cons_append] at h3 h4
        rw [written, List.cons_append, segFile]
        dsimp only
        rw [if_neg hc, h3, h4, segExts_text es h.1]
    · obtain ⟨h3, h4⟩ := takeWhile_ne_append x (text es) '.' h2.2.2 (exts_head es h.1)
      rw [written, List.cons_append, segFile]
      dsimp only
      rw [if_pos rfl, h3, h4, if_neg h2.1, if_neg, segExts_text es h.1]
      cases es with
      | nil => exact absurd rfl h5
      | cons e es =>
        cases e with
        | ext n => rw [text_cons]; simp [written]
        | _ => exact h.1.elim
  · exact h.elim

theorem takeWhile_slash_all (s : Str) (h : '/' ∉ s) :
    s.takeWhile (· ≠ '/') = s ∧ s.dropWhile (· ≠ '/') = [] := by
  have := takeWhile_ne_append s [] '/' h (.inl rfl)
  rwa [List.append_nil] at this

theorem seg_file (s : Str) (h : '/' ∉ s) : seg s = segFile s := by
  cases s with
  | nil => rw [seg]; rfl
  | cons c r =>
    have hc : c ≠ '/' := fun e => h (by simp [e])
    obtain ⟨h1, h2⟩ := takeWhile_slash_all (c :: r) h
    rw [seg, if_neg hc]
    dsimp only
    rw [h1, h2, if_pos rfl]

theorem seg_text (cs : List Comp) (h : Wf cs) : seg (text cs) = cs := by
  obtain ⟨ds, fs, rfl, hf, hd⟩ := h
  rw [text_append, seg_dirs ds _ hd]
  rcases hf with rfl | hf
  · rw [text_nil, seg]
  · rw [seg_file _ (fileName_noSlash fs hf).1, segFile_text fs hf]

/-- **C66, what is written is read.**  A well formed list of components - volume, root, directories, parents, file name
and extensions - is read back from its text exactly. -/
theorem C66_write_then_read (cs : List Comp) (h : Wf cs) : parse (text cs) = some cs := by
  rw [parse_eq, seg_text cs h]

/-- **C66, the path of a text.**  `FSPathCreate` of the text of a well formed list gives the list itself when it starts with a
volume or the root, and the list below the current directory when it starts with anything else. -/
theorem C66_create (cs : List Comp) (h : Wf cs) : create (text cs) = some (match cs with
    | [] => []
    | .volume v :: r => .volume v :: r
    | .root :: r => .root :: r
    | c :: r => .relRoot :: c :: r) := by
  unfold create
  rw [C66_write_then_read cs h]
  cases cs with
  | nil => rfl
  | cons c r => cases c <;> rfl

/-! ## What is read is written -/

theorem exts_of_text (k : Nat) (r : Str) (hk : r.length ≤ k) (hr : '/' ∉ r) (hf : ∀ c, r.head? = some c → c = '.')
    (h : text (segExts r) = r) : Exts (segExts r) := by
  induction k generalizing r with
  | zero =>
    cases r with
    | nil => rw [segExts]; trivial
    | cons c r => simp at hk
  | succ k ih =>
    cases r with
    | nil => rw [segExts]; trivial
    | cons c m =>
      have hc := hf c rfl; subst hc
      rw [segExts] at h ⊢
      have hm : '/' ∉ m := fun e => hr (by simp [e])
      have hoth := oth_takeWhile_dot m hm
      have hlen : (m.dropWhile (· ≠ '.')).length ≤ m.length := (List.dropWhile_suffix _).length_le
      have hdw := dropWhile_ne_head '.' m
      have hmd : '/' ∉ m.dropWhile (· ≠ '.') := fun e => hm ((List.dropWhile_suffix _).mem e)
      have hsplit : m = m.takeWhile (· ≠ '.') ++ m.dropWhile (· ≠ '.') := List.takeWhile_append_dropWhile.symm
      generalize m.takeWhile (· ≠ '.') = e at *
      generalize m.dropWhile (· ≠ '.') = d at *
      by_cases he : e = []
      · rw [if_pos he, text_nil] at h; cases h
      · rw [if_neg he] at h ⊢
        rw [text_cons, written, List.cons_append, hsplit, List.cons.injEq] at h
        refine ⟨⟨he, fun h => (hoth _ h).1 rfl, fun h => (hoth _ h).2 rfl⟩,
          ih d (by simp only [List.length_cons] at hk; omega) hmd ?_ (List.append_cancel_left h.2)⟩
        rcases hdw with rfl | ⟨d', rfl⟩ <;> simp

theorem fileName_of_text (s : Str) (hs : '/' ∉ s) (hne : s ≠ []) (h : text (segFile s) = s) : FileName (segFile s) := by
  cases s with
  | nil => exact absurd rfl hne
  | cons c m =>
    have hm : '/' ∉ m := fun e => hs (by simp [e])
    unfold segFile at h ⊢
    dsimp only at h ⊢
    by_cases hc : c = '.'
    · subst hc
      rw [if_pos rfl] at h ⊢
      have hoth := oth_takeWhile_dot m hm
      have hdw := dropWhile_ne_head '.' m
      have hmd : '/' ∉ m.dropWhile (· ≠ '.') := fun e => hm ((List.dropWhile_suffix _).mem e)
      have hsplit : m = m.takeWhile (· ≠ '.') ++ m.dropWhile (· ≠ '.') := List.takeWhile_append_dropWhile.symm
      generalize m.takeWhile (· ≠ '.') = e at *
      generalize m.dropWhile (· ≠ '.') = d at *
      have hpl : e ≠ [] → Plain e := fun he => ⟨he, fun h => (hoth _ h).1 rfl, fun h => (hoth _ h).2 rfl⟩
      by_cases he : e = []
      · rw [if_pos he, text_nil] at h; cases h
      · rw [if_neg he] at h ⊢
        by_cases hd : d = []
        · rw [if_pos hd]; exact hpl he
        · rw [if_neg hd] at h ⊢
          rw [text_cons, written, List.cons_append, hsplit, List.cons.injEq] at h
          have ht := List.append_cancel_left h.2
          refine ⟨exts_of_text d.length d (Nat.le_refl _) hmd ?_ ht, .inr ⟨e, rfl, hpl he, ?_⟩⟩
          · rcases hdw with rfl | ⟨d', rfl⟩ <;> simp
          · intro hn; rw [hn, text_nil] at ht; exact hd ht.symm
    · rw [if_neg hc] at h ⊢
      have hoth := oth_takeWhile_dot (c :: m) hs
      have hdw := dropWhile_ne_head '.' (c :: m)
      have hmd : '/' ∉ (c :: m).dropWhile (· ≠ '.') := fun e => hs ((List.dropWhile_suffix _).mem e)
      have hsplit : c :: m = (c :: m).takeWhile (· ≠ '.') ++ (c :: m).dropWhile (· ≠ '.') :=
        List.takeWhile_append_dropWhile.symm
      have hne' : (c :: m).takeWhile (· ≠ '.') ≠ [] := by
        rw [List.takeWhile_cons_of_pos (by simpa using hc)]; simp
      generalize (c :: m).takeWhile (· ≠ '.') = e at *
      generalize (c :: m).dropWhile (· ≠ '.') = d at *
      rw [text_cons, written, hsplit] at h
      have ht := List.append_cancel_left h
      refine ⟨exts_of_text d.length d (Nat.le_refl _) hmd ?_ ht,
        .inl ⟨hne', fun h => (hoth _ h).1 rfl, fun h => (hoth _ h).2 rfl⟩⟩
      rcases hdw with rfl | ⟨d', rfl⟩ <;> simp

theorem wf_cons {c : Comp} {cs : List Comp} (h : Wf cs) (hs : Step c) (hf : Follows c (text cs).head?) :
    Wf (c :: cs) := by
  obtain ⟨ds, fs, rfl, h1, h2⟩ := h
  refine ⟨c :: ds, fs, rfl, h1, hs, ?_, h2⟩
  rwa [text_append, head_append] at hf

theorem dirName_of_dotted (n : Str) (hs : '/' ∉ n) (hd : dotted n = true) : DirName n := by
  refine ⟨hs, ?_⟩
  cases n with
  | nil => cases hd
  | cons c m =>
    by_cases hc : c = '.'
    · subst hc
      right
      simp [dotted] at hd
      obtain ⟨⟨h1, h2⟩, h3⟩ := hd
      obtain ⟨y, hy⟩ := first_dot m h3
      have hoth := oth_takeWhile_dot m (fun e => hs (by simp [e]))
      refine ⟨m.takeWhile (· ≠ '.'), y, by rw [List.cons_append, ← hy], ?_, fun h => (hoth _ h).1 rfl,
        fun h => (hoth _ h).2 rfl⟩
      intro he
      rw [he] at hy
      rw [hy] at h1
      exact h1 rfl
    · exact .inl ⟨c, m, rfl, hc⟩

theorem wf_of_text (k : Nat) (s : Str) (hk : s.length ≤ k) (h : text (seg s) = s) : Wf (seg s) := by
  induction k generalizing s with
  | zero =>
    cases s with
    | nil => rw [seg]; exact ⟨[], [], rfl, .inl rfl, trivial⟩
    | cons c r => simp at hk
  | succ k ih =>
    cases s with
    | nil => rw [seg]; exact ⟨[], [], rfl, .inl rfl, trivial⟩
    | cons c r =>
      simp only [List.length_cons] at hk
      rw [seg] at h ⊢
      by_cases hc : c = '/'
      · subst hc
        rw [if_pos rfl] at h ⊢
        by_cases hr : r.head? = some '/'
        · rw [if_pos hr] at h ⊢
          cases r with
          | nil => cases hr
          | cons a r =>
            have : a = '/' := by simpa using hr
            subst this
            simp only [List.drop_succ_cons, List.drop_zero, List.length_cons] at h hk ⊢
            have hdw := dropWhile_ne_head '/' r
            have hns := not_mem_takeWhile_ne '/' r
            have hlen : (r.dropWhile (· ≠ '/')).length ≤ r.length := (List.dropWhile_suffix _).length_le
            have hsplit : r = r.takeWhile (· ≠ '/') ++ r.dropWhile (· ≠ '/') := List.takeWhile_append_dropWhile.symm
            generalize r.takeWhile (· ≠ '/') = n at *
            generalize r.dropWhile (· ≠ '/') = t at *
            by_cases hn : n ≠ [] ∧ '.' ∉ n
            · rw [if_pos hn] at h ⊢
              rw [text_cons, written, hsplit] at h
              simp only [List.cons_append, List.cons.injEq, true_and] at h
              have ht := List.append_cancel_left h
              refine wf_cons (ih t (by omega) ht) ⟨hn.1, hns, hn.2⟩ ?_
              rw [ht]
              rcases hdw with rfl | ⟨t', rfl⟩
              · exact .inl rfl
              · exact .inr rfl
            · rw [if_neg hn, text_nil] at h; cases h
        · rw [if_neg hr] at h ⊢
          rw [text_cons, written] at h
          simp only [List.cons_append, List.nil_append, List.cons.injEq, true_and] at h
          exact wf_cons (ih r (by omega) h) trivial (by rw [h]; exact hr)
      · rw [if_neg hc] at h ⊢
        have hsplit : c :: r = (c :: r).takeWhile (· ≠ '/') ++ (c :: r).dropWhile (· ≠ '/') :=
          List.takeWhile_append_dropWhile.symm
        have hdw := dropWhile_ne_head '/' (c :: r)
        have hns := not_mem_takeWhile_ne '/' (c :: r)
        have hne : (c :: r).takeWhile (· ≠ '/') ≠ [] := by
          rw [List.takeWhile_cons_of_pos (by simpa using hc)]; simp
        dsimp only at h ⊢
        generalize (c :: r).takeWhile (· ≠ '/') = n at *
        generalize (c :: r).dropWhile (· ≠ '/') = t at *
        rw [hsplit] at h
        rcases hdw with rfl | ⟨t, rfl⟩
        · rw [if_pos rfl] at h ⊢
          rw [List.append_nil] at h
          exact ⟨[], _, rfl, .inr (fileName_of_text n hns hne h), trivial⟩
        · rw [if_neg (by simp)] at h ⊢
          simp only [List.drop_succ_cons, List.drop_zero] at h ⊢
          have hl2 : t.length + n.length = r.length := by
            have := congrArg List.length hsplit
            simp only [List.length_cons, List.length_append] at this
            omega
          by_cases h2 : n = ['.', '.']
          · rw [if_pos h2] at h ⊢; subst h2
            rw [text_cons, written] at h
            simp only [List.cons_append, List.nil_append, List.cons.injEq, true_and] at h
            exact wf_cons (ih t (by omega) h) trivial trivial
          · rw [if_neg h2] at h ⊢
            by_cases h1 : n = ['.']
            · rw [if_pos h1] at h; subst h1
              split at h
              · rw [text_cons, written] at h
                simp at h
              · rw [text_nil] at h; cases h
            · rw [if_neg h1] at h ⊢
              cases hd : dotted n with
              | true =>
                rw [hd, if_pos rfl] at h
                rw [if_pos rfl]
                rw [text_cons, written, List.append_assoc] at h
                have ht := List.append_cancel_left h
                simp only [List.singleton_append, List.cons.injEq, true_and] at ht
                exact wf_cons (ih t (by omega) ht) (dirName_of_dotted n hns hd) trivial
              | false =>
                rw [hd, if_neg (by simp), text_nil] at h
                cases n with
                | nil => exact absurd rfl hne
                | cons a n => cases h

/-- **C66, which texts survive.**  Reading a text and writing the components down gives the text back exactly when it is
the text of a well formed list of components; otherwise part of it is lost. -/
theorem C66_read_then_write_exact (s : Str) :
    ∃ cs, parse s = some cs ∧ (text cs = s ↔ ∃ ds, Wf ds ∧ s = text ds) := by
  refine ⟨seg s, parse_eq s, fun h => ⟨seg s, wf_of_text _ s (Nat.le_refl _) h, h.symm⟩, ?_⟩
  rintro ⟨ds, hd, rfl⟩
  rw [seg_text ds hd]

/-- No directory is named '.'. -/
def NoDot (s : Str) : Prop :=
  (∀ b, s ≠ '.' :: '/' :: b) ∧ ∀ a b, s ≠ a ++ '/' :: '.' :: '/' :: b

theorem NoDot.after {a t : Str} (h : NoDot (a ++ '/' :: t)) : NoDot t := by
  refine ⟨?_, ?_⟩
  · rintro b rfl
    exact h.2 a b rfl
  · rintro x b rfl
    exact h.2 (a ++ '/' :: x) b (by simp)

theorem NoDot.at {a t : Str} (h : NoDot (a ++ '/' :: t)) : NoDot ('/' :: t) := by
  refine ⟨by simp, ?_⟩
  intro x b hx
  exact h.2 (a ++ x) b (by rw [hx, List.append_assoc])

theorem segExts_prefix (k : Nat) (r : Str) (hk : r.length ≤ k) (hf : ∀ c, r.head? = some c → c = '.') :
    text (segExts r) <+: r := by
  induction k generalizing r with
  | zero =>
    cases r with
    | nil => rw [segExts]; exact List.nil_prefix
    | cons c r => simp at hk
  | succ k ih =>
    cases r with
    | nil => rw [segExts]; exact List.nil_prefix
    | cons c m =>
      have hc := hf c rfl; subst hc
      rw [segExts]
      have hlen : (m.dropWhile (· ≠ '.')).length ≤ m.length := (List.dropWhile_suffix _).length_le
      have hdw := dropWhile_ne_head '.' m
      have hsplit : m = m.takeWhile (· ≠ '.') ++ m.dropWhile (· ≠ '.') := List.takeWhile_append_dropWhile.symm
      generalize m.takeWhile (· ≠ '.') = e at *
      generalize m.dropWhile (· ≠ '.') = d at *
      split
      · exact List.nil_prefix
      · rw [text_cons, written, hsplit, List.cons_append, List.cons_prefix_cons]
        refine ⟨rfl, (List.prefix_append_right_inj _).2 (ih d (by simp only [List.length_cons] at hk; omega) ?_)⟩
        rcases hdw with rfl | ⟨d', rfl⟩ <;> simp

theorem segFile_prefix (s : Str) : text (segFile s) <+: s := by
  cases s with
  | nil => exact List.nil_prefix
  | cons c m =>
    unfold segFile
    dsimp only
    by_cases hc : c = '.'
    · subst hc
      rw [if_pos rfl]
      have hdw := dropWhile_ne_head '.' m
      have hsplit : m = m.takeWhile (· ≠ '.') ++ m.dropWhile (· ≠ '.') := List.takeWhile_append_dropWhile.symm
      generalize m.takeWhile (· ≠ '.') = e at *
      generalize m.dropWhile (· ≠ '.') = d at *
      split
      · exact List.nil_prefix
      · split
        · rename_i hd; subst hd
          rw [hsplit, text_cons, text_nil, written, List.append_nil, List.append_nil]
          exact List.prefix_rfl
        · rw [text_cons, written, hsplit, List.cons_append, List.cons_prefix_cons]
          refine ⟨rfl, (List.prefix_append_right_inj _).2 (segExts_prefix _ d (Nat.le_refl _) ?_)⟩
          rcases hdw with rfl | ⟨d', rfl⟩ <;> simp
    · rw [if_neg hc]
      have hdw := dropWhile_ne_head '.' (c :: m)
      have hsplit : c :: m = (c :: m).takeWhile (· ≠ '.') ++ (c :: m).dropWhile (· ≠ '.') :=
        List.takeWhile_append_dropWhile.symm
      generalize (c :: m).takeWhile (· ≠ '.') = e at *
      generalize (c :: m).dropWhile (· ≠ '.') = d at *
      rw [text_cons, written, hsplit]
      refine (List.prefix_append_right_inj _).2 (segExts_prefix _ d (Nat.le_refl _) ?_)
      rcases hdw with rfl | ⟨d', rfl⟩ <;> simp

theorem seg_prefix (k : Nat) (s : Str) (hk : s.length ≤ k) (hd : NoDot s) : text (seg s) <+: s := by
  induction k generalizing s with
  | zero =>
    cases s with
    | nil => rw [seg]; exact List.nil_prefix
    | cons c r => simp at hk
  | succ k ih =>
    cases s with
    | nil => rw [seg]; exact List.nil_prefix
    | cons c r =>
      simp only [List.length_cons] at hk
      rw [seg]
      by_cases hc : c = '/'
      · subst hc
        rw [if_pos rfl]
        by_cases hr : r.head? = some '/'
        · rw [if_pos hr]
          cases r with
          | nil => cases hr
          | cons a r =>
            have : a = '/' := by simpa using hr
            subst this
            simp only [List.drop_succ_cons, List.drop_zero, List.length_cons] at hk ⊢
            have hdw := dropWhile_ne_head '/' r
            have hlen : (r.dropWhile (· ≠ '/')).length ≤ r.length := (List.dropWhile_suffix _).length_le
            have hsplit : r = r.takeWhile (· ≠ '/') ++ r.dropWhile (· ≠ '/') := List.takeWhile_append_dropWhile.symm
            generalize r.takeWhile (· ≠ '/') = n at *
            generalize r.dropWhile (· ≠ '/') = t at *
            split
            · rw [text_cons, written, hsplit, List.cons_append, List.cons_append, List.cons_prefix_cons,
                List.cons_prefix_cons]
              refine ⟨rfl, rfl, (List.prefix_append_right_inj _).2 (ih t (by omega) ?_)⟩
              rcases hdw with rfl | ⟨t', rfl⟩
              · exact ⟨by simp, by simp⟩
              · rw [hsplit] at hd
                exact NoDot.at (a := '/' :: '/' :: n) hd
            · exact List.nil_prefix
        · rw [if_neg hr, text_cons, written, List.cons_append, List.cons_prefix_cons, List.nil_append]
          exact ⟨rfl, ih r (by omega) (NoDot.after (a := []) hd)⟩
      · rw [if_neg hc]
        have hsplit : c :: r = (c :: r).takeWhile (· ≠ '/') ++ (c :: r).dropWhile (· ≠ '/') :=
          List.takeWhile_append_dropWhile.symm
        have hdw := dropWhile_ne_head '/' (c :: r)
        dsimp only
        generalize (c :: r).takeWhile (· ≠ '/') = n at *
        generalize (c :: r).dropWhile (· ≠ '/') = t at *
        rw [hsplit] at hd ⊢
        rcases hdw with rfl | ⟨t, rfl⟩
        · rw [if_pos rfl, List.append_nil]
          exact segFile_prefix n
        · rw [if_neg (by simp)]
          simp only [List.drop_succ_cons, List.drop_zero]
          have hl2 : t.length + n.length = r.length := by
            have := congrArg List.length hsplit
            simp only [List.length_cons, List.length_append] at this
            omega
          have hp := ih t (by omega) hd.after
          split
          · rename_i h2; subst h2
            rw [text_cons, written]
            exact (List.prefix_append_right_inj ['.', '.', '/']).2 hp
          · split
            · rename_i h1; subst h1
              exact absurd rfl (hd.1 t)
            · split
              · rw [text_cons, written, List.append_assoc]
                exact (List.prefix_append_right_inj _).2 (List.cons_prefix_cons.2 ⟨rfl, hp⟩)
              · exact List.nil_prefix

/-- **C66, nothing is invented.**  Reading never accesses memory outside the text, and unless a directory is named '.', the
components it produces are written as an initial part of the text. -/
theorem C66_read_safe_prefix (s : Str) : ∃ cs, parse s = some cs ∧ (NoDot s → text cs <+: s) :=
  ⟨seg s, parse_eq s, seg_prefix _ s (Nat.le_refl _)⟩

/-- **C66, hidden directories.**  Whatever stands behind a directory whose name is a '.' and a plain name is not read:
the components end in front of it. -/
theorem C66_hidden_directory_exact (ds : List Comp) (x r : Str) (h : WfDir ds (some '.')) (hx : Plain x) :
    parse (text ds ++ '.' :: x ++ '/' :: r) = some ds := by
  rw [parse_eq, List.append_assoc, seg_dirs ds _ (by simpa using h)]
  have hns : '/' ∉ '.' :: x := by simp [hx.2.1]
  obtain ⟨h1, h2⟩ := takeWhile_ne_append ('.' :: x) ('/' :: r) '/' hns (.inr rfl)
  rw [List.cons_append] at h1 h2 ⊢
  rw [seg, if_neg (by decide)]
  dsimp only
  rw [h1, h2, if_neg (by simp), if_neg, if_neg, if_neg, List.append_nil]
  · have := hx.2.2
    simp [dotted, this]
  · have := hx.1; simpa using this
  · intro e
    have : x = ['.'] := by simpa using e
    exact hx.2.2 (by simp [this])

/-- The consequence: the path of a file in a hidden directory is the path of the directory around it. -/
theorem C66_hidden_directory_refuted :
    create ['/', 'h', '/', '.', 'c', '/', 'x'] = create ['/', 'h', '/'] ∧
    create ['/', 'h', '/'] = some [.root, .dir ['h']] := by
  decide +kernel

/-- **C66**: the current directory of the current directory is read as its parent; final '.' are lost. -/
theorem C66_dots_refuted :
    create ['.', '/', '.'] = some [.relRoot, .parent] ∧
    create ['a', '/', '.', '.'] = some [.relRoot, .dir ['a']] ∧
    create ['a', '.', '.', 'b'] = some [.relRoot, .file ['a']] := by
  decide +kernel

/-- **C66**: reading a first directory with a '.' in its name moves the pointer in front of the text. -/
theorem C66_pointer_before_text_refuted :
    ∃ st, parseSt ['a', '.', 'b', '/'] = some st ∧ st.low = true := by
  refine ⟨⟨[.dir ['a', '.', 'b']], 4, 0, 0, 0, false, true⟩, by decide +kernel, rfl⟩

/-- A well formed list of components with everything in it meets the hypotheses. -/
example : Wf [.volume ['v'], .root, .dir ['a', '.', 'b'], .parent, .dir ['.', 'x', '.', 'y'], .file ['f'], .ext ['t']] := by
  refine ⟨[.volume ['v'], .root, .dir ['a', '.', 'b'], .parent, .dir ['.', 'x', '.', 'y']], [.file ['f'], .ext ['t']],
    rfl, .inr ⟨⟨?_, trivial⟩, .inl ?_⟩, ?_, ?_, trivial, ?_, ?_, trivial, trivial, trivial, ?_, trivial, trivial⟩
  · exact ⟨by decide, by decide, by decide⟩
  · exact ⟨by decide, by decide, by decide⟩
  · exact ⟨by decide, by decide, by decide⟩
  · right; decide
  · show _ ≠ _; decide
  · exact ⟨by decide, .inl ⟨'a', _, rfl, by decide⟩⟩
  · exact ⟨by decide, .inr ⟨['x'], ['y'], rfl, by decide, by decide, by decide⟩⟩

/-- A directory part in front of a hidden directory, and a text without '.' directories. -/
example : WfDir [.root, .dir ['h']] (some '.') ∧ Plain ['c'] ∧ NoDot ['/', 'h', '/', '.', 'c', '/', 'x'] := by
  refine ⟨⟨trivial, by show _ ≠ _; decide, ⟨by decide, .inl ⟨'h', _, rfl, by decide⟩⟩, trivial, trivial⟩,
    ⟨by decide, by decide, by decide⟩, by simp, ?_⟩
  intro a b h
  match a with
  | [] => simp at h
  | [_] => simp at h
  | [_, _] => simp at h
  | [_, _, _] => simp at h
  | [_, _, _, _] => simp at h
  | [_, _, _, _, _] => simp at h
  | _ :: _ :: _ :: _ :: _ :: _ :: a =>
    have := congrArg List.length h
    simp at this
    omega

#print axioms C66_write_then_read
#print axioms C66_create
#print axioms C66_read_then_write_exact
#print axioms C66_read_safe_prefix
#print axioms C66_hidden_directory_exact
#print axioms C66_hidden_directory_refuted
#print axioms C66_dots_refuted
#print axioms C66_pointer_before_text_refuted

end Verif.Path
