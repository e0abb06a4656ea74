import Verif.PathSpec
/-!
# The parser reads component by component

The loop of the parser, seen at a point where the text before `pre` has become `base`, the text of the components `ch` of
a file name follows and `p` is pending.
-/
namespace Verif.Path
open Spec

/-- Neither '/' nor '.'. -/
def oth (c : Char) : Bool := decide (c ≠ '/') && decide (c ≠ '.')

theorem oth_iff (c : Char) : oth c = true ↔ c ≠ '/' ∧ c ≠ '.' := by simp [oth]

/-- `found` for pending text `p`. -/
def fnd (cur : Option Char) (p : Str) : Option Ty :=
  found cur p.head? (p.count '/') (p.count '.') (p.countP oth)

/-- The state with pending text `p`. -/
def conc (pre : Str) (base ch : List Comp) (p : Str) (lw : Bool) : St :=
  { comps := base ++ ch, start := ((pre ++ text ch).length : Nat), slash := p.count '/', dot := p.count '.',
    chr := p.countP oth, hasFile := !ch.isEmpty, low := lw }

/-- The components at the end. -/
def out (s : Str) (st : St) (i : Nat) (r : Str) : Option (List Comp) :=
  ((run s st i r).bind (finish s)).map (·.comps)

/-- The components at the end, from the state with pending text `p` and the text `r` still to come. -/
def O (pre : Str) (base ch : List Comp) (p : Str) (lw : Bool) (r : Str) : Option (List Comp) :=
  out (pre ++ text ch ++ p ++ r) (conc pre base ch p lw) (pre ++ text ch ++ p).length r

theorem found_zero (cur f : Option Char) : found cur f 0 0 0 = none := by
  unfold found
  (repeat' split) <;> simp_all

theorem fnd_nil (cur : Option Char) : fnd cur [] = none := found_zero _ _

theorem sub_mid (A q B : Str) : sub (A ++ q ++ B) (A.length : Nat) (q.length : Nat) = some q := by
  unfold sub
  rw [if_pos (by simp only [List.length_append]; omega)]
  simp

theorem first_conc (pre : Str) (base ch : List Comp) (p : Str) (lw : Bool) (r : Str) :
    (conc pre base ch p lw).first (pre ++ text ch ++ p ++ r) = (p ++ r).head? := by
  unfold St.first conc
  rw [if_pos (Int.natCast_nonneg _)]
  simp only [Int.toNat_natCast]
  rw [List.append_assoc, List.getElem?_append_right (Nat.le_refl _), Nat.sub_self]
  cases p ++ r <;> rfl

theorem found_conc (cur : Option Char) (pre : Str) (base ch : List Comp) (p : Str) (lw : Bool) (r : Str) :
    found cur ((conc pre base ch p lw).first (pre ++ text ch ++ p ++ r)) (conc pre base ch p lw).slash
      (conc pre base ch p lw).dot (conc pre base ch p lw).chr = fnd cur p := by
  rw [first_conc]
  cases p with
  | nil => simp only [conc, List.count_nil, List.countP_nil, found_zero, fnd_nil]
  | cons a p => rfl

theorem count_conc (pre : Str) (base ch : List Comp) (p : Str) (lw : Bool) (c : Char) :
    (conc pre base ch p lw).count c = conc pre base ch (p ++ [c]) lw := by
  unfold St.count
  by_cases h1 : c = '/'
  · subst h1; rw [if_pos rfl]; simp [conc, oth]
  · rw [if_neg h1]
    by_cases h2 : c = '.'
    · subst h2; rw [if_pos rfl]; simp [conc, oth]
    · rw [if_neg h2]
      have : oth c = true := (oth_iff c).2 ⟨h1, h2⟩
      simp [conc, h1, h2, this, List.count_append, List.countP_append, List.count_cons, List.countP_cons]

theorem S_count {pre base ch p lw c r} (h : fnd (some c) p = none) (hc : ch = [] ∨ c ≠ '/') :
    O pre base ch p lw (c :: r) = O pre base ch (p ++ [c]) lw r := by
  have hs : step (pre ++ text ch ++ p ++ c :: r) (conc pre base ch p lw) (pre ++ text ch ++ p).length c =
      some (conc pre base ch (p ++ [c]) lw) := by
    unfold step
    rw [found_conc, h]
    dsimp only
    rw [if_neg, count_conc]
    rcases hc with rfl | hc
    · simp [conc]
    · simp [hc]
  unfold O out
  rw [run, hs]
  have e : pre ++ text ch ++ p ++ c :: r = pre ++ text ch ++ (p ++ [c]) ++ r := by simp
  have e2 : (pre ++ text ch ++ p).length + 1 = (pre ++ text ch ++ (p ++ [c])).length := by
    simp only [List.length_append, List.length_cons, List.length_nil]; omega
  dsimp only
  rw [e, e2]

/-- The component that a pending text becomes. -/
def mkc (ty : Ty) (p : Str) : Comp :=
  match ty with
  | .volume => .volume (p.drop 2)
  | .dir => .dir p.dropLast
  | .file => .file p
  | .ext => .ext (p.drop 1)
  | .root => .root
  | .relRoot => .relRoot
  | .parent => .parent

theorem mk_mid (ty : Ty) (A p B : Str) (hv : ty = .volume → 2 ≤ p.length) (hp : p ≠ []) :
    mk ty (A ++ p ++ B) (A.length : Nat) (((A ++ p).length : Nat) - (A.length : Nat) : Int) = some (mkc ty p) := by
  have hl : (((A ++ p).length : Nat) - (A.length : Nat) : Int) = (p.length : Nat) := by
    simp only [List.length_append]; omega
  rw [hl]
  have h0 : 0 < p.length := List.length_pos_iff.2 hp
  cases ty with
  | volume =>
    have h2 := hv rfl
    have := sub_mid (A ++ p.take 2) (p.drop 2) B
    rw [show A ++ p.take 2 ++ p.drop 2 ++ B = A ++ p ++ B by simp [List.append_assoc]] at this
    simp only [mk, mkc]
    rw [show ((A.length : Nat) : Int) + 2 = ((A ++ p.take 2).length : Nat) by
        simp only [List.length_append, List.length_take]; omega,
      show ((p.length : Nat) : Int) - 2 = ((p.drop 2).length : Nat) by
        simp only [List.length_drop]; omega, this]
    rfl
  | ext =>
    have := sub_mid (A ++ p.take 1) (p.drop 1) B
    rw [show A ++ p.take 1 ++ p.drop 1 ++ B = A ++ p ++ B by rw [List.append_assoc A, List.take_append_drop]] at this
    simp only [mk, mkc]
    rw [show ((A.length : Nat) : Int) + 1 = ((A ++ p.take 1).length : Nat) by
        simp only [List.length_append, List.length_take]; omega,
      show ((p.length : Nat) : Int) - 1 = ((p.drop 1).length : Nat) by
        simp only [List.length_drop]; omega, this]
    rfl
  | dir =>
    have := sub_mid A p.dropLast ([p.getLast hp] ++ B)
    rw [show A ++ p.dropLast ++ ([p.getLast hp] ++ B) = A ++ p ++ B by
      rw [List.append_assoc, ← List.append_assoc p.dropLast, List.dropLast_concat_getLast, List.append_assoc]] at this
    simp only [mk, mkc]
    rw [show ((p.length : Nat) : Int) - 1 = (p.dropLast.length : Nat) by
        simp only [List.length_dropLast]; omega, this]
    rfl
  | file => simp only [mk, mkc]; rw [sub_mid]; rfl
  | _ => rfl

theorem text_append (a b : List Comp) : text (a ++ b) = text a ++ text b := by simp [text]
theorem text_nil : text [] = [] := rfl
theorem text_cons (c : Comp) (b : List Comp) : text (c :: b) = written c ++ text b := by simp [text]

theorem fnd_vol_len {cur p} (h : fnd cur p = some .volume) : 2 ≤ p.length := by
  unfold fnd found at h
  have h1 : p.count '/' ≤ p.length := List.count_le_length
  (repeat' split at h) <;> first | (cases h; done) | skip
  rename_i h2
  omega

theorem fnd_ne_nil {cur p ty} (h : fnd cur p = some ty) : p ≠ [] := by
  rintro rfl
  rw [fnd_nil] at h
  cases h

/-- A component is found and it is not part of a file name. -/
theorem S_flush {pre base p lw c r ty} (h : fnd (some c) p = some ty) (ht : ty ≠ .file ∧ ty ≠ .ext) :
    O pre base [] p lw (c :: r) = O (pre ++ p) (base ++ [mkc ty p]) [] [] lw (c :: r) := by
  have hm := mk_mid ty (pre ++ text []) p (c :: r) (fun e => fnd_vol_len (e ▸ h)) (fnd_ne_nil h)
  have hs : step (pre ++ text [] ++ p ++ c :: r) (conc pre base [] p lw) (pre ++ text [] ++ p).length c =
      some (conc (pre ++ p) (base ++ [mkc ty p]) [] [c] lw) := by
    unfold step
    rw [found_conc, h]
    dsimp only
    unfold flush
    have e1 : (if !(conc pre base [] p lw).hasFile && decide (ty = .ext) then Ty.file else ty) = ty := by
      simp [ht.2]
    simp only [e1]
    have e2 : (conc pre base [] p lw).start = ((pre ++ text []).length : Nat) := rfl
    rw [e2, hm]
    simp only [Option.map_some]
    have e3 := count_conc (pre ++ p) (base ++ [mkc ty p]) [] [] lw c
    simp only [List.nil_append] at e3
    rw [← e3]
    simp [conc, St.reset, ht, text_nil]
  have hz : O (pre ++ p) (base ++ [mkc ty p]) [] [] lw (c :: r) = O (pre ++ p) (base ++ [mkc ty p]) [] [c] lw r :=
    S_count (fnd_nil _) (.inl rfl)
  rw [hz]
  unfold O out
  rw [run, hs]
  have e : pre ++ text [] ++ p ++ c :: r = pre ++ p ++ text [] ++ [c] ++ r := by simp [text_nil]
  have e2 : (pre ++ text [] ++ p).length + 1 = (pre ++ p ++ text [] ++ [c]).length := by
    simp only [text_nil, List.length_append, List.length_cons, List.length_nil]; omega
  dsimp only
  rw [e, e2]

/-- The first part of a file name is found. -/
theorem S_file {pre base p lw c r ty} (h : fnd (some c) p = some ty) (ht : ty = .file ∨ ty = .ext) (hc : c = '.') :
    O pre base [] p lw (c :: r) = O pre base [.file p] [] lw (c :: r) := by
  have hm := mk_mid .file (pre ++ text []) p (c :: r) (fun e => nomatch e) (fnd_ne_nil h)
  have hs : step (pre ++ text [] ++ p ++ c :: r) (conc pre base [] p lw) (pre ++ text [] ++ p).length c =
      some (conc pre base [.file p] [c] lw) := by
    unfold step
    rw [found_conc, h]
    dsimp only
    unfold flush
    have e1 : (if !(conc pre base [] p lw).hasFile && decide (ty = .ext) then Ty.file else ty) = .file := by
      rcases ht with rfl | rfl <;> simp [conc]
    simp only [e1]
    have e2 : (conc pre base [] p lw).start = ((pre ++ text []).length : Nat) := rfl
    rw [e2, hm]
    simp only [Option.map_some]
    have e3 := count_conc pre base [.file p] [] lw c
    simp only [List.nil_append] at e3
    rw [← e3]
    rcases ht with rfl | rfl <;> simp [conc, St.reset, text_nil, text_cons, written, mkc]
  have hz : O pre base [.file p] [] lw (c :: r) = O pre base [.file p] [c] lw r :=
    S_count (fnd_nil _) (.inr (by subst hc; decide))
  rw [hz]
  unfold O out
  rw [run, hs]
  have e : pre ++ text [] ++ p ++ c :: r = pre ++ text [.file p] ++ [c] ++ r := by simp [text_nil, text_cons, written]
  have e2 : (pre ++ text [] ++ p).length + 1 = (pre ++ text [.file p] ++ [c]).length := by
    simp only [text_nil, text_cons, written, List.length_append, List.length_cons, List.length_nil]; omega
  dsimp only
  rw [e, e2]

/-- A further extension is found. -/
theorem S_ext {pre base ch e lw c r} (hch : ch ≠ []) (h : fnd (some c) ('.' :: e) = some .ext) (hc : c = '.') :
    O pre base ch ('.' :: e) lw (c :: r) = O pre base (ch ++ [.ext e]) [] lw (c :: r) := by
  have hm := mk_mid .ext (pre ++ text ch) ('.' :: e) (c :: r) (fun e => nomatch e) (fnd_ne_nil h)
  have hs : step (pre ++ text ch ++ ('.' :: e) ++ c :: r) (conc pre base ch ('.' :: e) lw)
      (pre ++ text ch ++ ('.' :: e)).length c = some (conc pre base (ch ++ [.ext e]) [c] lw) := by
    unfold step
    rw [found_conc, h]
    dsimp only
    unfold flush
    have e1 : (if !(conc pre base ch ('.' :: e) lw).hasFile && decide (Ty.ext = .ext) then Ty.file else Ty.ext) =
        .ext := by
      simp [conc, hch]
    have e2 : (conc pre base ch ('.' :: e) lw).start = ((pre ++ text ch).length : Nat) := rfl
    dsimp only
    rw [e1, e2, hm]
    simp only [Option.map_some]
    have e3 := count_conc pre base (ch ++ [.ext e]) [] lw c
    simp only [List.nil_append] at e3
    rw [← e3]
    have hne : (ch ++ [Comp.ext e]).isEmpty = false := by cases ch <;> rfl
    simp [conc, St.reset, text_nil, text_cons, text_append, written, mkc, hch, hne]
  have hz : O pre base (ch ++ [.ext e]) [] lw (c :: r) = O pre base (ch ++ [.ext e]) [c] lw r :=
    S_count (fnd_nil _) (.inr (by subst hc; decide))
  rw [hz]
  unfold O out
  rw [run, hs]
  have e4 : pre ++ text ch ++ ('.' :: e) ++ c :: r = pre ++ text (ch ++ [.ext e]) ++ [c] ++ r := by
    simp [text_nil, text_cons, text_append, written]
  have e2 : (pre ++ text ch ++ ('.' :: e)).length + 1 = (pre ++ text (ch ++ [.ext e]) ++ [c]).length := by
    simp only [text_nil, text_cons, text_append, written, List.length_append, List.length_cons, List.length_nil]; omega
  dsimp only
  rw [e4, e2]

/-- The components of a file name as the parser collects them. -/
def Chain (ch : List Comp) : Prop := ∃ n es, ch = .file n :: es ∧ ∀ e ∈ es, ∃ x, e = .ext x

theorem Chain.ne {ch} (h : Chain ch) : ch ≠ [] := by obtain ⟨n, es, rfl, _⟩ := h; simp

theorem Chain.snoc {ch} (h : Chain ch) (x : Str) : Chain (ch ++ [.ext x]) := by
  obtain ⟨n, es, rfl, he⟩ := h
  refine ⟨n, es ++ [.ext x], by simp, ?_⟩
  intro e hm
  rcases List.mem_append.1 hm with hm | hm
  · exact he e hm
  · exact ⟨x, by simpa using hm⟩

theorem takeBack_exts (es : List Comp) (he : ∀ e ∈ es, ∃ x, e = .ext x) (l : List Comp) (k : Int) :
    takeBack (es ++ l) k = takeBack l (k - ((text es).length : Nat)) := by
  induction es generalizing k with
  | nil => simp [text_nil]
  | cons e es ih =>
    obtain ⟨x, rfl⟩ := he e (by simp)
    rw [List.cons_append, takeBack, if_pos (show (Comp.ext x).isName = true from rfl), ih (fun e h => he e (by simp [h]))]
    congr 1
    simp only [Comp.str, Option.getD_some, text_cons, written, List.length_append, List.length_cons]
    omega

theorem text_len_reverse (es : List Comp) : (text es.reverse).length = (text es).length := by
  induction es with
  | nil => rfl
  | cons e es ih =>
    rw [List.reverse_cons, text_append, text_cons, List.length_append, ih, text_cons, text_nil]
    simp only [List.length_append, List.length_nil]; omega

theorem takeBack_chain {ch base} (hc : Chain ch) (hb : ∀ c ∈ base, c.isName = false) (k : Nat) :
    takeBack (base ++ ch).reverse ((k + (text ch).length : Nat) : Int) = (base.reverse, (k : Int) - 1) := by
  obtain ⟨n, es, rfl, he⟩ := hc
  rw [List.reverse_append, List.reverse_cons, List.append_assoc, takeBack_exts es.reverse
    (by intro e h; exact he e (List.mem_reverse.1 h)), List.singleton_append, takeBack,
    if_pos (show (Comp.file n).isName = true from rfl)]
  have hk : ((k + (text (.file n :: es)).length : Nat) : Int) - ((text es.reverse).length : Nat) -
      ((((Comp.file n).str.getD []).length : Int) + 1) = (k : Int) - 1 := by
    rw [text_len_reverse]
    simp only [Comp.str, Option.getD_some, text_cons, written, List.length_append]
    omega
  rw [hk]
  cases hr : base.reverse with
  | nil => rfl
  | cons c cs =>
    rw [takeBack, if_neg]
    rw [hb c (List.mem_reverse.1 (by rw [hr]; simp))]
    simp

/-- The file name becomes a directory. -/
theorem S_fix {pre base ch p lw r} (hch : Chain ch) (hb : ∀ c ∈ base, c.isName = false)
    (h : fnd (some '/') p = none) :
    ∃ lw', O pre base ch p lw ('/' :: r) =
      O (pre ++ text ch ++ p ++ ['/']) (base ++ [.dir (text ch ++ p)]) [] [] lw' r := by
  have htb := takeBack_chain hch hb pre.length
  refine ⟨lw || decide ((pre.length : Int) - 1 < 0), ?_⟩
  have hm := mk_mid .dir pre (text ch ++ p ++ ['/']) r (fun e => nomatch e) (by simp)
  have hs : step (pre ++ text ch ++ p ++ '/' :: r) (conc pre base ch p lw) (pre ++ text ch ++ p).length '/' =
      some (conc (pre ++ text ch ++ p ++ ['/']) (base ++ [.dir (text ch ++ p)]) [] []
        (lw || decide ((pre.length : Int) - 1 < 0))) := by
    unfold step
    rw [found_conc, h]
    dsimp only
    rw [if_pos (by simp [conc, hch.ne])]
    unfold fixup
    have e1 : takeBack (conc pre base ch p lw).comps.reverse (conc pre base ch p lw).start =
        (base.reverse, (pre.length : Int) - 1) := by
      have : (conc pre base ch p lw).start = ((pre.length + (text ch).length : Nat) : Int) := by
        simp [conc]
      rw [this]; exact htb
    simp only [e1]
    have e3 : (pre.length : Int) - 1 + 1 = (pre.length : Nat) := by omega
    have e4 : (((pre ++ text ch ++ p).length : Nat) : Int) - ((pre.length : Int) - 1) =
        ((pre ++ (text ch ++ p ++ ['/'])).length : Nat) - (pre.length : Nat) := by
      simp only [List.length_append, List.length_cons, List.length_nil]; omega
    have e5 : pre ++ text ch ++ p ++ '/' :: r = pre ++ (text ch ++ p ++ ['/']) ++ r := by simp
    rw [e3, e4, e5, hm]
    simp [conc, St.reset, text_nil, mkc]
    omega
  unfold O out
  rw [run, hs]
  have e : pre ++ text ch ++ p ++ '/' :: r = pre ++ text ch ++ p ++ ['/'] ++ text [] ++ [] ++ r := by simp [text_nil]
  have e2 : (pre ++ text ch ++ p).length + 1 = (pre ++ text ch ++ p ++ ['/'] ++ text [] ++ []).length := by
    simp only [text_nil, List.length_append, List.length_cons, List.length_nil]
  dsimp only
  rw [e, e2]

/-- The end of the text. -/
theorem E_none {pre base ch p lw} (h : fnd none p = none) : O pre base ch p lw [] = some (base ++ ch) := by
  unfold O out
  rw [run, Option.bind_some]
  unfold finish
  rw [found_conc, h]
  rfl

theorem E_some {pre base ch p lw ty} (h : fnd none p = some ty) :
    O pre base ch p lw [] = some (base ++ ch ++ [mkc ty p]) := by
  have hm := mk_mid ty (pre ++ text ch) p [] (fun e => fnd_vol_len (e ▸ h)) (fnd_ne_nil h)
  unfold O out
  rw [run, Option.bind_some]
  unfold finish
  rw [found_conc, h]
  have e2 : (conc pre base ch p lw).start = ((pre ++ text ch).length : Nat) := rfl
  dsimp only
  rw [List.append_nil] at hm ⊢
  rw [e2, hm]
  rfl

end Verif.Path
