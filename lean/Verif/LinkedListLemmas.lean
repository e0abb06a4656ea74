import Verif.LinkedListSpec
import Mathlib.Data.List.Nodup
import Mathlib.Data.List.Perm.Subperm
import Mathlib.Data.List.Induction
import Mathlib.Tactic.Tauto
namespace Verif.LinkedList
open Spec

/-- A segment of a chain: `p` is what the first node's `prev` holds, `q` what the last node's `next` holds. -/
def Seg (nx pv : Nat → Option Nat) : Option Nat → List Nat → Option Nat → Prop
  | _, [], _ => True
  | p, x :: xs, q => pv x = p ∧ nx x = xs.head?.or q ∧ Seg nx pv (some x) xs q

variable {nx pv : Nat → Option Nat}

theorem seg_append (a b : List Nat) : ∀ p q, Seg nx pv p (a ++ b) q ↔
    Seg nx pv p a (b.head?.or q) ∧ Seg nx pv (a.getLast?.or p) b q := by
  induction a with
  | nil => intro p q; simp [Seg]
  | cons x xs ih =>
    intro p q
    simp only [List.cons_append, Seg, ih, List.head?_append, List.getLast?_cons]
    cases xs <;> simp [and_assoc, List.getLast?_cons]

theorem seg_updN {c : List Nat} {x v} : ∀ {p q}, x ∉ c → (Seg (upd nx x v) pv p c q ↔ Seg nx pv p c q) := by
  induction c with
  | nil => simp [Seg]
  | cons y ys ih =>
    intro p q hx
    simp at hx
    simp only [Seg, ih hx.2, upd, if_neg (fun h => hx.1 h.symm : ¬ y = x)]

theorem seg_updP {c : List Nat} {x v} : ∀ {p q}, x ∉ c → (Seg nx (upd pv x v) p c q ↔ Seg nx pv p c q) := by
  induction c with
  | nil => simp [Seg]
  | cons y ys ih =>
    intro p q hx
    simp at hx
    simp only [Seg, ih hx.2, upd, if_neg (fun h => hx.1 h.symm : ¬ y = x)]

theorem upd_same {f : Nat → Option Nat} {x v} : upd f x v x = v := by simp [upd]
theorem upd_ne {f : Nat → Option Nat} {x y v} (h : y ≠ x) : upd f x v y = f y := by simp [upd, h]

theorem isChain_iff (h : Heap) (c : List Nat) : IsChain h c ↔ (∀ x ∈ c, h.live x = true) ∧ Seg h.next h.prev none c none := by
  constructor
  · intro H
    refine ⟨fun x hx => ?_, ?_⟩
    · obtain ⟨a, b, rfl⟩ := List.append_of_mem hx
      exact (H a x b rfl).1
    · suffices ∀ (b a : List Nat), c = a ++ b → Seg h.next h.prev a.getLast? b none from this c [] rfl
      intro b
      induction b with
      | nil => intros; trivial
      | cons x xs ih =>
        intro a hc
        obtain ⟨-, h2, h3⟩ := H a x xs hc
        refine ⟨h2, by simp [h3], ?_⟩
        have := ih (a ++ [x]) (by simp [hc])
        simpa using this
  · rintro ⟨hl, hs⟩ a x b rfl
    rw [seg_append] at hs
    obtain ⟨-, h1, h2, -⟩ := hs
    exact ⟨hl x (by simp), by simpa using h1, by simpa using h2⟩

/-- Everything a call may rely on, in the form used by the proofs. -/
structure Ok (h : Heap) (cs : List (List Nat)) : Prop where
  ne : ∀ c ∈ cs, c ≠ []
  seg : ∀ c ∈ cs, Seg h.next h.prev none c none
  nodup : cs.flatten.Nodup
  live : ∀ x, h.live x = true ↔ x ∈ cs.flatten
  fresh : ∀ x, h.size ≤ x → h.freed x = false

theorem Ok.consists {h cs} (o : Ok h cs) : Consists h cs := by
  refine ⟨fun c hc => ⟨o.ne c hc, (isChain_iff _ _).2 ⟨fun x hx => (o.live x).2 ?_, o.seg c hc⟩⟩, o.nodup, fun x hx => (o.live x).1 hx⟩
  exact List.mem_flatten.2 ⟨c, hc, hx⟩

theorem Ok.perm {h cs cs'} (o : Ok h cs) (p : cs.Perm cs') : Ok h cs' := by
  have pf := p.flatten
  exact ⟨fun c hc => o.ne c (p.mem_iff.2 hc), fun c hc => o.seg c (p.mem_iff.2 hc), pf.nodup_iff.1 o.nodup,
    fun x => by rw [o.live x, pf.mem_iff], o.fresh⟩

/-- The number of usable nodes bounds the length of a chain. -/
theorem len_le {l : List Nat} (hn : l.Nodup) : ∀ n, (∀ x ∈ l, x < n) → l.length ≤ n := by
  intro n hlt
  have : l ⊆ List.range n := fun x hx => List.mem_range.2 (hlt x hx)
  have := (List.subperm_of_subset hn this).length_le
  simpa using this

theorem Ok.len {h cs} (o : Ok h cs) {c} (hc : c ∈ cs) : c.length ≤ h.size := by
  apply len_le
  · exact (List.nodup_flatten.1 o.nodup).1 c hc
  · intro x hx
    have := (o.live x).2 (List.mem_flatten.2 ⟨c, hc, hx⟩)
    simp [Heap.live] at this; exact this.1

theorem tailLoop_eq {h : Heap} : ∀ (b : List Nat) (x : Nat) (p : Option Nat) (fuel : Nat), b.length < fuel →
    (∀ y ∈ x :: b, h.live y = true) → Seg h.next h.prev p (x :: b) none →
    tailLoop h fuel x = some (b.getLast?.getD x) := by
  intro b
  induction b with
  | nil =>
    intro x p fuel hf hl hs
    obtain ⟨f, rfl⟩ : ∃ f, fuel = f + 1 := ⟨fuel - 1, by omega⟩
    simp [tailLoop, nextOf, hl x (by simp), hs.2.1]
  | cons y ys ih =>
    intro x p fuel hf hl hs
    obtain ⟨f, rfl⟩ : ∃ f, fuel = f + 1 := ⟨fuel - 1, by omega⟩
    have h1 : h.next x = some y := by simpa using hs.2.1
    simp [tailLoop, nextOf, hl x (by simp), h1]
    rw [ih y (some x) f (by simp at hf; omega) (fun z hz => hl z (by simp at hz ⊢; tauto)) hs.2.2]
    simp [List.getLast?_cons]

theorem headLoop_eq {h : Heap} : ∀ (n : Nat) (a : List Nat), a.length = n → ∀ (x : Nat) (b : List Nat) (q : Option Nat) (fuel : Nat), a.length < fuel →
    (∀ y ∈ a ++ [x], h.live y = true) → Seg h.next h.prev none (a ++ x :: b) q →
    headLoop h fuel x = some (a.head?.getD x) := by
  intro n
  induction n with
  | zero =>
    intro a ha x b q fuel hf hl hs
    obtain rfl : a = [] := List.length_eq_zero_iff.1 ha
    obtain ⟨f, rfl⟩ : ∃ f, fuel = f + 1 := ⟨fuel - 1, by omega⟩
    simp [headLoop, prevOf, hl x (by simp), hs.1]
  | succ n ih =>
    intro a ha x b q fuel hf hl hs
    obtain ⟨f, rfl⟩ : ∃ f, fuel = f + 1 := ⟨fuel - 1, by omega⟩
    obtain ⟨a', y, rfl⟩ : ∃ a' y, a = a' ++ [y] := ⟨a.dropLast, a.getLast (by intro h; simp [h] at ha), (List.dropLast_concat_getLast _).symm⟩
    have h1 : h.prev x = some y := by
      rw [seg_append] at hs; simpa using hs.2.1
    simp [headLoop, prevOf, hl x (by simp), h1]
    rw [ih a' (by simpa using ha) y (x :: b) q f (by simp at hf; omega) (fun z hz => hl z (by simp at hz ⊢; tauto)) (by simpa using hs)]

theorem Ok.tail {h cs} (o : Ok h cs) {a b x} (hc : a ++ x :: b ∈ cs) : getTail h x = some (b.getLast?.getD x) := by
  have hs := o.seg _ hc
  rw [seg_append] at hs
  have hlen := o.len hc
  simp at hlen
  refine tailLoop_eq b x _ _ (by omega) (fun y hy => (o.live y).2 (List.mem_flatten.2 ⟨_, hc, by simp at hy ⊢; tauto⟩)) hs.2

theorem Ok.head {h cs} (o : Ok h cs) {a b x} (hc : a ++ x :: b ∈ cs) : getHead h x = some (a.head?.getD x) := by
  have hs := o.seg _ hc
  have hlen := o.len hc
  simp at hlen
  exact headLoop_eq _ a rfl x b _ _ (by omega) (fun y hy => (o.live y).2 (List.mem_flatten.2 ⟨_, hc, by simp at hy ⊢; tauto⟩)) hs

theorem seg_setHead {c p p' q hd} (h : Seg nx pv p c q) (hh : c.head? = some hd) (hn : c.Nodup) :
    Seg nx (upd pv hd p') p' c q := by
  cases c with
  | nil => trivial
  | cons x xs =>
    simp at hh; subst hh
    refine ⟨upd_same, h.2.1, (seg_updP (List.nodup_cons.1 hn).1).2 h.2.2⟩

theorem seg_setLast {c p q q' tl} (h : Seg nx pv p c q) (hh : c.getLast? = some tl) (hn : c.Nodup) :
    Seg (upd nx tl q') pv p c q' := by
  obtain ⟨c', rfl⟩ : ∃ c', c = c' ++ [tl] := by
    cases hc : c using List.reverseRecOn with
    | nil => simp [hc] at hh
    | append_singleton c' x => simp [hc] at hh; exact ⟨c', by rw [hh]⟩
  rw [seg_append] at h ⊢
  refine ⟨(seg_updN ?_).2 ?_, h.2.1, by simp [upd_same], trivial⟩
  · intro hm; simp [List.nodup_append] at hn; exact hn.2 _ hm rfl
  · simpa using h.1

theorem seg_congr {nx' pv' : Nat → Option Nat} {c : List Nat} : ∀ {p q}, (∀ x ∈ c, nx x = nx' x ∧ pv x = pv' x) →
    Seg nx pv p c q → Seg nx' pv' p c q := by
  induction c with
  | nil => intros; trivial
  | cons x xs ih =>
    intro p q h hs
    have := h x (by simp)
    exact ⟨by rw [← this.2, hs.1], by rw [← this.1, hs.2.1], ih (fun y hy => h y (by simp [hy])) hs.2.2⟩

/-- Replace some chains of a heap by others made of the same nodes. -/
theorem Ok.replace {h h' : Heap} {old new rest : List (List Nat)} (o : Ok h (old ++ rest)) (hsize : h'.size = h.size) (hfreed : h'.freed = h.freed)
    (hp : new.flatten.Perm old.flatten) (hne : ∀ c ∈ new, c ≠ [])
    (hframe : ∀ x, x ∉ old.flatten → h.next x = h'.next x ∧ h.prev x = h'.prev x)
    (hseg : ∀ c ∈ new, Seg h'.next h'.prev none c none) : Ok h' (new ++ rest) := by
  have hnd := o.nodup
  rw [List.flatten_append, List.nodup_append] at hnd
  refine ⟨?_, ?_, ?_, ?_, ?_⟩
  · intro c hc
    rcases List.mem_append.1 hc with h | h
    · exact hne c h
    · exact o.ne c (by simp [h])
  · intro c hc
    rcases List.mem_append.1 hc with h | h
    · exact hseg c h
    · refine seg_congr (fun x hx => hframe x fun hm => ?_) (o.seg c (by simp [h]))
      exact hnd.2.2 x hm x (List.mem_flatten.2 ⟨c, h, hx⟩) rfl
  · have : (new ++ rest).flatten.Perm (old ++ rest).flatten := by simp only [List.flatten_append]; exact hp.append_right _
    exact this.nodup_iff.2 o.nodup
  · intro x
    have hl : h'.live x = h.live x := by simp [Heap.live, hsize, hfreed]
    rw [hl, o.live x]; simp only [List.flatten_append, List.mem_append, hp.mem_iff]
  · intro x hx; rw [hfreed]; exact o.fresh x (by omega)

theorem setNext_ok {h : Heap} {x v} (hl : h.live x = true) : setNext h x v = some { h with next := upd h.next x v } := by simp [setNext, hl]
theorem setPrev_ok {h : Heap} {x v} (hl : h.live x = true) : setPrev h x v = some { h with prev := upd h.prev x v } := by simp [setPrev, hl]
theorem nextOf_ok {h : Heap} {x} (hl : h.live x = true) : nextOf h x = some (h.next x) := by simp [nextOf, hl]
theorem prevOf_ok {h : Heap} {x} (hl : h.live x = true) : prevOf h x = some (h.prev x) := by simp [prevOf, hl]
theorem live_next {h : Heap} {f x} : Heap.live { h with next := f } x = h.live x := rfl
theorem live_prev {h : Heap} {f x} : Heap.live { h with prev := f } x = h.live x := rfl

theorem live_mk {h : Heap} {f g x} : Heap.live ⟨h.size, h.freed, f, g⟩ x = h.live x := rfl

theorem some_bind' {β γ} (x : β) (f : β → Option γ) : (some x >>= f) = f x := rfl

theorem Ok.lv {h cs c x} (o : Ok h cs) (hc : c ∈ cs) (hx : x ∈ c) : h.live x = true :=
  (o.live x).2 (List.mem_flatten.2 ⟨c, hc, hx⟩)

theorem nd3 {P R Q : List Nat} (h : (P ++ (R ++ Q)).Nodup) : P.Nodup ∧ R.Nodup ∧ Q.Nodup ∧
    (∀ x ∈ P, x ∉ R) ∧ (∀ x ∈ P, x ∉ Q) ∧ (∀ x ∈ R, x ∉ Q) := by
  rw [List.nodup_append, List.nodup_append] at h
  obtain ⟨h1, ⟨h2, h3, h4⟩, h5⟩ := h
  exact ⟨h1, h2, h3, fun x hp hr => h5 x hp x (by simp [hr]) rfl, fun x hp hr => h5 x hp x (by simp [hr]) rfl,
    fun x hp hr => h4 x hp x hr rfl⟩

/-- Facts about a chain `c` containing the node `n`. -/
theorem ends {h : Heap} {cs c n} (o : Ok h cs) (hcs : c ∈ cs) (hn : n ∈ c) : ∃ hd tl, c.head? = some hd ∧ c.getLast? = some tl ∧ hd ∈ c ∧ tl ∈ c ∧
    getHead h n = some hd ∧ getTail h n = some tl ∧ h.live hd = true ∧ h.live tl = true ∧ h.live n = true := by
  obtain ⟨c1, c2, hc⟩ := List.append_of_mem hn
  obtain ⟨hd, hhd⟩ : ∃ hd, c.head? = some hd := by cases c <;> simp at hn ⊢
  obtain ⟨tl, htl⟩ : ∃ tl, c.getLast? = some tl := by cases c using List.reverseRecOn <;> simp at hn ⊢
  have ehd : getHead h n = some hd := by
    rw [o.head (a := c1) (b := c2) (by simpa [← hc] using hcs), ← hhd, hc]; cases c1 <;> simp
  have etl : getTail h n = some tl := by
    rw [o.tail (a := c1) (b := c2) (by simpa [← hc] using hcs), ← htl, hc]; cases c2 using List.reverseRecOn <;> simp [List.getLast?_cons]
  have mhd : hd ∈ c := List.mem_of_mem_head? hhd
  have mtl : tl ∈ c := List.mem_of_getLast? htl
  exact ⟨hd, tl, hhd, htl, mhd, mtl, ehd, etl, o.lv hcs mhd, o.lv hcs mtl, o.lv hcs hn⟩

theorem nd_two {h : Heap} {P R c rest} (o : Ok h ((P ++ R) :: c :: rest)) : (P ++ (R ++ c)).Nodup := by
  have := o.nodup; simp only [List.flatten_cons, ← List.append_assoc] at this
  rw [List.nodup_append] at this; simpa using this.1

/-- Linking the last node of one chain to the first of another. -/
theorem join_ok {h : Heap} {rest a c l hd} (o : Ok h (a :: c :: rest)) (hl : a.getLast? = some l) (hh : c.head? = some hd) :
    Ok { h with next := upd h.next l (some hd), prev := upd h.prev hd (some l) } ((a ++ c) :: rest) := by
  have s1 := o.seg a (by simp)
  have s2 := o.seg c (by simp)
  obtain ⟨n1, -, n3, -, d2, -⟩ := nd3 (P := a) (R := []) (Q := c) (nd_two (by simpa using o))
  have ml : l ∈ a := List.mem_of_getLast? hl
  have mh : hd ∈ c := List.mem_of_mem_head? hh
  refine Ok.replace (old := [a, c]) (new := [a ++ c]) o rfl rfl (by simp)
    (by simp only [List.mem_singleton, forall_eq]; intro h; simp at h; simp [h.1] at ml) ?_ ?_
  · intro x hx
    simp only [List.flatten_cons, List.flatten_nil, List.append_nil, List.mem_append, not_or] at hx
    simp only []
    rw [upd_ne (by rintro rfl; exact hx.1 ml), upd_ne (by rintro rfl; exact hx.2 mh)]; simp
  · simp only [List.mem_singleton, forall_eq]
    rw [seg_append]
    refine ⟨(seg_updP (fun h => d2 _ h mh)).2 ?_, (seg_updN (d2 _ ml)).2 ?_⟩
    · simpa [hh] using seg_setLast (q' := some hd) s1 hl n1
    · simpa [hl] using seg_setHead (p' := some l) s2 hh n3

/-- Splicing a chain between two neighbours. -/
theorem splice_ok {h : Heap} {rest a b c l m hd tl} (o : Ok h ((a ++ l :: m :: b) :: c :: rest))
    (hh : c.head? = some hd) (ht : c.getLast? = some tl) :
    Ok { h with next := upd (upd h.next l (some hd)) tl (some m), prev := upd (upd h.prev m (some tl)) hd (some l) }
      ((a ++ l :: (c ++ m :: b)) :: rest) := by
  have s1 := o.seg (a ++ l :: m :: b) (by simp)
  have s2 := o.seg c (by simp)
  obtain ⟨n1, n2, n3, d1, d2, d3⟩ := nd3 (P := a ++ [l]) (R := m :: b) (Q := c) (nd_two (by simpa using o))
  have ml : l ∈ a ++ [l] := by simp
  have mm : m ∈ m :: b := by simp
  have mh : hd ∈ c := List.mem_of_mem_head? hh
  have mt : tl ∈ c := List.mem_of_getLast? ht
  rw [show a ++ l :: m :: b = (a ++ [l]) ++ m :: b by simp, seg_append] at s1
  refine Ok.replace (old := [a ++ l :: m :: b, c]) (new := [a ++ l :: (c ++ m :: b)]) o rfl rfl ?_ (by simp) ?_ ?_
  · simp only [List.flatten_cons, List.flatten_nil, List.append_nil]
    rw [List.append_assoc]
    exact List.Perm.append_left _ (by simp only [List.cons_append]; exact .cons _ List.perm_append_comm)
  · intro x hx
    simp only [List.flatten_cons, List.flatten_nil, List.append_nil, List.mem_append, List.mem_cons, not_or] at hx
    simp only []
    rw [upd_ne (by rintro rfl; exact hx.2 mt), upd_ne hx.1.2.1, upd_ne (by rintro rfl; exact hx.2 mh), upd_ne hx.1.2.2.1]; simp
  · simp only [List.mem_singleton, forall_eq]
    rw [show a ++ l :: (c ++ m :: b) = (a ++ [l]) ++ (c ++ m :: b) by simp, seg_append (a ++ [l]), seg_append c]
    refine ⟨(seg_updN (fun h => d2 _ h mt)).2 ((seg_updP (fun h => d2 _ h mh)).2 ((seg_updP (fun h => d1 _ h mm)).2 ?_)), ?_, ?_⟩
    · simpa [hh] using seg_setLast (q' := some hd) s1.1 (by simp) n1
    · have : Seg (upd h.next l (some hd)) (upd h.prev m (some tl)) none c none := (seg_updN (d2 _ ml)).2 ((seg_updP (d3 _ mm)).2 s2)
      simpa using seg_setLast (q' := some m) (seg_setHead (p' := some l) this hh n3) ht n3
    · refine (seg_updN (fun h => d3 _ h mt)).2 ((seg_updN (d1 _ ml)).2 ((seg_updP (fun h => d3 _ h mh)).2 ?_))
      simpa [ht] using seg_setHead (p' := some tl) s1.2 (by simp) n2

theorem seg_next {h : Heap} {a b l cs} (o : Ok h cs) (hc : a ++ l :: b ∈ cs) : h.next l = b.head? := by
  have s := o.seg _ hc; rw [seg_append] at s; simpa using s.2.2.1
theorem seg_prev {h : Heap} {a b l cs} (o : Ok h cs) (hc : a ++ l :: b ∈ cs) : h.prev l = a.getLast? := by
  have s := o.seg _ hc; rw [seg_append] at s; simpa using s.2.1

theorem insertAfter_ok {h : Heap} {rest a b c l n} (o : Ok h ((a ++ l :: b) :: c :: rest)) (hn : n ∈ c) :
    ∃ h', insertAfter h l n = some (h', l) ∧ Ok h' ((a ++ l :: (c ++ b)) :: rest) := by
  have ll : h.live l = true := o.lv (c := a ++ l :: b) (by simp) (by simp)
  obtain ⟨hd, tl, hh, ht, mh, mt, eh, et, lh, lt, -⟩ := ends o (c := c) (by simp) hn
  have e1 := seg_next o (a := a) (b := b) (l := l) (by simp)
  cases b with
  | nil =>
    refine ⟨_, ?_, by simpa using join_ok (l := l) o (by simp) hh⟩
    simp at e1
    simp [insertAfter, nextOf_ok ll, e1, eh, setNext_ok ll, setPrev, live_next, lh]
  | cons m b' =>
    have lm : h.live m = true := o.lv (c := a ++ l :: m :: b') (by simp) (by simp)
    simp at e1
    refine ⟨_, ?_, splice_ok o hh ht⟩
    simp [insertAfter, nextOf_ok ll, e1, eh, et, setNext, setPrev, Heap.live] at *
    simp [*]

theorem insertBefore_ok {h : Heap} {rest a b c l n} (o : Ok h ((a ++ l :: b) :: c :: rest)) (hn : n ∈ c) :
    ∃ h', insertBefore h l n = some (h', n) ∧ Ok h' ((a ++ (c ++ l :: b)) :: rest) := by
  have ll : h.live l = true := o.lv (c := a ++ l :: b) (by simp) (by simp)
  obtain ⟨hd, tl, hh, ht, mh, mt, eh, et, lh, lt, -⟩ := ends o (c := c) (by simp) hn
  have e1 := seg_prev o (a := a) (b := b) (l := l) (by simp)
  cases a using List.reverseRecOn with
  | nil =>
    refine ⟨_, ?_, by simpa using join_ok (l := tl) (hd := l) (o.perm (List.Perm.swap _ _ _)) ht (by simp)⟩
    simp at e1
    simp [insertBefore, prevOf_ok ll, e1, et, setPrev_ok ll, setNext, live_prev, lt]
  | append_singleton a' m =>
    have lm : h.live m = true := o.lv (c := (a' ++ [m]) ++ l :: b) (by simp) (by simp)
    simp at e1
    obtain ⟨n1, n2, n3, d1, d2, d3⟩ := nd3 (P := a' ++ [m]) (R := l :: b) (Q := c) (nd_two (by simpa using o))
    have hne : tl ≠ m := fun h => d2 m (by simp) (h ▸ mt)
    have hne2 : hd ≠ l := fun h => d3 l (by simp) (h ▸ mh)
    refine ⟨_, ?_, by simpa using splice_ok (a := a') (l := m) (m := l) (by simpa using o) hh ht⟩
    simp [insertBefore, prevOf_ok ll, e1, eh, et, setNext, setPrev, Heap.live] at *
    simp [*]

theorem getLast_split {c : List Nat} {x} (h : c.getLast? = some x) : ∃ c', c = c' ++ [x] := by
  cases hc : c using List.reverseRecOn with
  | nil => simp [hc] at h
  | append_singleton c' y => simp [hc] at h; exact ⟨c', by rw [h]⟩

theorem head_split {c : List Nat} {x} (h : c.head? = some x) : ∃ c', c = x :: c' := by
  cases c <;> simp at h; subst h; exact ⟨_, rfl⟩

theorem append_ok {h : Heap} {rest a c l n} (o : Ok h (a :: c :: rest)) (hl : l ∈ a) (hn : n ∈ c) :
    ∃ h', append h l n = some (h', n) ∧ Ok h' ((a ++ c) :: rest) := by
  obtain ⟨-, tl, -, ht, -, mt, -, et, -, lt, -⟩ := ends o (c := a) (by simp) hl
  obtain ⟨hd, -, hh, -, mh, -, eh, -, lh, -, ln⟩ := ends o (c := c) (by simp) hn
  refine ⟨_, ?_, join_ok o ht hh⟩
  obtain ⟨c1, c2, hc⟩ := List.append_of_mem hn
  have hp := seg_prev o (a := c1) (b := c2) (l := n) (by simp [hc])
  obtain ⟨a', rfl⟩ := getLast_split ht
  have hx := seg_next o (a := a') (b := []) (l := tl) (by simp)
  cases c1 using List.reverseRecOn with
  | nil =>
    simp at hp
    simp [hc] at hh; subst hh
    simp [append, et, prevOf_ok ln, hp, setNext_ok lt, setPrev, live_next, lh]
  | append_singleton c1 y =>
    simp at hp hx
    simp [append, et, prevOf_ok ln, hp, eh, nextOf_ok lt, hx, setPrev_ok lh, setNext, live_prev, lt]

theorem prepend_ok {h : Heap} {rest a c l n} (o : Ok h (a :: c :: rest)) (hl : l ∈ a) (hn : n ∈ c) :
    ∃ h', prepend h l n = some (h', n) ∧ Ok h' ((c ++ a) :: rest) := by
  obtain ⟨hd, -, hh, -, mh, -, eh, -, lh, -, -⟩ := ends o (c := a) (by simp) hl
  obtain ⟨-, tl, -, ht, -, mt, -, et, -, lt, ln⟩ := ends o (c := c) (by simp) hn
  refine ⟨_, ?_, join_ok (o.perm (List.Perm.swap _ _ _)) ht hh⟩
  obtain ⟨c1, c2, hc⟩ := List.append_of_mem hn
  have hp := seg_next o (a := c1) (b := c2) (l := n) (by simp [hc])
  obtain ⟨a', rfl⟩ := head_split hh
  have hx := seg_prev o (a := []) (b := a') (l := hd) (by simp)
  cases c2 with
  | nil =>
    simp at hp
    simp [hc] at ht; subst ht
    simp [prepend, eh, nextOf_ok ln, hp, setPrev_ok lh, setNext, live_prev, lt]
  | cons y c2 =>
    simp at hp hx
    simp [prepend, et, nextOf_ok ln, hp, eh, prevOf_ok lh, hx, setNext_ok lt, setPrev, live_next, lh]

theorem mem_ne_nil {c : List Nat} {x} (h : x ∈ c) : c ≠ [] := by rintro rfl; simp at h

theorem insert_ok {h : Heap} {rest a b c l n} (o : Ok h ((a ++ l :: b) :: c :: rest)) (hn : n ∈ c) :
    if a = [] ∧ (c.getLast? = some n ∨ b ≠ [] ∨ c.head? ≠ some n) then
      ∃ h', insert h l n = some (h', n) ∧ Ok h' ((a ++ (c ++ l :: b)) :: rest)
    else ∃ h', insert h l n = some (h', l) ∧ Ok h' ((a ++ l :: (c ++ b)) :: rest) := by
  have ll : h.live l = true := o.lv (c := a ++ l :: b) (by simp) (by simp)
  have ln : h.live n = true := o.lv (c := c) (by simp) hn
  obtain ⟨c1, c2, hc⟩ := List.append_of_mem hn
  have lp := seg_prev o (a := a) (b := b) (l := l) (by simp)
  have lx := seg_next o (a := a) (b := b) (l := l) (by simp)
  have np := seg_prev o (a := c1) (b := c2) (l := n) (by simp [hc])
  have nx := seg_next o (a := c1) (b := c2) (l := n) (by simp [hc])
  obtain ⟨n1, n2, n3, d1, d2, d3⟩ := nd3 (P := a) (R := l :: b) (Q := c) (nd_two o)
  have hlast : c.getLast? = some n ↔ c2 = [] := by
    subst hc
    constructor
    · intro h
      cases c2 using List.reverseRecOn with
      | nil => rfl
      | append_singleton c2 y =>
        simp [List.getLast?_cons] at h; subst h
        simp [List.nodup_append] at n3
    · rintro rfl; simp
  have hfirst : c.head? = some n ↔ c1 = [] := by
    subst hc
    constructor
    · intro h
      cases c1 with
      | nil => rfl
      | cons y c1 => simp at h; subst h; simp at n3
    · rintro rfl; simp
  simp only [insert, prevOf_ok ll, nextOf_ok ll, prevOf_ok ln, nextOf_ok ln, some_bind', lp, lx, np, nx,
    List.getLast?_eq_none_iff, List.head?_eq_none_iff]
  by_cases h1 : a = [] ∧ c2 = []
  · rw [if_pos ⟨h1.1, Or.inl (hlast.2 h1.2)⟩]
    obtain ⟨rfl, rfl⟩ := h1
    refine ⟨_, ?_, by simpa using join_ok (l := n) (hd := l) (o.perm (List.Perm.swap _ _ _)) (hlast.2 rfl) (by simp)⟩
    simp [setPrev_ok ll, setNext, live_prev, ln]
  · rw [if_neg h1]
    by_cases h2 : b = [] ∧ c1 = []
    · rw [if_neg (by rintro ⟨ha, h | h | h⟩; exacts [h1 ⟨ha, hlast.1 h⟩, h h2.1, h (hfirst.2 h2.2)]), if_pos h2]
      obtain ⟨rfl, rfl⟩ := h2
      refine ⟨_, ?_, by simpa using join_ok (l := l) (hd := n) o (by simp) (hfirst.2 rfl)⟩
      simp [setNext_ok ll, setPrev, live_next, ln]
    · rw [if_neg h2]
      by_cases h3 : a = []
      · rw [if_pos h3, if_pos]
        · exact insertBefore_ok o hn
        · refine ⟨h3, ?_⟩
          by_cases hb : b = []
          · right; right; intro h; exact h2 ⟨hb, hfirst.1 h⟩
          · right; left; exact hb
      · rw [if_neg h3, if_neg (fun h => h3 h.1)]; exact insertAfter_ok o hn

theorem Ok.add {h : Heap} {c rest} : Ok h (c :: rest) → Ok h (add c rest) := by
  intro o
  have := o.ne c (by simp)
  simp [Spec.add, this]; exact o

theorem flatten_add (c : List Nat) (rest) : (add c rest).flatten = c ++ rest.flatten := by
  unfold Spec.add; split
  · next h => simp [h]
  · simp

theorem cut_ok {h h' : Heap} {rest a m b s e} (o : Ok h ((a ++ (m ++ b)) :: rest)) (hs : m.head? = some s) (he : m.getLast? = some e)
    (hsize : h'.size = h.size) (hfreed : h'.freed = h.freed)
    (hnext : ∀ x, h'.next x = if x = e then none else if a.getLast? = some x then b.head? else h.next x)
    (hprev : ∀ x, h'.prev x = if x = s then none else if b.head? = some x then a.getLast? else h.prev x) :
    Ok h' (m :: add (a ++ b) rest) := by
  have s1 := o.seg _ (by simp : a ++ (m ++ b) ∈ _)
  rw [seg_append, seg_append] at s1
  obtain ⟨sa, sm, sb⟩ := s1
  have hnd := o.nodup; simp only [List.flatten_cons] at hnd
  obtain ⟨n1, n2, n3, d1, d2, d3⟩ := nd3 (List.nodup_append.1 hnd).1
  have me : e ∈ m := List.mem_of_getLast? he
  have ms : s ∈ m := List.mem_of_mem_head? hs
  have key : Ok h' ((m :: add (a ++ b) []) ++ rest) := by
    refine Ok.replace (old := [a ++ (m ++ b)]) o hsize hfreed ?_ ?_ ?_ ?_
    · simp only [List.flatten_cons, flatten_add, List.flatten_nil, List.append_nil]
      rw [← List.append_assoc, ← List.append_assoc]
      exact List.Perm.append_right _ List.perm_append_comm
    · intro c hc
      simp only [Spec.add] at hc
      split at hc
      · simp at hc; subst hc; exact mem_ne_nil me
      · next h => simp at hc; rcases hc with rfl | rfl; exacts [mem_ne_nil me, h]
    · intro x hx
      simp only [List.flatten_cons, List.flatten_nil, List.append_nil, List.mem_append, not_or] at hx
      rw [hnext, hprev, if_neg, if_neg, if_neg, if_neg]
      · exact ⟨rfl, rfl⟩
      · intro h; exact hx.2.2 (List.mem_of_mem_head? h)
      · rintro rfl; exact hx.2.1 ms
      · intro h; exact hx.1 (List.mem_of_getLast? h)
      · rintro rfl; exact hx.2.1 me
    · have hm : Seg h'.next h'.prev none m none := by
        refine seg_congr (nx := upd h.next e none) (pv := upd h.prev s none) ?_
          (seg_setHead (seg_setLast sm he n2) hs n2)
        intro x hx
        rw [hnext, hprev]; simp only [upd]
        rw [if_neg (c := a.getLast? = some x), if_neg (c := b.head? = some x)]
        · exact ⟨rfl, rfl⟩
        · intro h; exact d3 x hx (List.mem_of_mem_head? h)
        · intro h; exact d1 x (List.mem_of_getLast? h) hx
      have hab : Seg h'.next h'.prev none (a ++ b) none := by
        rw [seg_append]
        constructor
        · cases ha : a.getLast? with
          | none => simp at ha; subst ha; trivial
          | some p =>
            refine seg_congr (nx := upd h.next p b.head?) (pv := h.prev) ?_ (by simpa using seg_setLast sa ha n1)
            intro x hx
            rw [hnext, hprev, if_neg (c := x = e), if_neg (c := x = s), if_neg (c := b.head? = some x)]
            · simp only [upd, ha]; simp [eq_comm]
            · intro h; exact d2 x hx (List.mem_of_mem_head? h)
            · rintro rfl; exact d1 _ hx ms
            · rintro rfl; exact d1 _ hx me
        · cases hb : b.head? with
          | none => simp at hb; subst hb; trivial
          | some p =>
            refine seg_congr (nx := h.next) (pv := upd h.prev p a.getLast?) ?_ (by simpa using seg_setHead sb hb n3)
            intro x hx
            rw [hnext, hprev, if_neg (c := x = e), if_neg (c := a.getLast? = some x), if_neg (c := x = s)]
            · simp only [upd, hb]; simp [eq_comm]
            · rintro rfl; exact d3 _ ms hx
            · intro h; exact d2 x (List.mem_of_getLast? h) hx
            · rintro rfl; exact d3 _ me hx
      intro c hc
      simp only [Spec.add] at hc
      split at hc
      · simp at hc; subst hc; exact hm
      · simp at hc; rcases hc with rfl | rfl; exacts [hm, hab]
  have : (m :: add (a ++ b) []) ++ rest = m :: add (a ++ b) rest := by
    simp only [Spec.add]; split <;> simp
  rwa [this] at key

theorem remove_ok {h : Heap} {rest a m b s e} (o : Ok h ((a ++ (m ++ b)) :: rest)) (hs : m.head? = some s) (he : m.getLast? = some e) :
    ∃ h', remove h s e = some h' ∧ h'.size = h.size ∧ Ok h' (m :: add (a ++ b) rest) := by
  have me : e ∈ m := List.mem_of_getLast? he
  have ms : s ∈ m := List.mem_of_mem_head? hs
  have ls : h.live s = true := o.lv (c := a ++ (m ++ b)) (by simp) (by simp [ms])
  have le : h.live e = true := o.lv (c := a ++ (m ++ b)) (by simp) (by simp [me])
  have hps : h.prev s = a.getLast? := by
    obtain ⟨m', rfl⟩ := head_split hs
    exact seg_prev o (a := a) (b := m' ++ b) (by simp)
  have hne : h.next e = b.head? := by
    obtain ⟨m', rfl⟩ := getLast_split he
    exact seg_next o (a := a ++ m') (b := b) (by simp)
  have hnd := o.nodup; simp only [List.flatten_cons] at hnd
  obtain ⟨n1, n2, n3, d1, d2, d3⟩ := nd3 (List.nodup_append.1 hnd).1
  simp only [remove, prevOf_ok ls, nextOf_ok le, some_bind', hps, hne]
  cases ha : a.getLast? with
  | none =>
    cases hb : b.head? with
    | none =>
      refine ⟨{ h with next := upd h.next e none, prev := upd h.prev s none }, by simp [prevOf_ok, nextOf_ok, ls, le, hne, hb, setPrev, setNext, live_mk], rfl, cut_ok o hs he rfl rfl ?_ ?_⟩
      · intro x; simp [upd, ha, hb]
      · intro x; simp [upd, ha, hb]
    | some n =>
      have mn := List.mem_of_mem_head? hb
      have ln : h.live n = true := o.lv (c := a ++ (m ++ b)) (by simp) (by simp [mn])
      refine ⟨{ h with next := upd h.next e none, prev := upd (upd h.prev n none) s none }, by simp [prevOf_ok, nextOf_ok, ls, le, hne, hb, setPrev, setNext, live_mk, hps, ha, ln], rfl, cut_ok o hs he rfl rfl ?_ ?_⟩
      · intro x; simp [upd, ha, hb]
      · intro x; simp [upd, ha, hb, eq_comm]
  | some p =>
    have mp := List.mem_of_getLast? ha
    have lp : h.live p = true := o.lv (c := a ++ (m ++ b)) (by simp) (by simp [mp])
    have epe : e ≠ p := by rintro rfl; exact d1 _ mp me
    cases hb : b.head? with
    | none =>
      refine ⟨{ h with next := upd (upd h.next p none) e none, prev := upd h.prev s none }, by simp [prevOf, nextOf, ls, le, hne, hb, setPrev, setNext, live_mk, lp, upd_ne epe], rfl, cut_ok o hs he rfl rfl ?_ ?_⟩
      · intro x; simp [upd, ha, hb, eq_comm]
      · intro x; simp [upd, ha, hb]
    | some n =>
      have mn := List.mem_of_mem_head? hb
      have ln : h.live n = true := o.lv (c := a ++ (m ++ b)) (by simp) (by simp [mn])
      refine ⟨{ h with next := upd (upd h.next p (some n)) e none, prev := upd (upd h.prev n (some p)) s none }, by simp [prevOf, nextOf, ls, le, hne, hb, setPrev, setNext, live_mk, lp, upd_ne epe, hps, ha, ln], rfl, cut_ok o hs he rfl rfl ?_ ?_⟩
      · intro x; simp [upd, ha, hb, eq_comm]
      · intro x; simp [upd, ha, hb, eq_comm]

theorem removeNode_ok {h : Heap} {rest a b n} (o : Ok h ((a ++ n :: b) :: rest)) :
    ∃ h', removeNode h n = some h' ∧ h'.size = h.size ∧ Ok h' ([n] :: add (a ++ b) rest) :=
  remove_ok (m := [n]) (s := n) (e := n) (by simpa using o) rfl rfl

theorem free_ok {h : Heap} {cs n} (o : Ok h ([n] :: cs)) : ∃ h', free h n = some h' ∧ h'.size = h.size ∧ Ok h' cs := by
  have ln : h.live n = true := o.lv (c := [n]) (by simp) (by simp)
  have hnd := o.nodup
  simp at hnd
  refine ⟨{ h with freed := fun y => if y = n then true else h.freed y }, by simp [free, ln], rfl, ⟨fun c hc => o.ne c (by simp [hc]), fun c hc => o.seg c (by simp [hc]), by simpa using (by simpa using o.nodup : n ∉ cs.flatten ∧ cs.flatten.Nodup).2, ?_, ?_⟩⟩
  · intro x
    have h1 := o.live x
    simp only [Heap.live, List.flatten_cons, List.singleton_append, List.mem_cons] at h1 ⊢
    by_cases hx : x = n
    · subst hx; simp; exact hnd.1
    · simp [hx] at h1 ⊢; exact h1
  · intro x hx
    have : n < h.size := by simp [Heap.live] at ln; exact ln.1
    simp only []
    rw [if_neg (by simp at hx; omega)]; exact o.fresh x hx

theorem destroyNode_ok {h : Heap} {rest a b n} (o : Ok h ((a ++ n :: b) :: rest)) :
    ∃ h', destroyNode h n = some h' ∧ h'.size = h.size ∧ Ok h' (add (a ++ b) rest) := by
  obtain ⟨h1, e1, z1, o1⟩ := removeNode_ok o
  obtain ⟨h2, e2, s2, o2⟩ := free_ok o1
  exact ⟨h2, by simp [destroyNode, e1, e2], by rw [s2, z1], o2⟩

theorem destroyLoop_ok {rest a} : ∀ (b : List Nat) (h : Heap) (fuel : Nat), b.length ≤ fuel → Ok h (add (a ++ b) rest) →
    ∃ h', destroyLoop fuel h b.head? = some h' ∧ h'.size = h.size ∧ Ok h' (add a rest) := by
  intro b
  induction b with
  | nil => intro h fuel _ o; exact ⟨h, by simp [destroyLoop], rfl, by simpa using o⟩
  | cons n b ih =>
    intro h fuel hf o
    obtain ⟨f, rfl⟩ : ∃ f, fuel = f + 1 := ⟨fuel - 1, by simp at hf; omega⟩
    have o' : Ok h ((a ++ n :: b) :: rest) := by simpa [Spec.add] using o
    have ln : h.live n = true := o'.lv (c := a ++ n :: b) (by simp) (by simp)
    obtain ⟨h1, e1, s1, o1⟩ := destroyNode_ok o'
    obtain ⟨h2, e2, s2, o2⟩ := ih h1 f (by simpa using hf) o1
    refine ⟨h2, ?_, by omega, o2⟩
    simp [destroyLoop, nextOf_ok ln, seg_next o' (a := a) (b := b) (l := n) (by simp), e1, e2]

theorem destroy_ok {h : Heap} {rest a b n} (o : Ok h ((a ++ n :: b) :: rest)) :
    ∃ h', destroy h n = some h' ∧ Ok h' (add a rest) := by
  have hl := o.len (c := a ++ n :: b) (by simp)
  obtain ⟨h', e, -, o'⟩ := destroyLoop_ok (rest := rest) (a := a) (n :: b) h h.size (by simp at hl ⊢; omega) (by simpa [Spec.add] using o)
  exact ⟨h', by simpa [destroy] using e, o'⟩

theorem create_ok {h : Heap} {cs} (o : Ok h cs) : (createNode h).2 = h.size ∧ Ok (createNode h).1 ([h.size] :: cs) := by
  have hlt : ∀ x ∈ cs.flatten, x < h.size := fun x hx => by
    have := (o.live x).2 hx; simp [Heap.live] at this; exact this.1
  refine ⟨rfl, ?_, ?_, ?_, ?_, ?_⟩
  · intro c hc; simp at hc; rcases hc with rfl | hc; exacts [by simp, o.ne c hc]
  · intro c hc; simp at hc; rcases hc with rfl | hc
    · exact ⟨upd_same, upd_same, trivial⟩
    · refine seg_congr (fun x hx => ?_) (o.seg c hc)
      have := hlt x (List.mem_flatten.2 ⟨c, hc, hx⟩)
      simp only [createNode]; rw [upd_ne (by omega), upd_ne (by omega)]; simp
  · simp only [List.flatten_cons, List.singleton_append, List.nodup_cons]
    exact ⟨fun hm => absurd (hlt _ hm) (by omega), o.nodup⟩
  · intro x
    have h1 := o.live x
    have h2 := o.fresh x
    simp only [Heap.live, createNode, List.flatten_cons, List.singleton_append, List.mem_cons] at h1 ⊢
    rcases Nat.lt_trichotomy x h.size with hx | hx | hx
    · rw [← h1]; simp [hx, Nat.ne_of_lt hx, Nat.lt_succ_of_lt hx]
    · simp [hx]; exact hx ▸ h2 (by omega)
    · have : x ∉ cs.flatten := fun hm => absurd (hlt _ hm) (by omega)
      simp only [this, or_false]; simp only [Bool.and_eq_true]
      constructor
      · intro hh; have := of_decide_eq_true hh.1; omega
      · intro hh; omega
  · intro x hx; exact o.fresh x (by simp [createNode] at hx; omega)

theorem step_ok {h : Heap} {cs op cs' r} (o : Ok h cs) (e : Edit h.size cs op cs' r) :
    ∃ h', step h op = some (h', r) ∧ Ok h' cs' := by
  cases e with
  | create => obtain ⟨h1, h2⟩ := create_ok o; exact ⟨_, by simp [step, h1], h2⟩
  | insertAfter rest a b c l n p hn =>
    obtain ⟨h', e, o'⟩ := insertAfter_ok (o.perm p) hn; exact ⟨h', by simp [step, e], o'⟩
  | insertBefore rest a b c l n p hn =>
    obtain ⟨h', e, o'⟩ := insertBefore_ok (o.perm p) hn; exact ⟨h', by simp [step, e], o'⟩
  | insertB rest a b c l n p hn hc =>
    have := insert_ok (o.perm p) hn; rw [if_pos hc] at this
    obtain ⟨h', e, o'⟩ := this; exact ⟨h', by simp [step, e], o'⟩
  | insertA rest a b c l n p hn hc =>
    have := insert_ok (o.perm p) hn; rw [if_neg hc] at this
    obtain ⟨h', e, o'⟩ := this; exact ⟨h', by simp [step, e], o'⟩
  | append rest a c l n p hl hn =>
    obtain ⟨h', e, o'⟩ := append_ok (o.perm p) hl hn; exact ⟨h', by simp [step, e], o'⟩
  | prepend rest a c l n p hl hn =>
    obtain ⟨h', e, o'⟩ := prepend_ok (o.perm p) hl hn; exact ⟨h', by simp [step, e], o'⟩
  | removeNode rest a b n p =>
    obtain ⟨h', e, -, o'⟩ := removeNode_ok (o.perm p); exact ⟨h', by simp [step, e], o'⟩
  | remove rest a m b s e p hs he =>
    obtain ⟨h', e, -, o'⟩ := remove_ok (by simpa using o.perm p) hs he; exact ⟨h', by simp [step, e], o'⟩
  | destroyNode rest a b n p =>
    obtain ⟨h', e, -, o'⟩ := destroyNode_ok (o.perm p); exact ⟨h', by simp [step, e], o'⟩
  | destroy rest a b n p =>
    obtain ⟨h', e, o'⟩ := destroy_ok (o.perm p); exact ⟨h', by simp [step, e], o'⟩

theorem ok_empty : Ok .empty [] :=
  ⟨by simp, by simp, by simp, by simp [Heap.live, Heap.empty], by simp [Heap.empty]⟩

theorem history_ok {h cs} (H : History h cs) : Ok h cs := by
  induction H with
  | start => exact ok_empty
  | call h cs op cs' r h' r' _ e hs ih =>
    obtain ⟨h'', e', o'⟩ := step_ok ih e
    rw [e'] at hs; cases hs; exact o'

/-! ### Queue -/

structure QOk (h : Heap) (q : Queue) (loose waiting : List Nat) : Prop where
  ok : Ok h (add waiting.reverse (loose.map fun n => [n]))
  head : q.head = waiting.getLast?
  tail : q.tail = waiting.head?
  count : q.count = waiting.length

theorem qok_start : QOk .empty qCreate [] [] := ⟨by simpa [Spec.add] using ok_empty, rfl, rfl, rfl⟩

theorem qok_create {h q loose waiting} (o : QOk h q loose waiting) : QOk (createNode h).1 q ((createNode h).2 :: loose) waiting := by
  refine ⟨?_, o.head, o.tail, o.count⟩
  have := (create_ok o.ok).2
  simp only [Spec.add] at this ⊢
  split at this
  · next h => rw [if_pos h]; exact this
  · next h => rw [if_neg h]; exact this.perm (List.Perm.swap _ _ _)

theorem qok_push {h q loose waiting n} (o : QOk h q loose waiting) (hn : n ∈ loose) :
    ∃ h' q', qPush h q n = some (h', q') ∧ QOk h' q' (loose.erase n) (waiting ++ [n]) := by
  have hp : (loose.map fun n => [n]).Perm ([n] :: (loose.erase n).map fun n => [n]) :=
    (List.perm_cons_erase hn).map _
  cases hw : waiting using List.reverseRecOn with
  | nil =>
    subst hw
    have h1 := o.head; have h2 := o.tail
    simp at h1 h2
    refine ⟨h, _, by simp [qPush, h1, h2]; rfl, ?_, rfl, rfl, by simp [o.count]⟩
    have := o.ok.perm (by simpa [Spec.add] using hp)
    simpa [Spec.add] using this
  | append_singleton w x =>
    subst hw
    have h1 := o.head
    simp at h1
    obtain ⟨y, hy⟩ : ∃ y, (w ++ [x]).head? = some y := by cases w <;> simp
    have h2 := o.tail; rw [hy] at h2
    have ok1 := o.ok
    simp [Spec.add] at ok1
    have ok2 : Ok h (([] ++ x :: w.reverse) :: [n] :: (loose.erase n).map fun n => [n]) := by
      exact ok1.perm (by simpa using hp)
    obtain ⟨h', e, o'⟩ := insertBefore_ok (n := n) ok2 (by simp)
    refine ⟨h', _, by simp [qPush, h1, h2, e]; rfl, ?_, by simp, ?_, by simp [o.count]⟩
    · simpa [Spec.add] using o'
    · simp only []; rw [← hy]; cases w <;> simp

theorem qok_pop {h q loose waiting} (o : QOk h q loose waiting) :
    ∃ h' q', qPop h q = some (h', q', waiting.head?) ∧
      QOk h' q' (waiting.head?.toList ++ loose) waiting.tail := by
  cases waiting with
  | nil => have := o.tail; simp at this; exact ⟨h, q, by simp [qPop, this], by simpa using o⟩
  | cons x w =>
    have ht := o.tail
    simp at ht
    have ok1 := o.ok
    simp [Spec.add] at ok1
    have lx : h.live x = true := ok1.lv (c := w.reverse ++ [x]) (by simp) (by simp)
    have hp := seg_prev ok1 (a := w.reverse) (b := []) (l := x) (by simp)
    obtain ⟨h', e, -, o'⟩ := removeNode_ok ok1
    refine ⟨h', _, by simp [qPop, ht, prevOf_ok lx, e]; rfl, ?_, ?_, ?_, ?_⟩
    · simp only [List.append_nil, Spec.add] at o'
      simp only [List.head?_cons, List.tail_cons, Spec.add, Option.toList, List.singleton_append, List.map_cons]
      split at o'
      · next h => rw [if_pos h]; exact o'
      · next h => rw [if_neg h]; exact o'.perm (List.Perm.swap _ _ _)
    · have := o.head
      cases w with
      | nil => simp [hp]
      | cons y w => simp [hp, this, List.getLast?_cons]
    · simp [hp]
    · simp [o.count]

end Verif.LinkedList
