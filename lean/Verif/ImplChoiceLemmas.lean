import Verif.ImplChoiceSpec
import Verif.LinkedListLemmas
import Verif.BitTricksLemmas
/-! # Lemmas for the choice of an implementation -/
namespace Verif.ImplChoice
open Spec
open Verif.LinkedList (Heap upd nextOf prevOf createNode insert removeNode free Ok)
open Verif.LinkedList.Spec (add)

/-! ### The weight -/

theorem count_eq (x hint : Hint) : count (x &&& (hint &&& ~~~sizeMask)) = (common hint x : Int) := by
  rw [count, BitTricks.countSet_toNat, BitTricks.Spec.ones, common]
  congr 1
  rw [show (64 : Nat) = 30 + 34 from rfl, List.range_add, List.countP_append]
  have h2 : ((List.range 34).map (30 + ·)).countP (fun i => ((x &&& (hint &&& ~~~sizeMask)).setWidth 64).getLsbD i) = 0 := by
    rw [List.countP_eq_zero]
    intro i hi
    obtain ⟨k, hk, rfl⟩ := List.mem_map.1 hi
    simp only [BitVec.getLsbD_setWidth, BitVec.getLsbD_and, BitVec.getLsbD_not]
    by_cases h : 30 + k < 32
    · have : k = 0 ∨ k = 1 := by omega
      rcases this with rfl | rfl <;> simp [sizeMask]
    · rw [BitVec.getLsbD_of_ge x _ (by omega)]; simp
  rw [h2, Nat.add_zero]
  apply List.countP_congr
  intro i hi
  have hi := List.mem_range.1 hi
  have hm : sizeMask.getLsbD i = false := by
    have : ∀ i, i < 30 → sizeMask.getLsbD i = false := by decide
    exact this i hi
  simp only [BitVec.getLsbD_setWidth, BitVec.getLsbD_and, BitVec.getLsbD_not, hm]
  have h1 : i < 64 := by omega
  have h2 : i < 32 := by omega
  simp [h1, h2, Bool.and_comm]

theorem common_le (hint x : Hint) : common hint x ≤ 30 := by
  have := List.countP_le_length (p := fun i => hint.getLsbD i && x.getLsbD i) (l := List.range 30)
  simpa [common] using this

theorem size_eq (hint : Hint) : ([10, 1, 100, 0] : List Int)[((hint &&& sizeMask) >>> 30).toNat]? = some (sizeFactor hint) := by
  have h : ((hint &&& sizeMask) >>> 30).toNat = (hint.getLsbD 31).toNat * 2 + (hint.getLsbD 30).toNat := by
    have e : (hint &&& sizeMask) >>> 30 = hint >>> 30 := by
      apply BitVec.eq_of_getLsbD_eq
      intro i hi
      simp only [BitVec.getLsbD_ushiftRight, BitVec.getLsbD_and]
      by_cases h : 30 + i < 32
      · have : i = 0 ∨ i = 1 := by omega
        rcases this with rfl | rfl <;> simp [sizeMask]
      · rw [BitVec.getLsbD_of_ge hint _ (by omega)]; simp
    rw [e]
    have l := hint.isLt
    simp only [BitVec.toNat_ushiftRight, BitVec.getLsbD, Nat.testBit, Nat.shiftRight_eq_div_pow]
    have : hint.toNat / 2^30 < 4 := by omega
    have h31 : hint.toNat / 2^31 = hint.toNat / 2^30 / 2 := by omega
    rw [h31]
    have hx : ∀ q : Nat, q < 4 → q = (1 &&& q / 2 != 0).toNat * 2 + (1 &&& q != 0).toNat := by decide
    exact hx _ this
  rw [h, sizeFactor]
  cases hint.getLsbD 31 <;> cases hint.getLsbD 30 <;> rfl

theorem size_cases (hint : Hint) : sizeFactor hint = 10 ∨ sizeFactor hint = 1 ∨ sizeFactor hint = 100 ∨ sizeFactor hint = 0 := by
  rw [sizeFactor]; cases hint.getLsbD 31 <;> cases hint.getLsbD 30 <;> simp

theorem cint_ok {x : Int} (h1 : -2147483648 ≤ x) (h2 : x ≤ 2147483647) : cint x = some x := by
  rw [cint, if_pos ⟨h1, h2⟩]

theorem weight_eq (hint fast moderate slow : Hint) : weightCreate hint fast moderate slow = some (weigh hint fast moderate slow) := by
  rw [weightCreate, size_eq]
  simp only [Option.bind_eq_bind, Option.bind_some, count_eq]
  have h1 := common_le hint fast
  have h2 := common_le hint moderate
  have h3 := common_le hint slow
  rw [weigh]
  generalize common hint fast = a at *
  generalize common hint moderate = b at *
  generalize common hint slow = c at *
  have hs := size_cases hint
  generalize sizeFactor hint = s at *
  have q1 : cint ((a : Int) * 10) = some ((a : Int) * 10) := cint_ok (by omega) (by omega)
  have q2 : cint ((a : Int) * 10 * s) = some ((a : Int) * 10 * s) := by
    rcases hs with rfl | rfl | rfl | rfl <;> exact cint_ok (by omega) (by omega)
  have q3 : cint ((b : Int) * -1) = some ((b : Int) * -1) := cint_ok (by omega) (by omega)
  have q4 : cint ((b : Int) * -1 * s) = some ((b : Int) * -1 * s) := by
    rcases hs with rfl | rfl | rfl | rfl <;> exact cint_ok (by omega) (by omega)
  have q5 : cint ((c : Int) * -100) = some ((c : Int) * -100) := cint_ok (by omega) (by omega)
  have q6 : cint ((c : Int) * -100 * s) = some ((c : Int) * -100 * s) := by
    rcases hs with rfl | rfl | rfl | rfl <;> exact cint_ok (by omega) (by omega)
  have q7 : cint ((a : Int) * 10 * s + (b : Int) * -1 * s) = some ((a : Int) * 10 * s + (b : Int) * -1 * s) := by
    rcases hs with rfl | rfl | rfl | rfl <;> exact cint_ok (by omega) (by omega)
  have q8 : cint ((a : Int) * 10 * s + (b : Int) * -1 * s + (c : Int) * -100 * s) = some ((a : Int) * 10 * s + (b : Int) * -1 * s + (c : Int) * -100 * s) := by
    rcases hs with rfl | rfl | rfl | rfl <;> exact cint_ok (by omega) (by omega)
  simp only [q1, q2, q3, q4, q5, q6, q7, q8, Option.bind_some]
  congr 1
  rcases hs with rfl | rfl | rfl | rfl <;> omega

theorem weigh_le (hint fast moderate slow : Hint) : weigh hint fast moderate slow ≤ weightMax := by
  have h1 := common_le hint fast
  rw [weigh, weightMax]
  generalize common hint fast = a at *
  generalize common hint moderate = b at *
  generalize common hint slow = c at *
  rcases size_cases hint with h | h | h | h <;> rw [h] <;> omega

/-! ### The registry is a list -/

/-- The chain of nodes stands for the list of registered tables; nodes taken out that are static are single. -/
structure Good (r : Registry) (ns retired : List Nat) (l : List Nat) : Prop where
  ok : Ok r.heap (add ns (retired.map fun n => [n]))
  list : r.list = ns.head?
  data : ns.map r.data = l
  static : ∀ n ∈ retired, r.builtin n = true
  low : ∀ n, r.builtin n = true → n < r.heap.size

theorem good_init (kind : Kind) : Good (init kind) (start kind) [] (start kind) := by
  cases kind with
  | collection =>
    refine ⟨⟨?_, ?_, ?_, ?_, ?_⟩, rfl, rfl, by simp, ?_⟩
    · intro c hc; simp [start, builtinTables, add, List.range, List.range.loop] at hc; subst hc; simp
    · intro c hc; simp [start, builtinTables, add, List.range, List.range.loop] at hc; subst hc
      simp [LinkedList.Seg, init]
    · simp [start, builtinTables, add, List.range, List.range.loop]
    · intro x; simp [start, builtinTables, add, List.range, List.range.loop, Heap.live, init, Nat.lt_succ_iff, Nat.le_one_iff_eq_zero_or_eq_one]
    · intro x _; rfl
    · intro n hn; simpa [init] using hn
  | dictionary =>
    refine ⟨⟨?_, ?_, ?_, ?_, ?_⟩, rfl, rfl, by simp, ?_⟩
    · intro c hc; simp [start, builtinTables, add, List.range, List.range.loop] at hc; subst hc; simp
    · intro c hc; simp [start, builtinTables, add, List.range, List.range.loop] at hc; subst hc
      simp [LinkedList.Seg, init]
    · simp [start, builtinTables, add, List.range, List.range.loop]
    · intro x; simp [start, builtinTables, add, List.range, List.range.loop, Heap.live, init]
    · intro x _; rfl
    · intro n hn; simpa [init] using hn

theorem Good.lt {r ns retired l} (g : Good r ns retired l) {x} (hx : x ∈ ns) : x < r.heap.size := by
  have h : r.heap.live x = true := (g.ok.live x).2 (by rw [LinkedList.flatten_add]; simp [hx])
  simp [Heap.live] at h; exact h.1

theorem insert_size {h : Heap} {a b h' x} (e : insert h a b = some (h', x)) (hp : h.prev a = none) (hn : h.next b = none) : h'.size = h.size := by
  rw [LinkedList.insert] at e
  by_cases la : h.live a = true <;> by_cases lb : h.live b = true <;>
    simp [prevOf, nextOf, LinkedList.setPrev, LinkedList.setNext, la, lb, hp, hn, LinkedList.live_prev] at e
  rw [← e.1]

theorem good_register {r ns retired l} (g : Good r ns retired l) (i : Nat) (m : Bool) :
    ∃ r' ns', register r (some i) m = some r' ∧ r'.builtin = r.builtin ∧
      Good r' ns' retired (edit l (.register (some i) m)) := by
  cases m with
  | false => exact ⟨r, ns, rfl, rfl, g⟩
  | true =>
    obtain ⟨hn, ho⟩ := LinkedList.create_ok g.ok
    have hmap : ns.map (fun x => if x = r.heap.size then i else r.data x) = l := by
      rw [← g.data]
      apply List.map_congr_left
      intro x hx
      rw [if_neg (by have := g.lt hx; omega)]
    cases ns with
    | nil =>
      have hl := g.list
      simp at hl
      refine ⟨{ r with heap := (createNode r.heap).1, data := fun x => if x = r.heap.size then i else r.data x, list := some r.heap.size },
        [r.heap.size], ?_, rfl, ?_, rfl, ?_, g.static, ?_⟩
      · simp [register, hn, hl]
      · simpa [add] using ho
      · have := g.data; simp at this; simp [edit, this]
      · intro n h; have := g.low n h; simp [createNode]; omega
    | cons x ns =>
      have hl := g.list
      simp at hl
      have hins := LinkedList.insert_ok (h := (createNode r.heap).1) (a := []) (b := ns) (c := [r.heap.size]) (l := x) (n := r.heap.size)
        (rest := retired.map fun n => [n]) (ho.perm (by simp [add]; exact List.Perm.swap _ _ _)) (by simp)
      rw [if_pos ⟨rfl, Or.inl rfl⟩] at hins
      obtain ⟨h', e, o'⟩ := hins
      refine ⟨{ r with heap := h', data := fun x => if x = r.heap.size then i else r.data x, list := some r.heap.size },
        r.heap.size :: x :: ns, ?_, rfl, ?_, rfl, ?_, g.static, ?_⟩
      · simp [register, hn, hl, e]
      · simpa [add] using o'
      · simp only [edit]; rw [List.map_cons, hmap]; simp
      · have hsz : h'.size = (createNode r.heap).1.size := by
          apply insert_size e
          · have := ho.seg (x :: ns) (by simp [add])
            exact this.1
          · have := ho.seg [r.heap.size] (by simp)
            exact this.2.1
        intro n h; have := g.low n h; show n < h'.size; rw [hsz]; simp [createNode]; omega

theorem good_destroy {r a n b retired l} (g : Good r (a ++ n :: b) retired l) (list : Option Nat) (hlist : list = (a ++ b).head?) :
    ∃ r' retired', destroyNode { r with list := list } n = some r' ∧ r'.builtin = r.builtin ∧
      Good r' (a ++ b) retired' ((a ++ b).map r.data) := by
  have o1 : Ok r.heap ((a ++ n :: b) :: retired.map fun n => [n]) := by simpa [add] using g.ok
  obtain ⟨h1, e1, s1, o2⟩ := LinkedList.removeNode_ok o1
  by_cases hb : r.builtin n = true
  · have ln : h1.live n = true := o2.lv (c := [n]) (by simp) (by simp)
    refine ⟨{ r with list := list, heap := h1 }, n :: retired, ?_, rfl, ?_, hlist, rfl, ?_, ?_⟩
    · simp [destroyNode, e1, release, hb, ln]
    · show Ok h1 _
      refine o2.perm ?_
      simp only [add]; split
      · exact List.Perm.refl _
      · exact List.Perm.swap _ _ _
    · intro m hm
      rcases List.mem_cons.1 hm with rfl | hm
      · exact hb
      · exact g.static m hm
    · intro m h; have := g.low m h; show m < h1.size; omega
  · obtain ⟨h2, e2, s2, o3⟩ := LinkedList.free_ok o2
    refine ⟨{ r with list := list, heap := h2 }, retired, ?_, rfl, o3, hlist, rfl, g.static, ?_⟩
    · simp [destroyNode, e1, release, hb, e2]
    · intro m h; have := g.low m h; show m < h2.size; omega

theorem deregisterLoop_ok {r retired l} (i : Option Nat) : ∀ (b a : List Nat) (fuel : Nat), b.length ≤ fuel → (∀ x ∈ a, some (r.data x) ≠ i) →
    Good r (a ++ b) retired l →
    ∃ r' ns' retired', deregisterLoop r i fuel b.head? = some r' ∧ r'.builtin = r.builtin ∧
      Good r' ns' retired' (edit l (.deregister i)) := by
  intro b
  induction b with
  | nil =>
    intro a fuel _ ha g
    refine ⟨r, a ++ [], retired, by simp [deregisterLoop], rfl, ?_⟩
    cases i with
    | none => exact g
    | some i =>
      have : l.erase i = l := by
        apply List.erase_of_not_mem
        rw [← g.data]
        intro hm
        obtain ⟨x, hx, rfl⟩ := List.mem_map.1 hm
        exact ha x (by simpa using hx) rfl
      simpa [edit, this] using g
  | cons n b ih =>
    intro a fuel hf ha g
    obtain ⟨f, rfl⟩ : ∃ f, fuel = f + 1 := ⟨fuel - 1, by simp at hf; omega⟩
    have o1 : Ok r.heap ((a ++ n :: b) :: retired.map fun n => [n]) := by simpa [add] using g.ok
    have ln : r.heap.live n = true := o1.lv (c := a ++ n :: b) (by simp) (by simp)
    have hnx := LinkedList.seg_next o1 (a := a) (b := b) (l := n) (by simp)
    have hpv := LinkedList.seg_prev o1 (a := a) (b := b) (l := n) (by simp)
    by_cases hi : some (r.data n) = i
    · have hed : edit l (.deregister i) = (a ++ b).map r.data := by
        rw [← hi]
        simp only [edit]
        rw [← g.data, List.map_append, List.map_cons, List.erase_append_right, List.erase_cons_head, List.map_append]
        intro hm
        obtain ⟨x, hx, e⟩ := List.mem_map.1 hm
        exact ha x hx (by rw [e, hi])
      rw [hed]
      have hls : (if a = [] then b.head? else r.list) = (a ++ b).head? := by
        cases a with
        | nil => simp
        | cons x a => have := g.list; simpa using this
      obtain ⟨r', ret', e', hb', g'⟩ := good_destroy g _ hls
      refine ⟨r', a ++ b, ret', ?_, hb', g'⟩
      simp only [List.head?_cons, deregisterLoop, ln, if_true, hi, prevOf, nextOf, hnx, hpv, Option.bind_eq_bind, Option.bind_some]
      cases a with
      | nil => simpa using e'
      | cons x a =>
        obtain ⟨y, hy⟩ : ∃ y, (x :: a).getLast? = some y := ⟨_, List.getLast?_eq_some_getLast (by simp)⟩
        rw [hy]
        simpa using e'
    · obtain ⟨r', ns', ret', e, hb, g'⟩ := ih (a ++ [n]) f (by simpa using hf)
        (by intro x hx; rcases List.mem_append.1 hx with h | h
            · exact ha x h
            · simp at h; subst h; exact hi) (by simpa using g)
      refine ⟨r', ns', ret', ?_, hb, g'⟩
      simp only [List.head?_cons, deregisterLoop, ln, if_true, nextOf, hnx, Option.bind_eq_bind, Option.bind_some]
      rw [if_neg hi]; exact e

theorem Good.len {r ns retired l} (g : Good r ns retired l) : ns.length ≤ r.heap.size := by
  cases ns with
  | nil => simp
  | cons x ns => exact g.ok.len (c := x :: ns) (by simp [add])

theorem good_deregister {r ns retired l} (g : Good r ns retired l) (i : Option Nat) :
    ∃ r' ns' retired', deregister r i = some r' ∧ r'.builtin = r.builtin ∧ Good r' ns' retired' (edit l (.deregister i)) := by
  have := deregisterLoop_ok i ns [] r.heap.size g.len (by simp) (by simpa using g)
  rwa [← g.list] at this

theorem good_fold {calls : List Call} : ∀ {r ns retired l}, Valid calls → Good r ns retired l →
    ∃ r' ns' retired', calls.foldlM step r = some r' ∧ r'.builtin = r.builtin ∧ Good r' ns' retired' (calls.foldl edit l) := by
  induction calls with
  | nil => intro r ns retired l _ g; exact ⟨r, ns, retired, rfl, rfl, g⟩
  | cons c calls ih =>
    intro r ns retired l v g
    have v' : Valid calls := fun m h => v m (by simp [h])
    have key : ∃ r' ns' retired', step r c = some r' ∧ r'.builtin = r.builtin ∧ Good r' ns' retired' (edit l c) := by
      cases c with
      | register i m =>
        cases i with
        | none => exact absurd (by simp) (v m)
        | some i =>
          obtain ⟨r', ns', e, hb, g'⟩ := good_register g i m
          exact ⟨r', ns', retired, e, hb, g'⟩
      | deregister i => exact good_deregister g i
    obtain ⟨r1, ns1, ret1, e1, hb1, g1⟩ := key
    obtain ⟨r2, ns2, ret2, e2, hb2, g2⟩ := ih v' g1
    exact ⟨r2, ns2, ret2, by simp [List.foldlM_cons, e1, e2], by rw [hb2, hb1], g2⟩

theorem good_run (kind : Kind) {calls : List Call} (v : Valid calls) :
    ∃ r ns retired, run kind calls = some r ∧ r.builtin = (init kind).builtin ∧ Good r ns retired (registered kind calls) :=
  good_fold v (good_init kind)

/-! ### The choice -/

/-- The best of a list, given the best so far. -/
def pick (ok : Nat → Bool) (w : Nat → Int) : List Nat → Int → Option Nat → Option Nat
  | [], _, best => best
  | i :: l, weight, best => if w i > weight ∧ ok i = true then pick ok w l (w i) (some i) else pick ok w l weight best

theorem bestLoop_eq {env r hint need w cs} (o : Ok r.heap cs) : ∀ (b a : List Nat) (fuel : Nat) (weight : Int) (best : Option Nat),
    a ++ b ∈ cs → b.length ≤ fuel → (∀ n ∈ b, (env (r.data n)).weight hint = some (w (r.data n))) →
    bestLoop env r hint need fuel b.head? weight best =
      some (pick (fun i => !need || (env i).ordered) w (b.map r.data) weight best) := by
  intro b
  induction b with
  | nil => intro a fuel weight best _ _ _; simp [bestLoop, pick]
  | cons n b ih =>
    intro a fuel weight best hc hf hw
    obtain ⟨f, rfl⟩ : ∃ f, fuel = f + 1 := ⟨fuel - 1, by simp at hf; omega⟩
    have ln : r.heap.live n = true := o.lv hc (by simp)
    have hnx := LinkedList.seg_next o hc
    have hwn := hw n (by simp)
    have ih' := fun weight best => ih (a ++ [n]) f weight best (by simpa using hc) (by simpa using hf) (fun m hm => hw m (by simp [hm]))
    simp only [List.head?_cons, bestLoop, nextOf, ln, if_true, hnx, hwn, Option.bind_eq_bind, Option.bind_some, List.map_cons, pick]
    by_cases h : w (r.data n) > weight ∧ (need = false ∨ (env (r.data n)).ordered = true)
    · rw [if_pos h, if_pos (by simpa using h)]; exact ih' _ _
    · rw [if_neg h, if_neg (by simpa using h)]; exact ih' _ _

theorem pick_spec (ok : Nat → Bool) (w : Nat → Int) : ∀ (l : List Nat) (weight : Int) (best : Option Nat),
    (pick ok w l weight best = best ∧ ∀ j ∈ l, ok j = true → w j ≤ weight) ∨
    (∃ i newer older, pick ok w l weight best = some i ∧ l = newer ++ i :: older ∧ ok i = true ∧ weight < w i ∧
      (∀ j ∈ newer, ok j = true → w j < w i) ∧ (∀ j ∈ older, ok j = true → w j ≤ w i)) := by
  intro l
  induction l with
  | nil => intro weight best; left; exact ⟨rfl, by simp⟩
  | cons x l ih =>
    intro weight best
    by_cases h : w x > weight ∧ ok x = true
    · right
      rw [pick, if_pos h]
      rcases ih (w x) (some x) with ⟨e, hl⟩ | ⟨i, newer, older, e, hl, h1, h2, h3, h4⟩
      · exact ⟨x, [], l, e, rfl, h.2, h.1, by simp, hl⟩
      · refine ⟨i, x :: newer, older, e, by rw [hl]; rfl, h1, by omega, ?_, h4⟩
        intro j hj hok
        rcases List.mem_cons.1 hj with rfl | hj
        · exact h2
        · exact h3 j hj hok
    · rw [pick, if_neg h]
      have hx : ok x = true → w x ≤ weight := fun hok => by
        by_cases hw : w x > weight
        · exact absurd ⟨hw, hok⟩ h
        · omega
      rcases ih weight best with ⟨e, hl⟩ | ⟨i, newer, older, e, hl, h1, h2, h3, h4⟩
      · left
        refine ⟨e, ?_⟩
        intro j hj hok
        rcases List.mem_cons.1 hj with rfl | hj
        · exact hx hok
        · exact hl j hj hok
      · right
        refine ⟨i, x :: newer, older, e, by rw [hl]; rfl, h1, h2, ?_, h4⟩
        intro j hj hok
        rcases List.mem_cons.1 hj with rfl | hj
        · have := hx hok; omega
        · exact h3 j hj hok

/-- The ordered check of the kind. -/
def need (kind : Kind) (hint : Hint) : Bool := match kind with
  | .collection => decide (hint &&& ordered ≠ 0)
  | .dictionary => false

theorem ordered_bit (hint : Hint) : hint &&& ordered ≠ 0 ↔ hint.getLsbD 6 = true := by
  have hb : ∀ i, i < 32 → (ordered.getLsbD i = decide (i = 6)) := by decide
  constructor
  · intro h
    cases hx : hint.getLsbD 6 with
    | true => rfl
    | false =>
      exfalso; apply h
      apply BitVec.eq_of_getLsbD_eq
      intro i hi
      rw [BitVec.getLsbD_and, hb i hi]
      by_cases h6 : i = 6
      · subst h6; rw [hx]; rfl
      · simp [h6]
  · intro h e
    have := congrArg (fun v : Hint => v.getLsbD 6) e
    simp only [BitVec.getLsbD_and] at this
    rw [h, hb 6 (by omega)] at this
    simp at this

theorem suits_iff (kind : Kind) (env : Nat → Interface) (hint : Hint) (i : Nat) :
    Suits kind env hint i ↔ (!(need kind hint) || (env i).ordered) = true := by
  cases kind with
  | collection =>
    simp only [Suits, AsksOrder, need, true_and]
    by_cases h : hint &&& ordered ≠ 0
    · have h2 := (ordered_bit hint).1 h
      rw [decide_eq_true h]; simp [h2]
    · have h2 := mt (ordered_bit hint).2 h
      rw [decide_eq_false h]; exact ⟨fun _ => rfl, fun _ h3 => absurd h3 h2⟩
  | dictionary => simp [Suits, AsksOrder, need]

theorem create_eq {kind env r hint ns retired l w} (g : Good r ns retired l) (ha : Answers env hint l w) :
    create kind env r hint = pick (fun i => !(need kind hint) || (env i).ordered) w l intMin none := by
  have hloop : bestLoop env r hint (need kind hint) r.heap.size r.list intMin none =
      some (pick (fun i => !(need kind hint) || (env i).ordered) w l intMin none) := by
    cases ns with
    | nil =>
      have h1 := g.list; have h2 := g.data
      simp at h1 h2; subst h2; rw [h1]; simp [bestLoop, pick]
    | cons x ns =>
      have := bestLoop_eq (env := env) (hint := hint) (need := need kind hint) (w := w) g.ok (x :: ns) [] r.heap.size intMin none
        (by simp [add]) g.len (fun n hn => (ha _ (by rw [← g.data]; exact List.mem_map_of_mem hn)).1)
      rwa [← g.list, g.data] at this
  have hc : create kind env r hint = (do
      let best ← (← bestLoop env r hint (need kind hint) r.heap.size r.list intMin none)
      if need kind hint ∧ (env best).ordered = false then none else some best) := by
    cases kind <;> rfl
  rw [hc, hloop]
  simp only [Option.bind_eq_bind, Option.bind_some]
  rcases pick_spec (fun i => !(need kind hint) || (env i).ordered) w l intMin none with ⟨e, -⟩ | ⟨i, -, -, e, -, h, -⟩
  · rw [e]; rfl
  · rw [e, Option.bind_some, if_neg]
    simp at h
    rintro ⟨h1, h2⟩
    rcases h with h | h
    · rw [h] at h1; exact absurd h1 (by simp)
    · rw [h] at h2; exact absurd h2 (by simp)

theorem best_unique {kind env hint w l i j} (hi : Best kind env hint w l i) (hj : Best kind env hint w l j) : i = j := by
  obtain ⟨si, n1, o1, e1, a1, b1⟩ := hi
  obtain ⟨sj, n2, o2, e2, a2, b2⟩ := hj
  rw [e1] at e2
  rcases List.append_eq_append_iff.1 e2 with ⟨c, hc1, hc2⟩ | ⟨c, hc1, hc2⟩
  · cases c with
    | nil => simp at hc2; exact hc2.1
    | cons x c =>
      simp at hc2
      have h1 := a2 i (by rw [hc1]; simp [hc2.1]) si
      have h2 := b1 j (by rw [hc2.2]; simp) sj
      omega
  · cases c with
    | nil => simp at hc2; exact hc2.1.symm
    | cons x c =>
      simp at hc2
      have h1 := a1 j (by rw [hc1]; simp [hc2.1]) sj
      have h2 := b2 i (by rw [hc2.2]; simp) si
      omega

end Verif.ImplChoice
