import Verif.ReadEnumLemmas
/-!
# C103: the elements of a sequence that is read back are handed out, each once and in order
-/
namespace Verif.ReadEnum

open Verif.Zone
open Verif.ZoneEnum (En Addr Ev growLast)
open Verif.Enumerable (Call)
open Spec

theorem elements_length {s : Nat} (its : List Item) : ∀ {Z Z' : Zone} {cs : List (Nat × Nat)},
    elements Z s its = some (Z', cs) → cs.length = its.length := by
  induction its with
  | nil => intro Z Z' cs h; cases h; rfl
  | cons it its ih =>
    intro Z Z' cs h
    simp only [elements] at h
    match e : element Z s it with
    | none => rw [e] at h; cases h
    | some (Z1, c) =>
      rw [e] at h
      simp only [Option.bind_eq_bind, Option.bind_some] at h
      match e1 : elements Z1 s its with
      | none => rw [e1] at h; cases h
      | some (Z2, cs2) => rw [e1] at h; cases h; simp [ih e1]

theorem read_eq {Z Z' : Zone} {s : Nat} {its : List Item} {cs : List (Nat × Nat)} {e : En} (h : read Z s its = some (Z', cs, e)) :
    elements Z s its = some (Z', cs) ∧ e = ZoneEnum.getEnumerable (chain Z') (Z.blocks.length - 1) (currentOffset Z) s cs.length := by
  unfold read at h
  match e1 : elements Z s its with
  | none => rw [e1] at h; cases h
  | some (Z2, cs2) => rw [e1] at h; cases h; exact ⟨rfl, rfl⟩

/-- The numbers of elements in the blocks after the first one, without an empty last one. -/
def counts (s : Nat) (new : List Block) : List Nat := (new.reverse.map fun c => c.offset / s).filter (0 < ·)

theorem counts_eq {s : Nat} (hs : 0 < s) {new : List Block} (hw : ∀ c ∈ new, c.offset = c.offset / s * s) (hf : ∀ c ∈ new.tail, 0 < c.offset) :
    (∃ x xs, new = x :: xs ∧ x.offset = 0 ∧ counts s new = xs.reverse.map (fun c => c.offset / s)) ∨
    ((∀ c ∈ new, 0 < c.offset) ∧ counts s new = new.reverse.map fun c => c.offset / s) := by
  have pos : ∀ c ∈ new, 0 < c.offset → 0 < c.offset / s := by
    intro c hc h
    have := hw c hc
    apply Nat.pos_of_ne_zero
    intro h0
    rw [h0] at this
    omega
  cases new with
  | nil => right; simp [counts]
  | cons x xs =>
    have hxs : (xs.reverse.map fun c => c.offset / s).filter (0 < ·) = xs.reverse.map fun c => c.offset / s := by
      rw [List.filter_eq_self]
      intro k hk
      obtain ⟨c, hc, rfl⟩ := List.mem_map.1 hk
      rw [List.mem_reverse] at hc
      simpa using pos c (List.mem_cons_of_mem _ hc) (hf c hc)
    by_cases hx : x.offset = 0
    · left
      refine ⟨x, xs, rfl, hx, ?_⟩
      simp only [counts, List.reverse_cons, List.map_append, List.filter_append, hxs]
      simp [hx]
    · right
      refine ⟨?_, ?_⟩
      · intro c hc
        rcases List.mem_cons.1 hc with rfl | hc
        · omega
        · exact hf c hc
      · have hx' := pos x (by simp) (by omega)
        simp only [counts, List.reverse_cons, List.map_append, List.filter_append, hxs]
        simp [hx']

theorem segs_list {s : Nat} {bs pre : List Block} (ys : List Block) (zs : List Block) (h : bs = pre ++ ys ++ zs) (hp : ∀ c ∈ ys, 0 < c.offset / s) :
    Segs s bs pre.length (ys.map fun c => c.offset / s) := by
  induction ys generalizing pre with
  | nil => trivial
  | cons y ys ih =>
    refine ⟨hp y (by simp), ⟨y, ?_, Nat.le_refl _, fun _ => rfl⟩, ?_⟩
    · rw [h]; simp
    · have := ih (pre := pre ++ [y]) (by simp [h]) (fun c hc => hp c (List.mem_cons_of_mem _ hc))
      simpa using this

theorem place_seg {s : Nat} {bs pre : List Block} (ys zs : List Block) (h : bs = pre ++ ys ++ zs) :
    (segAddrs s pre.length (ys.map fun c => c.offset / s)).map (place bs) = (ys.flatMap (inBlock s)).map some := by
  induction ys generalizing pre with
  | nil => rfl
  | cons y ys ih =>
    have := ih (pre := pre ++ [y]) (by simp [h])
    simp only [List.length_append, List.length_cons, List.length_nil, Nat.zero_add] at this
    simp only [List.map_cons, segAddrs, List.map_append, this, List.flatMap_cons, List.map_map, inBlock]
    congr 1
    apply List.map_congr_left
    intro i _
    simp [place, h]

theorem answers_nil (evs : List Ev) (pos : Nat) (hf : Forward evs) : ∀ {bs : List Block} {e : En}, e.count = 0 →
    ZoneEnum.run bs e evs = some (answers ([] : List Addr) pos evs) := by
  induction evs generalizing pos with
  | nil => intros; rfl
  | cons ev evs ih =>
    intro bs e h0
    have hf' : Forward evs := fun x hx => hf x (List.mem_cons_of_mem _ hx)
    cases ev with
    | grow n => simp only [ZoneEnum.run, answers]; exact ih pos hf' h0
    | add b => simp only [ZoneEnum.run, answers]; exact ih pos hf' h0
    | call c =>
      obtain ⟨n1, n2, n3⟩ := hf _ List.mem_cons_self
      cases c with
      | head => exact absurd rfl n1
      | tail => exact absurd rfl n2
      | previous => exact absurd rfl n3
      | current => simp [ZoneEnum.run, answers, ZoneEnum.step, Enumerable.Spec.step, ZoneEnum.current, h0, ih pos hf' h0]
      | next => simp [ZoneEnum.run, answers, ZoneEnum.step, Enumerable.Spec.step, ZoneEnum.next, h0, ih pos hf' h0]

theorem locate_first {j : Nat} {b : Block} {bs : List Block} {k : Nat} (h : k < b.offset) :
    ZoneEnum.locate j (b :: bs) k = some (j, k, b.offset - k) := by simp [ZoneEnum.locate, h]

/-- Where the enumerable starts: at the first element, with all the others after it. -/
theorem start {Z : Zone} {s : Nat} (hs : 0 < s) {b : Block} {rest : List Block} {cs : List (Nat × Nat)} {k : Nat} {new : List Block}
    (L : Lay s b rest Z.blocks cs k new) (hcs : cs ≠ []) :
    ∃ j ks a, At s (chain Z) (ZoneEnum.getEnumerable (chain Z) rest.length b.offset s cs.length) j ks ∧
      ZoneEnum.at_ (ZoneEnum.getEnumerable (chain Z) rest.length b.offset s cs.length) = some a ∧
      (a :: fut s (ZoneEnum.getEnumerable (chain Z) rest.length b.offset s cs.length) j ks).map (place (chain Z)) = cs.map some := by
  have hch : chain Z = rest.reverse ++ { b with offset := b.offset + k * s } :: new.reverse := by
    simp [chain, L.blocks]
  have hdrop : (chain Z).drop rest.length = { b with offset := b.offset + k * s } :: new.reverse := by
    rw [hch, List.drop_left' (by simp)]
  have pos : ∀ c ∈ new, 0 < c.offset → 0 < c.offset / s := by
    intro c hc h
    have := L.whole c hc
    apply Nat.pos_of_ne_zero
    intro h0
    rw [h0] at this
    omega
  -- the blocks with elements after the first block
  obtain ⟨ys, zs, hnew, hpos, hz⟩ : ∃ ys zs, new.reverse = ys ++ zs ∧ (∀ c ∈ ys, 0 < c.offset) ∧ zs.flatMap (inBlock s) = [] := by
    rcases counts_eq hs L.whole L.full with ⟨x, xs, rfl, hx, _⟩ | ⟨h, _⟩
    · exact ⟨xs.reverse, [x], by simp, fun c hc => L.full c (by simpa using hc), by simp [inBlock, hx]⟩
    · exact ⟨new.reverse, [], by simp, fun c hc => h c (by simpa using hc), rfl⟩
  have hmem : ∀ c ∈ ys, c ∈ new := fun c hc => by
    rw [← List.mem_reverse, hnew]; exact List.mem_append_left _ hc
  have hlen : cs.length = k + (ys.map fun c => c.offset / s).sum := by
    rw [L.places, hnew, List.flatMap_append, hz]
    simp [List.length_flatMap, inBlock, Function.comp_def]
  have hpl : cs = ((List.range k).map fun i => (b.id, b.offset + i * s)) ++ ys.flatMap (inBlock s) := by
    rw [L.places, hnew, List.flatMap_append, hz, List.append_nil]
  by_cases hk : 0 < k
  · -- the first element is in the first block
    have hks : 0 < k * s := Nat.mul_pos hk hs
    have he : ZoneEnum.getEnumerable (chain Z) rest.length b.offset s cs.length = ⟨some rest.length, b.offset, k, s, 0, 0, cs.length⟩ := by
      unfold ZoneEnum.getEnumerable
      rw [hdrop, locate_first (by dsimp only; omega)]
      simp only [ZoneEnum.En.mk.injEq, and_true, true_and, Nat.add_sub_cancel_left]
      rw [Nat.mul_div_cancel _ hs]
      omega
    rw [he]
    have hsplit : chain Z = (rest.reverse ++ [{ b with offset := b.offset + k * s }]) ++ ys ++ zs := by
      rw [hch, hnew]; simp
    refine ⟨rest.length, ys.map fun c => c.offset / s, (rest.length, b.offset), ⟨rfl, ?_, rfl, hk, ?_, ?_⟩, by simp [ZoneEnum.at_], ?_⟩
    · exact ⟨{ b with offset := b.offset + k * s }, by rw [hch, List.getElem?_append_right (by simp)]; simp⟩
    · dsimp only; omega
    · have := segs_list ys zs hsplit (fun c hc => pos c (hmem c hc) (hpos c hc))
      simpa using this
    · have h2 := place_seg (s := s) ys zs hsplit
      simp only [List.length_append, List.length_reverse, List.length_cons, List.length_nil, Nat.zero_add] at h2
      rw [hpl]
      simp only [fut, List.map_cons, List.map_append, h2, Nat.sub_zero, Nat.zero_add]
      rw [← List.cons_append]
      congr 1
      obtain ⟨k, rfl⟩ : ∃ m, k = m + 1 := ⟨k - 1, by omega⟩
      rw [List.range_succ_eq_map, List.map_cons, List.map_cons, List.map_map, List.map_map, List.map_map, Nat.add_sub_cancel]
      congr 1
      · simp [place, hch]
      · apply List.map_congr_left
        intro i _
        simp [place, hch, Nat.add_comm 1 i]
  · -- it is at the beginning of the next block
    have hk0 : k = 0 := by omega
    subst hk0
    cases ys with
    | nil => exact absurd (by rw [hpl]; rfl) hcs
    | cons y ys =>
      have hy := hpos y (by simp)
      have hyw := L.whole y (hmem y (by simp))
      have hyc := pos y (hmem y (by simp)) hy
      simp only [List.map_cons, List.sum_cons, Nat.zero_add] at hlen
      have he : ZoneEnum.getEnumerable (chain Z) rest.length b.offset s cs.length =
          ⟨some (rest.length + 1), 0, y.offset / s, s, 0, 0, cs.length⟩ := by
        unfold ZoneEnum.getEnumerable
        rw [hdrop, hnew]
        simp only [ZoneEnum.locate, List.cons_append, Nat.zero_mul, Nat.add_zero, Nat.lt_irrefl, if_false, Nat.sub_self, hy, if_true, Nat.sub_zero]
        simp only [ZoneEnum.En.mk.injEq, and_true, true_and]
        omega
      rw [he]
      have hsplit : chain Z = (rest.reverse ++ [{ b with offset := b.offset + 0 * s }, y]) ++ ys ++ zs := by
        rw [hch, hnew]; simp
      have hget : (chain Z)[rest.length + 1]? = some y := by
        rw [hch, hnew, List.getElem?_append_right (by simp)]
        simp
      refine ⟨rest.length + 1, ys.map fun c => c.offset / s, (rest.length + 1, 0), ⟨rfl, ⟨y, hget⟩, rfl, hyc, ?_, ?_⟩,
        by simp [ZoneEnum.at_], ?_⟩
      · dsimp only; omega
      · have := segs_list ys zs hsplit (fun c hc => pos c (hmem c (List.mem_cons_of_mem _ hc)) (hpos c (List.mem_cons_of_mem _ hc)))
        simpa using this
      · have h2 := place_seg (s := s) ys zs hsplit
        simp only [List.length_append, List.length_reverse, List.length_cons, List.length_nil, Nat.zero_add] at h2
        rw [hpl]
        simp only [List.range_zero, List.map_nil, List.nil_append, List.flatMap_cons]
        simp only [fut, List.map_cons, List.map_append, h2, Nat.sub_zero, Nat.zero_add]
        rw [← List.cons_append]
        congr 1
        unfold inBlock
        obtain ⟨m, hm⟩ : ∃ m, y.offset / s = m + 1 := ⟨y.offset / s - 1, by omega⟩
        rw [hm, List.range_succ_eq_map, List.map_cons, List.map_cons, List.map_map, List.map_map, List.map_map, Nat.add_sub_cancel]
        congr 1
        · simp [place, hget]
        · apply List.map_congr_left
          intro i _
          simp [place, hget, Nat.add_comm 1 i]

theorem lay_start {Z : Zone} {s : Nat} {b : Block} {rest : List Block} (h : Z.blocks = b :: rest) : Lay s b rest Z.blocks [] 0 [] :=
  ⟨by simp [h], rfl, by simp, by simp, by simp, fun _ => rfl⟩

theorem elements_size {s : Nat} {its : List Item} (hn : ∀ it ∈ its, Nested it.ops) {Z Z' : Zone} {cs : List (Nat × Nat)}
    (h : elements Z s its = some (Z', cs)) (hc : cs ≠ []) : 0 < s := by
  cases its with
  | nil => cases h; exact absurd rfl hc
  | cons it its =>
    simp only [elements] at h
    match e : element Z s it with
    | none => rw [e] at h; cases h
    | some (Z1, c) => exact (element_cases (hn it (by simp)) e).1

theorem At.later {s : Nat} (evs : List Ev) : ∀ {bs : List Block} {e : En} {j : Nat} {ks : List Nat}, At s bs e j ks →
    At s (evs.foldl ZoneEnum.chain bs) e j ks := by
  induction evs with
  | nil => intro _ _ _ _ A; exact A
  | cons ev evs ih =>
    intro bs e j ks A
    rw [List.foldl_cons]
    apply ih
    cases ev with
    | call c => exact A
    | grow n => exact A.grow
    | add b => exact A.add

/-- **C103.**  Take any zone, however it came about, and read any number of elements into it, whatever reading each
of them allocates, at any nesting.  There are as many places as elements, and the enumerable made afterwards hands out exactly
these places in the order the elements were read:

* whatever is asked of it going forwards, with any allocations between, it answers as a cursor in the list of the places;
* the loop the containers are filled with goes through the list once and ends, even if the zone has grown in the
  meantime. -/
theorem C103_forward {bs base : Nat} {Z : Zone} {F : Frames} (h : Reach bs base Z F) {s : Nat} {its : List Item}
    (hn : ∀ it ∈ its, Nested it.ops) {Z' : Zone} {cs : List (Nat × Nat)} {e : En} (hr : read Z s its = some (Z', cs, e)) :
    cs.length = its.length ∧
    ∃ l : List Addr, l.map (place (chain Z')) = cs.map some ∧
      (∀ evs, Forward evs → ZoneEnum.run (chain Z') e evs = some (answers l 0 evs)) ∧
      (∀ (grown : List Ev) (fuel : Nat), cs.length ≤ fuel → visit (grown.foldl ZoneEnum.chain (chain Z')) fuel e (ZoneEnum.current e) = some l) := by
  have I := reach_inv h
  obtain ⟨he, rfl⟩ := read_eq hr
  refine ⟨elements_length its he, ?_⟩
  obtain ⟨b, rest, hb⟩ := List.exists_cons_of_ne_nil I.bne
  · have hco : currentOffset Z = b.offset := by simp [currentOffset, hb]
    have hi : Z.blocks.length - 1 = rest.length := by simp [hb]
    rw [hi, hco]
    obtain ⟨k, new, L⟩ := elements_lay its hn (lay_start hb) he
    rw [List.nil_append] at L
    by_cases hcs : cs = []
    · have hnew := L.some_ hcs
      subst hcs
      subst hnew
      have h0 : (ZoneEnum.getEnumerable (chain Z') rest.length b.offset s ([] : List (Nat × Nat)).length).count = 0 := by
        unfold ZoneEnum.getEnumerable
        split <;> simp
      refine ⟨[], rfl, fun evs hf => answers_nil evs 0 hf h0, fun grown fuel _ => ?_⟩
      rw [ZoneEnum.current, if_neg (by omega)]
      simp [visit]
    · obtain ⟨j, ks, a, A, ha, hl⟩ := start (elements_size hn he hcs) L hcs
      refine ⟨_, hl, fun evs hf => ?_, fun grown fuel hfuel => ?_⟩
      · exact run_at _ evs hf A (by rw [ha]; rfl) rfl
      · have hc := A.index
        rw [ZoneEnum.current, if_pos (by omega), ha]
        apply visit_at fuel (A.later grown)
        have := congrArg List.length hl
        simp at this
        omega

/-- A zone with an odd number of bytes in use, and four elements of 8 bytes, the second of which reads a sequence inside;
the blocks are too small for all of them. -/
def sample : Option (Zone × List (Nat × Nat) × En) :=
  (alloc (create 40 1000) 3 none).bind fun r => read r.1 8
    [⟨none, none, []⟩, ⟨none, none, [.save (some 2000), .alloc 8 none, .restore]⟩, ⟨none, some 3000, [.alloc 4 none]⟩, ⟨none, none, []⟩]

example : sample = some (⟨40, [⟨2, 3000, 8⟩, ⟨0, 1000, 27⟩], [], 3⟩, [(0, 3), (0, 11), (0, 19), (2, 0)], ⟨some 0, 3, 3, 8, 0, 0, 4⟩) := by decide

example : ∀ it ∈ [(⟨none, none, []⟩ : Item), ⟨none, none, [.save (some 2000), .alloc 8 none, .restore]⟩, ⟨none, some 3000, [.alloc 4 none]⟩, ⟨none, none, []⟩],
    Nested it.ops := by
  intro it hit
  simp only [List.mem_cons, List.not_mem_nil, or_false] at hit
  rcases hit with rfl | rfl | rfl | rfl
  · exact .nil
  · exact .frame _ (.alloc _ _ .nil) .nil
  · exact .alloc _ _ .nil
  · exact .nil

example : ∃ F, Reach 40 1000 ⟨40, [⟨0, 1000, 3⟩], [], 1⟩ F := ⟨_, .call (op := .alloc 3 none) .create rfl⟩

/-! ## The memory of the elements -/

theorem work_reach {bs base : Nat} (ops : List Op) : ∀ {Z Z' : Zone} {F : Frames}, Reach bs base Z F → work Z ops = some Z' →
    ∃ F', Reach bs base Z' F' := by
  induction ops with
  | nil => intro Z Z' F h hw; cases hw; exact ⟨F, h⟩
  | cons op ops ih =>
    intro Z Z' F h hw
    simp only [work] at hw
    match e : Zone.step Z op with
    | none => rw [e] at hw; cases hw
    | some (Z1, r) =>
      rw [e] at hw
      exact ih (.call h e) hw

theorem element_reach {bs base : Nat} {Z Z' : Zone} {F : Frames} (h : Reach bs base Z F) {s : Nat} {it : Item} {c : Nat × Nat}
    (he : element Z s it = some (Z', c)) : ∃ F', Reach bs base Z' F' := by
  unfold element at he
  match e : alloc Z s it.env with
  | none => rw [e] at he; cases he
  | some (Z1, none) => rw [e] at he; cases he
  | some (Z1, some c') =>
    rw [e] at he
    simp only [Option.bind_eq_bind, Option.bind_some] at he
    match e1 : save Z1 it.envSave with
    | none => rw [e1] at he; cases he
    | some (Z2, x) =>
      rw [e1] at he
      simp only [Option.bind_some] at he
      match e2 : work Z2 it.ops with
      | none => rw [e2] at he; cases he
      | some Z3 =>
        rw [e2] at he
        cases he
        have r1 := Reach.call (op := .alloc s it.env) h (by simp only [Zone.step, e]; rfl)
        have r2 := Reach.call (op := .save it.envSave) r1 (by simp only [Zone.step, e1]; rfl)
        obtain ⟨F3, r3⟩ := work_reach it.ops r2 e2
        exact ⟨_, Reach.call (op := .restore) r3 rfl⟩

theorem framed_cells {bs bs' : List Block} (h : Framed bs bs') : cells bs' = cells bs := by
  rcases h with rfl | ⟨e, he, rfl⟩
  · rfl
  · simp [he, regionBytes]

theorem element_cells {Z Z' : Zone} {s : Nat} {it : Item} {c : Nat × Nat} (hn : Nested it.ops) (h : element Z s it = some (Z', c)) :
    cells Z'.blocks = regionBytes c s ++ cells Z.blocks := by
  obtain ⟨_, _, _, _, b, rest, bs, hb, hc, hf⟩ := element_cases hn h
  rw [framed_cells hf, hb]
  rcases hc with ⟨rfl, rfl⟩ | ⟨_, hc0, base, rfl⟩
  · simp only [cells_cons]
    rw [regionBytes_add]
    simp
  · simp only [cells_cons]
    rw [← hc0]

theorem elements_cells {bs base : Nat} {s : Nat} (its : List Item) (hn : ∀ it ∈ its, Nested it.ops) :
    ∀ {Z Z' : Zone} {F : Frames} {cs : List (Nat × Nat)}, Reach bs base Z F → elements Z s its = some (Z', cs) →
      cells Z'.blocks = cs.reverse.flatMap (fun c => regionBytes c s) ++ cells Z.blocks ∧ Z'.states = grow (cs.length * s) Z.states ∧
      ∃ F', Reach bs base Z' F' := by
  induction its with
  | nil => intro Z Z' F cs h he; cases he; exact ⟨rfl, by simp [grow_zero], F, h⟩
  | cons it its ih =>
    intro Z Z' F cs h he
    simp only [elements] at he
    match e : element Z s it with
    | none => rw [e] at he; cases he
    | some (Z1, c) =>
      rw [e] at he
      simp only [Option.bind_eq_bind, Option.bind_some] at he
      match e1 : elements Z1 s its with
      | none => rw [e1] at he; cases he
      | some (Z2, cs2) =>
        rw [e1] at he
        cases he
        obtain ⟨F1, h1⟩ := element_reach h e
        obtain ⟨i1, i2, i3⟩ := ih (fun x hx => hn x (List.mem_cons_of_mem _ hx)) h1 e1
        refine ⟨?_, ?_, i3⟩
        · rw [i1, element_cells (hn it (by simp)) e]
          simp
        · rw [i2, (element_cases (hn it (by simp)) e).2.2.2.1, grow_grow]
          simp [Nat.add_mul, Nat.add_comm]

/-- **C103.**  Afterwards the zone has the memory it had before and, on top of it, that of the elements in the order they
were read, and nothing else: what reading an element needed meanwhile is gone.  No byte belongs to two elements or
to an element and something older. -/
theorem C103_memory {bs base : Nat} {Z : Zone} {F : Frames} (h : Reach bs base Z F) {s : Nat} {its : List Item}
    (hn : ∀ it ∈ its, Nested it.ops) {Z' : Zone} {cs : List (Nat × Nat)} {e : En} (hr : read Z s its = some (Z', cs, e)) :
    cells Z'.blocks = cs.reverse.flatMap (fun c => regionBytes c s) ++ F.bytes ∧
    (cs.reverse.flatMap (fun c => regionBytes c s) ++ F.bytes).Nodup ∧
    (∃ F', Reach bs base Z' F') ∧ Z'.states = grow (its.length * s) Z.states := by
  obtain ⟨he, _⟩ := read_eq hr
  obtain ⟨h1, h2, F', h3⟩ := elements_cells its hn h he
  have hF : cells Z.blocks = F.bytes := (C37_bytes h).1
  rw [hF] at h1
  refine ⟨h1, ?_, ⟨F', h3⟩, ?_⟩
  · rw [← h1]
    have := C37_bytes h3
    rw [this.1]
    exact this.2.1
  · rw [h2, elements_length its he]

example : sample.map (fun r => cells r.1.blocks) =
    some (([(2, 0), (0, 19), (0, 11), (0, 3)] : List (Nat × Nat)).flatMap (fun c => regionBytes c 8) ++ [(0, 2), (0, 1), (0, 0)]) := by decide

/-! ## When it fails -/

/-- **C103.**  If elements and saved states get their memory and reading their contents only allocates blocks of memory the zone
can hold, the elements are read unless an element is empty or does not fit in a block of the zone. -/
theorem C103_defined {bs base : Nat} {Z : Zone} {F : Frames} (h : Reach bs base Z F) (s : Nat) (its : List Item)
    (henv : ∀ it ∈ its, it.env.isSome ∧ it.envSave.isSome ∧ ∀ op ∈ it.ops, ∃ n b, op = .alloc n (some b) ∧ 0 < n ∧ n ≤ Z.blockSize) :
    (read Z s its).isSome ↔ its = [] ∨ (0 < s ∧ s ≤ Z.blockSize) := by
  have key : ∀ (its : List Item) (Z : Zone), 16 ≤ Z.blockSize → Z.blocks ≠ [] →
      (∀ it ∈ its, it.env.isSome ∧ it.envSave.isSome ∧ ∀ op ∈ it.ops, ∃ n b, op = .alloc n (some b) ∧ 0 < n ∧ n ≤ Z.blockSize) →
      0 < s ∧ s ≤ Z.blockSize → (elements Z s its).isSome := by
    have halloc : ∀ (Z : Zone) (n b : Nat), Z.blocks ≠ [] → 0 < n → n ≤ Z.blockSize → ∃ Z' c, alloc Z n (some b) = some (Z', some c) := by
      intro Z n b hne h0 h1
      unfold alloc
      rw [if_neg (by omega)]
      match hb : Z.blocks, hne with
      | x :: xs, _ =>
        dsimp only
        split <;> exact ⟨_, _, rfl⟩
    have hwork : ∀ (ops : List Op) (Z : Zone), Z.blocks ≠ [] →
        (∀ op ∈ ops, ∃ n b, op = .alloc n (some b) ∧ 0 < n ∧ n ≤ Z.blockSize) → ∃ Z', work Z ops = some Z' ∧ Nested ops := by
      intro ops
      induction ops with
      | nil => intro Z _ _; exact ⟨Z, rfl, .nil⟩
      | cons op ops ih =>
        intro Z hne ho
        obtain ⟨n, b, rfl, h0, h1⟩ := ho op (by simp)
        obtain ⟨Z1, c, e⟩ := halloc Z n b hne h0 h1
        have hg := alloc_grown e
        obtain ⟨Z2, e2, hn⟩ := ih Z1 hg.ne (fun op hop => by
          obtain ⟨n, b, h⟩ := ho op (List.mem_cons_of_mem _ hop)
          exact ⟨n, b, by rw [hg.2.2]; exact h⟩)
        refine ⟨Z2, ?_, .alloc _ _ hn⟩
        simp only [work, Zone.step, e, Option.map_some, Option.bind_eq_bind, Option.bind_some, e2]
    intro its
    induction its with
    | nil => intros; rfl
    | cons it its ih =>
      intro Z h16 hne hi hs
      obtain ⟨g1, g2, g3⟩ := hi it (by simp)
      obtain ⟨b1, hb1⟩ := Option.isSome_iff_exists.1 g1
      obtain ⟨b2, hb2⟩ := Option.isSome_iff_exists.1 g2
      obtain ⟨Z1, c, e1⟩ := halloc Z s b1 hne hs.1 hs.2
      have hg1 := alloc_grown e1
      obtain ⟨Z2, c2, e2⟩ := halloc Z1 16 b2 hg1.ne (by omega) (by rw [hg1.2.2]; exact h16)
      have es : save Z1 (some b2) = some ({ Z2 with states := 0 :: Z2.states }, c2) := by
        unfold save
        rw [show stateSize = 16 from rfl, e2]
      have hg2 := alloc_grown e2
      obtain ⟨Z3, e3, hn⟩ := hwork it.ops { Z2 with states := 0 :: Z2.states } hg2.ne (fun op hop => by
        obtain ⟨n, b, h⟩ := g3 op hop
        exact ⟨n, b, by dsimp only; rw [hg2.2.2, hg1.2.2]; exact h⟩)
      have ee : element Z s it = some (restore Z3, c) := by
        simp only [element, hb1, hb2, e1, es, e3, Option.bind_eq_bind, Option.bind_some]
      obtain ⟨_, _, hsz, _, _, _, _, _, hcases, hfr⟩ := element_cases hn ee
      have hne' : (restore Z3).blocks ≠ [] := by
        rcases hfr with hfr | ⟨_, _, hfr⟩ <;> rw [hfr]
        · rcases hcases with ⟨_, rfl⟩ | ⟨_, _, _, rfl⟩ <;> simp
        · simp
      have := ih (restore Z3) (by rw [hsz]; exact h16) hne' (fun x hx => by
        obtain ⟨a1, a2, a3⟩ := hi x (List.mem_cons_of_mem _ hx)
        exact ⟨a1, a2, fun op hop => by rw [hsz]; exact a3 op hop⟩) (by rw [hsz]; exact hs)
      obtain ⟨r, hr⟩ := Option.isSome_iff_exists.1 this
      simp only [elements, ee, Option.bind_eq_bind, Option.bind_some, hr, Option.isSome_some]
  have I := reach_inv h
  constructor
  · intro hr
    obtain ⟨⟨Z', cs, e⟩, hr⟩ := Option.isSome_iff_exists.1 hr
    cases its with
    | nil => exact .inl rfl
    | cons it its =>
      right
      obtain ⟨he, _⟩ := read_eq hr
      simp only [elements] at he
      match e : element Z s it with
      | none => rw [e] at he; cases he
      | some (Z1, c) =>
        simp only [element] at e
        match e' : alloc Z s it.env with
        | none => rw [e'] at e; cases e
        | some (Z2, none) => rw [e'] at e; cases e
        | some (Z2, some c') =>
          obtain ⟨h1, h2, _⟩ := alloc_cases e'
          exact ⟨h1, h2⟩
  · intro hd
    have : (elements Z s its).isSome := by
      rcases hd with rfl | hd
      · rfl
      · exact key its Z I.size I.bne henv hd
    obtain ⟨r, hr⟩ := Option.isSome_iff_exists.1 this
    simp only [read, hr, Option.bind_eq_bind, Option.bind_some, Option.isSome_some]

example : (read (create 40 1000) 8 [⟨some 1, some 2, [.alloc 30 (some 3)]⟩, ⟨some 1, some 2, []⟩]).isSome ∧
    (read (create 40 1000) 41 [⟨some 1, some 2, []⟩]).isSome = false := by decide

/-- **C103 refuted** for going backwards: when the elements do not begin at a multiple of their size and go on in another
block, going back leads to other addresses than those of the elements. -/
theorem C103_backwards_refuted :
    (sample.bind fun r => (ZoneEnum.run (chain r.1) r.2.2 [.call .next, .call .next, .call .next, .call .previous]).map fun l => (r.2.1, l.map (·.bind (place (chain r.1))))) =
      some ([(0, 3), (0, 11), (0, 19), (2, 0)], [some (0, 11), some (0, 19), some (2, 0), some (0, 16)]) := by decide

/-- **C103 refuted** for sequences as elements of sequences: between the save and the restore around an element, what is
read for a sequence in it is given back to the zone with the restore, so that the enumerable left in the element leads to memory
that is no longer allocated - always, not only for certain layouts. -/
theorem C103_nested_refuted {bs base : Nat} {Z Z2 : Zone} {F : Frames} (h : Reach bs base Z F) {env : Option Nat} {c : Nat × Nat}
    (hs : save Z env = some (Z2, c)) {s : Nat} {its : List Item} (hn : ∀ it ∈ its, Nested it.ops) {Z3 : Zone}
    {cs : List (Nat × Nat)} {e : En} (hr : read Z2 s its = some (Z3, cs, e)) :
    ∀ p ∈ cs, ∀ x ∈ regionBytes p s, x ∉ cells (restore Z3).blocks := by
  have h2 := Reach.call (op := .save env) h (by simp only [Zone.step, hs]; rfl)
  obtain ⟨m1, m2, _, m4⟩ := C103_memory h2 hn hr
  have hst : Z3.states = its.length * s :: grow 16 Z.states := by
    rw [m4, (save_grown hs).2.1]
    simp [grow]
  have hlen : cs.length = its.length := elements_length its (read_eq hr).1
  have hc : cells (restore Z3).blocks = (cs.reverse.flatMap (fun c => regionBytes c s) ++ (Frames.after F (.save env) (.region c stateSize)).bytes).drop (its.length * s + 16) := by
    unfold restore
    rw [hst]
    show cells (deallocBlocks (its.length * s + 16) Z3.blocks) = _
    rw [cells_deallocBlocks, m1]
  have hl : (cs.reverse.flatMap (fun c => regionBytes c s)).length = its.length * s := by
    rw [List.length_flatMap]
    simp only [regionBytes_length, List.map_const', List.sum_replicate_nat, List.length_reverse, hlen]
  intro p hp x hx hx'
  rw [hc, ← List.drop_drop, List.drop_left' hl] at hx'
  have hd := List.nodup_append.1 m2
  exact hd.2.2 x (List.mem_flatMap.2 ⟨p, List.mem_reverse.2 hp, hx⟩) x (List.mem_of_mem_drop hx') rfl

example : ((save (create 40 1000) none).bind fun r => (read r.1 8 [⟨none, none, []⟩, ⟨none, some 2000, []⟩]).map fun q => (q.2.1, (restore q.1).blocks)) =
    some ([(0, 16), (0, 24)], [⟨0, 1000, 0⟩]) := by decide

end Verif.ReadEnum

#print axioms Verif.ReadEnum.C103_nested_refuted
#print axioms Verif.ReadEnum.C103_forward
#print axioms Verif.ReadEnum.C103_memory
#print axioms Verif.ReadEnum.C103_defined
#print axioms Verif.ReadEnum.C103_backwards_refuted
