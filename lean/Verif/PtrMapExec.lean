import Verif.PtrMapOps
import Mathlib.Data.List.Nodup
import Mathlib.Data.List.InsertIdx
/-!
# The index map with elements stored by pointer: the calls
-/
namespace Verif.PtrMap
open IndexMap (Slot Res maxCount write load shift initLoop appendLoop cells full)
variable {α : Type}

theorem malloc_fst (fs : List Bool) : (malloc fs).1 = false ↔ fs.head? = some false := by
  cases fs with
  | nil => simp [malloc]
  | cons a fs => simp [malloc]

theorem count_set (q : Nat) : ∀ (L : List Nat) (i x : Nat) (hi : i < L.length), (L.set i x).count q + one L[i] q = L.count q + one x q := by
  intro L
  induction L with
  | nil => intro i x hi; exact absurd hi (Nat.not_lt_zero i)
  | cons a L ih =>
    intro i x hi
    cases i with
    | zero => simp only [List.set_cons_zero, count_cons_one, List.getElem_cons_zero]; omega
    | succ i =>
      have := ih i x (by simpa using hi)
      simp only [List.set_cons_succ, count_cons_one, List.getElem_cons_succ]; omega

theorem fresh {s : St α} {ps : List Nat} {l : List α} (h : Own s) (hh : Has s ps l) : s.heap.length ∉ ps :=
  fun hp => Nat.lt_irrefl _ (lt_of_rc (h.pos hh.cur hp))

theorem get_none {s : St α} {ps : List Nat} {l : List α} (hh : Has s ps l) {i : Nat} (hi : ¬ i < ps.length) : l[i]? = none :=
  List.getElem?_eq_none (by rw [← hh.len]; omega)

/-- An element of the map can be read. -/
theorem read_has {s : St α} {ps : List Nat} {l : List α} (h : Own s) (hh : Has s ps l) {i : Nat} (hi : i < ps.length) {h' : Heap α}
    (hr : 0 < rc h' ps[i]) (hv : val h' ps[i] = val s.heap ps[i]) : l[i]? = read h' ps[i] ∧ ∃ x, read h' ps[i] = some x := by
  obtain ⟨x, r1, r2⟩ := read_spec hr
  obtain ⟨hl, g⟩ := hh.get hi
  rw [hv, g] at r2
  refine ⟨?_, x, r1⟩
  rw [List.getElem?_eq_getElem hl, r1, r2]

theorem get_spec {s : St α} {ps : List Nat} {l : List α} (h : Own s) (hh : Has s ps l) (i : Nat) : get s i = some l[i]? := by
  have hle := IndexMap.le_maxCount h.chunk ps.length
  rw [get, data_eq hh]
  simp only [Option.bind_eq_bind, Option.bind_some, dat]
  by_cases hm : i < maxCount s.chunk ps.length
  · rw [if_pos hm, IndexMap.load_cells hle hm]
    by_cases hi : i < ps.length
    · rw [List.getElem?_eq_getElem hi]
      obtain ⟨h1, x, h2⟩ := read_has h hh hi (h.pos hh.cur (List.getElem_mem hi)) rfl
      simp only [Option.bind_some]
      rw [h1, h2]; rfl
    · rw [List.getElem?_eq_none (by omega : ps.length ≤ i), get_none hh hi]; rfl
  · rw [if_neg hm, get_none hh (by omega)]; rfl

/-- The heap with a new element. -/
theorem vals_set {s : St α} {ps : List Nat} {l : List α} (h : Own s) (hh : Has s ps l) (i : Nat) (x : α) :
    (ps.set i s.heap.length).map (val (new s.heap x).1) = (l.set i x).map some := by
  rw [List.map_set, List.map_set, new_val_self]
  congr 1
  rw [← hh.vals]
  exact List.map_congr_left fun q hq => new_val s.heap x q (lt_of_rc (h.pos hh.cur hq))

/-- A new element is stored in place of another, which is handed over. -/
theorem swap_spec {s : St α} {ps : List Nat} {l : List α} (h : Own s) (hh : Has s ps l) {i : Nat} (hi : i < ps.length) (x : α) :
    ∃ s1, St.store { s with heap := (new s.heap x).1 } i s.heap.length = some s1 ∧ s1.heap = (new s.heap x).1 ∧ s1.chunk = s.chunk ∧
      Own { s1 with held := s1.held ++ [.elem ps[i]] } ∧ Has { s1 with held := s1.held ++ [.elem ps[i]] } (ps.set i s.heap.length) (l.set i x) := by
  have hle := IndexMap.le_maxCount h.chunk ps.length
  refine ⟨{ s with heap := (new s.heap x).1, datas := s.datas.set s.cur (some (dat s.chunk (ps.set i s.heap.length))) }, ?_, rfl, rfl, ?_, ?_⟩
  · rw [St.store, show St.data { s with heap := (new s.heap x).1 } = some (dat s.chunk ps) from (data_eq hh : s.data = _)]
    simp only [Option.bind_eq_bind, Option.bind_some, dat]
    rw [IndexMap.write_eq (by rw [IndexMap.cells_length hle]; omega), IndexMap.cells_set hle hi, List.length_set]
    rfl
  · have := h.inPlace hh (ps' := ps.set i s.heap.length) (t := [ps[i]]) (h' := (new s.heap x).1) (fun q => by
      rw [new_rc, count_cons_one, List.count_nil]
      have := count_set q ps i s.heap.length hi
      omega)
    exact this
  · exact hh.inPlace (vals_set h hh i x) (hh.distinct.set (fresh h hh))

theorem replace_spec {s : St α} {ps : List Nat} {l : List α} (h : Own s) (hh : Has s ps l) (i : Nat) (x : α) (fs : List Bool) :
    ∃ s' ps', replace s i x fs = some (s', if fs.head? = some false then none else l[i]?) ∧ Own s' ∧
      Has s' ps' (if fs.head? = some false then l else l.set i x) ∧ s'.chunk = s.chunk := by
  have hle := IndexMap.le_maxCount h.chunk ps.length
  rw [replace, data_eq hh]
  simp only [Option.bind_eq_bind, Option.bind_some, dat]
  by_cases hi : i < ps.length
  · rw [if_pos (by omega), IndexMap.load_cells_lt hle hi]
    simp only [Option.bind_some]
    by_cases hf : fs.head? = some false
    · rw [(malloc_fst fs).mpr hf, if_pos hf, if_pos hf]
      exact ⟨s, ps, rfl, h, hh, rfl⟩
    · have hm : (malloc fs).1 = true := by
        cases hx : (malloc fs).1 with
        | true => rfl
        | false => exact absurd ((malloc_fst fs).mp hx) hf
      rw [hm, if_neg hf, if_neg hf, if_pos rfl]
      obtain ⟨s1, e1, e2, e3, e4, e5⟩ := swap_spec h hh hi x
      have hp := List.getElem_mem hi
      obtain ⟨r1, y, r2⟩ := read_has h hh hi (h' := (new s.heap x).1) (by rw [new_rc]; have := h.pos hh.cur hp; omega)
        (new_val _ _ _ (lt_of_rc (h.pos hh.cur hp)))
      refine ⟨_, _, ?_, e4, e5, e3⟩
      simp only [new] at e1 e2 r1 r2 ⊢
      rw [e1]
      simp only [Option.bind_some]
      rw [e2, r1, r2]
      rfl
  · have hn := get_none hh hi
    have hset : l.set i x = l := List.set_eq_of_length_le (by rw [← hh.len]; omega)
    refine ⟨s, ps, ?_, h, ?_, rfl⟩
    · rw [hn, ite_self]
      by_cases hm : i < maxCount s.chunk ps.length
      · rw [if_pos hm, IndexMap.load_cells hle hm, List.getElem?_eq_none (by omega : ps.length ≤ i)]; rfl
      · rw [if_neg hm]; rfl
    · rw [hset, ite_self]; exact hh

theorem replaceExact_spec [DecidableEq α] {s : St α} {ps : List Nat} {l : List α} (h : Own s) (hh : Has s ps l) (i : Nat) (x old : α) (fs : List Bool) :
    ∃ s' ps', replaceExact s i x old fs = some (s', decide (l[i]? = some old ∧ fs.head? ≠ some false)) ∧ Own s' ∧
      Has s' ps' (if l[i]? = some old ∧ fs.head? ≠ some false then l.set i x else l) ∧ s'.chunk = s.chunk := by
  have hle := IndexMap.le_maxCount h.chunk ps.length
  rw [replaceExact, data_eq hh]
  simp only [Option.bind_eq_bind, Option.bind_some, dat]
  by_cases hi : i < ps.length
  · rw [if_pos (by omega), IndexMap.load_cells_lt hle hi]
    simp only [Option.bind_some]
    by_cases hf : fs.head? = some false
    · have hc : ¬ (l[i]? = some old ∧ fs.head? ≠ some false) := fun e => e.2 hf
      rw [if_neg hc, decide_eq_false hc, (malloc_fst fs).mpr hf]
      exact ⟨s, ps, rfl, h, hh, rfl⟩
    · have hm : (malloc fs).1 = true := by
        cases hx : (malloc fs).1 with
        | true => rfl
        | false => exact absurd ((malloc_fst fs).mp hx) hf
      rw [hm, if_pos rfl]
      have hp := List.getElem_mem hi
      obtain ⟨r1, y, r2⟩ := read_has h hh hi (h' := (new s.heap x).1) (by rw [new_rc]; have := h.pos hh.cur hp; omega)
        (new_val _ _ _ (lt_of_rc (h.pos hh.cur hp)))
      have hq : 0 < rc (new s.heap x).1 s.heap.length := by rw [new_rc, one, if_pos rfl]; omega
      obtain ⟨h', f1, f2, f3⟩ := free_spec hq
      by_cases hy : y = old
      · have hc : l[i]? = some old ∧ fs.head? ≠ some false := ⟨by rw [r1, r2, hy], hf⟩
        obtain ⟨s1, e1, e2, e3, e4, e5⟩ := swap_spec h hh hi x
        rw [if_pos hc, decide_eq_true hc]
        refine ⟨_, _, ?_, e4, e5, e3⟩
        simp only [new] at e1 r2 ⊢
        rw [r2]
        simp only [Option.bind_some]
        rw [if_pos hy, e1]
        rfl
      · have hc : ¬ (l[i]? = some old ∧ fs.head? ≠ some false) := fun e => hy (by rw [r1, r2] at e; exact Option.some.inj e.1)
        rw [if_neg hc, decide_eq_false hc]
        refine ⟨{ s with heap := h' }, ps, ?_, h.heap (fun q => ?_), hh.heap (fun q hq => ?_), rfl⟩
        · simp only [new] at r2 f1 ⊢
          rw [r2]
          simp only [Option.bind_some]
          rw [if_neg hy, f1]
          rfl
        · have := f2 q; rw [new_rc] at this; omega
        · rw [f3, new_val _ _ _ (lt_of_rc (h.pos hh.cur hq))]
  · have hc : ¬ (l[i]? = some old ∧ fs.head? ≠ some false) := fun e => by rw [get_none hh hi] at e; cases e.1
    rw [if_neg hc, decide_eq_false hc]
    refine ⟨s, ps, ?_, h, hh, rfl⟩
    by_cases hm : i < maxCount s.chunk ps.length
    · rw [if_pos hm, IndexMap.load_cells hle hm, List.getElem?_eq_none (by omega : ps.length ≤ i)]; rfl
    · rw [if_neg hm]; rfl

theorem nodup_insert {ps : List Nat} {r : Nat} (h : ps.Nodup) (hr : r ∉ ps) (i : Nat) : (ps.take i ++ r :: ps.drop i).Nodup := by
  rw [List.perm_middle.nodup_iff, List.take_append_drop, List.nodup_cons]
  exact ⟨hr, h⟩

theorem count_insert (ps : List Nat) (r i q : Nat) : (ps.take i ++ r :: ps.drop i).count q = ps.count q + one r q := by
  rw [List.perm_middle.count_eq, count_cons_one, List.take_append_drop]

theorem remove_spec {s : St α} {ps : List Nat} {l : List α} (h : Own s) (hh : Has s ps l) (i : Nat) (fs : List Bool) :
    ∃ s' ps', remove s i fs = some (s', l[i]?) ∧ Own s' ∧ Has s' ps' (l.eraseIdx i) ∧ s'.chunk = s.chunk := by
  have hle := IndexMap.le_maxCount h.chunk ps.length
  rw [remove, data_eq hh]
  simp only [Option.bind_eq_bind, Option.bind_some]
  by_cases hi : i < ps.length
  · have hc : ¬ (i ≥ (dat s.chunk ps).count ∨ (dat s.chunk ps).count = 0) := by simp only [dat]; omega
    rw [if_neg hc]
    have hel : (ps.eraseIdx i).length = ps.length - 1 := by rw [List.length_eraseIdx, if_pos hi]
    have hr := IndexMap.resize_skip (max := maxCount s.chunk ps.length) (max' := maxCount s.chunk (ps.length - 1)) hle hi (IndexMap.le_maxCount h.chunk _)
    obtain ⟨h', e1, e2, e3⟩ := resize_eq (h := s.heap) hr hel (fun k hk => by
        simp only [shift]
        rw [List.getElem_eraseIdx]
        split
        · exact IndexMap.load_cells_lt hle _
        · exact IndexMap.load_cells_lt hle _)
      (fun p hp => h.pos hh.cur (List.mem_of_mem_eraseIdx hp))
    have hd : (⟨ps.length - 1, cells (ps.eraseIdx i) (maxCount s.chunk (ps.length - 1))⟩ : Data) = dat s.chunk (ps.eraseIdx i) := by simp only [dat, hel]
    rw [hd] at e1
    have hp := List.getElem_mem hi
    obtain ⟨r1, y, r2⟩ := read_has h hh hi (h' := h') (by rw [e2]; have := h.pos hh.cur hp; omega) (e3 _)
    refine ⟨s.publish h' (dat s.chunk (ps.eraseIdx i)), ps.eraseIdx i, ?_, h.publish hh e2, ?_, rfl⟩
    · induction fs with
      | nil =>
        rw [removeTry]
        · simp only [dat] at e1 ⊢
          rw [e1]
          simp only [Option.bind_eq_bind, Option.bind_some]
          rw [IndexMap.load_cells_lt hle hi]
          simp only [Option.bind_some, St.publish]
          rw [r1, r2]; rfl
        · intro fs e; cases e
      | cons a fs ih =>
        cases a with
        | false => rw [removeTry]; exact ih
        | true =>
          rw [removeTry]
          · simp only [dat] at e1 ⊢
            rw [e1]
            simp only [Option.bind_eq_bind, Option.bind_some]
            rw [IndexMap.load_cells_lt hle hi]
            simp only [Option.bind_some, St.publish]
            rw [r1, r2]; rfl
          · intro fs e; cases e
    · refine Has.publish ?_ (hh.distinct.eraseIdx i)
      rw [List.map_congr_left (fun q _ => e3 q), ← List.eraseIdx_map, ← List.eraseIdx_map, hh.vals]
  · have hc : i ≥ (dat s.chunk ps).count ∨ (dat s.chunk ps).count = 0 := by simp only [dat]; omega
    rw [if_pos hc, get_none hh hi, List.eraseIdx_of_length_le (by rw [← hh.len]; omega)]
    exact ⟨s, ps, rfl, h, hh, rfl⟩

/-! ## Inserting -/

theorem cleanup_raw (n : Nat) : ∀ (h : Heap α) (b : List (Slot Nat)) (i j : Nat), i ≤ j → j < i + n → b[j]? = some .raw → cleanup h b i n = none := by
  induction n with
  | zero => intro h b i j h1 h2; omega
  | succ n ih =>
    intro h b i j h1 h2 hj
    rw [cleanup]
    by_cases e : i = j
    · subst e; rw [load, hj]; rfl
    · cases load b i with
      | none => rfl
      | some v =>
        cases v with
        | raw => exact ih h b (i + 1) j (by omega) (by omega) hj
        | unset => exact ih h b (i + 1) j (by omega) (by omega) hj
        | set p =>
          simp only [Option.bind_eq_bind, Option.bind_some]
          cases free h p with
          | none => rfl
          | some h' => exact ih h' b (i + 1) j (by omega) (by omega) hj

/-- The slot for the new element is not initialised. -/
theorem resize_extra_raw {l : List Nat} {max max' : Nat} (h : l.length ≤ max) {i : Nat} (hi : i < l.length) (h' : l.length + 1 ≤ max') {b : List (Slot Nat)} {c : Nat}
    (hr : IndexMap.resize (cells l max) l.length max' none (some i) = some (b, c)) : b[i]? = some .raw := by
  obtain ⟨b1, h1, h2, h3, h4⟩ := IndexMap.copyLoop_spec (src := cells l max) (skip := none) (extra := some i) (S := fun k => if h : k < l.length then .set l[k] else .raw) l.length
    (List.replicate max' .raw) 0 (fun k _ hk => by rw [dif_pos (by omega)]; exact IndexMap.load_cells_lt h (j := k) (by omega))
    (fun k _ hk => by simp [shift]; split <;> omega)
  obtain ⟨b2, h5, h6, h7⟩ := IndexMap.initLoop_spec (max' - (l.length + 1)) b1 (l.length + 1) (by simp at h2; omega)
  have hsh : shift l.length (some i) = l.length + 1 := by simp [shift]; omega
  have hb : b = b2 := by
    unfold IndexMap.resize at hr
    rw [h1] at hr
    have hr' : (do let b ← initLoop b1 (shift l.length (some i)) (max' - shift l.length (some i)); return (b, l.length + 1)) = some (b, c) := hr
    rw [hsh, h5] at hr'
    simp only [Option.bind_eq_bind, Option.bind_some, Option.pure_def, Option.some.injEq, Prod.mk.injEq] at hr'
    exact hr'.1.symm
  rw [hb, h7, if_neg (by omega), h4 i (fun k _ _ => by simp only [shift]; split <;> omega), List.getElem?_replicate, if_pos (by omega)]

theorem insert_out {s : St α} {ps : List Nat} {l : List α} (hh : Has s ps l) {i : Nat} (hi : ¬ i < l.length) (x : α) (fs : List Bool) : insert s i x fs = some (s, false) := by
  rw [insert, data_eq hh]
  simp only [Option.bind_eq_bind, Option.bind_some]
  have := hh.len
  rw [if_pos (by simp only [dat]; omega)]; rfl

theorem insertTry_ok {s : St α} {d : Data} {i : Nat} {x : α} {r : Option (St α × Bool)} (fs : List Bool) (hf : ¬ Spec.Starved fs)
    (h : r = (do
      let (h, e) ← resize s.heap d.buf d.count (maxCount s.chunk (d.count + 1)) none (some i)
      let (h, q) := new h x
      let b ← write e.buf i (.set q)
      return (s.publish h ⟨e.count, b⟩, true))) : insertTry s d i x fs = r := by
  induction fs with
  | nil =>
    rw [h, insertTry]
    · intro fs e; cases e
    · intro fs e; cases e
  | cons a fs ih =>
    cases a with
    | false =>
      rw [insertTry]
      apply ih
      rintro ⟨n, rest, rfl⟩
      exact hf ⟨n + 1, rest, rfl⟩
    | true =>
      rw [h, insertTry]
      · intro fs e; cases e
      · intro fs' e
        rw [List.cons.injEq] at e
        exact hf ⟨0, fs', by rw [e.2]; rfl⟩

theorem insert_spec {s : St α} {ps : List Nat} {l : List α} (h : Own s) (hh : Has s ps l) {i : Nat} (hi : i < l.length) (x : α) (fs : List Bool) (hf : ¬ Spec.Starved fs) :
    ∃ s' ps', insert s i x fs = some (s', true) ∧ Own s' ∧ Has s' ps' (l.take i ++ x :: l.drop i) ∧ s'.chunk = s.chunk := by
  have hle := IndexMap.le_maxCount h.chunk ps.length
  have hlen := hh.len
  rw [insert, data_eq hh]
  simp only [Option.bind_eq_bind, Option.bind_some]
  rw [if_neg (by simp only [dat]; omega)]
  obtain ⟨b, hr, hw⟩ := IndexMap.resize_extra (max := maxCount s.chunk ps.length) (max' := maxCount s.chunk (ps.length + 1)) hle (i := i) (by omega) (IndexMap.le_maxCount h.chunk _) s.heap.length
  obtain ⟨h', e1, e2, e3⟩ := resize_eq (h := s.heap) (L := ps) hr rfl (fun k hk => IndexMap.load_cells_lt hle hk) (fun p hp => h.pos hh.cur hp)
  have hlen' : h'.length = s.heap.length := by
    have hiff : ∀ q, (q < h'.length ↔ q < s.heap.length) := fun q => by
      have := e3 q
      simp only [val] at this
      rcases Nat.lt_or_ge q h'.length with a | a <;> rcases Nat.lt_or_ge q s.heap.length with b | b
      · exact ⟨fun _ => b, fun _ => a⟩
      · rw [List.getElem?_eq_getElem a, List.getElem?_eq_none b] at this; cases this
      · rw [List.getElem?_eq_none a, List.getElem?_eq_getElem b] at this; cases this
      · exact ⟨fun _ => by omega, fun _ => by omega⟩
    have a := hiff h'.length
    have b := hiff s.heap.length
    omega
  have hd : (⟨ps.length + 1, cells (ps.take i ++ s.heap.length :: ps.drop i) (maxCount s.chunk (ps.length + 1))⟩ : Data) = dat s.chunk (ps.take i ++ s.heap.length :: ps.drop i) := by
    have : (ps.take i ++ s.heap.length :: ps.drop i).length = ps.length + 1 := by simp; omega
    simp only [dat, this]
  refine ⟨s.publish (new h' x).1 (dat s.chunk (ps.take i ++ s.heap.length :: ps.drop i)), ps.take i ++ s.heap.length :: ps.drop i, ?_, h.publish hh (fun q => ?_), Has.publish ?_ (nodup_insert hh.distinct (fresh h hh) i), rfl⟩
  · apply insertTry_ok fs hf
    simp only [dat]
    rw [e1]
    simp only [Option.bind_eq_bind, Option.bind_some, new]
    rw [hlen', hw]
    simp only [Option.bind_some]
    rw [hd]; rfl
  · rw [new_rc, e2, count_insert, hlen']; omega
  · have hv : ∀ q ∈ ps, val (new h' x).1 q = val s.heap q := fun q hq => by
      rw [new_val _ _ _ (by rw [hlen']; exact lt_of_rc (h.pos hh.cur hq)), e3]
    have hn : val (new h' x).1 s.heap.length = some x := by rw [← hlen']; exact new_val_self h' x
    rw [List.map_append, List.map_cons, List.map_append, List.map_cons, hn, List.map_take, List.map_drop, List.map_take, List.map_drop, ← hh.vals, List.map_congr_left hv]

theorem insert_starved {s : St α} {ps : List Nat} {l : List α} (h : Own s) (hh : Has s ps l) {i : Nat} (hi : i < l.length) (x : α) (fs : List Bool) (hf : Spec.Starved fs) :
    insert s i x fs = none := by
  have hle := IndexMap.le_maxCount h.chunk ps.length
  have hle' := IndexMap.le_maxCount h.chunk (ps.length + 1)
  have hlen := hh.len
  rw [insert, data_eq hh]
  simp only [Option.bind_eq_bind, Option.bind_some]
  rw [if_neg (by simp only [dat]; omega)]
  obtain ⟨b, hr, hw⟩ := IndexMap.resize_extra (max := maxCount s.chunk ps.length) (max' := maxCount s.chunk (ps.length + 1)) hle (i := i) (by omega) hle' s.heap.length
  obtain ⟨h', e1, e2, e3⟩ := resize_eq (h := s.heap) (L := ps) hr rfl (fun k hk => IndexMap.load_cells_lt hle hk) (fun p hp => h.pos hh.cur hp)
  have hraw := resize_extra_raw hle (i := i) (by omega) hle' hr
  obtain ⟨n, rest, rfl⟩ := hf
  induction n with
  | succ n ih => rw [List.replicate_succ, List.cons_append, insertTry]; exact ih
  | zero =>
    rw [List.replicate_zero, List.nil_append, insertTry]
    simp only [dat]
    rw [e1]
    simp only [Option.bind_eq_bind, Option.bind_some]
    rw [freeData, cleanup_raw _ h' _ 0 i (by omega) (by simp only; omega) hraw]; rfl

/-! ## Appending -/

theorem removeLoop_spec (n : Nat) : ∀ (b : List (Slot Nat)) (i : Nat), i + n ≤ b.length → (∀ j : Nat, b[j]? ≠ some Slot.raw) →
    ∃ b', removeLoop b i n = some (b', (ptrs ((b.drop i).take n)).map Item.elem) ∧ b'.length = b.length ∧
      ∀ j : Nat, b'[j]? = if i ≤ j ∧ j < i + n then some .unset else b[j]? := by
  induction n with
  | zero => intro b i _ _; exact ⟨b, by simp [removeLoop, ptrs], rfl, fun j => by rw [if_neg (by omega)]⟩
  | succ n ih =>
    intro b i hb hraw
    have hi : i < b.length := by omega
    have hg : b[i]? = some b[i] := List.getElem?_eq_getElem hi
    obtain ⟨b', h1, h2, h3⟩ := ih (b.set i .unset) (i + 1) (by simp; omega) (fun j => by
      rw [List.getElem?_set]
      split
      · first | simp | (split <;> simp)
      · exact hraw j)
    have hdrop : (b.set i .unset).drop (i + 1) = b.drop (i + 1) := by rw [List.drop_set_of_lt (by omega)]
    rw [hdrop] at h1
    have hd : (b.drop i).take (n + 1) = b[i] :: (b.drop (i + 1)).take n := by rw [List.drop_eq_getElem_cons hi, List.take_succ_cons]
    have hget : ∀ j : Nat, b'[j]? = if i ≤ j ∧ j < i + (n + 1) then some .unset else b[j]? := by
      intro j
      rw [h3, List.getElem?_set]
      by_cases e : i = j
      · subst e; rw [if_neg (by omega), if_pos rfl, if_pos hi, if_pos (by omega)]
      · rw [if_neg e]
        by_cases hc : i + 1 ≤ j ∧ j < i + 1 + n
        · rw [if_pos hc, if_pos (by omega)]
        · rw [if_neg hc, if_neg (by omega)]
    refine ⟨b', ?_, by simpa using h2, hget⟩
    have hr := hraw i
    rw [hg] at hr
    rw [removeLoop, load, hg, hd]
    cases hbi : b[i] with
    | raw => rw [hbi] at hr; exact absurd rfl hr
    | unset =>
      simp only [Option.bind_eq_bind, Option.bind_some]
      rw [IndexMap.write_eq hi, Option.bind_some, h1]; rfl
    | set p =>
      simp only [Option.bind_eq_bind, Option.bind_some]
      rw [IndexMap.write_eq hi, Option.bind_some, h1]; rfl

theorem ptrs_unset (b : List (Slot Nat)) (h : ∀ (j : Nat) (v : Slot Nat), b[j]? = some v → v = .unset) : ptrs b = [] := by
  induction b with
  | nil => rfl
  | cons a b ih =>
    have h0 := h 0 a rfl
    subst h0
    exact ih fun j v hj => h (j + 1) v hj

/-- The elements of data that is given up are handed over, and nothing else is freed with it. -/
theorem drop_spec {chunk : Nat} (hc : 0 < chunk) (h : Heap α) (ps : List Nat) {max : Nat} (hm : maxCount chunk (ps.length + 1) = max) :
    ∃ b h', removeLoop (cells ps max) 0 (ps.length + 1) = some (b, ps.map Item.elem) ∧ freeData chunk h ⟨ps.length + 1, b⟩ = some h' ∧
      (∀ q, rc h' q = rc h q) ∧ (∀ q, val h' q = val h q) := by
  have hle := IndexMap.le_maxCount hc (ps.length + 1)
  rw [hm] at hle
  have hle' : ps.length ≤ max := by omega
  have hL := IndexMap.cells_length hle'
  obtain ⟨b, h1, h2, h3⟩ := removeLoop_spec (ps.length + 1) (cells ps max) 0 (by omega) (fun j => cells_raw hle' j)
  have hall : ∀ (j : Nat) (v : Slot Nat), b[j]? = some v → v = .unset := by
    intro j v hj
    rw [h3] at hj
    split at hj
    · exact (Option.some.inj hj).symm
    · rename_i hn
      rw [IndexMap.cells_get hle', dif_neg (by omega)] at hj
      split at hj
      · exact (Option.some.inj hj).symm
      · cases hj
  have hpt : ptrs ((cells ps max).take (ps.length + 1)) = ps := by
    have e1 : ptrs (cells ps max) = ptrs ((cells ps max).take (ps.length + 1)) ++ ptrs ((cells ps max).drop (ps.length + 1)) := by
      rw [ptrs, ptrs, ptrs, ← List.filterMap_append, List.take_append_drop]
    have e2 : ptrs ((cells ps max).drop (ps.length + 1)) = [] := by
      apply ptrs_unset
      intro j v hj
      rw [List.getElem?_drop, IndexMap.cells_get hle', dif_neg (by omega)] at hj
      split at hj
      · exact (Option.some.inj hj).symm
      · cases hj
    rw [e2, List.append_nil, ptrs_cells] at e1
    exact e1.symm
  rw [List.drop_zero, hpt] at h1
  obtain ⟨h', c1, c2, c3⟩ := cleanup_spec max h b 0 (by omega) (fun j _ hj => by cases hall j _ hj) (by rw [List.drop_zero, ptrs_unset b hall]; intro q; simp)
  rw [List.drop_zero, ptrs_unset b hall] at c2
  exact ⟨b, h', h1, by rw [freeData]; simp only; rw [hm]; exact c1, c2, c3⟩

theorem set_same {s : St α} {ps : List Nat} {l : List α} (hh : Has s ps l) : s.datas.set s.cur (some (dat s.chunk ps)) = s.datas := by
  apply List.ext_getElem?
  intro k
  rw [List.getElem?_set]
  by_cases e : s.cur = k
  · subst e
    rw [if_pos rfl, hh.cur]
    split
    · rfl
    · rename_i hl
      have := hh.cur
      rw [List.getElem?_eq_none (by omega)] at this; cases this
  · rw [if_neg e]

theorem length_of_val {h h' : Heap α} (e : ∀ q, val h' q = val h q) : h'.length = h.length := by
  have hiff : ∀ q, (q < h'.length ↔ q < h.length) := fun q => by
    have := e q
    simp only [val] at this
    rcases Nat.lt_or_ge q h'.length with a | a <;> rcases Nat.lt_or_ge q h.length with b | b
    · exact ⟨fun _ => b, fun _ => a⟩
    · rw [List.getElem?_eq_getElem a, List.getElem?_eq_none b] at this; cases this
    · rw [List.getElem?_eq_none a, List.getElem?_eq_getElem b] at this; cases this
    · exact ⟨fun _ => by omega, fun _ => by omega⟩
  have a := hiff h'.length
  have b := hiff h.length
  omega

theorem nodup_snoc {ps : List Nat} {r : Nat} (h : ps.Nodup) (hr : r ∉ ps) : (ps ++ [r]).Nodup := by
  rw [List.nodup_append]
  refine ⟨h, by simp, fun a ha b hb => ?_⟩
  simp only [List.mem_singleton] at hb
  rintro rfl
  exact hr (hb ▸ ha)

/-- The element that is not used is freed. -/
theorem unuse {s : St α} {ps : List Nat} {l : List α} (h : Own s) (hh : Has s ps l) (x : α) :
    ∃ h', free (new s.heap x).1 s.heap.length = some h' ∧ Own { s with heap := h' } ∧ Has { s with heap := h' } ps l := by
  obtain ⟨h', f1, f2, f3⟩ := free_spec (h := (new s.heap x).1) (p := s.heap.length) (by rw [new_rc, one, if_pos rfl]; omega)
  refine ⟨h', f1, h.heap (fun q => by have := f2 q; rw [new_rc] at this; omega), hh.heap (fun q hq => ?_)⟩
  rw [f3, new_val _ _ _ (lt_of_rc (h.pos hh.cur hq))]

theorem append_spec {s : St α} {ps : List Nat} {l : List α} (h : Own s) (hh : Has s ps l) (x : α) (fs : List Bool) :
    ∃ s' ps', append s x fs = some (s', if false ∈ fs.take (if full s.chunk l.length then 3 else 1) then none else some l.length) ∧ Own s' ∧
      Has s' ps' (if false ∈ fs.take (if full s.chunk l.length then 3 else 1) then l else l ++ [x]) ∧ s'.chunk = s.chunk := by
  have hle := IndexMap.le_maxCount h.chunk ps.length
  have hs := IndexMap.maxCount_succ h.chunk ps.length
  have hf := IndexMap.maxCount_eq_iff h.chunk ps.length
  have hfr := fresh h hh
  rw [← hh.len]
  rw [append, data_eq hh]
  simp only [Option.bind_eq_bind, Option.bind_some, dat]
  generalize hM : maxCount s.chunk ps.length = M at *
  obtain ⟨a, fs1, hfs1⟩ : ∃ a fs1, malloc fs = (a, fs1) := ⟨_, _, rfl⟩
  have ha : (malloc fs).1 = a := by rw [hfs1]
  rw [hfs1]
  cases a with
  | false =>
    have hh0 : false ∈ fs.take (if full s.chunk ps.length then 3 else 1) := by
      have := (malloc_fst fs).mp ha
      cases fs with
      | nil => cases this
      | cons b fs => simp only [List.head?_cons, Option.some.injEq] at this; subst this; split <;> simp
    rw [if_pos hh0, if_pos hh0]
    exact ⟨s, ps, rfl, h, hh, rfl⟩
  | true =>
    simp only [if_true]
    by_cases hfull : M = ps.length
    · -- a new buffer
      have hfull' := hf.1 hfull
      rw [if_pos hfull] at hs
      rw [hfull', Nat.sub_eq_zero_of_le (by omega)]
      simp only [appendLoop, Option.bind_some, if_true, new]
      obtain ⟨a2, fs2, hfs2⟩ : ∃ a fs, malloc fs1 = (a, fs) := ⟨_, _, rfl⟩
      have ha2 : (malloc fs1).1 = a2 := by rw [hfs2]
      rw [hfs2]
      have hmem : (false ∈ fs.take 3) ↔ (a2 = false ∨ (malloc fs2).1 = false) := by
        have q1 : fs1 = (malloc fs).2 := by rw [hfs1]
        have q2 : fs2 = (malloc fs1).2 := by rw [hfs2]
        rw [← ha2, q2, q1]
        rcases fs with _ | ⟨b1, _ | ⟨b2, _ | ⟨b3, fs⟩⟩⟩
        · simp [malloc]
        · simp only [malloc] at ha; subst ha; simp [malloc]
        · simp only [malloc] at ha; subst ha; simp [malloc]
        · simp only [malloc] at ha; subst ha; simp [malloc]
      cases a2 with
      | false =>
        rw [if_pos (hmem.mpr (.inl rfl)), if_pos (hmem.mpr (.inl rfl))]
        obtain ⟨h', f1, f2, f3⟩ := unuse h hh x
        refine ⟨_, ps, ?_, f2, f3, rfl⟩
        simp only [new] at f1
        simp only [Bool.false_eq_true, if_false]
        rw [f1]; rfl
      | true =>
        simp only [if_true]
        have hpos : ∀ p ∈ ps, 0 < rc (s.heap ++ [(x, 1)]) p := fun p hp => by
          have := new_rc s.heap x p; simp only [new] at this; rw [this]; have := h.pos hh.cur hp; omega
        have hr := IndexMap.resize_grow (l := ps) (max := M) (max' := M + s.chunk) hle (by omega)
        obtain ⟨h', e1, e2, e3⟩ := resize_eq (h := s.heap ++ [(x, 1)]) (L := ps) hr rfl (fun k hk => IndexMap.load_cells_lt hle hk) hpos
        rw [e1]
        simp only [Option.bind_some]
        have hrc0 : ∀ q, rc (s.heap ++ [(x, 1)]) q = rc s.heap q + one s.heap.length q := new_rc s.heap x
        have hval0 : ∀ q ∈ ps, val (s.heap ++ [(x, 1)]) q = val s.heap q := fun q hq => new_val s.heap x q (lt_of_rc (h.pos hh.cur hq))
        have hlen' : h'.length = s.heap.length + 1 := by rw [length_of_val e3]; simp
        cases hm3 : (malloc fs2).1 with
        | true =>
          have hn : ¬ false ∈ fs.take 3 := by rw [hmem, hm3]; simp
          rw [if_neg hn, if_neg hn]
          simp only [if_true]
          have hrn : h'.length ∉ ps := fun hp => by have := lt_of_rc (h.pos hh.cur hp); omega
          obtain ⟨h2, f1, f2, f3⟩ := free_spec (h := (new h' x).1) (p := s.heap.length) (by rw [new_rc, e2, hrc0, one, if_pos rfl]; omega)
          refine ⟨s.publish h2 (dat s.chunk (ps ++ [h'.length])), ps ++ [h'.length], ?_, h.publish hh (fun q => ?_), Has.publish ?_ (nodup_snoc hh.distinct hrn), rfl⟩
          · rw [IndexMap.write_eq (by rw [IndexMap.cells_length (by omega)]; have := h.chunk; omega), IndexMap.cells_snoc (by have := h.chunk; omega)]
            simp only [Option.bind_some, St.publish]
            simp only [new] at f1
            rw [f1]
            simp only [Option.bind_some, dat, List.length_append, List.length_singleton, hs]
            rfl
          · have g1 := f2 q; have g2 := new_rc h' x q; have g3 := e2 q; have g4 := hrc0 q
            rw [List.count_append, count_cons_one, List.count_nil]; omega
          · rw [List.map_append, List.map_append, ← hh.vals]
            congr 1
            · exact List.map_congr_left fun q hq => by
                rw [f3, new_val _ _ _ (by have := lt_of_rc (h.pos hh.cur hq); omega), e3, hval0 q hq]
            · simp only [List.map_cons, List.map_nil]; rw [f3, new_val_self]
        | false =>
          have hn : false ∈ fs.take 3 := by rw [hmem, hm3]; simp
          rw [if_pos hn, if_pos hn]
          simp only [Bool.false_eq_true, if_false]
          obtain ⟨b, h2, d1, d2, d3, d4⟩ := drop_spec h.chunk h' ps (max := M + s.chunk) hs
          obtain ⟨h3, f1, f2, f3⟩ := free_spec (h := h2) (p := s.heap.length) (by rw [d3, e2, hrc0, one, if_pos rfl]; omega)
          refine ⟨{ s with heap := h3, held := s.held ++ ps.map Item.elem }, ps, ?_, ?_, ?_, rfl⟩
          · rw [d1]
            simp only [Option.bind_some]
            rw [d2]
            simp only [Option.bind_some]
            rw [f1]; rfl
          · have := h.inPlace hh (ps' := ps) (h' := h3) (t := ps) (fun q => by
              have g1 := f2 q; have g2 := d3 q; have g3 := e2 q; have g4 := hrc0 q; omega)
            rw [set_same hh] at this
            exact this
          · have := hh.inPlace (ps' := ps) (l' := l) (h' := h3) (t := ps.map Item.elem) (by
              rw [← hh.vals]; exact List.map_congr_left fun q hq => by rw [f3, d4, e3, hval0 q hq]) hh.distinct
            rw [set_same hh] at this
            exact this
    · have hnf : full s.chunk ps.length = false := by
        cases hx : full s.chunk ps.length
        · rfl
        · exact absurd (hf.2 hx) hfull
      rw [if_neg hfull] at hs
      rw [hnf]
      have hn : ¬ false ∈ fs.take (if false = true then 3 else 1) := by
        cases fs with
        | nil => simp
        | cons b fs => simp only [malloc] at ha; subst ha; simp
      rw [if_neg hn, if_neg hn]
      obtain ⟨k, hk⟩ : ∃ k, M - ps.length = k + 1 := ⟨M - ps.length - 1, by omega⟩
      refine ⟨{ s with heap := (new s.heap x).1, datas := s.datas.set s.cur (some (dat s.chunk (ps ++ [s.heap.length]))) }, ps ++ [s.heap.length], ?_, ?_, ?_, rfl⟩
      · simp only [new]
        rw [hk, appendLoop, IndexMap.load_cells hle (by omega)]
        simp only [List.getElem?_eq_none (Nat.le_refl ps.length), Option.bind_eq_bind, Option.bind_some]
        rw [IndexMap.write_eq (by rw [IndexMap.cells_length hle]; omega), IndexMap.cells_snoc (by omega)]
        simp only [Option.bind_some, dat, List.length_append, List.length_singleton, hs]
        rfl
      · have := h.inPlace hh (ps' := ps ++ [s.heap.length]) (h' := (new s.heap x).1) (t := []) (fun q => by
          rw [new_rc, List.count_append, count_cons_one, List.count_nil]; omega)
        rw [List.map_nil, List.append_nil] at this
        exact this
      · have := hh.inPlace (ps' := ps ++ [s.heap.length]) (l' := l ++ [x]) (h' := (new s.heap x).1) (t := []) (by
          rw [List.map_append, List.map_append, ← hh.vals]
          congr 1
          · exact List.map_congr_left fun q hq => new_val s.heap x q (lt_of_rc (h.pos hh.cur hq))
          · simp only [List.map_cons, List.map_nil]; rw [new_val_self]) (nodup_snoc hh.distinct hfr)
        rw [List.append_nil] at this
        exact this

end Verif.PtrMap
