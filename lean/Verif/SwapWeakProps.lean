import Verif.SwapWeak
/-!
# C126: the memory orders of the concurrent swap buffer
-/
namespace Verif.SwapWeak

/-- What C126 says about a recorded event; `sync`: the exchange of `Read` is a release, and the accesses of `Apply` are acquires. -/
def Ev.ok (sync : Bool) : Ev → Prop
  | .took c l => c = l
  | .look s e => s = e ∧ ∃ v, s = some v
  | .noFlag => False
  | .readRace => False
  | .writeRace => sync = false

def sync (o : Orders) : Bool := o.readRel && (o.loadAcq && o.swapAcq)

theorem log_snoc {s : Bool} {l : List Ev} {e : Ev} (h : ∀ e ∈ l, e.ok s) (he : e.ok s) : ∀ x ∈ l ++ [e], x.ok s := by
  intro x hx
  rcases List.mem_append.1 hx with hx | hx
  · exact h x hx
  · obtain rfl := List.mem_singleton.1 hx; exact he

/-- Three different ones of the three buffers. -/
def Three (a b c : Nat) : Prop := a < 3 ∧ b < 3 ∧ c < 3 ∧ a ≠ b ∧ a ≠ c ∧ b ≠ c

/-- The writer is in a legitimate state, `L` being the last store. -/
def PcW (o : Orders) (y : Sys) (L : Msg) : W → Prop
  | .idle => True
  | .filling => True
  | .loaded f b => ∃ x, y.msgs[y.wIdx]? = some x ∧ x.flag = f ∧ (f = false → b = L.buf ∧ (sync o = true → L.rStamp ≤ y.wSeen))

structure Inv (o : Orders) (y : Sys) : Prop where
  chain : ∀ (i : Nat) (x z : Msg), y.msgs[i]? = some x → y.msgs[i + 1]? = some z → x.flag = true → z.rmw = true
  wIdx : y.wIdx < y.msgs.length
  rIdx : y.rIdx < y.msgs.length
  wFlags : ∀ (i : Nat) (x : Msg), y.wIdx ≤ i → i + 1 < y.msgs.length → y.msgs[i]? = some x → x.flag = true
  rFlags : ∀ (i : Nat) (x : Msg), y.rIdx < i → y.msgs[i]? = some x → x.flag = true
  rFlag : y.r = .loaded → ∀ x, y.msgs[y.rIdx]? = some x → x.flag = true
  last : ∃ L, y.msgs[y.msgs.length - 1]? = some L ∧ Three y.write y.read L.buf ∧ PcW o y L y.w ∧
    (L.flag = true → y.last = L.content ∧ (y.bufs L.buf).val = L.content ∧ (y.bufs L.buf).wStamp ≤ L.wStamp ∧ (sync o = true → (y.bufs L.buf).rStamp ≤ y.wSeen)) ∧
    (L.flag = false → sync o = true → (y.bufs L.buf).rStamp ≤ L.rStamp)
  held : (y.bufs y.read).val = y.expected ∧ (y.bufs y.read).wStamp ≤ y.rSeen
  known : sync o = true → (y.bufs y.write).rStamp ≤ y.wSeen
  full : ∀ b, (y.bufs b).val = none → b = y.write ∧ y.w = .filling
  wStamp : ∀ b, (y.bufs b).wStamp < y.wStep
  rStamp : ∀ b, (y.bufs b).rStamp < y.rStep
  pending : ∀ l ∈ y.pending, l.buf = y.read ∧ l.expect = y.expected ∧ (y.bufs y.read).wStamp ≤ l.seen ∧ l.step < y.rStep
  log : ∀ e ∈ y.log, e.ok (sync o)

theorem inv_init (o : Orders) (v : Nat) : Inv o (init v) := by
  refine ⟨?_, by simp [init], by simp [init], ?_, ?_, by simp [init], ⟨_, rfl, by simp [init, Three], trivial, by simp, by simp [init]⟩, by simp [init], by simp [init],
    by simp [init], by simp [init], by simp [init], by simp [init], by simp [init]⟩
  · intro i x z hx hz; simp [init] at hz
  · intro i x _ hi; simp [init] at hi
  · intro i x hi hx
    obtain ⟨h, _⟩ := List.getElem?_eq_some_iff.1 hx
    simp [init] at h hi; omega

/-- Only after the last store is there room for what comes after a store with a flag. -/
theorem Inv.at_end {o : Orders} {y : Sys} (I : Inv o y) {i : Nat} {x : Msg} (hx : y.msgs[i]? = some x) (hf : i + 1 < y.msgs.length → x.flag = true) (hp : free y.msgs (i + 1)) :
    i + 1 = y.msgs.length := by
  have hi := (List.getElem?_eq_some_iff.1 hx).1
  apply Decidable.byContradiction; intro h
  have lt : i + 1 < y.msgs.length := by omega
  have hz : y.msgs[i + 1]? = some y.msgs[i + 1] := List.getElem?_eq_getElem lt
  have a := I.chain i x _ hx hz (hf lt)
  have b := hp.2 _ hz
  rw [a] at b; cases b

theorem get_last {l : List Msg} {x : Msg} : (l ++ [x])[(l ++ [x]).length - 1]? = some x := by simp

/-- Looking up an old store after one was added at the end. -/
theorem get_snoc {l : List Msg} {x z : Msg} {i : Nat} (h : (l ++ [x])[i]? = some z) : (i < l.length ∧ l[i]? = some z) ∨ (i = l.length ∧ z = x) := by
  by_cases hi : i < l.length
  · rw [List.getElem?_append_left hi] at h; exact .inl ⟨hi, h⟩
  · have := (List.getElem?_eq_some_iff.1 h).1
    have e : i = l.length := by simp at this; omega
    subst e; simp at h; exact .inr ⟨rfl, h.symm⟩

theorem Inv.step {o : Orders} (keeps : (o.readRel || o.inOrder) = true) (rel : o.applyRel = true) (acq : o.readAcq = true) {y y' : Sys} (I : Inv o y) (s : Step o y y') : Inv o y' := by
  have I' := I
  obtain ⟨h1, h2, h3, h4, h5, h6, ⟨L, hL, t3, pw, lf, lu⟩, h8, h9, h10, h11, h12, h13, h14⟩ := I'
  have ⟨ta, tb, tc, tab, tac, tbc⟩ := t3
  have hlen : 0 < y.msgs.length := by omega
  cases s with
  | fill hw =>
    have pb : ∀ b, b ≠ y.write → put y.bufs y.write { y.bufs y.write with val := none, wStamp := y.wStep } b = y.bufs b := fun b hb => by rw [put, if_neg hb]
    have pr : ∀ b, (put y.bufs y.write { y.bufs y.write with val := none, wStamp := y.wStep } b).rStamp = (y.bufs b).rStamp := by
      intro b; unfold put; split
      · next q => subst q; rfl
      · rfl
    refine ⟨h1, h2, h3, h4, h5, h6, ⟨L, hL, t3, trivial, ?_, ?_⟩, ?_, ?_, ?_, ?_, ?_, ?_, ?_⟩
    · intro f; dsimp only; rw [pb _ (Ne.symm tac)]; exact lf f
    · intro f sy; dsimp only; rw [pb _ (Ne.symm tac)]; exact lu f sy
    · dsimp only; rw [pb _ (Ne.symm tab)]; exact h8
    · intro sy; dsimp only; rw [pr]; exact h9 sy
    · intro b hb
      dsimp only at hb ⊢
      by_cases q : b = y.write
      · exact ⟨q, rfl⟩
      · rw [pb _ q] at hb; exact absurd (h10 b hb).1 q
    · intro b
      show (put _ _ _ _).wStamp < y.wStep + 1
      unfold put; split
      · exact Nat.lt_succ_self _
      · exact Nat.lt_succ_of_lt (h11 b)
    · intro b; dsimp only; rw [pr]; exact h12 b
    · intro l hl; dsimp only; rw [pb _ (Ne.symm tab)]; exact h13 l hl
    · dsimp only; split
      · next r =>
        refine log_snoc h14 ?_
        show _ = false
        apply Decidable.byContradiction; intro sy
        have := h9 (by simpa using sy)
        omega
      · exact h14
  | filled v hw =>
    have pb : ∀ b, b ≠ y.write → put y.bufs y.write { y.bufs y.write with val := some v } b = y.bufs b := fun b hb => by rw [put, if_neg hb]
    have pr : ∀ b, (put y.bufs y.write { y.bufs y.write with val := some v } b).rStamp = (y.bufs b).rStamp ∧
        (put y.bufs y.write { y.bufs y.write with val := some v } b).wStamp = (y.bufs b).wStamp := by
      intro b; unfold put; split
      · next q => subst q; exact ⟨rfl, rfl⟩
      · exact ⟨rfl, rfl⟩
    refine ⟨h1, h2, h3, h4, h5, h6, ⟨L, hL, t3, trivial, ?_, ?_⟩, ?_, ?_, ?_, ?_, ?_, ?_, h14⟩
    · intro f; dsimp only; rw [pb _ (Ne.symm tac)]; exact lf f
    · intro f sy; dsimp only; rw [pb _ (Ne.symm tac)]; exact lu f sy
    · dsimp only; rw [pb _ (Ne.symm tab)]; exact h8
    · intro sy; dsimp only; rw [(pr _).1]; exact h9 sy
    · intro b hb
      dsimp only at hb ⊢
      by_cases q : b = y.write
      · rw [put, if_pos q] at hb; cases hb
      · rw [pb _ q] at hb; exact absurd (h10 b hb).1 q
    · intro b; dsimp only; rw [(pr _).2]; exact h11 b
    · intro b; dsimp only; rw [(pr _).1]; exact h12 b
    · intro l hl; dsimp only; rw [pb _ (Ne.symm tab)]; exact h13 l hl
  | @load i x hw hi hx =>
    have hi' := (List.getElem?_eq_some_iff.1 hx).1
    have mono : y.wSeen ≤ (if o.loadAcq then max y.wSeen x.rStamp else y.wSeen) := by split <;> omega
    refine ⟨h1, hi', h3, fun j z hj => h4 j z (Nat.le_trans hi hj), h5, h6, ⟨L, hL, t3, ⟨x, hx, rfl, ?_⟩, ?_, lu⟩, h8, ?_, ?_, h11, h12, h13, h14⟩
    · intro f
      have e : i + 1 = y.msgs.length := by
        apply Decidable.byContradiction; intro q
        have := h4 i x hi (by omega) hx
        rw [f] at this; cases this
      have : i = y.msgs.length - 1 := by omega
      rw [this, hL] at hx
      cases hx
      refine ⟨rfl, fun sy => ?_⟩
      show L.rStamp ≤ (if _ then _ else _)
      have : o.loadAcq = true := by rw [sync] at sy; simp at sy; exact sy.2.1
      rw [if_pos this]; exact Nat.le_max_right _ _
    · intro f
      obtain ⟨a, b, c, d⟩ := lf f
      exact ⟨a, b, c, fun sy => Nat.le_trans (d sy) mono⟩
    · intro sy; exact Nat.le_trans (h9 sy) mono
    · intro b hb
      have := (h10 b hb).2
      rw [hw] at this; cases this
  | @swap b i x hw hi hx hp =>
    have e : i + 1 = y.msgs.length := I.at_end hx (fun lt => h4 i x hi lt hx) hp
    have ei : i = y.msgs.length - 1 := by omega
    rw [ei, hL] at hx
    cases hx
    have em : ∀ z : Msg, y.msgs.insertIdx (i + 1) z = y.msgs ++ [z] := by intro z; rw [e, List.insertIdx_length_self]
    have mono : y.wSeen ≤ (if o.swapAcq then max y.wSeen L.rStamp else y.wSeen) := by split <;> omega
    have wl : (y.bufs y.write).val ≠ none := by
      intro q; have := (h10 _ q).2; rw [hw] at this; cases this
    simp only [em]
    refine ⟨?_, ?_, ?_, ?_, ?_, ?_, ⟨_, get_last, ⟨tc, tb, ta, Ne.symm tbc, Ne.symm tac, Ne.symm tab⟩, trivial, ?_, ?_⟩, h8, ?_, ?_, ?_, h12, h13, h14⟩
    · intro j a c ha hc hf
      rcases get_snoc hc with ⟨lt, hc⟩ | ⟨_, rfl⟩
      · rw [List.getElem?_append_left (by omega)] at ha
        exact h1 j a c ha hc hf
      · rfl
    · show i + 1 < _; simp; omega
    · show shift _ _ < _; unfold shift; simp; split <;> omega
    · intro j a hj hj' _
      have hj : i + 1 ≤ j := hj
      simp at hj'; omega
    · intro j a hj ha
      have hj : shift (i + 1) y.rIdx < j := hj
      unfold shift at hj
      rcases get_snoc ha with ⟨lt, ha⟩ | ⟨_, rfl⟩
      · exact h5 j a (by split at hj <;> omega) ha
      · rfl
    · intro hr a ha
      have ha : (y.msgs ++ _)[shift (i + 1) y.rIdx]? = some a := ha
      have sr : shift (i + 1) y.rIdx = y.rIdx := by unfold shift; rw [if_neg (by omega)]
      rw [sr, List.getElem?_append_left h3] at ha
      exact h6 hr a ha
    · intro _
      refine ⟨rfl, rfl, ?_, ?_⟩
      · show _ ≤ (if _ then _ else _)
        rw [if_pos rel]; exact Nat.le_of_lt (h11 _)
      · intro sy; exact Nat.le_trans (h9 sy) mono
    · intro f; cases f
    · intro sy
      show (y.bufs L.buf).rStamp ≤ (if _ then _ else _)
      have acq' : o.swapAcq = true := by rw [sync] at sy; simp at sy; exact sy.2.2
      rw [if_pos acq']
      cases hf : L.flag with
      | true => exact Nat.le_trans ((lf hf).2.2.2 sy) (Nat.le_max_left _ _)
      | false => exact Nat.le_trans (lu hf sy) (Nat.le_max_right _ _)
    · intro c hc
      have := (h10 c hc).2; rw [hw] at this; cases this
    · intro c; exact Nat.lt_succ_of_lt (h11 c)
  | @store b p hw hp hf =>
    rw [hw] at pw
    obtain ⟨x, hx, xf, pc⟩ := pw
    obtain ⟨eb, pk⟩ := pc rfl
    have ew : y.wIdx + 1 = y.msgs.length := by
      apply Decidable.byContradiction; intro q
      have := h4 y.wIdx x (Nat.le_refl _) (by omega) hx
      rw [xf] at this; cases this
    have e : p = y.msgs.length := by have := hf.1; omega
    have ex : x = L := by
      have : y.wIdx = y.msgs.length - 1 := by omega
      rw [this, hL] at hx; exact (Option.some.inj hx).symm
    subst ex
    have em : ∀ z : Msg, y.msgs.insertIdx p z = y.msgs ++ [z] := by intro z; rw [e, List.insertIdx_length_self]
    simp only [em]
    rw [eb]
    refine ⟨?_, ?_, ?_, ?_, ?_, ?_, ⟨_, get_last, ⟨tc, tb, ta, Ne.symm tbc, Ne.symm tac, Ne.symm tab⟩, trivial, ?_, ?_⟩, h8, ?_, ?_, ?_, h12, h13, h14⟩
    · intro j a c ha hc hf'
      rcases get_snoc hc with ⟨lt, hc⟩ | ⟨q, rfl⟩
      · rw [List.getElem?_append_left (by omega)] at ha
        exact h1 j a c ha hc hf'
      · rw [List.getElem?_append_left (by omega)] at ha
        have : j = y.msgs.length - 1 := by omega
        rw [this, hL] at ha; cases ha
        rw [xf] at hf'; cases hf'
    · show p < _; simp; omega
    · show shift _ _ < _; unfold shift; simp; split <;> omega
    · intro j a hj hj' _
      have hj : p ≤ j := hj
      simp at hj'; omega
    · intro j a hj ha
      have hj : shift p y.rIdx < j := hj
      unfold shift at hj
      rcases get_snoc ha with ⟨lt, ha⟩ | ⟨_, rfl⟩
      · exact h5 j a (by split at hj <;> omega) ha
      · rfl
    · intro hr a ha
      have ha : (y.msgs ++ _)[shift p y.rIdx]? = some a := ha
      have sr : shift (p) y.rIdx = y.rIdx := by unfold shift; rw [if_neg (by omega)]
      rw [sr, List.getElem?_append_left h3] at ha
      exact h6 hr a ha
    · intro _
      refine ⟨rfl, rfl, ?_, ?_⟩
      · show _ ≤ (if _ then _ else _)
        rw [if_pos rel]; exact Nat.le_of_lt (h11 _)
      · intro sy; exact h9 sy
    · intro f; cases f
    · intro sy; exact Nat.le_trans (lu xf sy) (pk sy)
    · intro c hc
      have := (h10 c hc).2; rw [hw] at this; cases this
    · intro c; exact Nat.lt_succ_of_lt (h11 c)
  | @readSame i x hr hi hx hf =>
    refine ⟨h1, h2, (List.getElem?_eq_some_iff.1 hx).1, h4, fun j z hj => h5 j z (Nat.lt_of_le_of_lt hi hj), ?_, ⟨L, hL, t3, pw, lf, lu⟩, h8, h9, h10, h11, h12, h13, h14⟩
    intro q; have q : y.r = .loaded := q; rw [hr] at q; cases q
  | @readFlag i x hr hi hx hf =>
    refine ⟨h1, h2, (List.getElem?_eq_some_iff.1 hx).1, h4, fun j z hj => h5 j z (Nat.lt_of_le_of_lt hi hj), ?_, ⟨L, hL, t3, pw, lf, lu⟩, h8, h9, h10, h11, h12, h13, h14⟩
    intro _ z hz
    have hz : y.msgs[i]? = some z := hz
    rw [hx] at hz; cases hz; exact hf
  | @readSwap i x hr hi hx hp hw =>
    have hw : y.pending = [] := by
      rcases hw with hw | hw
      · rw [keeps] at hw; cases hw
      · exact hw
    have xf : x.flag = true := by
      by_cases q : y.rIdx = i
      · subst q; exact h6 hr x hx
      · exact h5 i x (by omega) hx
    have e : i + 1 = y.msgs.length := I.at_end hx (fun _ => xf) hp
    have ei : i = y.msgs.length - 1 := by omega
    rw [ei, hL] at hx
    cases hx
    have em : ∀ z : Msg, y.msgs.insertIdx (i + 1) z = y.msgs ++ [z] := by intro z; rw [e, List.insertIdx_length_self]
    obtain ⟨l1, l2, l3, l4⟩ := lf xf
    have sw : shift (i + 1) y.wIdx = y.wIdx := by unfold shift; rw [if_neg (by omega)]
    simp only [em, sw, xf, if_true]
    refine ⟨?_, ?_, ?_, ?_, ?_, ?_, ⟨_, get_last, ⟨ta, tc, tb, tac, tab, Ne.symm tbc⟩, ?_, ?_, ?_⟩, ?_, h9, h10, h11, ?_, ?_, ?_⟩
    · intro j a c ha hc hf
      rcases get_snoc hc with ⟨lt, hc⟩ | ⟨_, rfl⟩
      · rw [List.getElem?_append_left (by omega)] at ha
        exact h1 j a c ha hc hf
      · rfl
    · show y.wIdx < _; simp; omega
    · show i + 1 < _; simp; omega
    · intro j a hj hj' ha
      simp at hj'
      rw [List.getElem?_append_left (by omega)] at ha
      by_cases q : j + 1 < y.msgs.length
      · exact h4 j a hj q ha
      · have : j = y.msgs.length - 1 := by omega
        rw [this, hL] at ha; cases ha; exact xf
    · intro j a hj ha
      have hj : i + 1 < j := hj
      rcases get_snoc ha with ⟨lt, ha⟩ | ⟨q, rfl⟩ <;> omega
    · intro q; cases q
    · show PcW _ _ _ y.w
      cases hyw : y.w with
      | idle => trivial
      | filling => trivial
      | loaded f b =>
        rw [hyw] at pw
        obtain ⟨z, hz, zf, pc⟩ := pw
        refine ⟨z, by show (y.msgs ++ _)[y.wIdx]? = _; rw [List.getElem?_append_left h2]; exact hz, zf, ?_⟩
        intro ff
        -- the store the writer saw is not the last one with a flag
        exfalso
        subst ff
        by_cases q : y.wIdx + 1 < y.msgs.length
        · have := h4 _ z (Nat.le_refl _) q hz; rw [zf] at this; cases this
        · have : y.wIdx = y.msgs.length - 1 := by omega
          rw [this, hL] at hz; cases hz; rw [xf] at zf; cases zf
    · intro f; cases f
    · intro _ sy
      show _ ≤ (if _ then _ else _)
      have : o.readRel = true := by rw [sync] at sy; simp at sy; exact sy.1
      rw [if_pos this]; exact Nat.le_of_lt (h12 _)
    · refine ⟨l2, ?_⟩
      show _ ≤ (if _ then _ else _)
      rw [if_pos acq]; exact Nat.le_trans l3 (Nat.le_max_right _ _)
    · intro c; exact Nat.lt_succ_of_lt (h12 c)
    · intro l hl
      have hl : l ∈ y.pending := hl
      rw [hw] at hl; simp at hl
    · exact log_snoc h14 l1.symm
  | look hr =>
    refine ⟨h1, h2, h3, h4, h5, h6, ⟨L, hL, t3, pw, lf, lu⟩, h8, h9, h10, h11, fun b => Nat.lt_succ_of_lt (h12 b), ?_, h14⟩
    intro l hl
    rcases List.mem_append.1 hl with hl | hl
    · obtain ⟨a, b, c, d⟩ := h13 l hl
      exact ⟨a, b, c, Nat.lt_succ_of_lt d⟩
    · obtain rfl := List.mem_singleton.1 hl
      exact ⟨rfl, rfl, h8.2, Nat.lt_succ_self _⟩
  | @see l hl =>
    obtain ⟨a, b, c, d⟩ := h13 l hl
    have pv : ∀ t, (put y.bufs l.buf { y.bufs l.buf with rStamp := max (y.bufs l.buf).rStamp l.step } t).val = (y.bufs t).val ∧
        (put y.bufs l.buf { y.bufs l.buf with rStamp := max (y.bufs l.buf).rStamp l.step } t).wStamp = (y.bufs t).wStamp := by
      intro t; unfold put; split
      · next q => subst q; exact ⟨rfl, rfl⟩
      · exact ⟨rfl, rfl⟩
    have pr : ∀ t, t ≠ y.read → put y.bufs l.buf { y.bufs l.buf with rStamp := max (y.bufs l.buf).rStamp l.step } t = y.bufs t := by
      intro t ht; rw [put, if_neg (by rw [a]; exact ht)]
    refine ⟨h1, h2, h3, h4, h5, h6, ⟨L, hL, t3, pw, ?_, ?_⟩, ?_, ?_, ?_, ?_, ?_, ?_, ?_⟩
    · intro f; dsimp only; rw [pr _ (Ne.symm tbc)]; exact lf f
    · intro f sy; dsimp only; rw [pr _ (Ne.symm tbc)]; exact lu f sy
    · dsimp only; rw [(pv _).1, (pv _).2]; exact h8
    · intro sy; dsimp only; rw [pr _ tab]; exact h9 sy
    · intro t ht; dsimp only at ht; rw [(pv _).1] at ht; exact h10 t ht
    · intro t; dsimp only; rw [(pv _).2]; exact h11 t
    · intro t
      show (put _ _ _ _).rStamp < _
      unfold put; split
      · exact Nat.max_lt.2 ⟨h12 _, d⟩
      · exact h12 t
    · intro l' hl'
      dsimp only; rw [(pv _).2]
      exact h13 l' (List.mem_of_mem_erase hl')
    · dsimp only
      rw [a, if_neg (by omega)]
      refine log_snoc h14 ⟨by rw [b]; exact h8.1, ?_⟩
      cases hv : (y.bufs y.read).val with
      | none => exact absurd (h10 _ hv).1 (Ne.symm tab)
      | some v => exact ⟨v, rfl⟩

theorem reach_inv {o : Orders} (keeps : (o.readRel || o.inOrder) = true) (rel : o.applyRel = true) (acq : o.readAcq = true) {v : Nat} {y : Sys} (h : Reach o v y) : Inv o y := by
  induction h with
  | init => exact inv_init o v
  | step _ s ih => exact ih.step keeps rel acq s

/-- **C126** (with the memory orders of the file, on machines that keep loads before the stores that follow them, whatever the loads of `index` see): the buffer being read and the buffer
being written are different ones of the three; every exchange of a read finds a new buffer, the one applied last; and every look at the buffer read sees the whole content it had when it was
applied, without a data race.  Missing: the filling of a buffer that was read races with its reading (`C126_race_refuted`). -/
theorem C126_swapping_partial {v : Nat} {y : Sys} (h : Reach (code true) v y) :
    y.write < 3 ∧ y.read < 3 ∧ y.write ≠ y.read ∧ Ev.noFlag ∉ y.log ∧ Ev.readRace ∉ y.log ∧
      (∀ c l, Ev.took c l ∈ y.log → c = l) ∧ ∀ s e, Ev.look s e ∈ y.log → s = e ∧ ∃ x, s = some x := by
  have I := reach_inv rfl rfl rfl h
  obtain ⟨L, _, t, _⟩ := I.last
  exact ⟨t.1, t.2.1, t.2.2.2.1, fun q => I.log _ q, fun q => I.log _ q, fun c l q => I.log _ q, fun s e q => I.log _ q⟩

/-- The same with a release in the exchange of `Read` and acquires in `Apply`, on every machine and without data races. -/
theorem C126_with_release {o : Orders} (h1 : o.applyRel = true) (h2 : o.loadAcq = true) (h5 : o.swapAcq = true) (h3 : o.readAcq = true) (h4 : o.readRel = true) {v : Nat} {y : Sys} (h : Reach o v y) :
    y.write < 3 ∧ y.read < 3 ∧ y.write ≠ y.read ∧ Ev.noFlag ∉ y.log ∧ Ev.readRace ∉ y.log ∧ Ev.writeRace ∉ y.log ∧
      (∀ c l, Ev.took c l ∈ y.log → c = l) ∧ ∀ s e, Ev.look s e ∈ y.log → s = e ∧ ∃ x, s = some x := by
  have I := reach_inv (by rw [h4]; rfl) h1 h3 h
  obtain ⟨L, _, t, _⟩ := I.last
  refine ⟨t.1, t.2.1, t.2.2.2.1, fun q => I.log _ q, fun q => I.log _ q, fun q => ?_, fun c l q => I.log _ q, fun s e q => I.log _ q⟩
  have := I.log _ q
  simp [Ev.ok, sync, h2, h4, h5] at this

/-- With the orders of the file the writer never learns of what the reader has done. -/
theorem C126_nothing_known {b : Bool} {v : Nat} {y : Sys} (h : Reach (code b) v y) : y.wSeen = 0 := by
  induction h with
  | init => rfl
  | step _ s ih => cases s <;> first | exact ih | (simpa [code] using ih)

/-- Therefore every filling of a buffer the reader has looked at is a data race. -/
theorem C126_reuse_races {b : Bool} {v : Nat} {y : Sys} (h : Reach (code b) v y) (idle : y.w = .idle) (looked : 0 < (y.bufs y.write).rStamp) :
    ∃ y', Step (code b) y y' ∧ y'.w = .filling ∧ Ev.writeRace ∈ y'.log := by
  refine ⟨_, .fill idle, rfl, ?_⟩
  show _ ∈ (if _ then _ else _)
  rw [if_pos (by rw [C126_nothing_known h]; exact looked)]
  simp

/-- And that happens, on every machine. -/
theorem C126_race_refuted (b : Bool) (v : Nat) : ∃ y, Reach (code b) v y ∧ Ev.writeRace ∈ y.log := by
  have r : Reach (code b) v (init v) := .init
  have r := r.step (.look rfl)
  have r := r.step (.see (l := ⟨2, 0, 1, some v⟩) (by simp [init]))
  have r := r.step (.load (i := 0) rfl (Nat.le_refl _) rfl)
  have r := r.step (.store (p := 1) rfl (Nat.lt_succ_self 0) ⟨Nat.le_refl _, by intro x hx; simp [init] at hx⟩)
  have r := r.step (.readFlag (i := 1) rfl (Nat.zero_le 1) rfl rfl)
  have r := r.step (.readSwap (i := 1) rfl (Nat.le_refl 1) rfl ⟨Nat.le_refl _, by intro x hx; simp [init] at hx⟩ (.inr (by simp [init])))
  have r := r.step (.load (i := 2) rfl (Nat.le_succ 1) rfl)
  have r := r.step (.store (p := 3) rfl (Nat.lt_succ_self 2) ⟨Nat.le_refl _, by intro x hx; simp [init] at hx⟩)
  obtain ⟨y', s, _, h⟩ := C126_reuse_races r rfl (by simp [init, put])
  exact ⟨y', r.step s, h⟩

/-- On a machine that carries out a load after a later store, a look at the buffer read before may find it half filled, or see what was written after the reader had given it back. -/
theorem C126_late_read_refuted (v w : Nat) (h : w ≠ v) :
    (∃ y, Reach (code false) v y ∧ Ev.look none (some v) ∈ y.log) ∧ ∃ y, Reach (code false) v y ∧ Ev.look (some w) (some v) ∈ y.log := by
  have r : Reach (code false) v (init v) := .init
  have r := r.step (.look rfl)
  have r := r.step (.load (i := 0) rfl (Nat.le_refl _) rfl)
  have r := r.step (.store (p := 1) rfl (Nat.lt_succ_self 0) ⟨Nat.le_refl _, by intro x hx; simp [init] at hx⟩)
  have r := r.step (.readFlag (i := 1) rfl (Nat.zero_le 1) rfl rfl)
  have r := r.step (.readSwap (i := 1) rfl (Nat.le_refl 1) rfl ⟨Nat.le_refl _, by intro x hx; simp [init] at hx⟩ (.inl rfl))
  have r := r.step (.load (i := 2) rfl (Nat.le_succ 1) rfl)
  have r := r.step (.store (p := 3) rfl (Nat.lt_succ_self 2) ⟨Nat.le_refl _, by intro x hx; simp [init] at hx⟩)
  have r := r.step (.fill rfl)
  constructor
  · have r := r.step (.see (l := ⟨2, 0, 1, some v⟩) (by simp [init]))
    exact ⟨_, r, by simp [init, put]⟩
  · have r := r.step (.filled w rfl)
    have r := r.step (.see (l := ⟨2, 0, 1, some v⟩) (by simp [init]))
    exact ⟨_, r, by simp [init, put]⟩

/-- The release of `Apply` and the consume of `Read` are needed: without either a look at a buffer races with its filling. -/
theorem C126_orders_needed (o : Orders) (h : o.applyRel = false ∨ o.readAcq = false) (v w : Nat) : ∃ y, Reach o v y ∧ Ev.readRace ∈ y.log := by
  have r : Reach o v (init v) := .init
  have r := r.step (.fill rfl)
  have r := r.step (.filled w rfl)
  have r := r.step (.load (i := 0) rfl (Nat.le_refl _) rfl)
  have r := r.step (.store (p := 1) rfl (Nat.lt_succ_self 0) ⟨Nat.le_refl _, by intro x hx; simp [init] at hx⟩)
  have r := r.step (.readFlag (i := 1) rfl (Nat.zero_le 1) rfl rfl)
  have r := r.step (.readSwap (i := 1) rfl (Nat.le_refl 1) rfl ⟨Nat.le_refl _, by intro x hx; simp [init] at hx⟩ (.inr (by simp [init])))
  have r := r.step (.look rfl)
  obtain ⟨a, b, b', c, d, e⟩ := o
  have r := r.step (.see (List.mem_append.2 (.inr (List.mem_singleton.2 rfl))))
  refine ⟨_, r, ?_⟩
  rcases h with h | h <;> (dsimp only at h; subst h) <;> simp [init, put]

/-- To avoid the race the exchange of `Read` must be a release and the load of `Apply` an acquire: without either the store of `Apply` gives the writer a buffer it does not know to be free. -/
theorem C126_load_needed (o : Orders) (h : o.loadAcq = false ∨ o.readRel = false) (v : Nat) : ∃ y, Reach o v y ∧ Ev.writeRace ∈ y.log := by
  have r : Reach o v (init v) := .init
  have r := r.step (.look rfl)
  have r := r.step (.see (l := ⟨2, 0, 1, some v⟩) (by simp [init]))
  have r := r.step (.load (i := 0) rfl (Nat.le_refl _) rfl)
  have r := r.step (.store (p := 1) rfl (Nat.lt_succ_self 0) ⟨Nat.le_refl _, by intro x hx; simp [init] at hx⟩)
  have r := r.step (.readFlag (i := 1) rfl (Nat.zero_le 1) rfl rfl)
  have r := r.step (.readSwap (i := 1) rfl (Nat.le_refl 1) rfl ⟨Nat.le_refl _, by intro x hx; simp [init] at hx⟩ (.inr (by simp [init])))
  have r := r.step (.load (i := 2) rfl (Nat.le_succ 1) rfl)
  have r := r.step (.store (p := 3) rfl (Nat.lt_succ_self 2) ⟨Nat.le_refl _, by intro x hx; simp [init] at hx⟩)
  have r := r.step (.fill rfl)
  obtain ⟨a, b, b', c, d, e⟩ := o
  refine ⟨_, r, ?_⟩
  rcases h with h | h <;> (dsimp only at h; subst h) <;> simp [init, put]

/-- So must the exchange of `Apply`: it gives the writer a buffer the reader has just returned when the read comes between the load and the exchange. -/
theorem C126_exchange_needed (o : Orders) (h : o.swapAcq = false) (v : Nat) : ∃ y, Reach o v y ∧ Ev.writeRace ∈ y.log := by
  have r : Reach o v (init v) := .init
  have r := r.step (.look rfl)
  have r := r.step (.see (l := ⟨2, 0, 1, some v⟩) (by simp [init]))
  have r := r.step (.load (i := 0) rfl (Nat.le_refl _) rfl)
  have r := r.step (.store (p := 1) rfl (Nat.lt_succ_self 0) ⟨Nat.le_refl _, by intro x hx; simp [init] at hx⟩)
  have r := r.step (.load (i := 1) rfl (Nat.le_refl 1) rfl)
  have r := r.step (.readFlag (i := 1) rfl (Nat.zero_le 1) rfl rfl)
  have r := r.step (.readSwap (i := 1) rfl (Nat.le_refl 1) rfl ⟨Nat.le_refl _, by intro x hx; simp [init] at hx⟩ (.inr (by simp [init])))
  have r := r.step (.swap (i := 2) rfl (Nat.le_succ 1) rfl ⟨Nat.le_refl _, by intro x hx; simp [init] at hx⟩)
  have r := r.step (.fill rfl)
  obtain ⟨a, b, b', c, d, e⟩ := o
  dsimp only at h; subst h
  refine ⟨_, r, ?_⟩
  simp [init, put]

/-- A run of the hypotheses: the writer fills two buffers, the second apply replaces the first before it is read; the read takes the second and sees it. -/
example : ∃ y, Reach (code true) 7 y ∧ Ev.took (some 9) (some 9) ∈ y.log ∧ Ev.look (some 9) (some 9) ∈ y.log ∧ y.log.length = 2 := by
  have r : Reach (code true) 7 (init 7) := .init
  have r := r.step (.fill rfl)
  have r := r.step (.filled 8 rfl)
  have r := r.step (.load (i := 0) rfl (Nat.le_refl _) rfl)
  have r := r.step (.store (p := 1) rfl (Nat.lt_succ_self 0) ⟨Nat.le_refl _, by intro x hx; simp [init] at hx⟩)
  have r := r.step (.fill rfl)
  have r := r.step (.filled 9 rfl)
  have r := r.step (.load (i := 1) rfl (by decide) rfl)
  have r := r.step (.readFlag (i := 1) rfl (Nat.zero_le 1) rfl rfl)
  have r := r.step (.swap (i := 1) rfl (by decide) rfl ⟨Nat.le_refl _, by intro x hx; simp [init] at hx⟩)
  have r := r.step (.readSwap (i := 2) rfl (by decide) rfl ⟨Nat.le_refl _, by intro x hx; simp [init] at hx⟩ (.inr (by simp [init])))
  have r := r.step (.look rfl)
  have r := r.step (.see (List.mem_append.2 (.inr (List.mem_singleton.2 rfl))))
  exact ⟨_, r, by simp [init, put, code], by simp [init, put, code], by simp [init, put, code]⟩

#print axioms C126_swapping_partial
#print axioms C126_with_release
#print axioms C126_nothing_known
#print axioms C126_reuse_races
#print axioms C126_race_refuted
#print axioms C126_late_read_refuted
#print axioms C126_orders_needed
#print axioms C126_load_needed
#print axioms C126_exchange_needed

end Verif.SwapWeak
