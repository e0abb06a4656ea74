import Verif.DataLemmas
/-!
# The container implementation is a store of bytes for the accesses that stay inside its staging block
-/
namespace Verif.Data
open Spec

variable {es : Nat}

theorem drop_past {e l : List Cell} (h : e.length = es) (x : Nat) : (e ++ l).drop (es + x) = l.drop x := by
  rw [← h, ← List.drop_drop, List.drop_left]

theorem take_past {e l : List Cell} (h : e.length = es) (x : Nat) : (e ++ l).take (es + x) = e ++ l.take x := by
  rw [← h, List.take_length_add_append]

theorem flatten_length {l : List (List Cell)} (h : ∀ e ∈ l, e.length = es) : l.flatten.length = l.length * es := by
  induction l with
  | nil => simp
  | cons e l ih =>
    have h1 := h e (by simp)
    have h2 := ih (fun x hx => h x (by simp [hx]))
    simp only [List.flatten_cons, List.length_append, List.length_cons, h1, h2, Nat.succ_mul]; omega

theorem flatten_drop {l : List (List Cell)} (h : ∀ e ∈ l, e.length = es) (q : Nat) : (l.drop q).flatten = l.flatten.drop (q * es) := by
  induction l generalizing q with
  | nil => simp
  | cons e l ih =>
    cases q with
    | zero => simp
    | succ q =>
      have h1 := h e (by simp)
      rw [List.drop_succ_cons, ih (fun x hx => h x (by simp [hx])), List.flatten_cons, Nat.succ_mul, Nat.add_comm (q * es), drop_past h1]

theorem flatten_take {l : List (List Cell)} (h : ∀ e ∈ l, e.length = es) (q : Nat) : (l.take q).flatten = l.flatten.take (q * es) := by
  induction l generalizing q with
  | nil => simp
  | cons e l ih =>
    cases q with
    | zero => simp
    | succ q =>
      have h1 := h e (by simp)
      rw [List.take_succ_cons, List.flatten_cons, List.flatten_cons, ih (fun x hx => h x (by simp [hx])), Nat.succ_mul, Nat.add_comm (q * es), take_past h1]

theorem gather_copy (hes : 0 < es) (q k : Nat) (rest : List (List Cell)) (i index : Nat) (ptr : List Cell)
    (hi : q ≤ i) (hx : index = i - q) (hk : i < q + k) (hp : ptr.length = k * es) (hr : ∀ e ∈ rest, e.length = es) :
    gather es (q * es) ((q + k) * es) rest i index ptr = some (written ptr (index * es) (rest.take (q + k - i)).flatten) := by
  induction rest generalizing i index ptr with
  | nil => simp [gather, written_nil]
  | cons e rest ih =>
    have he := hr e (by simp)
    have hc : i * es ≥ q * es := Nat.mul_le_mul_right _ hi
    have hm : (index + 1) * es ≤ k * es := Nat.mul_le_mul_right _ (by omega)
    have hm1 : (index + 1) * es = index * es + es := Nat.succ_mul _ _
    unfold gather
    rw [if_pos hc, overwrite_eq (by omega)]
    simp only [Option.bind_eq_bind, Option.bind_some]
    by_cases hend : i + 1 = q + k
    · rw [if_pos (by rw [hend]), show q + k - i = 1 by omega]
      simp
    · rw [if_neg (fun h => hend (Nat.eq_of_mul_eq_mul_right hes h))]
      have hrest : ∀ x ∈ rest, x.length = es := fun x hx => hr x (by simp [hx])
      rw [ih (i + 1) (index + 1) _ (by omega) (by omega) (by omega) (by rw [written_length (by omega)]; exact hp) hrest]
      have hle : ((rest.take (q + k - (i + 1))).flatten).length ≤ (q + k - (i + 1)) * es := by
        rw [flatten_length (es := es) (fun x hx => hrest x (List.mem_of_mem_take hx)), List.length_take]
        exact Nat.mul_le_mul_right _ (Nat.min_le_left _ _)
      have hle2 : (index + 1) * es + (q + k - (i + 1)) * es = k * es := by
        rw [← Nat.add_mul]; congr 1; omega
      rw [hm1, show q + k - i = (q + k - (i + 1)) + 1 by omega, List.take_succ_cons, List.flatten_cons]
      have hww := written_written (l := ptr) (off := index * es) (a := e) (b := (rest.take (q + k - (i + 1))).flatten) (by omega)
      rw [he] at hww
      rw [hww]

theorem gather_skip (hes : 0 < es) (q k : Nat) (elems : List (List Cell)) (i : Nat) (ptr : List Cell)
    (hi : i ≤ q) (hk : 0 < k ∨ elems.length ≤ q - i) (hp : ptr.length = k * es) (hr : ∀ e ∈ elems, e.length = es) :
    gather es (q * es) ((q + k) * es) elems i 0 ptr = some (written ptr 0 ((elems.drop (q - i)).take k).flatten) := by
  induction elems generalizing i with
  | nil => simp [gather, written_nil]
  | cons e rest ih =>
    by_cases hq : i = q
    · subst hq
      have hk' : 0 < k := by
        rcases hk with h | h
        · exact h
        · simp at h
      rw [gather_copy hes i k _ i 0 ptr (Nat.le_refl _) (by omega) (by omega) hp hr]
      simp
    · unfold gather
      rw [if_neg (by
        have : (i + 1) * es ≤ q * es := Nat.mul_le_mul_right _ (by omega)
        rw [Nat.succ_mul] at this; omega)]
      rw [ih (i + 1) (by omega) (by simp at hk; omega) (fun x hx => hr x (by simp [hx]))]
      rw [show q - i = (q - (i + 1)) + 1 by omega, List.drop_succ_cons]

theorem scatter_copy (hes : 0 < es) (q k : Nat) (rest : List (List Cell)) (i index : Nat) (ptr : List Cell)
    (hi : q ≤ i) (hx : index = i - q) (hk : i < q + k) (hp : ptr.length = k * es) (hr : ∀ e ∈ rest, e.length = es) :
    ∃ r, scatter es (q * es) ((q + k) * es) ptr rest i index = some r ∧ r.length = rest.length ∧ (∀ e ∈ r, e.length = es) ∧
      r.flatten = written rest.flatten 0 (range ptr (index * es) (min (q + k - i) rest.length * es)) := by
  induction rest generalizing i index with
  | nil => exact ⟨[], rfl, rfl, by simp, by simp [written, range]⟩
  | cons e rest ih =>
    have he := hr e (by simp)
    have hc : i * es ≥ q * es := Nat.mul_le_mul_right _ hi
    have hm : (index + 1) * es ≤ k * es := Nat.mul_le_mul_right _ (by omega)
    have hm1 : (index + 1) * es = index * es + es := Nat.succ_mul _ _
    have hrest : ∀ x ∈ rest, x.length = es := fun x hx => hr x (by simp [hx])
    have hrl : (range ptr (index * es) es).length = es := range_length (by omega)
    unfold scatter
    rw [if_pos hc, slice_eq (by omega)]
    simp only [Option.bind_eq_bind, Option.bind_some]
    by_cases hend : i + 1 = q + k
    · rw [if_pos (by rw [hend])]
      refine ⟨_, rfl, by simp, ?_, ?_⟩
      · intro x hx
        rcases List.mem_cons.1 hx with h | h
        · rw [h]; exact hrl
        · exact hrest x h
      · rw [show min (q + k - i) (e :: rest).length = 1 by simp; omega, Nat.one_mul]
        simp [written, hrl, he]
    · rw [if_neg (fun h => hend (Nat.eq_of_mul_eq_mul_right hes h))]
      obtain ⟨r, e1, hl, hall, hf⟩ := ih (i + 1) (index + 1) (by omega) (by omega) (by omega) hrest
      rw [e1]
      refine ⟨_, rfl, by simp [hl], ?_, ?_⟩
      · intro x hx
        rcases List.mem_cons.1 hx with h | h
        · rw [h]; exact hrl
        · exact hall x h
      · have e2 : min (q + k - i) (e :: rest).length = 1 + min (q + k - (i + 1)) rest.length := by
          simp only [List.length_cons]; omega
        have hle : min (q + k - (i + 1)) rest.length * es ≤ (q + k - (i + 1)) * es := Nat.mul_le_mul_right _ (Nat.min_le_left _ _)
        have hle2 : (index + 1) * es + (q + k - (i + 1)) * es = k * es := by
          rw [← Nat.add_mul]; congr 1; omega
        rw [e2, Nat.add_mul, Nat.one_mul, ← range_append, ← hm1]
        have hl2 : (range ptr ((index + 1) * es) (min (q + k - (i + 1)) rest.length * es)).length = min (q + k - (i + 1)) rest.length * es :=
          range_length (by omega)
        rw [List.flatten_cons, hf]
        simp only [written, List.take_zero, List.nil_append, Nat.zero_add, hl2, List.length_append, hrl, List.flatten_cons, List.append_assoc]
        congr 2
        rw [drop_past he]

theorem scatter_skip (hes : 0 < es) (q k : Nat) (elems : List (List Cell)) (i : Nat) (ptr : List Cell)
    (hi : i ≤ q) (hk : 0 < k ∨ elems.length ≤ q - i) (hp : ptr.length = k * es) (hr : ∀ e ∈ elems, e.length = es) :
    ∃ r, scatter es (q * es) ((q + k) * es) ptr elems i 0 = some r ∧ r.length = elems.length ∧ (∀ e ∈ r, e.length = es) ∧
      r.flatten = written elems.flatten ((q - i) * es) (range ptr 0 (min k (elems.length - (q - i)) * es)) := by
  induction elems generalizing i with
  | nil => exact ⟨[], rfl, rfl, by simp, by simp [written, range]⟩
  | cons e rest ih =>
    by_cases hq : i = q
    · subst hq
      have hk' : 0 < k := by
        rcases hk with h | h
        · exact h
        · simp at h
      obtain ⟨r, e1, hl, hall, hf⟩ := scatter_copy hes i k (e :: rest) i 0 ptr (Nat.le_refl _) (by omega) (by omega) hp hr
      refine ⟨r, e1, hl, hall, ?_⟩
      rw [hf]; simp
    · have he := hr e (by simp)
      have hrest : ∀ x ∈ rest, x.length = es := fun x hx => hr x (by simp [hx])
      unfold scatter
      rw [if_neg (by
        have : (i + 1) * es ≤ q * es := Nat.mul_le_mul_right _ (by omega)
        rw [Nat.succ_mul] at this; omega)]
      obtain ⟨r, e1, hl, hall, hf⟩ := ih (i + 1) (by omega) (by simp at hk; omega) hrest
      rw [e1]
      refine ⟨_, rfl, by simp [hl], ?_, ?_⟩
      · intro x hx
        rcases List.mem_cons.1 hx with h | h
        · rw [h]; exact he
        · exact hall x h
      · rw [List.flatten_cons, hf, show q - i = (q - (i + 1)) + 1 by omega, List.length_cons,
          show rest.length + 1 - (q - (i + 1) + 1) = rest.length - (q - (i + 1)) by omega, Nat.succ_mul]
        unfold written
        rw [List.flatten_cons, Nat.add_comm _ es, take_past he, Nat.add_assoc es, drop_past he]
        simp only [List.append_assoc]

/-- The elements all have the element size, and there are `count` of them. -/
def Shape (es count : Nat) (c : Container) : Prop :=
  c.elementSize = es ∧ c.elems.length = count ∧ ∀ e ∈ c.elems, e.length = es

/-- The bytes of a container. -/
def cbytes (c : Container) : List Cell := c.elems.flatten

/-- The accesses that a container performs correctly: not of size zero at an element boundary before the end, and if only for
writing, of whole elements. -/
def CRight (es count : Nat) (a : Access) (off n : Nat) : Prop :=
  (0 < n ∨ off % es ≠ 0 ∨ off = count * es) ∧ (a.write = true → a.read = true ∨ (off % es = 0 ∧ n % es = 0))

/-- The number of staged elements. -/
def staged (es off n : Nat) : Nat := (n + es - 1) / es + if off % es ≠ 0 then 1 else 0

theorem stage_size (hes : 0 < es) (off n : Nat) : alignedSize es n + extra es off = staged es off n * es := by
  have h1 : alignedSize es n = (n + es - 1) / es * es := by
    unfold alignedSize
    have hd := Nat.div_add_mod n es
    have hlt := Nat.mod_lt n hes
    by_cases h : n % es = 0
    · rw [if_neg (by omega)]
      have e : (n + es - 1) / es = n / es := by
        apply Nat.div_eq_of_lt_le
        · rw [Nat.mul_comm]; omega
        · rw [Nat.succ_mul, Nat.mul_comm]; omega
      rw [e, Nat.mul_comm]; omega
    · rw [if_pos (by omega)]
      have e : (n + es - 1) / es = n / es + 1 := by
        apply Nat.div_eq_of_lt_le
        · rw [Nat.succ_mul, Nat.mul_comm]; omega
        · rw [Nat.succ_mul, Nat.succ_mul, Nat.mul_comm]; omega
      rw [e, Nat.succ_mul, Nat.mul_comm]; omega
  unfold staged extra
  rw [h1, Nat.add_mul]
  split <;> simp

theorem staged_enough (hes : 0 < es) (off n : Nat) : off % es + n ≤ staged es off n * es := by
  rw [← stage_size hes]
  unfold alignedSize extra
  have hlt := Nat.mod_lt off hes
  have := Nat.mod_lt n hes
  split <;> split <;> omega

theorem staged_pos (hes : 0 < es) (off n : Nat) (h : 0 < n ∨ off % es ≠ 0) : 0 < staged es off n := by
  rcases Nat.eq_zero_or_pos (staged es off n) with h0 | h0
  · have := staged_enough hes off n
    rw [h0] at this; omega
  · exact h0

theorem staged_aligned (hes : 0 < es) (off n : Nat) (h1 : off % es = 0) (h2 : n % es = 0) : staged es off n * es = n := by
  rw [← stage_size hes]
  unfold alignedSize extra
  rw [if_neg (by omega), if_neg (by omega)]; rfl

/-- **Containers obey the law of a store of bytes** for the accesses of `CRight`. -/
theorem container_law (es count : Nat) (hes : 0 < es) :
    Law containerInterface cbytes (Shape es count) (CRight es count) where
  size s h := by
    obtain ⟨h1, h2, h3⟩ := h
    show s.elems.length * s.elementSize = s.elems.flatten.length
    rw [flatten_length h3, h1]
  map := by
    rintro ⟨es', elems, hint⟩ off n a ⟨h1, h2, h3⟩ hb ⟨hz, hw⟩
    simp only at h1 h2 h3
    subst h1
    have hes0 : ¬ es' = 0 := by omega
    have htot : elems.flatten.length = count * es' := by rw [flatten_length h3, h2]
    have hdm : off / es' * es' + off % es' = off := by rw [Nat.mul_comm]; exact Nat.div_add_mod off es'
    have hal : off - off % es' = off / es' * es' := by omega
    have hbb : off + n ≤ count * es' := by rw [← htot]; exact hb
    have hq : off / es' ≤ count := Nat.div_le_of_le_mul (by rw [Nat.mul_comm]; omega)
    have hsz := stage_size hes off n
    have hen := staged_enough hes off n
    have hkq : 0 < staged es' off n ∨ elems.length ≤ off / es' - 0 := by
      rcases hz with h | h | h
      · exact Or.inl (staged_pos hes off n (Or.inl h))
      · exact Or.inl (staged_pos hes off n (Or.inr h))
      · right
        rw [h2, h, Nat.mul_div_cancel _ hes]; omega
    have hcount : off / es' * es' + alignedSize es' n + extra es' off = (off / es' + staged es' off n) * es' := by
      rw [Nat.add_assoc, hsz, Nat.add_mul]
    have hlen0 : (List.replicate (staged es' off n * es') (none : Cell)).length = staged es' off n * es' := by simp
    -- the staging block
    obtain ⟨ptr, hptr, hplen, hpread⟩ : ∃ ptr, containerStage ⟨es', elems, hint⟩ off n a = some ptr ∧ ptr.length = staged es' off n * es' ∧
        (a.read = true → ∀ i, off / es' * es' + i < count * es' → i < staged es' off n * es' → ptr[i]? = elems.flatten[off / es' * es' + i]?) := by
      unfold containerStage
      simp only
      rw [if_neg hes0, hsz, hal, hcount]
      by_cases hr : a.read = true
      · rw [if_pos hr]
        rw [gather_skip hes (off / es') (staged es' off n) elems 0 _ (Nat.zero_le _) hkq hlen0 h3]
        have hX : ((elems.drop (off / es' - 0)).take (staged es' off n)).flatten = range elems.flatten (off / es' * es') (staged es' off n * es') := by
          rw [flatten_take (es := es') (fun e he => h3 e (List.mem_of_mem_drop he)), flatten_drop h3, Nat.sub_zero]; rfl
        rw [hX]
        have hXl : (range elems.flatten (off / es' * es') (staged es' off n * es')).length ≤ staged es' off n * es' := by
          simp [range]; omega
        refine ⟨_, rfl, ?_, ?_⟩
        · rw [written_length (by rw [hlen0]; omega), hlen0]
        · intro _ i hi1 hi2
          rw [written_get (by rw [hlen0]; omega)]
          have hXl2 : i < (range elems.flatten (off / es' * es') (staged es' off n * es')).length := by
            simp [range, htot]; omega
          rw [if_pos (by omega), range_get, Nat.sub_zero, if_pos hi2]
      · rw [if_neg hr]
        exact ⟨_, rfl, hlen0, fun h => absurd h hr⟩
    refine ⟨_, by show (containerStage _ off n a).bind _ = _; rw [hptr]; rfl, rfl, Nat.le_refl _, rfl, ?_, ?_, ?_⟩
    · simp only [List.length_drop]; omega
    · intro hr
      apply List.ext_getElem?
      intro i
      dsimp only
      rw [range_get, List.getElem?_take]
      by_cases hi : i < n
      · rw [if_pos hi, if_pos hi, List.getElem?_drop, hpread hr _ (by omega) (by omega)]
        show elems.flatten[_]? = elems.flatten[_]?
        congr 1; omega
      · rw [if_neg hi, if_neg hi]
    · simp only
      intro new hnew hcase
      show ∃ s', (containerStage ⟨es', elems, hint⟩ off n a).bind _ = some s' ∧ _
      rw [hptr]
      simp only [Option.bind_some]
      unfold containerUnstage
      simp only
      rw [if_neg hes0, hal, hcount]
      by_cases hwr : a.write = true
      · rw [if_pos hwr, if_pos hwr]
        -- the block as the caller left it
        have hblk : ptr.take (off % es') ++ (new ++ (ptr.drop (off % es')).drop n) = written ptr (off % es') new := by
          unfold written
          rw [List.append_assoc, List.drop_drop, hnew]
        rw [hblk]
        have hwl : (written ptr (off % es') new).length = staged es' off n * es' := by
          rw [written_length (by omega)]; exact hplen
        obtain ⟨r, e1, hl, hall, hf⟩ := scatter_skip hes (off / es') (staged es' off n) elems 0 _ (Nat.zero_le _) hkq hwl h3
        rw [e1]
        refine ⟨_, rfl, ⟨rfl, by simp only [hl, h2], hall⟩, rfl, ?_⟩
        show r.flatten = written elems.flatten off new
        rw [hf, Nat.sub_zero, h2]
        have hL : off / es' * es' + min (staged es' off n) (count - off / es') * es' ≤ count * es' := by
          have e1 : min (staged es' off n) (count - off / es') * es' ≤ (count - off / es') * es' := Nat.mul_le_mul_right _ (Nat.min_le_right _ _)
          have e2 : off / es' * es' + (count - off / es') * es' = count * es' := by rw [← Nat.add_mul]; congr 1; omega
          omega
        have hL1 : min (staged es' off n) (count - off / es') * es' ≤ staged es' off n * es' := Nat.mul_le_mul_right _ (Nat.min_le_left _ _)
        have hL2 : off % es' + n ≤ min (staged es' off n) (count - off / es') * es' := by
          rcases Nat.le_total (staged es' off n) (count - off / es') with h | h
          · rw [Nat.min_eq_left h]; exact hen
          · rw [Nat.min_eq_right h, Nat.sub_mul]; omega
        have hrl : (range (written ptr (off % es') new) 0 (min (staged es' off n) (count - off / es') * es')).length
            = min (staged es' off n) (count - off / es') * es' := range_length (by omega)
        apply List.ext_getElem?
        intro i
        rw [written_get (by rw [hrl, htot]; omega), written_get (by rw [htot]; omega), hrl, range_get, written_get (by omega), hnew]
        generalize hLdef : min (staged es' off n) (count - off / es') * es' = L at *
        by_cases hin : off ≤ i ∧ i < off + n
        · rw [if_pos (by omega), if_pos (by omega), if_pos (by omega), if_pos hin]
          congr 1; omega
        · rw [if_neg hin]
          by_cases hin2 : off / es' * es' ≤ i ∧ i < off / es' * es' + L
          · rw [if_pos hin2, if_pos (by omega), if_neg (by omega)]
            rcases hw hwr with hr | ⟨ha, hb'⟩
            · rw [hpread hr _ (by omega) (by omega)]
              congr 1; omega
            · exfalso
              have := staged_aligned hes off n ha hb'
              omega
          · rw [if_neg hin2]
      · rw [if_neg hwr, if_neg hwr]
        exact ⟨_, rfl, ⟨rfl, h2, h3⟩, rfl, rfl⟩

theorem container_full : Full containerInterface := by
  intro s off n a m h
  unfold containerInterface at h
  simp only [Option.bind_eq_bind, Option.bind_eq_some_iff] at h
  obtain ⟨ptr, -, h⟩ := h
  rw [← Option.some.inj h]

end Verif.Data
