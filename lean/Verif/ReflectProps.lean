import Verif.ReflectLemmas
/-!
# C76: serialised data is read back; C77: copying data; C78: validators
-/
namespace Verif.Reflect

open Verif.VarInt (Endian writeFixed readFixed writeInt readInt)
open Verif.Rle (le ofLe)

/-! ## Validators of valid data -/

theorem Root.unique {env : Env} {b r r' : Nat} (h : Root env b r) (h' : Root env b r') : r = r' := by
  induction h with
  | base h => cases h' with
    | base _ => rfl
    | validator h2 _ => exact absurd h2 (h _)
  | validator h _ ih => cases h' with
    | base h2 => exact absurd h (h2 _)
    | validator h2 h3 =>
      rw [h] at h2
      simp only [Option.some.injEq, Ty.validator.injEq] at h2
      subst h2
      exact ih h3

theorem check_valid {env : Env} {keep : Nat → Ownership → Bool} {ok : Ty → List UInt8 → Prop} {m : Mem} {R : Nat → Prop}
    {t a : Nat} (d : Data env keep ok m R t a) :
    ∀ b r, env.ty t = some (.validator b) → Root env b r →
      ∃ K, ∀ k, K ≤ k → ∀ (st : St) dst, Like env keep m st.mem b a dst → check env k t b dst st = .ok (r, st) := by
  induction d with
  | @validator t b r a h1 h2 h3 h4 _ ih =>
    intro b' r' hb hr
    rw [h1] at hb
    simp only [Option.some.injEq, Ty.validator.injEq] at hb
    subst hb
    have hrr := hr.unique h2
    subst hrr
    cases h2 with
    | base hbase =>
      refine ⟨1, fun k hk st dst hlike => ?_⟩
      obtain ⟨k, rfl⟩ := Nat.exists_eq_add_of_le' hk
      have h5 := h4 st.mem dst hlike
      rw [check]
      cases hE : env.ty b with
      | none => simp only [h5, if_true, h3]
      | some x => cases x with
        | validator c => exact absurd hE (hbase c)
        | _ => simp only [h5, if_true, h3]
    | @validator _ c _ hv hc =>
      obtain ⟨K, hK⟩ := ih c r' hv hc
      refine ⟨K + 1, fun k hk st dst hlike => ?_⟩
      obtain ⟨k, rfl⟩ := Nat.exists_eq_add_of_le' (Nat.le_trans (Nat.le_add_left 1 K) hk)
      have hl2 : Like env keep m st.mem c a dst := by
        cases hlike with
        | validator h5 h6 =>
          rw [hv] at h5
          simp only [Option.some.injEq, Ty.validator.injEq] at h5
          subst h5
          exact h6
        | _ => simp_all
      rw [check]
      simp only [hv, hK k (by omega) st dst hl2, h4 st.mem dst hlike, if_true, h3]
  | _ => intro b r hb; simp_all

/-! ## C76 -/

theorem parts_roundtrip {env : Env} {se : Endian} {prefer : Nat} {m : Mem} {a : Nat} :
    ∀ ps : List (Nat × Nat),
    (∀ p, p ∈ ps → ∃ K out, ∀ k, K ≤ k → serialize env se prefer m k p.2 (a + p.1) = .ok out ∧
      ∀ s dst, Sized env p.2 s → dst ≠ 0 →
        Good env never m (fun _ => False) (deserialize env se prefer k p.2 dst) p.2 (a + p.1) dst s out []) →
    ∃ K out, ∀ k, K ≤ k → serParts (serialize env se prefer m k) a ps = .ok out ∧
      ∀ S dst, Fits env ps S → dst ≠ 0 →
        PartsGood env never m (fun _ => False) (eachPart (fun t a _ => deserialize env se prefer k t a) dst dst ps) ps a dst S out []
  | [], _ => ⟨0, [], fun _ _ => ⟨rfl, fun S dst _ _ => parts_nil env never m _ _ dst a dst S⟩⟩
  | p :: ps, H => by
    obtain ⟨K1, out, h1⟩ := H p (by simp)
    obtain ⟨K2, outs, h2⟩ := parts_roundtrip ps fun q hq => H q (List.mem_cons_of_mem _ hq)
    refine ⟨max K1 K2, out ++ outs, fun k hk => ⟨?_, ?_⟩⟩
    · rw [serParts, (h1 k (by omega)).1, (h2 k (by omega)).1]
    · intro S dst hf h0
      obtain ⟨s, hs, hS⟩ := hf.1 p (by simp)
      have hf2 : Fits env ps S := ⟨fun q hq => hf.1 q (List.mem_cons_of_mem _ hq), (List.pairwise_cons.1 hf.2).2⟩
      exact parts_cons (rs := []) (rss := []) hf hs ((h1 k (by omega)).2 s (dst + p.1) hs (by omega))
        ((h2 k (by omega)).2 S dst hf2 h0)

theorem data_roundtrip {env : Env} (hl : Layout env) (se : Endian) (prefer : Nat) {m : Mem} {R : Nat → Prop} {t a : Nat}
    (d : Data env never (Exact prefer) m R t a) : a ≠ 0 →
    ∃ K out, ∀ k, K ≤ k → serialize env se prefer m k t a = .ok out ∧
      ∀ s dst, Sized env t s → dst ≠ 0 →
        Good env never m (fun _ => False) (deserialize env se prefer k t dst) t a dst s out [] := by
  induction d with
  | @void t a h =>
    intro ha
    refine ⟨1, [], fun k hk => ?_⟩
    obtain ⟨k, rfl⟩ := Nat.exists_eq_add_of_le' hk
    refine ⟨by simp [serialize, ha, h], fun s dst hs h0 st rest hb _ => Or.inr ⟨st, ?_, ⟨Nat.le_refl _, fun _ _ _ => rfl, fun m' _ => Like.void h⟩, by simp⟩⟩
    simp [deserialize, h0, h]
  | @null t g o a h hR hp =>
    intro ha
    refine ⟨1, [0], fun k hk => ?_⟩
    obtain ⟨k, rfl⟩ := Nat.exists_eq_add_of_le' hk
    refine ⟨by simp [serialize, ha, h, hp], fun s dst hs h0 st rest hb _ =>
      Or.inr ⟨{ st with mem := store st.mem dst (le 8 0) }, ?_, ?_, by simp⟩⟩
    · simp [deserialize, h0, h]
    · have := hs.unique (.pointer h)
      subst this
      refine put_store (Rle.le_length 8 0) fun m' hm => Like.null h hp ?_
      rw [ptr, hm, Rle.ofLe_le]
  | kept h hk => cases hk
  | @deep t g o a s h hkeep hR hp hs _ ih =>
    intro ha
    obtain ⟨K, out, H⟩ := ih hp
    obtain ⟨K', hK'⟩ := typeSize_sized hs
    refine ⟨max K K' + 1, 1 :: out, fun k hk => ?_⟩
    obtain ⟨k, rfl⟩ := Nat.exists_eq_add_of_le' (Nat.le_trans (Nat.le_add_left 1 (max K K')) hk)
    obtain ⟨H1, H2⟩ := H k (by omega)
    refine ⟨by simp [serialize, ha, h, hp, H1], fun s' dst hs' h0 st rest hb _ => ?_⟩
    have := hs'.unique (.pointer h)
    subst this
    rw [deserialize, if_neg h0]
    simp only [h, List.cons_append]
    rw [if_pos (show (1 : UInt8) ≠ 0 by decide), hK' k (by omega)]
    simp only [alloc]
    by_cases hm : st.brk + s + 1 ≤ 2 ^ 64
    · simp only [if_pos hm]
      rcases H2 s st.brk hs (by omega) { st with brk := st.brk + s + 1 } rest (by dsimp only; omega)
          (fun _ hx => hx.elim) with h3 | ⟨st2, h3, h4, h5⟩
      · rw [h3]; exact Or.inl rfl
      · rw [h3]
        refine Or.inr ⟨_, rfl, ?_, ?_⟩
        · exact put_deep st.mem h hkeep h0 hb hm hp (fun _ _ => rfl) h4
        · simpa using h5
    · rw [if_neg hm]; exact Or.inl rfl
  | @integer t n e sg f a h hR hok =>
    intro ha
    obtain ⟨h0, h64, hv⟩ := hok
    have hlen := bytes_length m a n
    obtain ⟨out, hw, hr⟩ := VarInt.C75_integer_partial e se e (bytes m a n) sg f prefer
      (by intro hh; rw [hh] at hlen; simp at hlen; omega) (by
        rw [hlen]
        rcases hv with hv | hv | hv | hv
        · exact Or.inl hv
        · exact Or.inr (Or.inl ⟨h64, hv⟩)
        · exact Or.inr (Or.inr (Or.inl ⟨h64, hv⟩))
        · exact Or.inr (Or.inr (Or.inr ⟨h64, hv⟩)))
    rw [hlen] at hr
    refine ⟨1, out, fun k hk => ?_⟩
    obtain ⟨k, rfl⟩ := Nat.exists_eq_add_of_le' hk
    refine ⟨by simp [serialize, ha, h, hw, lift], fun s dst hs hd st rest hb _ => ?_⟩
    have := hs.unique (.integer h)
    subst this
    rw [deserialize, if_neg hd]
    simp only [h, hr rest, VarInt.view_view]
    exact Or.inr ⟨_, rfl, put_store (bytes_length m a s) (fun m' hm => Like.integer h hm.symm), by simp⟩
  | @float t n e a h hR hok =>
    intro ha
    have hlen := bytes_length m a n
    obtain ⟨out, hw, _, _, hr⟩ := VarInt.C75_fixed e se e (bytes m a n) (by rw [hlen]; exact hok)
    rw [hlen] at hr
    refine ⟨1, out, fun k hk => ?_⟩
    obtain ⟨k, rfl⟩ := Nat.exists_eq_add_of_le' hk
    refine ⟨by simp [serialize, ha, h, hw, lift], fun s dst hs hd st rest hb _ => ?_⟩
    have := hs.unique (.float h)
    subst this
    rw [deserialize, if_neg hd]
    simp only [h, hr rest, VarInt.view_view]
    exact Or.inr ⟨_, rfl, put_store (bytes_length m a s) (fun m' hm => Like.float h hm.symm), by simp⟩
  | @struct t n fs a h _ ih =>
    intro ha
    obtain ⟨K, out, H⟩ := parts_roundtrip fs fun p hp => ih p hp (by omega)
    refine ⟨K + 1, out, fun k hk => ?_⟩
    obtain ⟨k, rfl⟩ := Nat.exists_eq_add_of_le' (Nat.le_trans (Nat.le_add_left 1 K) hk)
    obtain ⟨H1, H2⟩ := H k (by omega)
    refine ⟨by simp [serialize, ha, h, H1], fun s dst hs hd => ?_⟩
    have := hs.unique (.struct h)
    subst this
    have hg := parts_whole (t := t) (fits_struct hl h) (H2 s dst (fits_struct hl h) hd) (fun m' hm => Like.struct h hm)
    intro st rest hb hq
    have := hg st rest hb hq
    rw [deserialize, if_neg hd]
    simp only [h]
    exact this
  | @array t e c s a h hs _ ih =>
    intro ha
    obtain ⟨K, out, H⟩ := parts_roundtrip (elements s e c) fun p hp => by
      obtain ⟨i, hi, rfl⟩ := mem_elements.1 hp
      exact ih i hi (by omega)
    obtain ⟨K', hK'⟩ := typeSize_sized hs
    refine ⟨max K K' + 1, out, fun k hk => ?_⟩
    obtain ⟨k, rfl⟩ := Nat.exists_eq_add_of_le' (Nat.le_trans (Nat.le_add_left 1 (max K K')) hk)
    obtain ⟨H1, H2⟩ := H k (by omega)
    refine ⟨by simp [serialize, ha, h, hK' k (by omega), H1], fun s' dst hs' hd => ?_⟩
    have := hs'.unique (.array h hs)
    subst this
    have hg := parts_whole (t := t) (fits_elements hs c) (H2 (s * c) dst (fits_elements hs c) hd)
      (fun m' hm => Like.array h hs fun i hi => hm (s * i, e) (mem_elements.2 ⟨i, hi, rfl⟩))
    intro st rest hb hq
    have := hg st rest hb hq
    rw [deserialize, if_neg hd]
    simp only [h, hK' k (by omega)]
    exact this
  | @validator t b r a h hr hs hv d ih =>
    intro ha
    obtain ⟨K, out, H⟩ := ih ha
    obtain ⟨K', hK'⟩ := check_valid (Data.validator h hr hs hv d) b r h hr
    refine ⟨max K K' + 1, out, fun k hk => ?_⟩
    obtain ⟨k, rfl⟩ := Nat.exists_eq_add_of_le' (Nat.le_trans (Nat.le_add_left 1 (max K K')) hk)
    obtain ⟨H1, H2⟩ := H k (by omega)
    refine ⟨by simp [serialize, ha, h, H1], fun s dst hs' hd st rest hb hq => ?_⟩
    have hsb : Sized env b s := by
      cases hs' with
      | validator h5 h6 =>
        rw [h] at h5
        simp only [Option.some.injEq, Ty.validator.injEq] at h5
        subst h5
        exact h6
      | _ => simp_all
    rw [deserialize, if_neg hd]
    simp only [h]
    rcases H2 s dst hsb hd st rest hb hq with h3 | ⟨st2, h3, h4, h5⟩
    · rw [h3]; exact Or.inl rfl
    · rw [h3]
      simp only [hK' k (by omega) st2 dst (h4.like st2.mem fun _ _ => rfl)]
      exact Or.inr ⟨st2, rfl, ⟨h4.grows, h4.frame, fun m' hm => Like.validator h (h4.like m' hm)⟩, h5⟩

/-- Serialising data returns, and deserialising what was written puts data like it to the destination, unless memory runs out:
exactly what was written is taken from the stream, nothing but the destination and newly allocated memory is written, no
pointer is shared with the original, nothing is retained. -/
theorem C76_roundtrip_partial (env : Env) (hl : Layout env) (se : Endian) (prefer : Nat) (m : Mem) (R : Nat → Prop) (t a : Nat)
    (ha : a ≠ 0) (d : Data env never (Exact prefer) m R t a) :
    ∃ K out, ∀ k, K ≤ k → serialize env se prefer m k t a = .ok out ∧
      ∀ s dst, Sized env t s → dst ≠ 0 → ∀ st rest, dst + s ≤ st.brk →
        deserialize env se prefer k t dst (st, out ++ rest) = .error .oom ∨
        ∃ st', deserialize env se prefer k t dst (st, out ++ rest) = .ok (st', rest) ∧
          Put env never m t a dst s st st' ∧ st'.retained = st.retained := by
  obtain ⟨K, out, H⟩ := data_roundtrip hl se prefer d ha
  refine ⟨K, out, fun k hk => ⟨(H k hk).1, fun s dst hs hd st rest hb => ?_⟩⟩
  simpa using (H k hk).2 s dst hs hd st rest hb (fun _ hx => hx.elim)

/-! ## C77 -/

/-- Copying does not use the stream. -/
def wrap (c : St → Except Err St) (x : St × List UInt8) : Except Err (St × List UInt8) :=
  match c x.1 with
  | .ok st => .ok (st, x.2)
  | .error e => .error e

theorem wrap_parts (f : Nat → Nat → Nat → St → Except Err St) (a src : Nat) :
    ∀ (ps : List (Nat × Nat)) (x : St × List UInt8),
      eachPart (fun t a s => wrap (f t a s)) a src ps x = wrap (eachPart f a src ps) x
  | [], _ => rfl
  | p :: ps, x => by
    simp only [eachPart, wrap]
    cases f p.2 (a + p.1) (src + p.1) x.1 with
    | error e => rfl
    | ok st => exact wrap_parts f a src ps (st, x.2)

theorem parts_copy {env : Env} {asg : Assignment} {v : Bool} {m : Mem} {Q : Nat → Prop} {a : Nat} :
    ∀ ps : List (Nat × Nat),
    (∀ p, p ∈ ps → ∃ K rs, ∀ k, K ≤ k → refs env asg m k p.2 (a + p.1) = rs ∧
      ∀ s dst, Sized env p.2 s → dst ≠ 0 →
        Good env (keeps env asg) m Q (wrap (copy env asg v k p.2 dst (a + p.1))) p.2 (a + p.1) dst s [] rs) →
    ∃ K rs, ∀ k, K ≤ k → (ps.flatMap fun p => refs env asg m k p.2 (a + p.1)) = rs ∧
      ∀ S dst, Fits env ps S → dst ≠ 0 →
        PartsGood env (keeps env asg) m Q (eachPart (fun t a s => wrap (copy env asg v k t a s)) dst a ps) ps a dst S [] rs
  | [], _ => ⟨0, [], fun _ _ => ⟨rfl, fun S dst _ _ => parts_nil env _ m _ _ a a dst S⟩⟩
  | p :: ps, H => by
    obtain ⟨K1, rs, h1⟩ := H p (by simp)
    obtain ⟨K2, rss, h2⟩ := parts_copy ps fun q hq => H q (List.mem_cons_of_mem _ hq)
    refine ⟨max K1 K2, rs ++ rss, fun k hk => ⟨?_, ?_⟩⟩
    · rw [List.flatMap_cons, (h1 k (by omega)).1, (h2 k (by omega)).1]
    · intro S dst hf h0
      obtain ⟨s, hs, hS⟩ := hf.1 p (by simp)
      have hf2 : Fits env ps S := ⟨fun q hq => hf.1 q (List.mem_cons_of_mem _ hq), (List.pairwise_cons.1 hf.2).2⟩
      exact parts_cons (out := []) (outs := []) hf hs ((h1 k (by omega)).2 s (dst + p.1) hs (by omega))
        ((h2 k (by omega)).2 S dst hf2 h0)

theorem data_copy {env : Env} (hl : Layout env) (asg : Assignment) (v : Bool) {m : Mem} {R : Nat → Prop} {t a : Nat}
    (d : Data env (keeps env asg) (fun _ _ => True) m R t a) : a ≠ 0 →
    ∃ K rs, ∀ k, K ≤ k → refs env asg m k t a = rs ∧
      ∀ s dst, Sized env t s → dst ≠ 0 →
        Good env (keeps env asg) m R (wrap (copy env asg v k t dst a)) t a dst s [] rs := by
  induction d with
  | @void t a h =>
    intro ha
    refine ⟨1, [], fun k hk => ?_⟩
    obtain ⟨k, rfl⟩ := Nat.exists_eq_add_of_le' hk
    refine ⟨by simp [refs, h], fun s dst hs h0 st rest hb _ => Or.inr ⟨st, ?_, ⟨Nat.le_refl _, fun _ _ _ => rfl, fun m' _ => Like.void h⟩, by simp⟩⟩
    simp [wrap, copy, h0, ha, h]
  | @null t g o a h hR hp =>
    intro ha
    refine ⟨1, [], fun k hk => ?_⟩
    obtain ⟨k, rfl⟩ := Nat.exists_eq_add_of_le' hk
    refine ⟨by simp [refs, h, hp], fun s dst hs h0 st rest hb hq => ?_⟩
    have := hs.unique (.pointer h)
    subst this
    have hbm : bytes st.mem a 8 = bytes m a 8 := bytes_congr fun i hi => (hq _ (hR i hi)).1
    have hpt : ptr (store st.mem dst (bytes st.mem a 8)) dst = 0 := by
      rw [ptr, bytes_store _ _ _ _ (bytes_length _ _ _).symm, hbm]; exact hp
    refine Or.inr ⟨{ st with mem := store st.mem dst (bytes st.mem a 8) }, ?_, put_store (bytes_length _ _ _) ?_, by simp⟩
    · simp [wrap, copy, h0, ha, h, hpt]
    · intro m' hm
      refine Like.null h hp ?_
      rw [ptr, hm, hbm]; exact hp
  | @kept t g o a h hkeep hR hp =>
    intro ha
    refine ⟨1, if o = .retain ∧ (asg.kind ≠ .transfer ∨ asg.weak) then [ptr m a] else [], fun k hk => ?_⟩
    obtain ⟨k, rfl⟩ := Nat.exists_eq_add_of_le' hk
    refine ⟨by simp [refs, h, hp, hkeep], fun s dst hs h0 st rest hb hq => ?_⟩
    have := hs.unique (.pointer h)
    subst this
    have hbm : bytes st.mem a 8 = bytes m a 8 := bytes_congr fun i hi => (hq _ (hR i hi)).1
    have hpt : ptr (store st.mem dst (bytes st.mem a 8)) dst = ptr m a := by
      rw [ptr, bytes_store _ _ _ _ (bytes_length _ _ _).symm, hbm]; rfl
    have hput : Put env (keeps env asg) m t a dst 8 st { st with mem := store st.mem dst (bytes st.mem a 8) } := by
      refine put_store (bytes_length _ _ _) fun m' hm => Like.kept h hkeep hp ?_
      rw [ptr, hm, hbm]; rfl
    have hput' : ∀ r, Put env (keeps env asg) m t a dst 8 st
        { mem := store st.mem dst (bytes st.mem a 8), brk := st.brk, retained := r } :=
      fun r => ⟨hput.grows, hput.frame, hput.like⟩
    have hnull : ¬(dst = 0 ∨ a = 0) := by omega
    simp only [wrap, List.nil_append]
    rw [copy, if_neg hnull]
    simp only [h, hpt]
    by_cases htr : asg.kind ≠ .transfer ∨ asg.weak = true
    · rw [if_pos ⟨htr, hp⟩]
      by_cases hvoid : env.ty g = some .void
      · rw [if_pos hvoid]
        refine Or.inr ⟨_, rfl, ?_, ?_⟩
        · split
          · exact hput' _
          · exact hput' _
        · cases o <;> simp [htr]
      · rw [if_neg hvoid]
        by_cases hw : o = .weak ∧ ¬asg.weak = true
        · rw [if_pos hw]
          exact Or.inr ⟨_, rfl, hput, by simp [hw.1]⟩
        · rw [if_neg hw]
          have hrs : o = .retain ∧ asg.kind = .share := by
            unfold keeps at hkeep
            simp only [Bool.or_eq_true, Bool.and_eq_true, decide_eq_true_eq, Bool.not_eq_true', hvoid] at hkeep
            rcases hkeep with ((⟨h1, h2⟩ | h1) | ⟨h1, h2⟩) | h1
            · rcases htr with htr | htr
              · exact absurd h1 htr
              · rw [htr] at h2; cases h2
            · exact h1.elim
            · exact absurd ⟨h1, by simp [h2]⟩ hw
            · exact h1
          rw [if_pos hrs]
          exact Or.inr ⟨_, rfl, hput' _, by simp [hrs.1, htr]⟩
    · rw [if_neg (fun hh => htr hh.1)]
      exact Or.inr ⟨_, rfl, hput, by rw [if_neg (fun hh => htr hh.2)]; simp⟩
  | @deep t g o a s h hkeep hR hp hs _ ih =>
    intro ha
    obtain ⟨K, rs, H⟩ := ih hp
    obtain ⟨K', hK'⟩ := typeSize_sized hs
    refine ⟨max K K' + 1, rs, fun k hk => ?_⟩
    obtain ⟨k, rfl⟩ := Nat.exists_eq_add_of_le' (Nat.le_trans (Nat.le_add_left 1 (max K K')) hk)
    obtain ⟨H1, H2⟩ := H k (by omega)
    refine ⟨by simp [refs, h, hp, hkeep, H1], fun s' dst hs' h0 st rest hb hq => ?_⟩
    have := hs'.unique (.pointer h)
    subst this
    have hbm : bytes st.mem a 8 = bytes m a 8 := bytes_congr fun i hi => (hq _ (hR i hi)).1
    have hpt : ptr (store st.mem dst (bytes st.mem a 8)) dst = ptr m a := by
      rw [ptr, bytes_store _ _ _ _ (bytes_length _ _ _).symm, hbm]; rfl
    have hnull : ¬(dst = 0 ∨ a = 0) := by omega
    have hk2 := hkeep
    unfold keeps at hk2
    simp only [Bool.or_eq_false_iff, Bool.and_eq_false_iff, decide_eq_false_iff_not, Bool.not_eq_false'] at hk2
    obtain ⟨⟨⟨hk3, hk4⟩, hk5⟩, hk6⟩ := hk2
    simp only [wrap, List.nil_append]
    rw [copy, if_neg hnull]
    simp only [h, hpt]
    rw [if_pos ⟨hk3, hp⟩, if_neg hk4, if_neg (fun hh => by rcases hk5 with h1 | h1; exact h1 hh.1; exact hh.2 h1),
      if_neg (fun hh => by rcases hk6 with h1 | h1; exact h1 hh.1; exact h1 hh.2), hK' k (by omega)]
    simp only [alloc]
    by_cases hm : st.brk + s + 1 ≤ 2 ^ 64
    · rw [if_pos hm]
      have hout : ∀ x, ¬(dst ≤ x ∧ x < dst + 8) → store st.mem dst (bytes st.mem a 8) x = st.mem x :=
        fun x hx => store_out _ _ _ _ (by rw [bytes_length]; exact hx)
      have HH := H2 s st.brk hs (by omega)
        { mem := store st.mem dst (bytes st.mem a 8), brk := st.brk + s + 1, retained := st.retained } rest
        (by dsimp only; omega) (fun x hx => by
          obtain ⟨q1, q2, q3⟩ := hq x hx
          exact ⟨(hout x q3).trans q1, by dsimp only; omega, by omega⟩)
      simp only [wrap, List.nil_append] at HH
      rcases HH with h3 | ⟨st2, h3, h4, h5⟩
      · refine Or.inl ?_
        revert h3
        dsimp only
        generalize copy env asg v k g st.brk (ptr m a) _ = c
        intro h3
        cases c with
        | error e => exact h3
        | ok x => cases h3
      · have h6 : copy env asg v k g st.brk (ptr m a)
            { mem := store st.mem dst (bytes st.mem a 8), brk := st.brk + s + 1, retained := st.retained } = .ok st2 := by
          revert h3
          generalize copy env asg v k g st.brk (ptr m a) _ = c
          intro h3
          cases c with
          | error e => cases h3
          | ok x => cases h3; rfl
        simp only [h6]
        exact Or.inr ⟨_, rfl, put_deep _ h hkeep h0 hb hm hp hout h4, h5⟩
    · rw [if_neg hm]; exact Or.inl rfl
  | @integer t n e sg f a h hR _ =>
    intro ha
    refine ⟨1, [], fun k hk => ?_⟩
    obtain ⟨k, rfl⟩ := Nat.exists_eq_add_of_le' hk
    refine ⟨by simp [refs, h], fun s dst hs hd st rest hb hq => ?_⟩
    have := hs.unique (.integer h)
    subst this
    have hbm : bytes st.mem a s = bytes m a s := bytes_congr fun i hi => (hq _ (hR i hi)).1
    refine Or.inr ⟨{ st with mem := store st.mem dst (bytes st.mem a s) }, by simp [wrap, copy, hd, ha, h], put_store (bytes_length _ _ _) ?_, by simp⟩
    intro m' hm
    exact Like.integer h (by rw [hm, hbm])
  | @float t n e a h hR _ =>
    intro ha
    refine ⟨1, [], fun k hk => ?_⟩
    obtain ⟨k, rfl⟩ := Nat.exists_eq_add_of_le' hk
    refine ⟨by simp [refs, h], fun s dst hs hd st rest hb hq => ?_⟩
    have := hs.unique (.float h)
    subst this
    have hbm : bytes st.mem a s = bytes m a s := bytes_congr fun i hi => (hq _ (hR i hi)).1
    refine Or.inr ⟨{ st with mem := store st.mem dst (bytes st.mem a s) }, by simp [wrap, copy, hd, ha, h], put_store (bytes_length _ _ _) ?_, by simp⟩
    intro m' hm
    exact Like.float h (by rw [hm, hbm])
  | @struct t n fs a h _ ih =>
    intro ha
    obtain ⟨K, rs, H⟩ := parts_copy (v := v) fs fun p hp => ih p hp (by omega)
    refine ⟨K + 1, rs, fun k hk => ?_⟩
    obtain ⟨k, rfl⟩ := Nat.exists_eq_add_of_le' (Nat.le_trans (Nat.le_add_left 1 K) hk)
    obtain ⟨H1, H2⟩ := H k (by omega)
    refine ⟨by simp [refs, h, H1], fun s dst hs hd => ?_⟩
    have := hs.unique (.struct h)
    subst this
    have hg := parts_whole (t := t) (fits_struct hl h) (H2 s dst (fits_struct hl h) hd) (fun m' hm => Like.struct h hm)
    have hnull : ¬(dst = 0 ∨ a = 0) := by omega
    have he : wrap (copy env asg v (k + 1) t dst a) = eachPart (fun t a s => wrap (copy env asg v k t a s)) dst a fs := by
      funext x
      rw [wrap_parts]
      simp only [wrap]
      rw [copy, if_neg hnull]
      simp only [h]
    rw [he]
    exact hg
  | @array t e c s a h hs _ ih =>
    intro ha
    obtain ⟨K, rs, H⟩ := parts_copy (v := v) (elements s e c) fun p hp => by
      obtain ⟨i, hi, rfl⟩ := mem_elements.1 hp
      exact ih i hi (by omega)
    obtain ⟨K', hK'⟩ := typeSize_sized hs
    refine ⟨max K K' + 1, rs, fun k hk => ?_⟩
    obtain ⟨k, rfl⟩ := Nat.exists_eq_add_of_le' (Nat.le_trans (Nat.le_add_left 1 (max K K')) hk)
    obtain ⟨H1, H2⟩ := H k (by omega)
    refine ⟨by simp [refs, h, hK' k (by omega), H1], fun s' dst hs' hd => ?_⟩
    have := hs'.unique (.array h hs)
    subst this
    have hg := parts_whole (t := t) (fits_elements hs c) (H2 (s * c) dst (fits_elements hs c) hd)
      (fun m' hm => Like.array h hs fun i hi => hm (s * i, e) (mem_elements.2 ⟨i, hi, rfl⟩))
    have hnull : ¬(dst = 0 ∨ a = 0) := by omega
    have he : wrap (copy env asg v (k + 1) t dst a)
        = eachPart (fun t a s => wrap (copy env asg v k t a s)) dst a (elements s e c) := by
      funext x
      rw [wrap_parts]
      simp only [wrap]
      rw [copy, if_neg hnull]
      simp only [h, hK' k (by omega)]
    rw [he]
    exact hg
  | @validator t b r a h hr hs hv d ih =>
    intro ha
    obtain ⟨K, rs, H⟩ := ih ha
    obtain ⟨K', hK'⟩ := check_valid (Data.validator h hr hs hv d) b r h hr
    refine ⟨max K K' + 1, rs, fun k hk => ?_⟩
    obtain ⟨k, rfl⟩ := Nat.exists_eq_add_of_le' (Nat.le_trans (Nat.le_add_left 1 (max K K')) hk)
    obtain ⟨H1, H2⟩ := H k (by omega)
    refine ⟨by simp [refs, h, H1], fun s dst hs' hd st rest hb hq => ?_⟩
    have hsb : Sized env b s := by
      cases hs' with
      | validator h5 h6 =>
        rw [h] at h5
        simp only [Option.some.injEq, Ty.validator.injEq] at h5
        subst h5
        exact h6
      | _ => simp_all
    have hnull : ¬(dst = 0 ∨ a = 0) := by omega
    have HH := H2 s dst hsb hd st rest hb hq
    simp only [wrap, List.nil_append] at HH ⊢
    rw [copy, if_neg hnull]
    simp only [h]
    revert HH
    generalize copy env asg v k b dst a st = c
    intro HH
    rcases HH with h3 | ⟨st2, h3, h4, h5⟩
    · cases c with
      | error e => exact Or.inl h3
      | ok x => cases h3
    · cases c with
      | error e => cases h3
      | ok x =>
        cases h3
        simp only [hK' k (by omega) st2 dst (h4.like st2.mem fun _ _ => rfl)]
        refine Or.inr ⟨st2, ?_, ⟨h4.grows, h4.frame, fun m' hm => Like.validator h (h4.like m' hm)⟩, h5⟩
        cases v <;> rfl

/-- Copying data returns, and puts data like it to the destination, unless memory runs out: nothing but the destination and
newly allocated memory is written, the pointers that are not to be kept are to newly allocated memory, and those that get one
more owner are retained once each. -/
theorem C77_copy_partial (env : Env) (hl : Layout env) (asg : Assignment) (v : Bool) (m : Mem) (R : Nat → Prop) (t a : Nat)
    (ha : a ≠ 0) (d : Data env (keeps env asg) (fun _ _ => True) m R t a) :
    ∃ K, ∀ k, K ≤ k → ∀ s dst, Sized env t s → dst ≠ 0 → ∀ st, st.mem = m → dst + s ≤ st.brk →
      (∀ x, R x → x < st.brk ∧ ¬(dst ≤ x ∧ x < dst + s)) →
        copy env asg v k t dst a st = .error .oom ∨
        ∃ st', copy env asg v k t dst a st = .ok st' ∧ Put env (keeps env asg) m t a dst s st st' ∧
          st'.retained = st.retained ++ refs env asg m k t a := by
  obtain ⟨K, rs, H⟩ := data_copy hl asg v d ha
  refine ⟨K, fun k hk s dst hs hd st hm hb hR => ?_⟩
  obtain ⟨H1, H2⟩ := H k hk
  have HH := H2 s dst hs hd st [] hb (fun x hx => ⟨by rw [hm], hR x hx⟩)
  simp only [wrap, List.nil_append] at HH
  revert HH
  generalize copy env asg v k t dst a st = c
  intro HH
  rcases HH with h3 | ⟨st2, h3, h4, h5⟩
  · cases c with
    | error e => cases h3; exact Or.inl rfl
    | ok x => cases h3
  · cases c with
    | error e => cases h3
    | ok x => cases h3; exact Or.inr ⟨st2, rfl, h4, by rw [h5, H1]⟩

/-! ## C78 -/

/-- A validator without a validator below it leaves the data alone and answers its base type when the outcome has no result. -/
theorem C78_no_result (env : Env) (v b a : Nat) (st : St) (hb : ∀ c, env.ty b ≠ some (.validator c))
    (hr : (if env.check v b st.mem a then env.success v else env.failure v) = none) (k : Nat) :
    check env (k + 1) v b a st = .ok (b, st) := by
  rw [check]
  cases hE : env.ty b with
  | none => simp only [hr]
  | some x => cases x with
    | validator c => exact absurd hE (hb c)
    | _ => simp only [hr]

/-- A validator puts a copy of the result of the outcome, if there is one, in place of the data, and answers the type of the
result: the result for success when the function accepts the data, the one for failure when not. -/
theorem C78_result_partial (env : Env) (hl : Layout env) (v b dst : Nat) (st : St) (hb : ∀ c, env.ty b ≠ some (.validator c))
    (t src : Nat) (hr : (if env.check v b st.mem dst then env.success v else env.failure v) = some (t, src))
    (R : Nat → Prop) (hsrc : src ≠ 0)
    (d : Data env (keeps env { kind := .copy, weak := false }) (fun _ _ => True) st.mem R t src)
    (s : Nat) (hs : Sized env t s) (hd : dst ≠ 0) (hbrk : dst + s ≤ st.brk)
    (hR : ∀ x, R x → x < st.brk ∧ ¬(dst ≤ x ∧ x < dst + s)) :
    ∃ K, ∀ k, K ≤ k →
      check env k v b dst st = .error .oom ∨
      ∃ st', check env k v b dst st = .ok (t, st') ∧
        Put env (keeps env { kind := .copy, weak := false }) st.mem t src dst s st st' := by
  obtain ⟨K, H⟩ := C77_copy_partial env hl { kind := .copy, weak := false } true st.mem R t src hsrc d
  refine ⟨K + 1, fun k hk => ?_⟩
  obtain ⟨k, rfl⟩ := Nat.exists_eq_add_of_le' (Nat.le_trans (Nat.le_add_left 1 K) hk)
  have hcheck : check env (k + 1) v b dst st = match copy env { kind := .copy, weak := false } true k t dst src st with
        | .error x => .error x
        | .ok st => .ok (t, st) := by
    rw [check]
    cases hE : env.ty b with
    | none => simp only [hr]; cases copy env { kind := .copy, weak := false } true k t dst src st <;> rfl
    | some x => cases x with
      | validator c => exact absurd hE (hb c)
      | _ => simp only [hr]; cases copy env { kind := .copy, weak := false } true k t dst src st <;> rfl
  rw [hcheck]
  rcases H k (by omega) s dst hs hd st rfl hbrk hR with h3 | ⟨st2, h3, h4, _⟩
  · rw [h3]; exact Or.inl rfl
  · rw [h3]; exact Or.inr ⟨st2, rfl, h4⟩

/-! ## What does not hold -/

/-- Types: a pointer to itself. -/
def loopEnv : Env where
  ty t := if t = 0 then some (.pointer 0 .weak) else none
  check _ _ _ _ := true
  success _ := none
  failure _ := none

/-- Data that refers to itself is followed without end, also through weak pointers. -/
theorem C76_cycle_refuted (se : Endian) (prefer : Nat) :
    ∀ k, serialize loopEnv se prefer (fun x => if x = 8 then 8 else 0) k 0 8 = .error .loop
  | 0 => rfl
  | k + 1 => by
    have hp : ptr (fun x => if x = 8 then 8 else 0) 8 = 8 := by decide +kernel
    rw [serialize]
    simp only [loopEnv] at *
    simp only [hp]
    have := C76_cycle_refuted se prefer k
    simp only [loopEnv] at this
    simp [this]

/-- Types: a pointer that owns a number. -/
def ownEnv : Env where
  ty t := if t = 0 then some (.pointer 1 .transfer) else if t = 1 then some (.integer 4 .native false true) else none
  check _ _ _ _ := true
  success _ := none
  failure _ := none

/-- Transferring with weak references copied copies what is owned too: the new pointer is not the old one, which is left
without an owner. -/
theorem C77_transfer_weak_refuted :
    (match copy ownEnv { kind := .transfer, weak := true } false 5 0 24 8
        { mem := fun x => if x = 8 then 16 else 0, brk := 64, retained := [] } with
      | .ok st => some (ptr st.mem 24)
      | .error _ => none) = some 64 ∧
    (match copy ownEnv { kind := .transfer, weak := false } false 5 0 24 8
        { mem := fun x => if x = 8 then 16 else 0, brk := 64, retained := [] } with
      | .ok st => some (ptr st.mem 24)
      | .error _ => none) = some 16 := by decide +kernel

/-- Types: a byte that is validated, and a number of four bytes that replaces it. -/
def bigEnv : Env where
  ty t := if t = 0 then some (.validator 1) else if t = 1 then some (.integer 1 .native false true)
    else if t = 2 then some (.integer 4 .native false true) else none
  check _ _ _ _ := false
  success _ := none
  failure _ := some (2, 32)

/-- The result of a validator may be larger than the data: what follows the data is overwritten. -/
theorem C78_size_refuted :
    (match deserialize bigEnv .native 9 5 0 8 ({ mem := fun x => if x = 33 then 1 else 0, brk := 64, retained := [] }, [5]) with
      | .ok (st, _) => some (bytes st.mem 8 4)
      | .error _ => none) = some [0, 1, 0, 0] ∧ typeSize bigEnv 5 0 = .ok 1 := ⟨by decide +kernel, rfl⟩

/-! ## A case that meets the hypotheses: a list of two nodes, each a number and a pointer to the next -/

/-- The types of the list. -/
def listEnv : Env where
  ty t := if t = 0 then some (.struct 16 [(0, 1), (8, 2)]) else if t = 1 then some (.integer 4 .native true false)
    else if t = 2 then some (.pointer 0 .transfer) else none
  check _ _ _ _ := true
  success _ := none
  failure _ := none

/-- The list: 5 at 16, 7 at 48. -/
def listMem : Mem := fun x => if x = 16 then 5 else if x = 24 then 48 else if x = 48 then 7 else 0

theorem listEnv_layout : Layout listEnv := by
  intro t n fs h
  unfold listEnv at h
  simp only at h
  split at h
  · cases h
    constructor
    · intro p hp
      simp only [List.mem_cons, List.not_mem_nil, or_false] at hp
      rcases hp with rfl | rfl
      · exact ⟨4, .integer rfl, by decide⟩
      · exact ⟨8, .pointer rfl, by decide⟩
    · refine List.pairwise_cons.2 ⟨?_, by simp⟩
      intro q hq s r hs hr
      simp only [List.mem_cons, List.not_mem_nil, or_false] at hq
      subst hq
      have := hs.unique (Sized.integer (env := listEnv) rfl : Sized listEnv 1 4)
      subst this
      exact Or.inl (by decide)
  · split at h
    · cases h
    · split at h <;> cases h

theorem list_data (keep : Nat → Ownership → Bool) (hk : keep 0 .transfer = false) (ok : Ty → List UInt8 → Prop)
    (hok : ∀ xs, ok (.integer 4 .native true false) xs) : Data listEnv keep ok listMem (fun x => 16 ≤ x ∧ x < 64) 0 16 := by
  refine .struct rfl fun p hp => ?_
  simp only [List.mem_cons, List.not_mem_nil, or_false] at hp
  rcases hp with rfl | rfl
  · exact .integer rfl (fun i hi => ⟨by omega, by omega⟩) (hok _)
  · have hp : ptr listMem (16 + 8) = 48 := by decide +kernel
    refine .deep (g := 0) (s := 16) rfl hk (fun i hi => ⟨by dsimp only; omega, by dsimp only; omega⟩)
      (by show ptr listMem (16 + 8) ≠ 0; rw [hp]; decide) (.struct rfl) ?_
    show Data _ _ _ _ _ 0 (ptr listMem (16 + 8))
    rw [hp]
    refine .struct rfl fun p hp => ?_
    simp only [List.mem_cons, List.not_mem_nil, or_false] at hp
    rcases hp with rfl | rfl
    · exact .integer rfl (fun i hi => ⟨by omega, by omega⟩) (hok _)
    · exact .null rfl (fun i hi => ⟨by dsimp only; omega, by dsimp only; omega⟩) (by decide +kernel)

example : Data listEnv never (Exact 9) listMem (fun x => 16 ≤ x ∧ x < 64) 0 16 :=
  list_data never rfl _ fun _ => ⟨by decide, by decide, Or.inl (by decide)⟩

example : Data listEnv (keeps listEnv { kind := .copy, weak := false }) (fun _ _ => True) listMem (fun x => 16 ≤ x ∧ x < 64) 0 16 :=
  list_data _ (by decide) _ fun _ => trivial

example : (match serialize listEnv .big 9 listMem 9 0 16 with | .ok out => some out | .error _ => none) = some [5, 1, 7, 0] := by
  decide +kernel

example : (match deserialize listEnv .big 9 9 0 80 ({ mem := listMem, brk := 96, retained := [] }, [5, 1, 7, 0, 42]) with
    | .ok (st, rest) => some (bytes st.mem 80 4, ptr st.mem 88, bytes st.mem 96 4, ptr st.mem 104, rest)
    | .error _ => none) = some ([5, 0, 0, 0], 96, [7, 0, 0, 0], 0, [42]) := by decide +kernel

end Verif.Reflect

#print axioms Verif.Reflect.C76_roundtrip_partial
#print axioms Verif.Reflect.C77_copy_partial
#print axioms Verif.Reflect.C78_result_partial
