import Verif.Spec.Slice
import Verif.Lemmas.Reach
/-! # Lemmas: sliced codecs -/
namespace Bytecodec

open Spec

variable {σ σ0 σ1 α α0 α1 : Type}

theorem slice_decode_ok {D : Decoder σ α} {s s' : SliceState σ} {b : Bytes} {e : Eos} {n : Nat}
    (h : (sliceDecoder D).decode s b e = (.ok n, s')) :
    ∃ e', e.back (b.length - min b.length s.consumable) = .ok e' ∧
      D.decode s.inner (b.take (min b.length s.consumable)) e' = (.ok n, s'.inner) ∧
      n ≤ s.consumable ∧ s'.consumable = s.consumable - n := by
  simp only [sliceDecoder] at h
  split at h
  · next e' he =>
    refine ⟨e', he, ?_⟩
    rcases hd : D.decode s.inner (b.take (min b.length s.consumable)) e' with ⟨r, i⟩
    rw [hd] at h
    cases r with
    | ok m =>
      simp only [Res.step] at h
      split at h
      · cases h
      · next hm => cases h; exact ⟨rfl, by omega, rfl⟩
    | _ => cases h
  · cases h

theorem slice_decode_failed {D : Decoder σ α} {s s' : SliceState σ} {b : Bytes} {e : Eos} {r : Res Nat}
    (h : (sliceDecoder D).decode s b e = (r, s')) (hr : ∀ m, r ≠ .ok m) : s'.consumable = s.consumable := by
  simp only [sliceDecoder] at h
  split at h
  · next e' he =>
    rcases hd : D.decode s.inner (b.take (min b.length s.consumable)) e' with ⟨r, i⟩
    rw [hd] at h
    cases r with
    | ok m =>
      simp only [Res.step] at h
      split at h
      · cases h; rfl
      · cases h; exact (hr _ rfl).elim
    | _ => cases h; rfl
  · cases h; rfl

theorem slice_finish (D : Decoder σ α) (s : SliceState σ) :
    (sliceDecoder D).finish s = ((D.finish s.inner).1, ⟨(D.finish s.inner).2, s.consumable⟩) := by
  simp only [sliceDecoder]
  rcases D.finish s.inner with ⟨r, i⟩
  cases r <;> rfl

theorem slice_encode_ok {E : Encoder σ α} {s s' : SliceState σ} {cap : Nat} {e : Eos} {out : Bytes}
    (h : (sliceEncoder E).encode s cap e = (.ok out, s')) :
    ∃ e', e.back (cap - min cap s.consumable) = .ok e' ∧
      E.encode s.inner (min cap s.consumable) e' = (.ok out, s'.inner) ∧
      out.length ≤ s.consumable ∧ s'.consumable = s.consumable - out.length := by
  simp only [sliceEncoder] at h
  split at h
  · next e' he =>
    refine ⟨e', he, ?_⟩
    rcases hd : E.encode s.inner (min cap s.consumable) e' with ⟨r, i⟩
    rw [hd] at h
    cases r with
    | ok m =>
      simp only [Res.step] at h
      split at h
      · cases h
      · next hm => cases h; exact ⟨rfl, by omega, rfl⟩
    | _ => cases h
  · cases h

theorem slice_encode_failed {E : Encoder σ α} {s s' : SliceState σ} {cap : Nat} {e : Eos} {r : Res Bytes}
    (h : (sliceEncoder E).encode s cap e = (r, s')) (hr : ∀ m, r ≠ .ok m) : s'.consumable = s.consumable := by
  simp only [sliceEncoder] at h
  split at h
  · next e' he =>
    rcases hd : E.encode s.inner (min cap s.consumable) e' with ⟨r, i⟩
    rw [hd] at h
    cases r with
    | ok m =>
      simp only [Res.step] at h
      split at h
      · cases h; rfl
      · cases h; exact (hr _ rfl).elim
    | _ => cases h; rfl
  · cases h; rfl

theorem slice_start (E : Encoder σ α) (s : SliceState σ) (x : α) :
    (sliceEncoder E).start s x = ((E.start s.inner x).1, ⟨(E.start s.inner x).2, s.consumable⟩) := by
  simp only [sliceEncoder]
  rcases E.start s.inner x with ⟨r, i⟩
  cases r <;> rfl

theorem offer_slice {stream : Bytes} {e : Eos} {pos : Nat} {c : Bytes} {ec : Eos} (he : EosSane e stream.length)
    (h : Offer stream e pos c ec) {l : Nat} (hl : l ≤ c.length) :
    ∃ e', ec.back (c.length - l) = .ok e' ∧ Offer stream e pos (c.take l) e' := by
  obtain ⟨rest, hr, hec⟩ := h
  have hr' : stream.drop pos = c.take l ++ (c.drop l ++ rest) := by
    rw [← List.append_assoc, List.take_append_drop, hr]
  rcases hec with rfl | rfl
  · exact ⟨Eos.new false, rfl, _, hr', .inl rfl⟩
  · refine ⟨eosShift e (c.drop l ++ rest).length, ?_, _, hr', .inr rfl⟩
    have hlen := congrArg List.length hr
    rw [List.length_drop, List.length_append] at hlen
    rcases e with ⟨n | _ | _⟩
    · have := he n rfl
      simp only [eosShift, Eos.back]
      by_cases hc : c.length + rest.length = 0
      · rw [if_pos (by omega)]
        simp only [List.length_append, List.length_drop]
        congr 3
        omega
      · rw [if_pos (by omega)]
        simp only [List.length_append, List.length_drop]
        congr 3
        omega
    · rfl
    · rfl

theorem sliceRun_decRun {D : Decoder σ α} {stream : Bytes} {e : Eos} {s₀ : σ} (he : EosSane e stream.length)
    {s : SliceState σ} {pos : Nat} {items : List α} (h : SliceRun D stream e s₀ s pos items) :
    DecRun D stream e s₀ s.inner pos items := by
  induction h with
  | new => exact .new
  | allow n _ ih => exact ih
  | @decode s s' pos n items c ec _ hi ho hd ih =>
    obtain ⟨e', hb, hd', _, _⟩ := slice_decode_ok hd
    obtain ⟨e'', hb', ho'⟩ := offer_slice he ho (Nat.min_le_left c.length s.consumable)
    rw [hb] at hb'; cases hb'
    exact .decode ih hi ho' hd'
  | @finish s s' pos items x _ hi hf ih =>
    rw [slice_finish] at hf
    have h1 := congrArg Prod.fst hf
    have h2 := congrArg Prod.snd hf
    simp only at h1 h2
    subst h2
    exact .finish ih hi (Prod.ext h1 rfl)

theorem back_reached {e e' : Eos} {k : Nat} (h : e.back k = .ok e') (hr : e'.isReached = true) :
    e.isReached = true ∧ k = 0 ∧ e' = e := by
  rcases e with ⟨n | _ | _⟩
  · simp only [Eos.back] at h
    split at h
    · cases h
      simp only [Eos.isReached, decide_eq_true_eq, beq_iff_eq, ByteCount.finite.injEq] at hr
      have : n = 0 ∧ k = 0 := by omega
      obtain ⟨rfl, rfl⟩ := this
      exact ⟨rfl, rfl, rfl⟩
    · cases h
  · simp only [Eos.back] at h; cases h; simp [Eos.isReached] at hr
  · simp only [Eos.back] at h; cases h; simp [Eos.isReached] at hr

theorem sliceEncRun_encRun {E : Encoder σ α} {dom : α → Prop} {enc : α → Except ErrorKind Bytes} {s₀ : σ}
    {s : SliceState σ} {accepted emitted : Bytes} (h : SliceEncRun E dom enc s₀ s accepted emitted) :
    EncRun E dom enc s₀ s.inner accepted emitted := by
  induction h with
  | new => exact .new
  | allow n _ ih => exact ih
  | @start s s' accepted emitted b x _ hi hx hb hs ih =>
    rw [slice_start] at hs
    have h1 := congrArg Prod.fst hs
    have h2 := congrArg Prod.snd hs
    simp only at h1 h2
    subst h2
    exact .start ih hi hx hb (Prod.ext h1 rfl)
  | @encode s s' accepted emitted out cap e _ hc hs ih =>
    obtain ⟨e', hb, hd', _, _⟩ := slice_encode_ok hs
    refine .encode ih (fun hr => ?_) hd'
    obtain ⟨h1, h2, _⟩ := back_reached hb hr
    have := hc h1
    omega

theorem channel_cons (t : Bool) (b : Bytes) (t' : Bool) (segs : List (Bool × Bytes)) :
    channel t ((t', b) :: segs) = (if t' = t then b else []) ++ channel t segs := by
  cases t <;> cases t' <;> simp [channel]

theorem take_prefix {c x y : Bytes} (h : c <+: x ++ y) :
    c.take (min c.length x.length) <+: x := by
  obtain ⟨r, hr⟩ := h
  have h2 := congrArg (List.take (min c.length x.length)) hr
  rw [List.take_append_of_le_length (Nat.min_le_left _ _), List.take_append_of_le_length (Nat.min_le_right _ _)] at h2
  rw [h2]
  exact List.take_prefix _ _

theorem demux_runs {D0 : Decoder σ0 α0} {D1 : Decoder σ1 α1} {s0 : σ0} {s1 : σ1} {segs : List (Bool × Bytes)}
    {t0 t1 tag cur later items0 items1} (h : Demux D0 D1 s0 s1 segs t0 t1 tag cur later items0 items1) :
    (∃ p0, DecRun D0 (channel false segs) (Eos.new false) s0 t0.inner p0 items0 ∧
      (channel false segs).drop p0 = (if tag = false then cur else []) ++ channel false later ∧
      p0 ≤ (channel false segs).length) ∧
    (∃ p1, DecRun D1 (channel true segs) (Eos.new false) s1 t1.inner p1 items1 ∧
      (channel true segs).drop p1 = (if tag = true then cur else []) ++ channel true later ∧
      p1 ≤ (channel true segs).length) ∧
    (tag = false → t0.consumable = cur.length) ∧ (tag = true → t1.consumable = cur.length) := by
  induction h with
  | new => exact ⟨⟨0, .new, by simp, Nat.zero_le _⟩, ⟨0, .new, by simp, Nat.zero_le _⟩, fun _ => rfl, by simp⟩
  | @next0 t0 t1 tag b later items0 items1 _ ih =>
    obtain ⟨⟨p0, h0, hd0, hp0⟩, ⟨p1, h1, hd1, hp1⟩, _, _⟩ := ih
    exact ⟨⟨p0, h0, by rw [hd0, channel_cons]; simp, hp0⟩, ⟨p1, h1, by rw [hd1, channel_cons]; simp, hp1⟩,
      fun _ => rfl, by simp⟩
  | @next1 t0 t1 tag b later items0 items1 _ ih =>
    obtain ⟨⟨p0, h0, hd0, hp0⟩, ⟨p1, h1, hd1, hp1⟩, _, _⟩ := ih
    exact ⟨⟨p0, h0, by rw [hd0, channel_cons]; simp, hp0⟩, ⟨p1, h1, by rw [hd1, channel_cons]; simp, hp1⟩,
      by simp, fun _ => rfl⟩
  | @decode0 t0 t0' t1 cur later items0 items1 n c _ hi hc hd ih =>
    obtain ⟨⟨p0, h0, hd0, hp0⟩, ⟨p1, h1, hd1, hp1⟩, hc0, _⟩ := ih
    have hc0 := hc0 rfl
    obtain ⟨e', hb, hd', hn, hcons⟩ := slice_decode_ok hd
    simp only [Eos.new, Eos.back] at hb
    cases hb
    rw [hc0] at hd' hn hcons
    rw [if_pos rfl] at hd0
    obtain ⟨r, hr⟩ := take_prefix hc
    have hlen := congrArg List.length hd0
    rw [List.length_drop, List.length_append] at hlen
    refine ⟨⟨p0 + n, .decode h0 hi ⟨r ++ channel false later, ?_, .inl rfl⟩ hd', ?_, by omega⟩,
      ⟨p1, h1, ?_, hp1⟩, ?_, by simp⟩
    · rw [hd0, ← List.append_assoc, hr]
    · rw [← List.drop_drop, hd0, if_pos rfl, List.drop_append_of_le_length hn]
    · rw [hd1]; simp
    · intro _; rw [hcons, List.length_drop]
  | @decode1 t0 t1 t1' cur later items0 items1 n c _ hi hc hd ih =>
    obtain ⟨⟨p0, h0, hd0, hp0⟩, ⟨p1, h1, hd1, hp1⟩, _, hc0⟩ := ih
    have hc0 := hc0 rfl
    obtain ⟨e', hb, hd', hn, hcons⟩ := slice_decode_ok hd
    simp only [Eos.new, Eos.back] at hb
    cases hb
    rw [hc0] at hd' hn hcons
    rw [if_pos rfl] at hd1
    obtain ⟨r, hr⟩ := take_prefix hc
    have hlen := congrArg List.length hd1
    rw [List.length_drop, List.length_append] at hlen
    refine ⟨⟨p0, h0, ?_, hp0⟩, ⟨p1 + n, .decode h1 hi ⟨r ++ channel true later, ?_, .inl rfl⟩ hd', ?_, by omega⟩,
      by simp, ?_⟩
    · rw [hd0]; simp
    · rw [hd1, ← List.append_assoc, hr]
    · rw [← List.drop_drop, hd1, if_pos rfl, List.drop_append_of_le_length hn]
    · intro _; rw [hcons, List.length_drop]
  | @finish0 t0 t0' t1 tag cur later items0 items1 x _ hi hf ih =>
    obtain ⟨⟨p0, h0, hd0, hp0⟩, h1, hc0, hc1⟩ := ih
    rw [slice_finish] at hf
    have e1 := congrArg Prod.fst hf
    have e2 := congrArg Prod.snd hf
    simp only at e1 e2
    subst e2
    exact ⟨⟨p0, .finish h0 hi (Prod.ext e1 rfl), hd0, hp0⟩, h1, hc0, hc1⟩
  | @finish1 t0 t1 t1' tag cur later items0 items1 x _ hi hf ih =>
    obtain ⟨h0, ⟨p1, h1, hd1, hp1⟩, hc0, hc1⟩ := ih
    rw [slice_finish] at hf
    have e1 := congrArg Prod.fst hf
    have e2 := congrArg Prod.snd hf
    simp only at e1 e2
    subst e2
    exact ⟨h0, ⟨p1, .finish h1 hi (Prod.ext e1 rfl), hd1, hp1⟩, hc0, hc1⟩

end Bytecodec
