import Verif.Lemmas.Safe
/-!
# Idle decoders, guarded `finish`, strictness at the end of the stream
-/
set_option linter.unusedSimpArgs false

namespace Bytecodec

open Spec

variable {σ α β : Type}

/-! ## Idle decoders consume nothing -/

theorem splice_nil (buf : Bytes) (off : Nat) : splice buf off [] = buf := by
  simp [splice]

theorem idle_copyable {s₀ : CopyableState} : IdleStable copyableBytesDecoder s₀ := by
  intro s _ hi b e _
  have hi' : s.offset = s.bytes.length := by simpa [copyableBytesDecoder] using hi
  obtain ⟨bs, off⟩ := s
  simp only at hi'
  subst hi'
  simp [copyableBytesDecoder, splice_nil]

theorem idle_fix (f : Bytes → α) {s₀ : CopyableState} : IdleStable (fixDecoder f) s₀ := by
  intro s hs hi b e he
  exact idle_copyable s (reach_fix hs) hi b e he

theorem idle_bytes_at {s₀ : BytesDecoderState} (h0 : ∀ b, s₀.bytes = some b → s₀.offset ≤ b.length) :
    IdleStable bytesDecoder s₀ := by
  intro s hs hi b e _
  have hinv : ∀ b, s.bytes = some b → s.offset ≤ b.length := by
    refine Reach.inv (D := bytesDecoder) (Inv := fun s => ∀ b, s.bytes = some b → s.offset ≤ b.length)
      h0 ?_ ?_ hs
    · intro s b e h _
      simp only [bytesDecoder]
      split
      · simp_all
      · next c hc =>
        have hc' := h c hc
        rw [if_neg (by omega)]
        have hl : (splice c s.offset (b.take (min b.length (c.length - s.offset)))).length
            = c.length := splice_length (by simp; omega)
        split <;> simp [hl] <;> omega
    · intro s h
      simp only [bytesDecoder]
      (repeat' split) <;> simp_all
  have hi' : s.exact = 0 := by simpa [bytesDecoder] using hi
  obtain ⟨bs, off⟩ := s
  cases bs with
  | none => simp [bytesDecoder]
  | some c =>
    have h1 := hinv c rfl
    simp only [BytesDecoderState.exact] at hi'
    have : off = c.length := by simp only at h1; omega
    subst this
    simp [bytesDecoder, splice_nil, BytesDecoderState.exact]

theorem idle_bytes (b : Bytes) : IdleStable bytesDecoder (.new b) :=
  idle_bytes_at (by simp [BytesDecoderState.new])

theorem idle_remaining {s₀ : RemainingState} : IdleStable remainingBytesDecoder s₀ := by
  intro s _ hi b e _
  have : s.eos = true := hi
  simp [remainingBytesDecoder, this]

theorem idle_null : IdleStable nullDecoder () := by
  intro s _ hi b e _; simp [nullDecoder]

theorem idle_padding {s₀ : PaddingState} : IdleStable paddingDecoder s₀ := by
  intro s _ hi b e _
  have : s.eos = true := hi
  simp [paddingDecoder, this]

theorem idle_utf8 {D : Decoder σ Bytes} {s₀ : σ} (h : IdleStable D s₀) :
    IdleStable (utf8Decoder D) s₀ :=
  fun s hs hi b e he => h s (reach_utf8 hs) hi b e he

theorem idle_map {D : Decoder σ α} {s₀ : σ} (f : α → β) (h : IdleStable D s₀) :
    IdleStable (mapDecoder D f) s₀ :=
  fun s hs hi b e he => h s (reach_map hs) hi b e he

theorem idle_tryMap {D : Decoder σ α} {s₀ : σ} (f : α → Except ErrorKind β) (h : IdleStable D s₀) :
    IdleStable (tryMapDecoder D f) s₀ :=
  fun s hs hi b e he => h s (reach_tryMap hs) hi b e he

theorem mapErr_ok {r : Res β} {f : ErrorKind → ErrorKind} {x : β} (h : r.mapErr f = .ok x) :
    r = .ok x := by
  cases r <;> simp_all [Res.mapErr]

theorem idle_mapErr {D : Decoder σ α} {s₀ : σ} (f : ErrorKind → ErrorKind) (h : IdleStable D s₀) :
    IdleStable (mapErrDecoder D f) s₀ := by
  intro s hs hi b e he
  have := h s (reach_mapErr hs) hi b e he
  exact ⟨this.1, fun n hn => this.2 n (mapErr_ok hn)⟩

theorem idle_omit {D : Decoder σ α} {s₀ : OmitState σ} (h : IdleStable D s₀.inner) :
    IdleStable (omittableDecoder D) s₀ := by
  intro s hs hi b e he
  simp only [omittableDecoder] at hi ⊢
  split
  · simp
  · next hd =>
    have hi' : D.isIdle s.inner = true := by simpa [hd] using hi
    have := h s.inner (reach_omit hs).1 hi' b e he
    rcases hf : D.decode s.inner b e with ⟨r, s'⟩
    rw [hf] at this
    simp only at this
    obtain ⟨rfl, h2⟩ := this
    cases r <;> exact ⟨rfl, h2⟩

theorem idle_length_at {D : Decoder σ α} {s₀ : LengthState σ} (hn : s₀.remaining < 2 ^ 64)
    (hx : s₀.expected < 2 ^ 64) (h : IdleStable D s₀.inner) : IdleStable (lengthDecoder D) s₀ := by
  intro s hs hi b e he
  have hr := reach_length hn hx hs
  have := h s.inner hr.1 hi (b.take (min b.length s.remaining))
      (Eos.withRemainingBytes (.finite (s.remaining - min b.length s.remaining))) (by
        intro n hn; simp [Eos.withRemainingBytes] at hn; simp; omega)
  simp only [lengthDecoder]
  rcases hf : D.decode s.inner (b.take (min b.length s.remaining))
      (Eos.withRemainingBytes (.finite (s.remaining - min b.length s.remaining))) with ⟨r, s'⟩
  rw [hf] at this
  simp only at this
  obtain ⟨rfl, h2⟩ := this
  cases r with
  | ok m => have := h2 m rfl; subst this; simp only [Res.step]; (repeat' split) <;> exact ⟨rfl, by simp⟩
  | _ => simp only [Res.step]; (repeat' split) <;> exact ⟨rfl, by simp⟩

theorem idle_length {D : Decoder σ α} {s₀ : σ} {n : Nat} (hn : n < 2 ^ 64) (h : IdleStable D s₀) :
    IdleStable (lengthDecoder D) (.new s₀ n) := idle_length_at (s₀ := .new s₀ n) hn hn h

theorem idle_maxBytes {D : Decoder σ α} {s₀ : MaxBytesState σ} (h : IdleStable D s₀.inner) :
    IdleStable (maxBytesDecoder D) s₀ := by
  intro s hs hi b e he
  have := h s.inner (reach_maxBytes hs).1 hi b e he
  simp only [maxBytesDecoder]
  rcases hf : D.decode s.inner b e with ⟨r, s'⟩
  rw [hf] at this
  simp only at this
  obtain ⟨rfl, h2⟩ := this
  cases r with
  | ok m => have := h2 m rfl; subst this; simp only [Res.step]; (repeat' split) <;> exact ⟨rfl, by simp⟩
  | _ => simp only [Res.step]; (repeat' split) <;> exact ⟨rfl, by simp⟩

theorem idle_slice {D : Decoder σ α} {s₀ : SliceState σ} (h : IdleStable D s₀.inner) :
    IdleStable (sliceDecoder D) s₀ := by
  intro s hs hi b e he
  obtain ⟨e', hb⟩ := back_ok (k := b.length - min b.length s.consumable) he (by omega)
  have := h s.inner (reach_slice hs) hi (b.take (min b.length s.consumable)) e'
      (back_sane hb (he.mono (by simp; omega)))
  simp only [sliceDecoder, hb]
  rcases hf : D.decode s.inner (b.take (min b.length s.consumable)) e' with ⟨r, s'⟩
  rw [hf] at this
  simp only at this
  obtain ⟨rfl, h2⟩ := this
  cases r with
  | ok m => have := h2 m rfl; subst this; simp [Res.step]
  | _ => simp [Res.step]

theorem idle_peekable {D : Decoder σ α} {s₀ : PeekState σ α} : IdleStable (peekableDecoder D) s₀ := by
  intro s hs hi b e he
  have : s.item.isSome = true := hi
  simp only [peekableDecoder]
  cases hm : s.item with
  | none => simp [hm] at this
  | some => simp

theorem idle_maybeEos {D : Decoder σ α} {s₀ : MaybeEosState σ} (h : IdleStable D s₀.inner) :
    IdleStable (maybeEosDecoder D) s₀ := by
  intro s hs hi b e he
  have := h s.inner (reach_maybeEos hs) hi b
    (if !s.started && b.isEmpty && e.isReached then Eos.new false else e) (by
      split
      · exact EosSane.newFalse
      · exact he)
  simp only [maybeEosDecoder]
  rcases hf : D.decode s.inner b (if !s.started && b.isEmpty && e.isReached then Eos.new false else e)
      with ⟨r, s'⟩
  rw [hf] at this
  simp only at this
  obtain ⟨rfl, h2⟩ := this
  cases r with
  | ok m => have := h2 m rfl; subst this; simp [Res.step]
  | _ => simp [Res.step]

theorem tryDecode_idle {D : Decoder σ α} {s : σ} {off : Nat} {buf : Bytes} {e : Eos}
    (h : D.isIdle s = true) : tryDecode D s off buf e = .next off s := by
  simp [tryDecode, h]

theorem tryDecode_next_idle {D : Decoder σ α} {s s' : σ} {off o : Nat} {buf : Bytes} {e : Eos}
    (h : tryDecode D s off buf e = .next o s') : D.isIdle s' = true := by
  unfold tryDecode at h
  (repeat' split at h) <;> simp_all

theorem idle_pair {σ0 α0 σ1 α1 : Type} {D0 : Decoder σ0 α0} {D1 : Decoder σ1 α1} {s₀ : σ0 × σ1} :
    IdleStable (tupleDecoder2 D0 D1) s₀ := by
  intro s hs hi b e he
  simp only [tupleDecoder2, Bool.and_eq_true] at hi ⊢
  simp [tryDecode_idle hi.1, tryDecode_idle hi.2]

theorem idle_andThen {σ0 α0 σ1 α1 : Type} {D0 : Decoder σ0 α0} {D1 : Decoder σ1 α1} {f : α0 → σ1}
    {s₀ : σ0 × Option σ1} : IdleStable (andThenDecoder D0 D1 f) s₀ := by
  intro s hs hi b e he
  obtain ⟨s0, o⟩ := s
  cases o with
  | none => simp [andThenDecoder] at hi
  | some t =>
    have hi' : D1.isIdle t = true := hi
    simp [andThenDecoder, tryDecode_idle hi']

theorem idle_collect {D : Decoder σ α} {s₀ : CollectState σ α} : IdleStable (collectDecoder D) s₀ := by
  intro s hs hi b e he
  have : s.eos = true := hi
  simp [collectDecoder, this]

theorem idle_collectN {D : Decoder σ α} {s₀ : CollectNState σ α} :
    IdleStable (collectNDecoder D) s₀ := by
  intro s hs hi b e he
  have hz : s.remaining = 0 := by simpa [collectNDecoder] using hi
  obtain ⟨i, r, items⟩ := s
  simp only at hz
  subst hz
  simp [collectNDecoder, collectNLoop]

theorem parts_idle {own : OwnDecoder} {ok : Shape → Prop} (hm : ¬ ok .monolithic) {D : Decoder σ α} {s : σ}
    (hP : ∀ σ α (D : Decoder σ α) s, own σ α D s → IdleStable D s)
    (h : AssembledWith own ok D s) : IdleStable D s := by
  induction h with
  | own h => exact hP _ _ _ _ h
  | copyable b _ => exact idle_copyable
  | bytes b _ => exact idle_bytes b
  | remaining => exact idle_remaining
  | null => exact idle_null
  | padding b _ => exact idle_padding
  | number f k _ => exact idle_fix f
  | utf8 _ _ ih => exact idle_utf8 ih
  | monolithic p ho hp => exact absurd ho hm
  | map f _ _ ih => exact idle_map f ih
  | tryMap f _ _ ih => exact idle_tryMap f ih
  | mapErr f _ _ ih => exact idle_mapErr f ih
  | omittable d _ _ ih => exact idle_omit ih
  | length n _ hn _ ih => exact idle_length hn ih
  | maxBytes n _ _ ih => exact idle_maxBytes ih
  | slice n _ _ ih => exact idle_slice ih
  | peekable _ _ ih => exact idle_peekable
  | maybeEos _ _ ih => exact idle_maybeEos ih
  | collect _ hp _ ih => exact idle_collect
  | collectN n _ _ ih => exact idle_collectN
  | pair _ _ _ ih0 ih1 => exact idle_pair
  | andThen f _ _ _ ih0 ih1 => exact idle_andThen
  | captured F x _ ih => exact idle_captured ih

theorem assembled_idle {ok : Shape → Prop} (hm : ¬ ok .monolithic) {D : Decoder σ α} {s : σ}
    (h : Assembled ok D s) : IdleStable D s :=
  parts_idle hm (fun _ _ _ _ h => h.elim) h

/-! ## `finish_decoding` is guarded -/

theorem guard_copyable {s₀ : CopyableState} : FinishGuarded copyableBytesDecoder s₀ := by
  intro s _ hi
  have : s.offset ≠ s.bytes.length := by simpa [copyableBytesDecoder] using hi
  exact ⟨.incompleteDecoding, by simp [copyableBytesDecoder, this]⟩

theorem guard_bytes {s₀ : BytesDecoderState} : FinishGuarded bytesDecoder s₀ := by
  intro s _ hi
  have : s.exact ≠ 0 := by simpa [bytesDecoder] using hi
  exact ⟨.incompleteDecoding, by simp [bytesDecoder, this]⟩

theorem guard_step {γ τ : Type} {p : Res α × σ} {w : σ → τ} {k : α → σ → Res γ × τ}
    (h : ∃ e, p.1 = .err e) : ∃ e, (Res.step p w k).1 = .err e := by
  obtain ⟨e, he⟩ := h
  obtain ⟨r, s⟩ := p
  simp only at he
  subst he
  exact ⟨e, rfl⟩

theorem parts_guard {own : OwnDecoder} {ok : Shape → Prop} {D : Decoder σ α} {s : σ}
    (hP : ∀ σ α (D : Decoder σ α) s, own σ α D s → SafeFrom D s ∧ FinishGuarded D s)
    (h : AssembledWith own ok D s) : FinishGuarded D s := by
  induction h with
  | own h => exact (hP _ _ _ _ h).2
  | copyable b _ => exact guard_copyable
  | bytes b _ => exact guard_bytes
  | remaining =>
    intro s _ hi
    have : s.eos = false := hi
    exact ⟨.incompleteDecoding, by simp [remainingBytesDecoder, this]⟩
  | null => intro s _ hi; simp [nullDecoder] at hi
  | padding b _ =>
    intro s _ hi
    have : s.eos = false := hi
    exact ⟨.incompleteDecoding, by simp [paddingDecoder, this]⟩
  | number f k _ =>
    intro s hs hi
    exact guard_step (guard_copyable s (reach_fix hs) hi)
  | utf8 _ _ ih => intro s hs hi; exact guard_step (ih s (reach_utf8 hs) hi)
  | monolithic p ho hp =>
    intro s _ hi
    have : s.item.isSome = false := hi
    refine ⟨.incompleteDecoding, ?_⟩
    simp only [monolithicDecoder]
    cases hm : s.item <;> simp_all
  | map f _ _ ih => intro s hs hi; exact guard_step (ih s (reach_map hs) hi)
  | tryMap f _ _ ih => intro s hs hi; exact guard_step (ih s (reach_tryMap hs) hi)
  | mapErr f _ _ ih =>
    intro s hs hi
    obtain ⟨k, hk⟩ := ih s (reach_mapErr hs) hi
    exact ⟨f k, by simp [mapErrDecoder, hk, Res.mapErr]⟩
  | omittable d _ _ ih =>
    intro s hs hi
    simp only [omittableDecoder, Bool.or_eq_false_iff] at hi ⊢
    simp only [hi.1]
    exact guard_step (ih s.inner (reach_omit hs).1 hi.2)
  | length n _ hn _ ih =>
    intro s hs hi
    simp only [lengthDecoder]
    split
    · exact guard_step (ih s.inner (reach_length (s₀ := LengthState.new _ n) hn hn hs).1 hi)
    · exact ⟨_, rfl⟩
  | maxBytes n _ _ ih => intro s hs hi; exact guard_step (ih s.inner (reach_maxBytes hs).1 hi)
  | slice n _ _ ih => intro s hs hi; exact guard_step (ih s.inner (reach_slice hs) hi)
  | peekable _ _ ih =>
    intro s _ hi
    have : s.item.isSome = false := hi
    refine ⟨.incompleteDecoding, ?_⟩
    simp only [peekableDecoder]
    cases hm : s.item <;> simp_all
  | maybeEos _ _ ih => intro s hs hi; exact guard_step (ih s.inner (reach_maybeEos hs) hi)
  | collect _ hp _ ih =>
    intro s _ hi
    have : s.eos = false := hi
    exact ⟨.incompleteDecoding, by simp [collectDecoder, this]⟩
  | collectN n _ _ ih =>
    intro s _ hi
    have : s.remaining ≠ 0 := by simpa [collectNDecoder] using hi
    exact ⟨.incompleteDecoding, by simp [collectNDecoder, this]⟩
  | @pair _ _ _ _ D0 D1 s0 s1 _ a0 a1 ih0 ih1 =>
    intro s hs hi
    have hr := reach_pair hs
    simp only [tupleDecoder2, Bool.and_eq_false_iff] at hi ⊢
    by_cases h0 : D0.isIdle s.1 = false
    · exact guard_step (ih0 _ hr.1 h0)
    · have h1 := hi.resolve_left h0
      have hs0 := (parts_safe (fun _ _ _ _ h => (hP _ _ _ _ h).1) a0 s.1 hr.1).2
      obtain ⟨k, hk⟩ := ih1 _ hr.2 h1
      rcases hf : D0.finish s.1 with ⟨r, s'⟩
      rw [hf] at hs0
      cases r with
      | ok x => exact guard_step (p := D1.finish s.2) ⟨k, hk⟩
      | err k => exact ⟨k, rfl⟩
      | _ => simp [Returns] at hs0
  | andThen f _ _ _ ih0 ih1 =>
    intro s hs hi
    obtain ⟨s0, o⟩ := s
    cases o with
    | none => exact ⟨_, rfl⟩
    | some t =>
      obtain ⟨x, hx⟩ := (reach_andThen hs).2 t rfl
      obtain ⟨k, hk⟩ := ih1 x t hx hi
      exact ⟨k, hk⟩
  | captured F x _ ih =>
    intro t ht hi
    obtain ⟨s, rfl, hs⟩ := reach_captured ht
    exact ih s hs hi

theorem assembled_guard {ok : Shape → Prop} {D : Decoder σ α} {s : σ}
    (h : Assembled ok D s) : FinishGuarded D s :=
  parts_guard (fun _ _ _ _ h => h.elim) h

/-! ## `finish_decoding` before completion: the error kind, and what happens to the state -/

theorem kind_step {γ τ : Type} {p : Res α × σ} {w : σ → τ} {k : α → σ → Res γ × τ} {e : ErrorKind}
    (h : p.1 = .err e) : (Res.step p w k).1 = .err e := by
  obtain ⟨r, s⟩ := p
  simp only at h
  subst h
  rfl

theorem parts_guard_kind {own : OwnDecoder} {ok : Shape → Prop} (hm : ¬ ok .mapErr) (hp : ¬ ok .pair)
    {D : Decoder σ α} {s : σ} (hP : ∀ σ α (D : Decoder σ α) s, own σ α D s → ∀ t, Reach D s t → D.isIdle t = false → (D.finish t).1 = .err .incompleteDecoding)
    (h : AssembledWith own ok D s) :
    ∀ t, Reach D s t → D.isIdle t = false → (D.finish t).1 = .err .incompleteDecoding := by
  induction h with
  | own h => exact hP _ _ _ _ h
  | copyable b _ =>
    intro s _ hi
    have : s.offset ≠ s.bytes.length := by simpa [copyableBytesDecoder] using hi
    simp [copyableBytesDecoder, this]
  | bytes b _ =>
    intro s _ hi
    have : s.exact ≠ 0 := by simpa [bytesDecoder] using hi
    simp [bytesDecoder, this]
  | remaining =>
    intro s _ hi
    have : s.eos = false := hi
    simp [remainingBytesDecoder, this]
  | null => intro s _ hi; simp [nullDecoder] at hi
  | padding b _ =>
    intro s _ hi
    have : s.eos = false := hi
    simp [paddingDecoder, this]
  | number f k _ =>
    intro s hs hi
    have : s.offset ≠ s.bytes.length := by simpa [fixDecoder, copyableBytesDecoder] using hi
    simp [fixDecoder, copyableBytesDecoder, this, Res.step]
  | utf8 _ _ ih => intro s hs hi; exact kind_step (ih s (reach_utf8 hs) hi)
  | monolithic p ho hp =>
    intro s _ hi
    have : s.item.isSome = false := hi
    simp only [monolithicDecoder]
    cases hm : s.item <;> simp_all
  | map f _ _ ih => intro s hs hi; exact kind_step (ih s (reach_map hs) hi)
  | tryMap f _ _ ih => intro s hs hi; exact kind_step (ih s (reach_tryMap hs) hi)
  | mapErr f ho _ ih => exact absurd ho hm
  | omittable d _ _ ih =>
    intro s hs hi
    simp only [omittableDecoder, Bool.or_eq_false_iff] at hi ⊢
    simp only [hi.1]
    exact kind_step (ih s.inner (reach_omit hs).1 hi.2)
  | length n _ hn _ ih =>
    intro s hs hi
    simp only [lengthDecoder]
    split
    · exact kind_step (ih s.inner (reach_length (s₀ := LengthState.new _ n) hn hn hs).1 hi)
    · rfl
  | maxBytes n _ _ ih => intro s hs hi; exact kind_step (ih s.inner (reach_maxBytes hs).1 hi)
  | slice n _ _ ih => intro s hs hi; exact kind_step (ih s.inner (reach_slice hs) hi)
  | peekable _ _ ih =>
    intro s _ hi
    have : s.item.isSome = false := hi
    simp only [peekableDecoder]
    cases hm : s.item <;> simp_all
  | maybeEos _ _ ih => intro s hs hi; exact kind_step (ih s.inner (reach_maybeEos hs) hi)
  | collect _ hp _ ih =>
    intro s _ hi
    have : s.eos = false := hi
    simp [collectDecoder, this]
  | collectN n _ _ ih =>
    intro s _ hi
    have : s.remaining ≠ 0 := by simpa [collectNDecoder] using hi
    simp [collectNDecoder, this]
  | pair ho _ _ ih0 ih1 => exact absurd ho hp
  | andThen f _ _ _ ih0 ih1 =>
    intro s hs hi
    obtain ⟨s0, o⟩ := s
    cases o with
    | none => rfl
    | some t =>
      obtain ⟨x, hx⟩ := (reach_andThen hs).2 t rfl
      exact ih1 x t hx hi
  | captured F x _ ih =>
    intro t ht hi
    obtain ⟨s, rfl, hs⟩ := reach_captured ht
    exact ih s hs hi

theorem assembled_guard_kind {ok : Shape → Prop} (hm : ¬ ok .mapErr) (hp : ¬ ok .pair)
    {D : Decoder σ α} {s : σ} (h : Assembled ok D s) :
    ∀ t, Reach D s t → D.isIdle t = false → (D.finish t).1 = .err .incompleteDecoding :=
  parts_guard_kind hm hp (fun _ _ _ _ h => h.elim) h

theorem kept_step {γ τ : Type} {p : Res α × σ} {w : σ → τ} {k : α → σ → Res γ × τ} {e : ErrorKind}
    {s : σ} (h : p = (.err e, s)) : Res.step p w k = (.err e, w s) := by
  subst h; rfl

theorem parts_kept {own : OwnDecoder} {ok : Shape → Prop} (hm : ¬ ok .mapErr) (hp : ¬ ok .pair) (ha : ¬ ok .andThen)
    (hl : ¬ ok .length) (hb : ¬ ok .maxBytes) (he : ¬ ok .maybeEos)
    {D : Decoder σ α} {s : σ} (hP : ∀ σ α (D : Decoder σ α) s, own σ α D s → ∀ t, Reach D s t → D.isIdle t = false → D.finish t = (.err .incompleteDecoding, t))
    (h : AssembledWith own ok D s) :
    ∀ t, Reach D s t → D.isIdle t = false → D.finish t = (.err .incompleteDecoding, t) := by
  induction h with
  | own h => exact hP _ _ _ _ h
  | copyable b _ =>
    intro s _ hi
    have : s.offset ≠ s.bytes.length := by simpa [copyableBytesDecoder] using hi
    simp [copyableBytesDecoder, this]
  | bytes b _ =>
    intro s _ hi
    have : s.exact ≠ 0 := by simpa [bytesDecoder] using hi
    simp [bytesDecoder, this]
  | remaining =>
    intro s _ hi
    have : s.eos = false := hi
    simp [remainingBytesDecoder, this]
  | null => intro s _ hi; simp [nullDecoder] at hi
  | padding b _ =>
    intro s _ hi
    have : s.eos = false := hi
    simp [paddingDecoder, this]
  | number f k _ =>
    intro s hs hi
    have : s.offset ≠ s.bytes.length := by simpa [fixDecoder, copyableBytesDecoder] using hi
    simp [fixDecoder, copyableBytesDecoder, this, Res.step]
  | utf8 _ _ ih => intro s hs hi; exact kept_step (ih s (reach_utf8 hs) hi)
  | monolithic p ho hp =>
    intro s _ hi
    have : s.item.isSome = false := hi
    simp only [monolithicDecoder]
    cases hm : s.item <;> simp_all
  | map f _ _ ih => intro s hs hi; exact kept_step (ih s (reach_map hs) hi)
  | tryMap f _ _ ih => intro s hs hi; exact kept_step (ih s (reach_tryMap hs) hi)
  | mapErr f ho _ ih => exact absurd ho hm
  | omittable d _ _ ih =>
    intro s hs hi
    simp only [omittableDecoder, Bool.or_eq_false_iff] at hi ⊢
    rw [if_neg (by simp [hi.1])]
    exact kept_step (ih s.inner (reach_omit hs).1 hi.2)
  | length n ho hn _ ih => exact absurd ho hl
  | maxBytes n ho _ ih => exact absurd ho hb
  | slice n _ _ ih => intro s hs hi; exact kept_step (ih s.inner (reach_slice hs) hi)
  | peekable _ _ ih =>
    intro s _ hi
    have : s.item.isSome = false := hi
    simp only [peekableDecoder]
    cases hm : s.item <;> simp_all
  | maybeEos ho _ ih => exact absurd ho he
  | collect _ hp _ ih =>
    intro s _ hi
    have : s.eos = false := hi
    simp [collectDecoder, this]
  | collectN n _ _ ih =>
    intro s _ hi
    have : s.remaining ≠ 0 := by simpa [collectNDecoder] using hi
    simp [collectNDecoder, this]
  | pair ho _ _ ih0 ih1 => exact absurd ho hp
  | andThen f ho _ _ ih0 ih1 => exact absurd ho ha
  | captured F x _ ih =>
    intro t ht hi
    obtain ⟨s, rfl, hs⟩ := reach_captured ht
    have := ih s hs hi
    show (((F x).finish s).1, x, ((F x).finish s).2) = _
    rw [this]

theorem assembled_kept {ok : Shape → Prop} (hm : ¬ ok .mapErr) (hp : ¬ ok .pair) (ha : ¬ ok .andThen)
    (hl : ¬ ok .length) (hb : ¬ ok .maxBytes) (he : ¬ ok .maybeEos)
    {D : Decoder σ α} {s : σ} (h : Assembled ok D s) :
    ∀ t, Reach D s t → D.isIdle t = false → D.finish t = (.err .incompleteDecoding, t) :=
  parts_kept hm hp ha hl hb he (fun _ _ _ _ h => h.elim) h

/-! ## Strictness at the end of the stream -/

theorem newTrue_sane {b : Bytes} (h : b.length < 2 ^ 64) : EosSane (Eos.new true) b.length :=
  EosSane.new true h

theorem tryDecode_eos {D : Decoder σ α} {s₀ s : σ} {off : Nat} {buf : Bytes}
    (h : EosStrict D s₀) (hr : Reach D s₀ s) (hb : buf.length < 2 ^ 64) {n : Nat} {s' : σ} :
    tryDecode D s off buf (Eos.new true) ≠ .ret (.ok n) s' := by
  intro ht
  unfold tryDecode at ht
  split at ht
  · cases ht
  · split at ht
    · cases ht
    · split at ht
      · next hd =>
        have := h s hr _ _ _ (by simp; omega) hd
        simp [this] at ht
      all_goals cases ht

theorem newTrue_reached : (Eos.new true).isReached = true := rfl

theorem eos_copyable {s₀ : CopyableState} : EosStrict copyableBytesDecoder s₀ := by
  intro s _ b n s' _ h
  simp only [copyableBytesDecoder, newTrue_reached] at h ⊢
  split at h
  · cases h
  · split at h
    · cases h
    · cases h; simp_all

theorem eos_bytes {s₀ : BytesDecoderState} : EosStrict bytesDecoder s₀ := by
  intro s _ b n s' _ h
  simp only [bytesDecoder, newTrue_reached] at h ⊢
  split at h
  · cases h
  · split at h
    · cases h
    · split at h
      · cases h
      · cases h; simp_all

theorem eos_remaining {s₀ : RemainingState} : EosStrict remainingBytesDecoder s₀ := by
  intro s _ b n s' _ h
  simp only [remainingBytesDecoder, newTrue_reached] at h ⊢
  (repeat' split at h) <;> cases h <;> first | rfl | assumption

theorem eos_padding {s₀ : PaddingState} : EosStrict paddingDecoder s₀ := by
  intro s _ b n s' _ h
  simp only [paddingDecoder, newTrue_reached] at h ⊢
  (repeat' split at h) <;> cases h <;> first | rfl | assumption

theorem eos_monolithic (p : MonolithicParser α) {s₀ : MonoDecState α} : EosStrict (monolithicDecoder p) s₀ := by
  intro s _ b n s' _ h
  simp only [monolithicDecoder, newTrue_reached, if_true] at h ⊢
  split at h <;> cases h
  rfl

theorem step_ok {γ τ : Type} {p : Res α × σ} {w : σ → τ} {k : α → σ → Res γ × τ} {x : γ} {t : τ}
    (h : Res.step p w k = (.ok x, t)) : ∃ a s, p = (.ok a, s) ∧ k a s = (.ok x, t) := by
  obtain ⟨r, s⟩ := p
  cases r <;> simp [Res.step] at h
  exact ⟨_, _, rfl, h⟩

theorem eos_mapErr {D : Decoder σ α} {s₀ : σ} (f : ErrorKind → ErrorKind) (h : EosStrict D s₀) :
    EosStrict (mapErrDecoder D f) s₀ := by
  intro s hs b n s' hb hd
  simp only [mapErrDecoder, Prod.mk.injEq] at hd
  exact h s (reach_mapErr hs) b n s' hb (Prod.ext (mapErr_ok hd.1) hd.2)

theorem eos_omit {D : Decoder σ α} {s₀ : OmitState σ} (h : EosStrict D s₀.inner) :
    EosStrict (omittableDecoder D) s₀ := by
  intro s hs b n s' hb hd
  simp only [omittableDecoder] at hd ⊢
  split at hd
  · next h => cases hd; simp [h]
  · obtain ⟨a, t, h1, h2⟩ := step_ok hd
    cases h2
    simp [h _ (reach_omit hs).1 b n t hb h1]

theorem eos_maxBytes {D : Decoder σ α} {s₀ : MaxBytesState σ} (h : EosStrict D s₀.inner) :
    EosStrict (maxBytesDecoder D) s₀ := by
  intro s hs b m s' hb hd
  simp only [maxBytesDecoder] at hd ⊢
  (repeat' split at hd) <;> first
    | cases hd; done
    | (obtain ⟨a, t, h1, h2⟩ := step_ok hd
       cases h2
       exact h _ (reach_maxBytes hs).1 b _ t hb h1)

theorem eos_peekable {D : Decoder σ α} {s₀ : PeekState σ α} (h : EosStrict D s₀.inner) :
    EosStrict (peekableDecoder D) s₀ := by
  intro s hs b m s' hb hd
  simp only [peekableDecoder] at hd ⊢
  split at hd
  · obtain ⟨a, t, h1, h2⟩ := step_ok hd
    split at h2
    · obtain ⟨_, _, _, h3⟩ := step_ok h2
      cases h3; rfl
    · next hni => exact absurd (h _ (reach_peekable hs) b _ t hb h1) hni
  · next hni => cases hd; cases hm : s.item <;> simp_all

theorem eos_pair {σ0 α0 σ1 α1 : Type} {D0 : Decoder σ0 α0} {D1 : Decoder σ1 α1} {s0 : σ0} {s1 : σ1}
    (h0 : EosStrict D0 s0) (h1 : EosStrict D1 s1) : EosStrict (tupleDecoder2 D0 D1) (s0, s1) := by
  intro s hs b n s' hb h
  have hr := reach_pair hs
  simp only [tupleDecoder2] at h ⊢
  split at h
  · next r t ht => cases h; exact absurd ht (tryDecode_eos h0 hr.1 hb)
  · next o t ht =>
    split at h
    · next r u hu => cases h; exact absurd hu (tryDecode_eos h1 hr.2 hb)
    · next o' u hu =>
      cases h
      simp only [tryDecode_next_idle ht, tryDecode_next_idle hu, Bool.and_self]

theorem eos_andThen {σ0 α0 σ1 α1 : Type} {D0 : Decoder σ0 α0} {D1 : Decoder σ1 α1} {s0 : σ0}
    {f : α0 → σ1} (h0 : EosStrict D0 s0) (h1 : ∀ x, EosStrict D1 (f x)) :
    EosStrict (andThenDecoder D0 D1 f) (s0, none) := by
  intro s hs b n s' hb h
  have hr := reach_andThen hs
  simp only [andThenDecoder] at h ⊢
  split at h
  · next t ht =>
    obtain ⟨x, hx⟩ := hr.2 t ht
    split at h
    · next r u hu => cases h; exact absurd hu (tryDecode_eos (h1 x) hx hb)
    · next o' u hu => cases h; exact tryDecode_next_idle hu
  · split at h
    · next r u hu => cases h; exact absurd hu (tryDecode_eos h0 hr.1 hb)
    · obtain ⟨x, t, _, h2⟩ := step_ok h
      split at h2
      · next r u hu => cases h2; exact absurd hu (tryDecode_eos (h1 x) .refl hb)
      · next o' u hu => cases h2; exact tryDecode_next_idle hu

theorem collectLoop_eos {D : Decoder σ α} {s₀ : σ} {buf : Bytes} (h : EosStrict D s₀)
    (hb : buf.length < 2 ^ 64) : ∀ off s items x, collectLoop D buf (Eos.new true) off s items = some x →
      ReachItem D s₀ s → ∀ n t i, x ≠ .ret (.ok n) t i := by
  apply collectLoop.partial_correctness D buf (Eos.new true)
    (motive := fun _ s _ x => ReachItem D s₀ s → ∀ n t i, x ≠ .ret (.ok n) t i)
  intro loop ih off s items x heq hr n t i
  have ht := tryDecode_reachItem (off := off) hr (newTrue_sane hb)
  split at heq
  · split at heq
    · next hret => cases heq; rintro ⟨⟩; exact tryDecode_eos h hr.reach hb hret
    · next o s' hnext =>
      have hf := ht.1 _ _ hnext
      split at heq <;> rename_i hfin <;> rw [hfin] at hf
      · exact ih _ _ _ _ heq hf n t i
      all_goals (cases heq; rintro ⟨⟩)
  · cases heq; rintro ⟨⟩

theorem eos_collect {D : Decoder σ α} {s₀ : CollectState σ α} (h : EosStrict D s₀.inner) :
    EosStrict (collectDecoder D) s₀ := by
  intro s hs b n s' hb hd
  have hr := reach_collect hs
  simp only [collectDecoder, newTrue_reached, if_true] at hd ⊢
  split at hd
  · next h => cases hd; exact h
  · split at hd
    · cases hd
    · next hl => cases hd; exact absurd rfl (collectLoop_eos h hb _ _ _ _ hl hr _ _ _)
    · cases hd; rfl

theorem collectNLoop_eos {D : Decoder σ α} {s₀ : σ} {buf : Bytes} (h : EosStrict D s₀)
    (hb : buf.length < 2 ^ 64) : ∀ n off s items, ReachItem D s₀ s → ∀ m t i k,
      collectNLoop D buf (Eos.new true) n off s items ≠ .ret (.ok m) t i k := by
  intro n
  induction n with
  | zero => intro off s items hr m t i k; simp [collectNLoop]
  | succ n ih =>
    intro off s items hr m t i k heq
    have ht := tryDecode_reachItem (off := off) hr (newTrue_sane hb)
    simp only [collectNLoop] at heq
    split at heq
    · split at heq
      · next hret => cases heq; exact tryDecode_eos h hr.reach hb hret
      · next o s' hnext =>
        have hf := ht.1 _ _ hnext
        split at heq <;> rename_i hfin <;> rw [hfin] at hf
        · exact ih _ _ _ hf _ _ _ _ heq
        all_goals cases heq
    · cases heq

theorem eos_collectN {D : Decoder σ α} {s₀ : CollectNState σ α} (h : EosStrict D s₀.inner) :
    EosStrict (collectNDecoder D) s₀ := by
  intro s hs b n s' hb hd
  have hr := reach_collectN hs
  simp only [collectNDecoder, newTrue_reached] at hd ⊢
  split at hd
  · next hl => cases hd; exact absurd hl (collectNLoop_eos h hb _ _ _ _ hr _ _ _ _)
  · split at hd
    · cases hd
    · next h => cases hd; simpa using h

theorem parts_eos {own : OwnDecoder} {ok : Shape → Prop} (hl : ¬ ok .length) (hs : ¬ ok .slice) (hm : ¬ ok .maybeEos)
    {D : Decoder σ α} {s : σ} (hP : ∀ σ α (D : Decoder σ α) s, own σ α D s → EosStrict D s)
    (h : AssembledWith own ok D s) : EosStrict D s := by
  induction h with
  | own h => exact hP _ _ _ _ h
  | copyable b _ => exact eos_copyable
  | bytes b _ => exact eos_bytes
  | remaining => exact eos_remaining
  | null => intro s _ b n s' _ h; rfl
  | padding b _ => exact eos_padding
  | number f k _ => intro s hs; exact eos_copyable s (reach_fix hs)
  | utf8 _ _ ih => intro s hs; exact ih s (reach_utf8 hs)
  | monolithic p ho hp => exact eos_monolithic p
  | map f _ _ ih => intro s hs; exact ih s (reach_map hs)
  | tryMap f _ _ ih => intro s hs; exact ih s (reach_tryMap hs)
  | mapErr f _ _ ih => exact eos_mapErr f ih
  | omittable d _ _ ih => exact eos_omit ih
  | length n h hn _ ih => exact absurd h hl
  | maxBytes n _ _ ih => exact eos_maxBytes ih
  | slice n h _ ih => exact absurd h hs
  | peekable _ _ ih => exact eos_peekable ih
  | maybeEos h _ ih => exact absurd h hm
  | collect _ hp _ ih => exact eos_collect ih
  | collectN n _ _ ih => exact eos_collectN ih
  | pair _ _ _ ih0 ih1 => exact eos_pair ih0 ih1
  | andThen f _ _ _ ih0 ih1 => exact eos_andThen ih0 ih1
  | captured F x _ ih => exact eos_captured ih

theorem assembled_eos {ok : Shape → Prop} (hl : ¬ ok .length) (hs : ¬ ok .slice) (hm : ¬ ok .maybeEos)
    {D : Decoder σ α} {s : σ} (h : Assembled ok D s) : EosStrict D s :=
  parts_eos hl hs hm (fun _ _ _ _ h => h.elim) h

end Bytecodec
