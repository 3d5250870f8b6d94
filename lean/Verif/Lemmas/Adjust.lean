import Verif.Lemmas.Demand
import Verif.Spec.Adjust
/-!
# Decoders whose parts have been adjusted

`At ok D s`: `D` is assembled from the library and `s` is a state that calls and setters can lead to.
-/
set_option linter.unusedSimpArgs false

namespace Bytecodec

open Spec

variable {σ α : Type}

inductive At (ok : Shape → Prop) : {σ α : Type} → Decoder σ α → σ → Prop
  | copyable {s : CopyableState} : ok .copyable → s.offset ≤ s.bytes.length → At ok copyableBytesDecoder s
  | bytes {s : BytesDecoderState} : ok .bytes → (∀ b, s.bytes = some b → s.offset ≤ b.length) → At ok bytesDecoder s
  | remaining {s : RemainingState} : ok .remaining → At ok remainingBytesDecoder s
  | null {s : Unit} : ok .null → At ok nullDecoder s
  | padding {s : PaddingState} : ok .padding → At ok paddingDecoder s
  | number {α : Type} (f : Bytes → α) {s : CopyableState} : ok .number → s.offset ≤ s.bytes.length →
      At ok (fixDecoder f) s
  | utf8 {σ : Type} {D : Decoder σ Bytes} {s : σ} : ok .utf8 → At ok D s → At ok (utf8Decoder D) s
  | monolithic {α : Type} (parse : MonolithicParser α) {s : MonoDecState α} : ok .monolithic →
      (∀ a b, NoCrash (parse a b).1) → At ok (monolithicDecoder parse) s
  | map {σ α β : Type} {D : Decoder σ α} {s : σ} (f : α → β) : ok .map → At ok D s → At ok (mapDecoder D f) s
  | tryMap {σ α β : Type} {D : Decoder σ α} {s : σ} (f : α → Except ErrorKind β) : ok .tryMap → At ok D s →
      At ok (tryMapDecoder D f) s
  | mapErr {σ α : Type} {D : Decoder σ α} {s : σ} (f : ErrorKind → ErrorKind) : ok .mapErr → At ok D s →
      At ok (mapErrDecoder D f) s
  | omittable {σ α : Type} {D : Decoder σ α} {s : OmitState σ} : ok .omittable → At ok D s.inner →
      At ok (omittableDecoder D) s
  | length {σ α : Type} {D : Decoder σ α} {s : LengthState σ} : ok .length → s.remaining < 2 ^ 64 →
      s.expected < 2 ^ 64 → At ok D s.inner → At ok (lengthDecoder D) s
  | maxBytes {σ α : Type} {D : Decoder σ α} {s : MaxBytesState σ} : ok .maxBytes → s.consumed ≤ s.max →
      At ok D s.inner → At ok (maxBytesDecoder D) s
  | slice {σ α : Type} {D : Decoder σ α} {s : SliceState σ} : ok .slice → At ok D s.inner → At ok (sliceDecoder D) s
  | peekable {σ α : Type} {D : Decoder σ α} {s : PeekState σ α} : ok .peekable → At ok D s.inner →
      At ok (peekableDecoder D) s
  | maybeEos {σ α : Type} {D : Decoder σ α} {s : MaybeEosState σ} : ok .maybeEos → At ok D s.inner →
      At ok (maybeEosDecoder D) s
  | collect {σ α : Type} {D : Decoder σ α} {s : CollectState σ α} : ok .collect → Productive D s.inner →
      At ok D s.inner → At ok (collectDecoder D) s
  | collectN {σ α : Type} {D : Decoder σ α} {s : CollectNState σ α} : ok .collectN → At ok D s.inner →
      At ok (collectNDecoder D) s
  | pair {σ0 α0 σ1 α1 : Type} {D0 : Decoder σ0 α0} {D1 : Decoder σ1 α1} {s : σ0 × σ1} :
      ok .pair → At ok D0 s.1 → At ok D1 s.2 → At ok (tupleDecoder2 D0 D1) s
  | andThen {σ0 α0 σ1 α1 : Type} {D0 : Decoder σ0 α0} {D1 : Decoder σ1 α1} {s0 : σ0} {f : α0 → σ1}
      {s : σ0 × Option σ1} : ok .andThen → Assembled ok D0 s0 → (∀ x, Assembled ok D1 (f x)) →
      Reach (andThenDecoder D0 D1 f) (s0, none) s → At ok (andThenDecoder D0 D1 f) s

theorem at_safe {ok : Shape → Prop} {D : Decoder σ α} {s : σ} (h : At ok D s) : SafeFrom D s := by
  induction h with
  | copyable _ h0 => exact safe_copyable_at h0
  | bytes _ h0 => exact safe_bytes_at h0
  | remaining _ => exact safe_remaining
  | null _ => exact safe_null
  | padding _ => exact safe_padding
  | number f _ h0 => exact safe_fix_at f h0
  | utf8 _ _ ih => exact safe_utf8 ih
  | monolithic p _ hp => exact safe_monolithic p hp
  | map f _ _ ih => exact safe_map f ih
  | tryMap f _ _ ih => exact safe_tryMap f ih
  | mapErr f _ _ ih => exact safe_mapErr f ih
  | omittable _ _ ih => exact safe_omit ih
  | length _ hr hx _ ih => exact safe_length_at hr hx ih
  | maxBytes _ h0 _ ih => exact safe_maxBytes_at h0 ih
  | slice _ _ ih => exact safe_slice ih
  | peekable _ _ ih => exact safe_peekable ih
  | maybeEos _ _ ih => exact safe_maybeEos ih
  | collect _ hp _ ih => exact safe_collect hp ih
  | collectN _ _ ih => exact safe_collectN ih
  | pair _ _ _ ih0 ih1 => exact safe_pair ih0 ih1
  | andThen ho h0 h1 hr => intro t ht; exact assembled_safe (.andThen _ ho h0 h1) t (hr.trans ht)

theorem at_idle {ok : Shape → Prop} (hm : ¬ ok .monolithic) {D : Decoder σ α} {s : σ} (h : At ok D s) :
    IdleStable D s := by
  induction h with
  | copyable _ _ => exact idle_copyable
  | bytes _ h0 => exact idle_bytes_at h0
  | remaining _ => exact idle_remaining
  | null _ => exact idle_null
  | padding _ => exact idle_padding
  | number f _ _ => exact idle_fix f
  | utf8 _ _ ih => exact idle_utf8 ih
  | monolithic p ho hp => exact absurd ho hm
  | map f _ _ ih => exact idle_map f ih
  | tryMap f _ _ ih => exact idle_tryMap f ih
  | mapErr f _ _ ih => exact idle_mapErr f ih
  | omittable _ _ ih => exact idle_omit ih
  | length _ hr hx _ ih => exact idle_length_at hr hx ih
  | maxBytes _ _ _ ih => exact idle_maxBytes ih
  | slice _ _ ih => exact idle_slice ih
  | peekable _ _ ih => exact idle_peekable
  | maybeEos _ _ ih => exact idle_maybeEos ih
  | collect _ hp _ ih => exact idle_collect
  | collectN _ _ ih => exact idle_collectN
  | pair _ _ _ ih0 ih1 => exact idle_pair
  | andThen _ _ _ _ => exact idle_andThen

theorem at_eos {ok : Shape → Prop} (hl : ¬ ok .length) (hs : ¬ ok .slice) (hm : ¬ ok .maybeEos)
    {D : Decoder σ α} {s : σ} (h : At ok D s) : EosStrict D s := by
  induction h with
  | copyable _ _ => exact eos_copyable
  | bytes _ _ => exact eos_bytes
  | remaining _ => exact eos_remaining
  | null _ => intro s _ b n s' _ h; rfl
  | padding _ => exact eos_padding
  | number f _ _ => intro s hs; exact eos_copyable s (reach_fix hs)
  | utf8 _ _ ih => intro s hs; exact ih s (reach_utf8 hs)
  | monolithic p ho hp => exact eos_monolithic p
  | map f _ _ ih => intro s hs; exact ih s (reach_map hs)
  | tryMap f _ _ ih => intro s hs; exact ih s (reach_tryMap hs)
  | mapErr f _ _ ih => exact eos_mapErr f ih
  | omittable _ _ ih => exact eos_omit ih
  | length h _ _ _ ih => exact absurd h hl
  | maxBytes _ _ _ ih => exact eos_maxBytes ih
  | slice h _ ih => exact absurd h hs
  | peekable _ _ ih => exact eos_peekable ih
  | maybeEos h _ ih => exact absurd h hm
  | collect _ hp _ ih => exact eos_collect ih
  | collectN _ _ ih => exact eos_collectN ih
  | pair _ _ _ ih0 ih1 => exact eos_pair ih0 ih1
  | andThen ho h0 h1 hr => intro t ht; exact assembled_eos hl hs hm (.andThen _ ho h0 h1) t (hr.trans ht)

theorem at_guard {ok : Shape → Prop} {D : Decoder σ α} {s : σ} (h : At ok D s) : FinishGuarded D s := by
  induction h with
  | copyable _ h0 => exact guard_copyable
  | bytes _ h0 => exact guard_bytes
  | remaining _ =>
    intro s _ hi
    have : s.eos = false := hi
    exact ⟨.incompleteDecoding, by simp [remainingBytesDecoder, this]⟩
  | null _ => intro s _ hi; simp [nullDecoder] at hi
  | padding _ =>
    intro s _ hi
    have : s.eos = false := hi
    exact ⟨.incompleteDecoding, by simp [paddingDecoder, this]⟩
  | number f _ h0 =>
    intro s hs hi
    exact guard_step (guard_copyable s (reach_fix hs) hi)
  | utf8 _ _ ih => intro s hs hi; exact guard_step (ih s (reach_utf8 hs) hi)
  | monolithic p ho hp =>
    intro s _ hi
    have : s.item.isSome = false := hi
    refine ⟨.incompleteDecoding, ?_⟩
    simp only [monolithicDecoder]
    cases hm : s.item <;> simp_all
  | map f _ _ ih => intro s hs hi; exact guard_step (ih s (reach_map hs) hi)
  | tryMap f _ _ ih => intro s hs hi; exact guard_step (ih s (reach_tryMap hs) hi)
  | mapErr f _ _ ih =>
    intro s hs hi
    obtain ⟨k, hk⟩ := ih s (reach_mapErr hs) hi
    exact ⟨f k, by simp [mapErrDecoder, hk, Res.mapErr]⟩
  | omittable _ _ ih =>
    intro s hs hi
    simp only [omittableDecoder, Bool.or_eq_false_iff] at hi ⊢
    simp only [hi.1]
    exact guard_step (ih s.inner (reach_omit hs).1 hi.2)
  | length _ hr0 hx0 _ ih =>
    intro s hs hi
    simp only [lengthDecoder]
    split
    · exact guard_step (ih s.inner (reach_length hr0 hx0 hs).1 hi)
    · exact ⟨_, rfl⟩
  | maxBytes _ h0 _ ih => intro s hs hi; exact guard_step (ih s.inner (reach_maxBytes hs).1 hi)
  | slice _ _ ih => intro s hs hi; exact guard_step (ih s.inner (reach_slice hs) hi)
  | peekable _ _ ih =>
    intro s _ hi
    have : s.item.isSome = false := hi
    refine ⟨.incompleteDecoding, ?_⟩
    simp only [peekableDecoder]
    cases hm : s.item <;> simp_all
  | maybeEos _ _ ih => intro s hs hi; exact guard_step (ih s.inner (reach_maybeEos hs) hi)
  | collect _ hp _ ih =>
    intro s _ hi
    have : s.eos = false := hi
    exact ⟨.incompleteDecoding, by simp [collectDecoder, this]⟩
  | collectN _ _ ih =>
    intro s _ hi
    have : s.remaining ≠ 0 := by simpa [collectNDecoder] using hi
    exact ⟨.incompleteDecoding, by simp [collectNDecoder, this]⟩
  | @pair _ _ _ _ D0 D1 _ _ a0 a1 ih0 ih1 =>
    intro s hs hi
    have hr := reach_pair hs
    simp only [tupleDecoder2, Bool.and_eq_false_iff] at hi ⊢
    by_cases h0 : D0.isIdle s.1 = false
    · exact guard_step (ih0 _ hr.1 h0)
    · have h1 := hi.resolve_left h0
      have hs0 := (at_safe a0 s.1 hr.1).2
      obtain ⟨k, hk⟩ := ih1 _ hr.2 h1
      rcases hf : D0.finish s.1 with ⟨r, s'⟩
      rw [hf] at hs0
      cases r with
      | ok x => exact guard_step (p := D1.finish s.2) ⟨k, hk⟩
      | err k => exact ⟨k, rfl⟩
      | _ => simp [Returns] at hs0
  | andThen ho h0 h1 hr => intro t ht; exact assembled_guard (.andThen _ ho h0 h1) t (hr.trans ht)

theorem at_demand {ok : Shape → Prop} {D : Decoder σ α} {s : σ} (h : At ok D s) :
    ∀ t, Reach D s t → Missing (D.requiring t) → ∀ x, (D.finish t).1 ≠ .ok x := by
  induction h with
  | copyable _ h0 =>
    intro t _ h x
    have h : t.bytes.length - t.offset ≠ 0 := h
    simp only [copyableBytesDecoder]
    rw [if_neg (show ¬ t.offset = t.bytes.length by omega)]
    exact nofun
  | bytes _ h0 =>
    intro t _ h x
    have h : t.exact ≠ 0 := h
    simp only [bytesDecoder]
    rw [if_pos h]
    exact nofun
  | remaining _ =>
    intro t _ h x
    simp only [remainingBytesDecoder] at h ⊢
    cases he : t.eos <;> rw [he] at h
    · simp
    · exact absurd rfl h
  | null _ => intro t _ h; exact absurd rfl h
  | padding _ =>
    intro t _ h x
    simp only [paddingDecoder] at h ⊢
    cases he : t.eos <;> rw [he] at h
    · simp
    · exact absurd rfl h
  | number f _ h0 =>
    intro t _ h x
    have h : t.bytes.length - t.offset ≠ 0 := h
    refine step_not_ok (fun y => ?_) x
    simp only [copyableBytesDecoder]
    rw [if_neg (show ¬ t.offset = t.bytes.length by omega)]
    exact nofun
  | utf8 _ _ ih => intro t hr h x; exact step_not_ok (ih t (reach_utf8 hr) h) x
  | monolithic p _ _ =>
    intro t _ h x
    simp only [monolithicDecoder] at h ⊢
    cases hi : t.item <;> rw [hi] at h
    · simp
    · exact absurd rfl h
  | map f _ _ ih => intro t hr h x; exact step_not_ok (ih t (reach_map hr) h) x
  | tryMap f _ _ ih => intro t hr h x; exact step_not_ok (ih t (reach_tryMap hr) h) x
  | @mapErr _ _ D _ f _ _ ih =>
    intro t hr h x
    have := ih t (reach_mapErr hr) h
    simp only [mapErrDecoder]
    generalize (D.finish t).1 = r at this
    cases r with
    | ok y => exact absurd rfl (this y)
    | _ => intro hh; cases hh
  | omittable _ _ ih =>
    intro t hr h x
    simp only [omittableDecoder] at h ⊢
    cases hd : t.doOmit with
    | true => simp [hd, Missing] at h
    | false => simp only [hd] at h ⊢; exact step_not_ok (ih _ (reach_omit hr).1 h) x
  | length _ hr0 hx0 _ ih =>
    intro t _ h x
    have h : t.remaining ≠ 0 := h
    simp only [lengthDecoder]
    rw [if_neg h]
    exact nofun
  | maxBytes _ h0 _ ih => intro t hr h x; exact step_not_ok (ih _ (reach_maxBytes hr).1 h) x
  | slice _ _ ih => intro t hr h x; exact step_not_ok (ih _ (reach_slice hr) h) x
  | peekable _ _ ih =>
    intro t _ h x
    simp only [peekableDecoder] at h ⊢
    cases hi : t.item with
    | none => exact nofun
    | some y => simp [hi, Missing] at h
  | maybeEos _ _ ih => intro t hr h x; exact step_not_ok (ih _ (reach_maybeEos hr) h) x
  | collect _ _ _ ih =>
    intro t _ h x
    simp only [collectDecoder] at h ⊢
    cases he : t.eos with
    | true => simp [he, Missing] at h
    | false => simp
  | collectN _ _ ih =>
    intro t _ h x
    simp only [collectNDecoder] at h ⊢
    by_cases hr : t.remaining = 0
    · simp [hr, Missing] at h
    · simp [hr]
  | @pair _ _ _ _ D0 D1 _ _ _ _ ih0 ih1 =>
    intro t hr h x
    rcases missing_add h with h | h
    · exact step_not_ok (ih0 _ (reach_pair hr).1 h) x
    · simp only [tupleDecoder2]
      generalize D0.finish t.1 = p
      obtain ⟨r, t'⟩ := p
      cases r with
      | ok y => exact step_not_ok (ih1 _ (reach_pair hr).2 h) x
      | _ => intro hh; cases hh
  | andThen ho h0 h1 hr => intro t ht; exact assembled_demand (.andThen _ ho h0 h1) t (hr.trans ht)

/-! ## Adjustments preserve these states -/

/-- Accesses preserve `I`. -/
structure Maintains (D : Decoder σ α) (A : σ → σ → Prop) (I : σ → Prop) : Prop where
  keep : ∀ t u, I t → Touch D A t u → I u

theorem Maintains.reach {D : Decoder σ α} {A : σ → σ → Prop} {I : σ → Prop} (h : Maintains D A I) {t u : σ} (ht : I t)
    (hr : Reach D t u) : I u :=
  Reach.inv ht (fun s b e hs he => h.keep _ _ hs (.decode b e he)) (fun s hs => h.keep _ _ hs .finish) hr

theorem Maintains.used {D : Decoder σ α} {A : σ → σ → Prop} {I : σ → Prop} (h : Maintains D A I) {t u : σ} (ht : I t)
    (hr : Handled D A t u) : I u := by
  induction hr with
  | refl => exact ht
  | step _ h2 ih => exact h.keep _ _ ih h2

/-- It suffices to look at what calls reach, and at the adjustments. -/
theorem Maintains.of_reach {D : Decoder σ α} {A : σ → σ → Prop} {I : σ → Prop}
    (hr : ∀ t u, I t → Reach D t u → I u) (ha : ∀ t u, I t → A t u → I u) : Maintains D A I := by
  refine ⟨fun t u ht hu => ?_⟩
  cases hu with
  | decode b e he => exact hr _ _ ht (Reach.refl.decode b e he)
  | finish => exact hr _ _ ht Reach.refl.finish
  | adjust h => exact ha _ _ ht h

theorem reach_copyable_bound {s t : CopyableState} (h : s.offset ≤ s.bytes.length)
    (hr : Reach copyableBytesDecoder s t) : t.offset ≤ t.bytes.length := by
  refine Reach.inv (D := copyableBytesDecoder) (Inv := fun s => s.offset ≤ s.bytes.length) h ?_ ?_ hr
  · intro s b e h he
    simp only [copyableBytesDecoder]
    rw [if_neg (by omega)]
    have hl : (splice s.bytes s.offset (b.take (min b.length (s.bytes.length - s.offset)))).length
        = s.bytes.length := splice_length (by simp; omega)
    split <;> (simp only [hl]; omega)
  · intro s h
    simp only [copyableBytesDecoder]
    split <;> simp [h]

theorem reach_bytes_bound {s t : BytesDecoderState} (h : ∀ b, s.bytes = some b → s.offset ≤ b.length)
    (hr : Reach bytesDecoder s t) : ∀ b, t.bytes = some b → t.offset ≤ b.length := by
  refine Reach.inv (D := bytesDecoder) (Inv := fun s => ∀ b, s.bytes = some b → s.offset ≤ b.length) h ?_ ?_ hr
  · intro s b e h _
    simp only [bytesDecoder]
    split
    · simp_all
    · next c hc =>
      have hc' := h c hc
      rw [if_neg (by omega)]
      have hl : (splice c s.offset (b.take (min b.length (c.length - s.offset)))).length
          = c.length := splice_length (by simp; omega)
      split <;> simp [hl] <;> omega
  · intro s h
    simp only [bytesDecoder]
    (repeat' split) <;> simp_all

theorem Spec.ReachItem.trans {D : Decoder σ α} {s t u : σ} (h1 : ReachItem D s t) (h2 : ReachItem D t u) :
    ReachItem D s u := by
  induction h2 with
  | refl => exact h1
  | decode b e _ he hi hd ih => exact .decode b e ih he hi hd
  | item b e _ he hi hd ih => exact .item b e ih he hi hd
  | finish _ hi ih => exact .finish ih hi

theorem Spec.Productive.later {D : Decoder σ α} {s t : σ} (h : Productive D s) (hr : ReachItem D s t) : Productive D t :=
  fun u hu => h u (hr.trans hu)

theorem adjustable_keeps {ok : Shape → Prop} {D : Decoder σ α} {A : σ → σ → Prop} {s : σ}
    (h : Adjustable ok D A s) : ∃ I : σ → Prop, I s ∧ (∀ t, I t → At ok D t) ∧ Maintains D A I := by
  induction h with
  | copyable b ho =>
    refine ⟨fun t => t.offset ≤ t.bytes.length, Nat.zero_le _, fun t ht => .copyable ho ht,
      .of_reach (fun t u => reach_copyable_bound) ?_⟩
    rintro t _ ht ⟨b, hb, rfl⟩
    simp only; omega
  | bytes b ho =>
    refine ⟨fun t => ∀ b, t.bytes = some b → t.offset ≤ b.length, fun _ _ => Nat.zero_le _, fun t ht => .bytes ho ht,
      .of_reach (fun t u => reach_bytes_bound) ?_⟩
    rintro t _ ht ⟨b, rfl⟩ c _
    exact Nat.zero_le _
  | remaining ho => exact ⟨fun _ => True, trivial, fun t _ => .remaining ho, ⟨fun _ _ _ _ => trivial⟩⟩
  | null ho => exact ⟨fun _ => True, trivial, fun t _ => .null ho, ⟨fun _ _ _ _ => trivial⟩⟩
  | padding b ho => exact ⟨fun _ => True, trivial, fun t _ => .padding ho, ⟨fun _ _ _ _ => trivial⟩⟩
  | number f k ho =>
    exact ⟨fun t => t.offset ≤ t.bytes.length, Nat.zero_le _, fun t ht => .number f ho ht,
      .of_reach (fun t u ht hr => reach_copyable_bound ht (reach_fix hr)) fun _ _ _ h => h.elim⟩
  | utf8 ho _ ih =>
    obtain ⟨I, h0, h1, h2⟩ := ih
    exact ⟨I, h0, fun t ht => .utf8 ho (h1 t ht), .of_reach (fun t u ht hr => h2.reach ht (reach_utf8 hr)) h2.keep⟩
  | monolithic p ho hp => exact ⟨fun _ => True, trivial, fun t _ => .monolithic p ho hp, ⟨fun _ _ _ _ => trivial⟩⟩
  | map f ho _ ih =>
    obtain ⟨I, h0, h1, h2⟩ := ih
    exact ⟨I, h0, fun t ht => .map f ho (h1 t ht), .of_reach (fun t u ht hr => h2.reach ht (reach_map hr)) h2.keep⟩
  | tryMap f ho _ ih =>
    obtain ⟨I, h0, h1, h2⟩ := ih
    exact ⟨I, h0, fun t ht => .tryMap f ho (h1 t ht),
      .of_reach (fun t u ht hr => h2.reach ht (reach_tryMap hr)) h2.keep⟩
  | mapErr f ho _ ih =>
    obtain ⟨I, h0, h1, h2⟩ := ih
    exact ⟨I, h0, fun t ht => .mapErr f ho (h1 t ht),
      .of_reach (fun t u ht hr => h2.reach ht (reach_mapErr hr)) h2.keep⟩
  | omittable d ho _ ih =>
    obtain ⟨I, h0, h1, h2⟩ := ih
    refine ⟨fun t => I t.inner, h0, fun t ht => .omittable ho (h1 _ ht),
      .of_reach (fun t u ht hr => h2.reach ht (reach_omit hr).1) ?_⟩
    rintro t _ ht (⟨b, rfl⟩ | ⟨i, hi, rfl⟩)
    · exact ht
    · exact h2.keep _ _ ht hi
  | length n ho hn _ ih =>
    obtain ⟨I, h0, h1, h2⟩ := ih
    refine ⟨fun t => I t.inner ∧ t.remaining < 2 ^ 64 ∧ t.expected < 2 ^ 64, ⟨h0, hn, hn⟩,
      fun t ht => .length ho ht.2.1 ht.2.2 (h1 _ ht.1), .of_reach (fun t u ht hr => ?_) ?_⟩
    · have := reach_length ht.2.1 ht.2.2 hr
      exact ⟨h2.reach ht.1 this.1, this.2.1, this.2.2 ▸ ht.2.2⟩
    · rintro t _ ⟨ht, hr, hx⟩ (⟨m, hm, rfl⟩ | ⟨i, hi, rfl⟩)
      · simp only [LengthState.setExpectedBytes]
        split
        · exact ⟨ht, hm, hm⟩
        · exact ⟨ht, hr, hx⟩
      · exact ⟨h2.keep _ _ ht hi, hr, hx⟩
  | maxBytes n ho _ ih =>
    obtain ⟨I, h0, h1, h2⟩ := ih
    refine ⟨fun t => I t.inner ∧ t.consumed ≤ t.max, ⟨h0, Nat.zero_le _⟩,
      fun t ht => .maxBytes ho ht.2 (h1 _ ht.1), .of_reach (fun t u ht hr => ?_) ?_⟩
    · have := maxBytes_inv_at ht.2 (at_safe (h1 _ ht.1)) hr
      exact ⟨h2.reach ht.1 this.1, this.2.1 ▸ this.2.2⟩
    · rintro t _ ⟨ht, hc⟩ (⟨m, rfl⟩ | ⟨i, hi, rfl⟩)
      · simp only [MaxBytesState.setMaxBytes]
        split
        · exact ⟨ht, by assumption⟩
        · exact ⟨ht, hc⟩
      · exact ⟨h2.keep _ _ ht hi, hc⟩
  | slice n ho _ ih =>
    obtain ⟨I, h0, h1, h2⟩ := ih
    refine ⟨fun t => I t.inner, h0, fun t ht => .slice ho (h1 _ ht),
      .of_reach (fun t u ht hr => h2.reach ht (reach_slice hr)) ?_⟩
    rintro t _ ht (⟨b, rfl⟩ | ⟨i, hi, rfl⟩)
    · exact ht
    · exact h2.keep _ _ ht hi
  | peekable ho _ ih =>
    obtain ⟨I, h0, h1, h2⟩ := ih
    refine ⟨fun t => I t.inner, h0, fun t ht => .peekable ho (h1 _ ht),
      .of_reach (fun t u ht hr => h2.reach ht (reach_peekable hr)) ?_⟩
    rintro t _ ht (⟨b, rfl⟩ | ⟨i, hi, rfl⟩)
    · exact ht
    · exact h2.keep _ _ ht hi
  | maybeEos ho _ ih =>
    obtain ⟨I, h0, h1, h2⟩ := ih
    refine ⟨fun t => I t.inner, h0, fun t ht => .maybeEos ho (h1 _ ht),
      .of_reach (fun t u ht hr => h2.reach ht (reach_maybeEos hr)) ?_⟩
    rintro t _ ht ⟨i, hi, rfl⟩
    exact h2.keep _ _ ht hi
  | @collect _ _ D _ _ ho hp _ ih =>
    obtain ⟨I, h0, h1, h2⟩ := ih
    refine ⟨fun t => I t.inner ∧ Productive D t.inner, ⟨h0, hp⟩, fun t ht => .collect ho ht.2 (h1 _ ht.1),
      .of_reach (fun t u ht hr => ?_) ?_⟩
    · have := reach_collect hr
      exact ⟨h2.reach ht.1 this.reach, ht.2.later this⟩
    · rintro t _ ht ⟨i, hi, hpi, rfl⟩
      exact ⟨h2.keep _ _ ht.1 hi, hpi⟩
  | collectN n ho _ ih =>
    obtain ⟨I, h0, h1, h2⟩ := ih
    refine ⟨fun t => I t.inner, h0, fun t ht => .collectN ho (h1 _ ht),
      .of_reach (fun t u ht hr => h2.reach ht (reach_collectN hr).reach) ?_⟩
    rintro t _ ht (⟨b, rfl⟩ | ⟨i, hi, rfl⟩)
    · exact ht
    · exact h2.keep _ _ ht hi
  | pair ho _ _ ih0 ih1 =>
    obtain ⟨I, h0, h1, h2⟩ := ih0
    obtain ⟨J, g0, g1, g2⟩ := ih1
    refine ⟨fun t => I t.1 ∧ J t.2, ⟨h0, g0⟩, fun t ht => .pair ho (h1 _ ht.1) (g1 _ ht.2),
      .of_reach (fun t u ht hr => ⟨h2.reach ht.1 (reach_pair hr).1, g2.reach ht.2 (reach_pair hr).2⟩) ?_⟩
    rintro t u ht (⟨hi, hu⟩ | ⟨hu, hi⟩)
    · exact ⟨h2.keep _ _ ht.1 hi, hu ▸ ht.2⟩
    · exact ⟨hu ▸ ht.1, g2.keep _ _ ht.2 hi⟩
  | andThen f ho h0 h1 =>
    exact ⟨Reach _ _, .refl, fun t ht => .andThen ho h0 h1 ht,
      .of_reach (fun t u ht hr => ht.trans hr) fun _ _ _ h => h.elim⟩

theorem used_at {ok : Shape → Prop} {D : Decoder σ α} {A : σ → σ → Prop} {s t : σ}
    (h : Adjustable ok D A s) (ht : Handled D A s t) : At ok D t := by
  obtain ⟨I, h0, h1, h2⟩ := adjustable_keeps h
  exact h1 t (h2.used h0 ht)

end Bytecodec
