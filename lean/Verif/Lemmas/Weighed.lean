import Verif.Spec.Weighed
import Verif.Lemmas.Productive
import Verif.Lemmas.Reach
import Verif.Lemmas.Work
import Verif.Lemmas.Metered
/-!
# Lemmas: formats whose items take at least one byte
-/
namespace Bytecodec

open Spec

variable {σ τ α β : Type}

theorem Spec.Productive.follows {D : Decoder σ α} {s₀ : σ} (h : Productive D s₀) : Follows D s₀ := by
  intro s hs hi b e he
  have hreach := ReachItem.decode (D := D) b e hs he hi
  constructor
  · intro hok hi'
    exact (h _ (hreach (by rw [hok]; rfl))).1 hi'
  · intro hi' b' e' hb' he'
    exact (h _ (hreach (by rw [hi', Bool.and_false]))).2 b' e' hb' he' hi'

/-! ## Combinators around one decoder -/

/-- `W` passes every call on to `D` (if `skip`, it may also refuse a call of `decode`). -/
structure Around (skip : Bool) {ω : Type} (W : Decoder ω β) (D : Decoder σ α) (inner : ω → σ) (Inv : ω → Prop) : Prop where
  idle : ∀ {w}, Inv w → W.isIdle w = D.isIdle (inner w)
  decode : ∀ {w}, Inv w → ∀ b e, EosSane e b.length → Inv (W.decode w b e).2 ∧
    ((skip = true ∧ (W.decode w b e).1.isOk = false ∧ inner (W.decode w b e).2 = inner w) ∨
      ∃ e', EosSane e' b.length ∧ inner (W.decode w b e).2 = (D.decode (inner w) b e').2 ∧
        ∀ n, (W.decode w b e).1 = .ok n ↔ (D.decode (inner w) b e').1 = .ok n)
  finish : ∀ {w}, Inv w → Inv (W.finish w).2 ∧ inner (W.finish w).2 = (D.finish (inner w)).2 ∧
    ((D.finish (inner w)).1.isOk = false → (W.finish w).1.isOk = false)

theorem isOk_iff_of {r : Res α} {r' : Res α} (h : ∀ n, r = .ok n ↔ r' = .ok n) : r.isOk = r'.isOk := by
  cases r with
  | ok n => rw [(h n).1 rfl]
  | _ => cases r' with
    | ok n => have := (h n).2 rfl; cases this
    | _ => rfl

section
variable {ω : Type} {skip : Bool} {W : Decoder ω β} {D : Decoder σ α} {inner : ω → σ} {Inv : ω → Prop}

theorem Around.reach (h : Around skip W D inner Inv) {w₀ w : ω} (h0 : Inv w₀) (hw : ReachItem W w₀ w) :
    Inv w ∧ ReachItem D (inner w₀) (inner w) := by
  induction hw with
  | refl => exact ⟨h0, .refl⟩
  | @decode w b e _ he hi hok ih =>
    obtain ⟨h1, h2⟩ := ih
    obtain ⟨h3, h4⟩ := h.decode h1 b e he
    refine ⟨h3, ?_⟩
    rw [h.idle h1] at hi
    rw [h.idle h3] at hok
    rcases h4 with ⟨_, _, h5⟩ | ⟨e', h5, h6, h7⟩
    · rw [h5]; exact h2
    · rw [isOk_iff_of h7, h6] at hok
      rw [h6]
      exact h2.decode b e' h5 hi hok
  | @item w b e _ he hi hok ih =>
    obtain ⟨h1, h2⟩ := ih
    obtain ⟨h3, h4⟩ := h.decode h1 b e he
    obtain ⟨h5, h6, _⟩ := h.finish h3
    refine ⟨h5, ?_⟩
    rw [h.idle h1] at hi
    rw [h.idle h3] at hok
    rcases h4 with ⟨_, h7, _⟩ | ⟨e', h7, h8, h9⟩
    · rw [h7] at hok; cases hok
    · rw [isOk_iff_of h9, h8] at hok
      rw [h6, h8]
      exact h2.item b e' h7 hi hok
  | @finish w _ hi ih =>
    obtain ⟨h1, h2⟩ := ih
    obtain ⟨h5, h6, _⟩ := h.finish h1
    rw [h.idle h1] at hi
    exact ⟨h5, by rw [h6]; exact h2.finish hi⟩

theorem Around.late (h : Around skip W D inner Inv) {w : ω} (hw : Inv w) (hl : Late D (inner w)) : Late W w := by
  intro b e hb he h0 hi
  obtain ⟨h3, h4⟩ := h.decode hw b e he
  obtain ⟨_, _, h5⟩ := h.finish h3
  rcases h4 with ⟨_, h6, _⟩ | ⟨e', h6, h7, h8⟩
  · rw [h0] at h6; cases h6
  · apply h5
    rw [h.idle h3, h7] at hi
    rw [h7]
    exact hl b e' hb h6 ((h8 0).1 h0) hi

theorem Around.productive (h : Around skip W D inner Inv) {w₀ : ω} (h0 : Inv w₀) (hp : Productive D (inner w₀)) :
    Productive W w₀ := by
  intro w hw
  obtain ⟨h1, h2⟩ := h.reach h0 hw
  obtain ⟨h3, h4⟩ := hp _ h2
  constructor
  · intro hi
    exact (h.finish h1).2.2 (h3 (by rw [← h.idle h1]; exact hi))
  · intro b e hb he hi
    rw [h.idle h1] at hi
    exact h.late h1 (fun b e hb he => h4 b e hb he hi) b e hb he

theorem Around.follows (h : Around false W D inner Inv) {w₀ : ω} (h0 : Inv w₀) (hp : Follows D (inner w₀)) :
    Follows W w₀ := by
  intro w hw hi b e he
  obtain ⟨h1, h2⟩ := h.reach h0 hw
  obtain ⟨h3, h4⟩ := h.decode h1 b e he
  rw [h.idle h1] at hi
  rcases h4 with ⟨h5, _⟩ | ⟨e', h5, h6, h7⟩
  · cases h5
  · obtain ⟨h8, h9⟩ := hp _ h2 hi b e' h5
    rw [h.idle h3, h6, isOk_iff_of h7]
    refine ⟨fun hok hi' => (h.finish h3).2.2 ?_, fun hi' => h.late h3 ?_⟩
    · rw [h6]; exact h8 hok hi'
    · rw [h6]; exact h9 hi'

end

theorem around_map (D : Decoder σ α) (f : α → β) : Around false (mapDecoder D f) D id (fun _ => True) where
  idle := fun _ => rfl
  decode := fun _ b e he => ⟨trivial, .inr ⟨e, he, rfl, fun _ => Iff.rfl⟩⟩
  finish := fun {w} _ => by
    simp only [mapDecoder, id]
    cases D.finish w with
    | mk r s => cases r <;> simp [Res.step, Res.isOk]

theorem around_tryMap (D : Decoder σ α) (f : α → Except ErrorKind β) :
    Around false (tryMapDecoder D f) D id (fun _ => True) where
  idle := fun _ => rfl
  decode := fun _ b e he => ⟨trivial, .inr ⟨e, he, rfl, fun _ => Iff.rfl⟩⟩
  finish := fun {w} _ => by
    simp only [tryMapDecoder, id]
    cases D.finish w with
    | mk r s =>
      cases r with
      | ok x => cases hf : f x <;> simp [Res.step, Res.isOk, hf]
      | _ => simp [Res.step, Res.isOk]

theorem around_utf8 (D : Decoder σ Bytes) : Around false (utf8Decoder D) D id (fun _ => True) where
  idle := fun _ => rfl
  decode := fun _ b e he => ⟨trivial, .inr ⟨e, he, rfl, fun _ => Iff.rfl⟩⟩
  finish := fun {w} _ => by
    simp only [utf8Decoder, id]
    cases D.finish w with
    | mk r s =>
      cases r with
      | ok x => cases hf : fromUtf8 x <;> simp [Res.step, Res.isOk, hf]
      | _ => simp [Res.step, Res.isOk]

theorem around_mapErr (D : Decoder σ α) (f : ErrorKind → ErrorKind) :
    Around false (mapErrDecoder D f) D id (fun _ => True) where
  idle := fun _ => rfl
  decode := fun {w} _ b e he => ⟨trivial, .inr ⟨e, he, rfl, fun n => by
    simp only [mapErrDecoder, id]
    cases (D.decode w b e).1 <;> simp [Res.mapErr]⟩⟩
  finish := fun {w} _ => by
    simp only [mapErrDecoder, id]
    cases D.finish w with
    | mk r s => cases r <;> simp [Res.mapErr, Res.isOk]

theorem around_maybeEos (D : Decoder σ α) : Around false (maybeEosDecoder D) D (·.inner) (fun _ => True) where
  idle := fun _ => rfl
  decode := fun {w} _ b e he => by
    refine ⟨trivial, .inr ⟨if !w.started && b.isEmpty && e.isReached then Eos.new false else e, ?_, ?_, ?_⟩⟩
    · split
      · exact .newFalse
      · exact he
    · simp only [maybeEosDecoder]
      cases D.decode w.inner b (if !w.started && b.isEmpty && e.isReached then Eos.new false else e) with
      | mk r s => cases r <;> rfl
    · intro n
      simp only [maybeEosDecoder]
      cases D.decode w.inner b (if !w.started && b.isEmpty && e.isReached then Eos.new false else e) with
      | mk r s => cases r <;> simp [Res.step]
  finish := fun {w} _ => by
    simp only [maybeEosDecoder]
    cases D.finish w.inner with
    | mk r s => cases r <;> simp [Res.step, Res.isOk]

theorem around_captured {ε : Type} (F : ε → Decoder σ α) (x : ε) :
    Around false (capturedDecoder F) (F x) (·.2) (fun w => w.1 = x) where
  idle := by rintro ⟨y, s⟩ rfl; rfl
  decode := by
    rintro ⟨y, s⟩ rfl b e he
    exact ⟨rfl, .inr ⟨e, he, rfl, fun _ => Iff.rfl⟩⟩
  finish := by
    rintro ⟨y, s⟩ rfl
    exact ⟨rfl, rfl, fun h => h⟩

theorem around_omittable (D : Decoder σ α) :
    Around false (omittableDecoder D) D (·.inner) (fun w => w.doOmit = false) where
  idle := by rintro ⟨s, o⟩ h; cases h; rfl
  decode := by
    rintro ⟨s, o⟩ h b e he
    cases h
    simp only [omittableDecoder, Bool.false_eq_true, if_false]
    cases hd : D.decode s b e with
    | mk r s' =>
      refine ⟨by cases r <;> rfl, .inr ⟨e, he, ?_, ?_⟩⟩
      · rw [hd]; cases r <;> rfl
      · rw [hd]; intro n; cases r <;> simp [Res.step]
  finish := by
    rintro ⟨s, o⟩ h
    cases h
    simp only [omittableDecoder, Bool.false_eq_true, if_false]
    cases D.finish s with
    | mk r s' => cases r <;> simp [Res.step, Res.isOk]

theorem around_maxBytes (D : Decoder σ α) : Around true (maxBytesDecoder D) D (·.inner) (fun _ => True) where
  idle := fun _ => rfl
  decode := fun {w} _ b e he => by
    refine ⟨trivial, ?_⟩
    have go : (Res.step (D.decode w.inner b e) (fun i => { w with inner := i }) fun size i =>
          ((.ok size, { w with inner := i, consumed := w.consumed + size }) : Res Nat × MaxBytesState σ)).2.inner =
          (D.decode w.inner b e).2 ∧
        ∀ n, (Res.step (D.decode w.inner b e) (fun i => { w with inner := i }) fun size i =>
          ((.ok size, { w with inner := i, consumed := w.consumed + size }) : Res Nat × MaxBytesState σ)).1 = .ok n ↔
          (D.decode w.inner b e).1 = .ok n := by
      cases D.decode w.inner b e with
      | mk r s => cases r <;> simp [Res.step]
    simp only [maxBytesDecoder]
    split
    · exact .inl ⟨trivial, rfl, rfl⟩
    · split
      · exact .inl ⟨trivial, rfl, rfl⟩
      · split
        · exact .inr ⟨e, he, go⟩
        · exact .inl ⟨trivial, rfl, rfl⟩
    · split
      · exact .inl ⟨trivial, rfl, rfl⟩
      · split
        · exact .inl ⟨trivial, rfl, rfl⟩
        · split
          · exact .inr ⟨e, he, go⟩
          · exact .inl ⟨trivial, rfl, rfl⟩
  finish := fun {w} _ => by
    simp only [maxBytesDecoder]
    cases D.finish w.inner with
    | mk r s => cases r <;> simp [Res.step, Res.isOk]

/-! ## Innermost decoders -/

theorem productive_remaining : Productive remainingBytesDecoder .new := by
  have inv : ∀ s, ReachItem remainingBytesDecoder .new s → s.eos = false := by
    intro s hs
    induction hs with
    | refl => rfl
    | @decode s b e _ _ _ hok ih =>
      revert hok
      simp only [remainingBytesDecoder, ih, Bool.false_eq_true, if_false]
      repeat' split
      all_goals simp [Res.isOk, ih]
    | @item s b e _ _ _ hok ih =>
      simp only [Bool.and_eq_true] at hok
      have h2 := hok.2
      simp only [remainingBytesDecoder] at h2 ⊢
      rw [if_pos h2]
    | @finish s _ hi ih => rw [show remainingBytesDecoder.isIdle s = s.eos from rfl, ih] at hi; cases hi
  intro s hs
  have hs := inv s hs
  constructor
  · intro hi
    rw [show remainingBytesDecoder.isIdle s = s.eos from rfl, hs] at hi; cases hi
  · intro b e hb _ _ h0 _
    have : 0 < b.length := List.length_pos_iff.2 hb
    revert h0
    simp only [remainingBytesDecoder, hs, Bool.false_eq_true, if_false]
    repeat' split
    all_goals simp
    all_goals (intro h; exact absurd h hb)

theorem productive_padding (x : Option UInt8) : Productive paddingDecoder (.new x) := by
  have inv : ∀ s, ReachItem paddingDecoder (.new x) s → s.eos = false := by
    intro s hs
    induction hs with
    | refl => rfl
    | @decode s b e _ _ _ hok ih =>
      revert hok
      simp only [paddingDecoder, ih, Bool.false_eq_true, if_false]
      repeat' split
      all_goals simp [Res.isOk, ih]
    | @item s b e _ _ _ hok ih =>
      simp only [Bool.and_eq_true] at hok
      have h2 := hok.2
      simp only [paddingDecoder] at h2 ⊢
      rw [if_pos h2]
    | @finish s _ hi ih => rw [show paddingDecoder.isIdle s = s.eos from rfl, ih] at hi; cases hi
  intro s hs
  have hs := inv s hs
  constructor
  · intro hi
    rw [show paddingDecoder.isIdle s = s.eos from rfl, hs] at hi; cases hi
  · intro b e hb _ _ h0 _
    have : 0 < b.length := List.length_pos_iff.2 hb
    revert h0
    simp only [paddingDecoder, hs, Bool.false_eq_true, if_false]
    repeat' split
    all_goals simp
    all_goals (intro h; exact absurd h hb)

theorem productive_bytes {b : Bytes} (hb : b ≠ []) : Productive bytesDecoder (.new b) := by
  have inv : ∀ s, ReachItem bytesDecoder (.new b) s → s.bytes = none ∨ ∃ c, s.bytes = some c ∧ s.offset < c.length := by
    intro s hs
    induction hs with
    | refl => exact .inr ⟨b, rfl, List.length_pos_iff.2 hb⟩
    | @decode s d e _ _ hi hok ih =>
      rcases ih with h | ⟨c, h, hlt⟩
      · simp only [bytesDecoder, h]
        exact .inl trivial
      · revert hok
        have hl : (splice c s.offset (d.take (min d.length (c.length - s.offset)))).length = c.length :=
          splice_length (by simp; omega)
        simp only [bytesDecoder, h]
        rw [if_neg (by omega)]
        split
        · rename_i hx
          intro _
          refine .inr ⟨_, rfl, ?_⟩
          simp only [BytesDecoderState.exact, hl] at hx ⊢
          omega
        · rename_i hx
          intro hok
          refine .inr ⟨_, rfl, ?_⟩
          simp only [Res.isOk, Bool.true_and, beq_eq_false_iff_ne, ne_eq, BytesDecoderState.exact, hl] at hok ⊢
          omega
    | @item s d e _ _ hi hok ih =>
      rcases ih with h | ⟨c, h, hlt⟩
      · have : bytesDecoder.isIdle s = true := by simp [bytesDecoder, BytesDecoderState.exact, h]
        rw [this] at hi; cases hi
      · simp only [Bool.and_eq_true] at hok
        have hx := hok.2
        have hsome : ∃ c', (bytesDecoder.decode s d e).2.bytes = some c' := by
          simp only [bytesDecoder, h]
          rw [if_neg (by omega)]
          split <;> exact ⟨_, rfl⟩
        generalize (bytesDecoder.decode s d e).2 = t at hx hsome
        obtain ⟨c', hc'⟩ := hsome
        left
        simp only [bytesDecoder, beq_iff_eq] at hx ⊢
        simp [hx, hc']
    | @finish s _ hi ih =>
      rcases ih with h | ⟨c, h, hlt⟩
      · left
        simp [bytesDecoder, BytesDecoderState.exact, h]
      · simp only [bytesDecoder, BytesDecoderState.exact, h, beq_iff_eq] at hi
        omega
  intro s hs
  rcases inv s hs with h | ⟨c, h, hlt⟩
  · constructor
    · intro _
      simp [bytesDecoder, BytesDecoderState.exact, h, Res.isOk]
    · intro d e _ _ hi
      simp [bytesDecoder, BytesDecoderState.exact, h] at hi
  · constructor
    · intro hi
      simp only [bytesDecoder, BytesDecoderState.exact, h, beq_iff_eq] at hi
      omega
    · intro d e hd _ _ h0
      have : 0 < d.length := List.length_pos_iff.2 hd
      revert h0
      simp only [bytesDecoder, h]
      rw [if_neg (by omega)]
      split
      · intro h0; cases h0
      · intro h0
        simp only [Res.ok.injEq] at h0
        omega

theorem follows_bytes (b : Bytes) : Follows bytesDecoder (.new b) := by
  by_cases hb : b = []
  · subst hb
    have inv : ∀ s, ReachItem bytesDecoder (.new []) s → bytesDecoder.isIdle s = true ∧ (s.bytes = none ∨ s.bytes = some []) := by
      intro s hs
      induction hs with
      | refl => exact ⟨rfl, .inr rfl⟩
      | decode b e _ _ hi _ ih => rw [ih.1] at hi; cases hi
      | item b e _ _ hi _ ih => rw [ih.1] at hi; cases hi
      | @finish s _ hi ih =>
        obtain ⟨_, h | h⟩ := ih <;> simp [bytesDecoder, BytesDecoderState.exact, h]
    intro s hs hi
    rw [(inv s hs).1] at hi
    cases hi
  · exact (productive_bytes hb).follows

theorem follows_null : Follows nullDecoder () := by
  intro s _ hi
  cases hi

theorem follows_omitted {D : Decoder σ α} {s₀ : σ} : Follows (omittableDecoder D) ⟨s₀, true⟩ := by
  have inv : ∀ s, ReachItem (omittableDecoder D) ⟨s₀, true⟩ s → s.doOmit = true := by
    intro s hs
    induction hs with
    | refl => rfl
    | decode b e _ _ hi _ ih => simp [omittableDecoder, ih] at hi
    | item b e _ _ hi _ ih => simp [omittableDecoder, ih] at hi
    | finish _ _ ih => simp [omittableDecoder, ih]
  intro s hs hi
  simp [omittableDecoder, inv s hs] at hi

/-! ## Collections -/

theorem collectLoop_done_le {D : Decoder σ α} {buf : Bytes} {e : Eos} : ∀ off s items x,
    collectLoop D buf e off s items = some x → ∀ o t l, x = .done o t l → buf.length ≤ o := by
  apply collectLoop.partial_correctness D buf e (motive := fun _ _ _ x => ∀ o t l, x = .done o t l → buf.length ≤ o)
  intro loop ih off s items x heq o t l hx
  subst hx
  split at heq
  · split at heq
    · cases heq
    · split at heq
      · exact ih _ _ _ _ heq _ _ _ rfl
      all_goals cases heq
  · cases heq; omega

theorem productive_collect (D : Decoder σ α) (s₀ : σ) : Productive (collectDecoder D) ⟨s₀, [], false⟩ := by
  have step : ∀ (s : CollectState σ α) b e, s.eos = false → ((collectDecoder D).decode s b e).2.eos = true →
      (((collectDecoder D).decode s b e).1.isOk = true ∧ ∃ n, ((collectDecoder D).decode s b e).1 = .ok n ∧ b.length ≤ n) := by
    intro s b e hs
    simp only [collectDecoder, hs, Bool.false_eq_true, if_false]
    cases hl : collectLoop D b e 0 s.inner s.items with
    | none => simp [hs]
    | some x =>
      cases x with
      | ret r i items => simp
      | done o i items =>
        intro _
        exact ⟨rfl, o, rfl, collectLoop_done_le _ _ _ _ hl _ _ _ rfl⟩
  have inv : ∀ s, ReachItem (collectDecoder D) ⟨s₀, [], false⟩ s → s.eos = false := by
    intro s hs
    induction hs with
    | refl => rfl
    | @decode s b e _ _ _ hok ih =>
      cases hc : ((collectDecoder D).decode s b e).2.eos with
      | false => rfl
      | true =>
        rw [(step s b e ih hc).1, show (collectDecoder D).isIdle ((collectDecoder D).decode s b e).2 =
          ((collectDecoder D).decode s b e).2.eos from rfl, hc] at hok
        cases hok
    | @item s b e _ _ _ hok ih =>
      simp only [Bool.and_eq_true] at hok
      have h2 := hok.2
      generalize ((collectDecoder D).decode s b e).2 = t at h2
      rw [show (collectDecoder D).isIdle t = t.eos from rfl] at h2
      simp only [collectDecoder, h2, if_true]
    | @finish s _ hi ih => rw [show (collectDecoder D).isIdle s = s.eos from rfl, ih] at hi; cases hi
  intro s hs
  have hs := inv s hs
  constructor
  · intro hi
    rw [show (collectDecoder D).isIdle s = s.eos from rfl, hs] at hi; cases hi
  · intro b e hb _ _ h0 hi
    have : 0 < b.length := List.length_pos_iff.2 hb
    obtain ⟨_, n, h1, h2⟩ := step s b e hs hi
    rw [h0] at h1
    cases h1
    omega

theorem tryDecode_next_le {D : Decoder σ α} {s s' : σ} {off o : Nat} {buf : Bytes} {e : Eos}
    (h : tryDecode D s off buf e = .next o s') : off ≤ o := by
  unfold tryDecode at h
  split at h
  · cases h; omega
  · split at h
    · cases h
    · split at h
      · split at h
        · cases h; omega
        · cases h
      all_goals cases h

/-- Where the loop of `collectn` stops. -/
theorem collectNLoop_le {D : Decoder σ α} {buf : Bytes} {e : Eos} : ∀ n off s items,
    (∀ o t l n', collectNLoop D buf e n off s items = .done o t l n' → off ≤ o) ∧
    (∀ r t l n', collectNLoop D buf e n off s items = .ret r t l n' → n' ≠ 0) := by
  intro n
  induction n with
  | zero =>
    intro off s items
    constructor
    · intro o t l n' h; cases h; omega
    · intro r t l n' h; cases h
  | succ n ih =>
    intro off s items
    simp only [collectNLoop]
    split
    · split
      · constructor
        · intro o t l n' h; cases h
        · intro r t l n' h; cases h; omega
      · rename_i o' s' ht
        have hle := tryDecode_next_le ht
        split
        · constructor
          · intro o t l n' h
            have := (ih _ _ _).1 _ _ _ _ h
            omega
          · intro r t l n' h
            exact (ih _ _ _).2 _ _ _ _ h
        all_goals (constructor <;> intro _ _ _ _ h <;> cases h <;> omega)
    · constructor
      · intro o t l n' h; cases h; omega
      · intro r t l n' h; cases h

theorem follows_collectN {D : Decoder σ α} {s₀ : σ} (hp : Productive D s₀) (n : Nat) :
    Follows (collectNDecoder D) (.new s₀ n) := by
  have inv : ∀ s, ReachItem (collectNDecoder D) (.new s₀ n) s → ReachItem D s₀ s.inner := by
    have hdec : ∀ (s : CollectNState σ α) b e, ReachItem D s₀ s.inner → EosSane e b.length →
        ReachItem D s₀ ((collectNDecoder D).decode s b e).2.inner := by
      intro s b e hs he
      have := collectNLoop_reachItem he s.remaining 0 s.inner s.items hs
      simp only [collectNDecoder]
      cases hl : collectNLoop D b e s.remaining 0 s.inner s.items with
      | done o t l k => rw [hl] at this; dsimp only; split <;> exact this
      | ret r t l k => rw [hl] at this; exact this
    have hfin : ∀ (s : CollectNState σ α), ((collectNDecoder D).finish s).2.inner = s.inner := by
      intro s
      simp only [collectNDecoder]
      split <;> rfl
    intro s hs
    induction hs with
    | refl => exact .refl
    | decode b e _ he _ _ ih => exact hdec _ b e ih he
    | item b e _ he _ _ ih => rw [hfin]; exact hdec _ b e ih he
    | finish _ _ ih => rw [hfin]; exact ih
  have fails : ∀ (s : CollectNState σ α) b e, ((collectNDecoder D).decode s b e).1.isOk = false →
      ((collectNDecoder D).decode s b e).2.remaining ≠ 0 := by
    intro s b e
    simp only [collectNDecoder]
    cases hl : collectNLoop D b e s.remaining 0 s.inner s.items with
    | done o t l k =>
      dsimp only
      split
      · rename_i hk; intro _; exact hk.1
      · intro h; cases h
    | ret r t l k => intro _; exact (collectNLoop_le _ _ _ _).2 _ _ _ _ hl
  have late : ∀ (s : CollectNState σ α), ReachItem D s₀ s.inner → s.remaining ≠ 0 → Late (collectNDecoder D) s := by
    intro s hs hr b e hb he h0 hi
    exfalso
    have hlen : 0 < b.length := List.length_pos_iff.2 hb
    rw [show (collectNDecoder D).isIdle ((collectNDecoder D).decode s b e).2 =
      (((collectNDecoder D).decode s b e).2.remaining == 0) from rfl, beq_iff_eq] at hi
    obtain ⟨i, k, items⟩ := s
    cases k with
    | zero => exact hr rfl
    | succ k =>
      revert h0 hi
      simp only [collectNDecoder, collectNLoop, if_pos hlen]
      cases ht : tryDecode D i 0 b e with
      | ret r t => intro _ h; cases h
      | next o t =>
        dsimp only
        cases hf : D.finish t with
        | mk r t' =>
          cases r with
          | ok x =>
            have hmv := productive_moves hp hs he hlen ht (by rw [hf]; rfl)
            dsimp only
            cases hl : collectNLoop D b e k o t' (items ++ [x]) with
            | done o' u l k' =>
              have := (collectNLoop_le _ _ _ _).1 _ _ _ _ hl
              dsimp only
              split
              · intro h; cases h
              · intro h; cases h; omega
            | ret r u l k' =>
              intro _ h
              exact absurd h ((collectNLoop_le _ _ _ _).2 _ _ _ _ hl)
          | _ => intro h; cases h
  intro s hs hi b e he
  constructor
  · intro hok hi'
    rw [show (collectNDecoder D).isIdle ((collectNDecoder D).decode s b e).2 =
      (((collectNDecoder D).decode s b e).2.remaining == 0) from rfl, beq_iff_eq] at hi'
    exact absurd hi' (fails s b e hok)
  · intro hi'
    refine late _ (inv _ (hs.decode b e he hi (by rw [hi', Bool.and_false]))) ?_
    rw [show (collectNDecoder D).isIdle ((collectNDecoder D).decode s b e).2 =
      (((collectNDecoder D).decode s b e).2.remaining == 0) from rfl, beq_eq_false_iff_ne] at hi'
    exact hi'

/-! ## `peekable` -/

theorem productive_peekable {D : Decoder σ α} {s₀ : σ} (hst : IdleStable D s₀) (hp : Productive D s₀) :
    Productive (peekableDecoder D) ⟨s₀, none⟩ := by
  have inv : ∀ s, ReachItem (peekableDecoder D) ⟨s₀, none⟩ s → s.item = none ∧ ReachItem D s₀ s.inner := by
    have hdec : ∀ (s : PeekState σ α) b e, s.item = none → ReachItem D s₀ s.inner → EosSane e b.length →
        ReachItem D s₀ ((peekableDecoder D).decode s b e).2.inner ∧
        (((peekableDecoder D).decode s b e).1.isOk = false → ((peekableDecoder D).decode s b e).2.item = none) := by
      intro s b e h1 h2 he
      simp only [peekableDecoder, h1, Option.isNone_none, if_true]
      cases hi : D.isIdle s.inner with
      | true =>
        have hsame := (hst _ h2.reach hi b e he).1
        cases hd : D.decode s.inner b e with
        | mk r i =>
          rw [hd] at hsame
          dsimp only at hsame
          subst hsame
          cases r with
          | ok n =>
            simp only [Res.step, hi, if_true]
            have := h2.finish hi
            cases hf : D.finish s.inner with
            | mk r' i' =>
              rw [hf] at this
              cases r' <;> simp [Res.isOk, h1, this]
          | _ => simp [Res.step, h1, h2]
      | false =>
        have hd1 := h2.decode b e he hi
        have hd2 := h2.item b e he hi
        cases hd : D.decode s.inner b e with
        | mk r i =>
          rw [hd] at hd1 hd2
          cases r with
          | ok n =>
            simp only [Res.step]
            cases hi' : D.isIdle i with
            | true =>
              simp only [if_true]
              have := hd2 (by simp [Res.isOk, hi'])
              dsimp only at this
              cases hf : D.finish i with
              | mk r' i' =>
                rw [hf] at this
                cases r' <;> simp [Res.isOk, h1, this]
            | false =>
              have := hd1 (by simp [hi'])
              simp [h1, this]
          | _ =>
            have := hd1 (by simp [Res.isOk])
            simp [Res.step, h1, this]
    have hfin : ∀ (s : PeekState σ α), ((peekableDecoder D).finish s).2.inner = s.inner ∧
        ((peekableDecoder D).finish s).2.item = none := by
      rintro ⟨i, it⟩
      cases it <;> exact ⟨rfl, rfl⟩
    intro s hs
    induction hs with
    | refl => exact ⟨rfl, .refl⟩
    | @decode s b e _ he _ hok ih =>
      obtain ⟨h1, h2⟩ := hdec s b e ih.1 ih.2 he
      refine ⟨?_, h1⟩
      simp only [Bool.and_eq_false_iff] at hok
      rcases hok with hok | hok
      · exact h2 hok
      · simpa [peekableDecoder] using hok
    | @item s b e _ he _ _ ih => exact ⟨(hfin _).2, by rw [(hfin _).1]; exact (hdec s b e ih.1 ih.2 he).1⟩
    | @finish s _ _ ih => exact ⟨(hfin _).2, by rw [(hfin _).1]; exact ih.2⟩
  intro s hs
  obtain ⟨h1, h2⟩ := inv s hs
  constructor
  · intro hi
    simp [peekableDecoder, h1] at hi
  · intro b e hb he _ h0 hi
    exfalso
    obtain ⟨hp1, hp2⟩ := hp _ h2
    revert h0 hi
    simp only [peekableDecoder, h1, Option.isNone_none, if_true]
    have key : (D.decode s.inner b e).1 = .ok 0 → D.isIdle (D.decode s.inner b e).2 = true →
        (D.finish (D.decode s.inner b e).2).1.isOk = false := by
      cases hi : D.isIdle s.inner with
      | true =>
        rw [(hst _ h2.reach hi b e he).1]
        exact fun _ _ => hp1 hi
      | false => exact hp2 b e hb he hi
    cases hd : D.decode s.inner b e with
    | mk r i =>
      rw [hd] at key
      cases r with
      | ok n =>
        simp only [Res.step]
        cases hi' : D.isIdle i with
        | true =>
          simp only [if_true]
          cases hf : D.finish i with
          | mk r' i' =>
            cases r' with
            | ok x =>
              intro h0 _
              cases h0
              have := key rfl hi'
              rw [hf] at this
              cases this
            | _ => intro h0; cases h0
        | false =>
          intro _ hi2
          simp [h1] at hi2
      | _ => intro h0; cases h0

/-! ## `length` -/

theorem productive_length {D : Decoder σ α} {s₀ : σ} {n : Nat} (hn : 0 < n) (hlt : n < 2 ^ 64) (hsafe : SafeFrom D s₀)
    (hes : EosStrict D s₀) : Productive (lengthDecoder D) (.new s₀ n) := by
  have hdec : ∀ (s : LengthState σ) b e, Reach D s₀ s.inner → s.remaining < 2 ^ 64 → 0 < s.remaining →
      ((lengthDecoder D).decode s b e).2.remaining = 0 →
      ((lengthDecoder D).decode s b e).1.isOk = true ∧ (lengthDecoder D).isIdle ((lengthDecoder D).decode s b e).2 = true ∧
        ((lengthDecoder D).decode s b e).1 ≠ .ok 0 := by
    intro s b e hr hl h0
    have hsf := ((hsafe _ hr).1 (b.take (min b.length s.remaining))
      (Eos.withRemainingBytes (.finite (s.remaining - min b.length s.remaining))) (by
        intro n hn; simp [Eos.withRemainingBytes] at hn; simp; omega)).2
    have hst := hes _ hr (b.take (min b.length s.remaining))
    have go : ∀ (x : Res Nat × LengthState σ),
        x = Res.step (D.decode s.inner (b.take (min b.length s.remaining))
          (Eos.withRemainingBytes (.finite (s.remaining - min b.length s.remaining))))
          (fun i => { s with inner := i }) (fun size i =>
            if s.remaining < size then (.panic, { s with inner := i })
            else (.ok size, { s with inner := i, remaining := s.remaining - size })) →
        x.2.remaining = 0 → x.1.isOk = true ∧ D.isIdle x.2.inner = true ∧ x.1 ≠ .ok 0 := by
      intro x hx hz
      cases hd : D.decode s.inner (b.take (min b.length s.remaining))
          (Eos.withRemainingBytes (.finite (s.remaining - min b.length s.remaining))) with
      | mk r i =>
        rw [hd] at hx hsf
        cases r with
        | ok k =>
          have hk := hsf k rfl
          rw [List.length_take] at hk
          simp only [Res.step] at hx
          rw [if_neg (by omega)] at hx
          subst hx
          dsimp only at hz
          have hreq : s.remaining - min b.length s.remaining = 0 := by omega
          rw [hreq] at hd
          refine ⟨rfl, hst k i (by rw [List.length_take]; omega) hd, ?_⟩
          intro h
          cases h
          omega
        | _ => subst hx; simp only [Res.step] at hz; omega
    simp only [lengthDecoder]
    intro hz
    split at hz
    · split at hz
      · dsimp only at hz; omega
      · split at hz
        · dsimp only at hz; omega
        · rename_i h1 h2 h3
          rw [if_neg h2, if_neg h3]
          exact go _ rfl hz
    · exact go _ rfl hz
  have inv : ∀ s, ReachItem (lengthDecoder D) (.new s₀ n) s → 0 < s.remaining := by
    have hfin : ∀ (s : LengthState σ), s.expected = n → 0 < ((lengthDecoder D).finish s).2.remaining := by
      intro s hx
      simp only [lengthDecoder]
      split
      · cases D.finish s.inner with
        | mk r i => cases r <;> simp only [Res.step] <;> omega
      · dsimp only; omega
    intro s hs
    induction hs with
    | refl => exact hn
    | @decode s b e hs he _ hok ih =>
      obtain ⟨h1, h2, h3⟩ := reach_length (s₀ := .new s₀ n) hlt hlt hs.reach
      rcases Nat.eq_zero_or_pos ((lengthDecoder D).decode s b e).2.remaining with h | h
      · obtain ⟨h4, h5, _⟩ := hdec s b e h1 h2 ih h
        rw [h4, h5] at hok
        cases hok
      · exact h
    | @item s b e hs he _ hok ih =>
      obtain ⟨h1, h2, h3⟩ := reach_length (s₀ := .new s₀ n) hlt hlt (hs.reach.decode b e he)
      exact hfin _ h3
    | @finish s hs _ ih =>
      obtain ⟨h1, h2, h3⟩ := reach_length (s₀ := .new s₀ n) hlt hlt hs.reach
      exact hfin _ h3
  have refuse : ∀ (s : LengthState σ), s.remaining ≠ 0 → ((lengthDecoder D).finish s).1.isOk = false := by
    intro s h
    simp only [lengthDecoder, if_neg h]
    rfl
  intro s hs
  have h0 := inv s hs
  obtain ⟨h1, h2, h3⟩ := reach_length (s₀ := .new s₀ n) hlt hlt hs.reach
  refine ⟨fun _ => refuse s (by omega), fun b e hb he _ hk _ => refuse _ ?_⟩
  intro hz
  exact (hdec s b e h1 h2 h0 hz).2.2 hk

theorem EmptyFrames.reach {D : Decoder σ α} {s₀ s : σ} (h : EmptyFrames D s₀ s) : Reach D s₀ s := by
  induction h with
  | refl => exact .refl
  | frame _ _ ih => exact (ih.decode [] (Eos.new true) (by intro n hn; simp [Eos.new] at hn; simp; omega)).finish
  | finish _ _ ih => exact ih.finish

theorem follows_length {D : Decoder σ α} {s₀ : σ} {n : Nat} (hlt : n < 2 ^ 64) (hsafe : SafeFrom D s₀)
    (hes : EosStrict D s₀) (hc : Closes D s₀) : Follows (lengthDecoder D) (.new s₀ n) := by
  rcases Nat.eq_zero_or_pos n with h0 | h0
  · subst h0
    have hdec : ∀ (s : LengthState σ) b e, s.remaining = 0 → EmptyFrames D s₀ s.inner → D.isIdle s.inner = false →
        EosSane e b.length → (lengthDecoder D).decode s b e =
          (.ok 0, { s with inner := (D.decode s.inner [] (Eos.new true)).2 }) := by
      intro s b e hr hs hi he
      obtain ⟨h1, h2⟩ := hc _ hs hi
      have h3 := ((hsafe _ (EmptyFrames.reach hs)).1 [] (Eos.new true) (by intro n hn; simp [Eos.new] at hn; simp; omega)).2
      have go : Res.step (D.decode s.inner (b.take (min b.length s.remaining))
          (Eos.withRemainingBytes (.finite (s.remaining - min b.length s.remaining))))
          (fun i => { s with inner := i }) (fun size i =>
            if s.remaining < size then (.panic, { s with inner := i })
            else (.ok size, { s with inner := i, remaining := s.remaining - size })) =
          ((.ok 0, { s with inner := (D.decode s.inner [] (Eos.new true)).2 }) : Res Nat × LengthState σ) := by
        simp only [hr, Nat.min_zero, List.take_zero, Nat.sub_self]
        rw [show Eos.withRemainingBytes (.finite 0) = Eos.new true from rfl]
        cases hd : D.decode s.inner [] (Eos.new true) with
        | mk r i =>
          rw [hd] at h1 h3
          cases r with
          | ok k =>
            have := h3 k rfl
            simp only [List.length_nil, Nat.le_zero] at this
            subst this
            simp [Res.step, hr]
          | _ => cases h1
      simp only [lengthDecoder]
      split
      · rename_i m hm
        have : e.remainingBytes = .finite m := by
          revert hm
          cases e.remainingBytes <;> simp [ByteCount.toU64]
        have := he m this
        rw [if_neg (by omega), if_neg (by omega)]
        exact go
      · exact go
    have hfin : ∀ (s : LengthState σ), s.remaining = 0 → s.expected = 0 →
        ((lengthDecoder D).finish s).2 = { s with inner := (D.finish s.inner).2 } := by
      rintro ⟨i, x, r⟩ h1 h2
      cases h1; cases h2
      simp only [lengthDecoder, if_true]
      cases D.finish i with
      | mk r i => cases r <;> rfl
    have inv : ∀ s, ReachItem (lengthDecoder D) (.new s₀ 0) s →
        s.remaining = 0 ∧ s.expected = 0 ∧ EmptyFrames D s₀ s.inner := by
      intro s hs
      induction hs with
      | refl => exact ⟨rfl, rfl, .refl⟩
      | @decode s b e _ he hi hok ih =>
        obtain ⟨h1, h2, h3⟩ := ih
        rw [hdec s b e h1 h3 hi he] at hok
        have := (hc _ h3 hi).2
        simp only [Res.isOk, Bool.true_and] at hok
        rw [show (lengthDecoder D).isIdle { s with inner := (D.decode s.inner [] (Eos.new true)).2 } =
          D.isIdle (D.decode s.inner [] (Eos.new true)).2 from rfl, this] at hok
        cases hok
      | @item s b e _ he hi hok ih =>
        obtain ⟨h1, h2, h3⟩ := ih
        rw [hdec s b e h1 h3 hi he, hfin { s with inner := (D.decode s.inner [] (Eos.new true)).2 } h1 h2]
        exact ⟨h1, h2, h3.frame hi⟩
      | @finish s _ hi ih =>
        obtain ⟨h1, h2, h3⟩ := ih
        rw [hfin _ h1 h2]
        exact ⟨h1, h2, h3.finish hi⟩
    intro s hs hi b e he
    obtain ⟨h1, h2, h3⟩ := inv s hs
    rw [hdec s b e h1 h3 hi he]
    refine ⟨fun h => absurd h (by simp [Res.isOk]), fun h => ?_⟩
    rw [show (lengthDecoder D).isIdle { s with inner := (D.decode s.inner [] (Eos.new true)).2 } =
      D.isIdle (D.decode s.inner [] (Eos.new true)).2 from rfl, (hc _ h3 hi).2] at h
    cases h
  · exact (productive_length h0 hlt hsafe hes).follows

/-! ## Sequences -/

/-- No item is obtained from here without taking a byte. -/
def Spent (D : Decoder σ α) (s : σ) : Prop :=
  (D.isIdle s = true → (D.finish s).1.isOk = false) ∧ (D.isIdle s = false → Late D s)

theorem Spec.Productive.spent {D : Decoder σ α} {s₀ s : σ} (h : Productive D s₀) (hs : ReachItem D s₀ s) : Spent D s :=
  ⟨(h s hs).1, fun hi b e hb he => (h s hs).2 b e hb he hi⟩

/-- Reached item by item, or complete and about to be taken. -/
def Ready (D : Decoder σ α) (s₀ s : σ) : Prop :=
  ReachItem D s₀ s ∨ (D.isIdle s = true ∧ ReachItem D s₀ (D.finish s).2)

theorem Ready.taken {D : Decoder σ α} {s₀ s : σ} (h : Ready D s₀ s) (hi : D.isIdle s = true) :
    ReachItem D s₀ (D.finish s).2 := by
  rcases h with h | ⟨_, h⟩
  · exact h.finish hi
  · exact h

theorem Ready.going {D : Decoder σ α} {s₀ s : σ} (h : Ready D s₀ s) (hi : D.isIdle s = false) : ReachItem D s₀ s := by
  rcases h with h | ⟨h, _⟩
  · exact h
  · rw [hi] at h; cases h

/-- The outcomes of one part of a sequence. -/
theorem tryDecode_kinds (D : Decoder σ α) (s : σ) {off : Nat} {buf : Bytes} (e : Eos) (hl : off ≤ buf.length) :
    (D.isIdle s = true ∧ tryDecode D s off buf e = .next off s) ∨
    (D.isIdle s = false ∧ ∃ k s', D.decode s (buf.drop off) e = (.ok k, s') ∧ D.isIdle s' = true ∧
      tryDecode D s off buf e = .next (off + k) s') ∨
    (D.isIdle s = false ∧ ∃ r s', D.decode s (buf.drop off) e = (r, s') ∧ (r.isOk && D.isIdle s') = false ∧
      ∃ r', tryDecode D s off buf e = .ret r' s' ∧ r'.isOk = r.isOk) := by
  unfold tryDecode
  cases hi : D.isIdle s with
  | true => exact .inl ⟨rfl, by simp⟩
  | false =>
    right
    simp only [Bool.false_eq_true, if_false, if_neg (Nat.not_lt.2 hl)]
    cases hd : D.decode s (buf.drop off) e with
    | mk r s' =>
      cases r with
      | ok k =>
        cases hi' : D.isIdle s' with
        | true => exact .inl ⟨trivial, k, s', rfl, hi', by simp [hi']⟩
        | false => exact .inr ⟨trivial, _, s', rfl, by simp [hi'], .ok (off + k), by simp [hi'], rfl⟩
      | _ => exact .inr ⟨trivial, _, s', rfl, rfl, _, rfl, rfl⟩

theorem tryDecode_ready {D : Decoder σ α} {s₀ s : σ} {off : Nat} {buf : Bytes} {e : Eos} (h : Ready D s₀ s)
    (he : EosSane e buf.length) (hl : off ≤ buf.length) :
    (∀ o s', tryDecode D s off buf e = .next o s' → D.isIdle s' = true ∧ Ready D s₀ s') ∧
    (∀ r s', tryDecode D s off buf e = .ret r s' → ReachItem D s₀ s' ∧ (r.isOk && D.isIdle s') = false ∧
      (Follows D s₀ → Spent D s')) := by
  rcases tryDecode_kinds D s e hl with ⟨hi, ht⟩ | ⟨hi, k, s', hd, hi', ht⟩ | ⟨hi, r, s', hd, hok, r', ht, hr⟩
  · refine ⟨?_, ?_⟩
    · intro o t hx; rw [ht] at hx; cases hx; exact ⟨hi, h⟩
    · intro r t hx; rw [ht] at hx; cases hx
  · refine ⟨?_, ?_⟩
    · intro o t hx
      rw [ht] at hx; cases hx
      have := (h.going hi).item (buf.drop off) e he.drop hi (by rw [hd]; simp [Res.isOk, hi'])
      rw [hd] at this
      exact ⟨hi', .inr ⟨hi', this⟩⟩
    · intro r t hx; rw [ht] at hx; cases hx
  · refine ⟨?_, ?_⟩
    · intro o t hx; rw [ht] at hx; cases hx
    · intro r2 t hx
      rw [ht] at hx; cases hx
      have := (h.going hi).decode (buf.drop off) e he.drop hi (by rw [hd]; exact hok)
      rw [hd] at this
      refine ⟨this, by rw [hr]; exact hok, fun hf => ?_⟩
      have hf := hf _ (h.going hi) hi (buf.drop off) e he.drop
      rw [hd] at hf
      refine ⟨fun hi' => hf.1 ?_ hi', hf.2⟩
      dsimp only
      rw [hi', Bool.and_true] at hok
      exact hok

theorem tryDecode_within {D : Decoder σ α} {s₀ s s' : σ} {off o : Nat} {buf : Bytes} {e : Eos} (hsafe : SafeFrom D s₀)
    (hr : Reach D s₀ s) (he : EosSane e buf.length) (hl : off ≤ buf.length) (ht : tryDecode D s off buf e = .next o s') :
    o ≤ buf.length := by
  rcases tryDecode_kinds D s e hl with ⟨hi, ht'⟩ | ⟨hi, k, s', hd, hi', ht'⟩ | ⟨hi, r, s', hd, hok, r', ht', hr⟩
  · rw [ht'] at ht; cases ht; exact hl
  · rw [ht'] at ht; cases ht
    have := ((hsafe _ hr).1 (buf.drop off) e he.drop).2 k (by rw [hd])
    rw [List.length_drop] at this
    omega
  · rw [ht'] at ht; cases ht

/-- A part from which nothing comes without a byte: neither from its next call. -/
theorem Spent.next {D : Decoder σ α} {s s' : σ} {buf : Bytes} {e : Eos} (h : Spent D s) (hb : buf ≠ [])
    (he : EosSane e buf.length) (ht : tryDecode D s 0 buf e = .next 0 s') : (D.finish s').1.isOk = false := by
  rcases tryDecode_kinds D s e (Nat.zero_le buf.length) with ⟨hi, ht'⟩ | ⟨hi, k, s', hd, hi', ht'⟩ | ⟨hi, r, s', hd, hok, r', ht', hr⟩
  · rw [ht'] at ht; cases ht; exact h.1 hi
  · rw [ht'] at ht
    simp only [Nat.zero_add, Flow.next.injEq] at ht
    obtain ⟨rfl, rfl⟩ := ht
    have := h.2 hi buf e hb he
    rw [List.drop_zero] at hd
    rw [hd] at this
    exact this rfl hi'
  · rw [ht'] at ht; cases ht

section
variable {σ0 α0 σ1 α1 : Type} {D0 : Decoder σ0 α0} {D1 : Decoder σ1 α1}

theorem pair_finish_fails {s : σ0 × σ1} (h : (D0.finish s.1).1.isOk = false ∨ (D1.finish s.2).1.isOk = false) :
    ((tupleDecoder2 D0 D1).finish s).1.isOk = false := by
  simp only [tupleDecoder2]
  cases h0 : D0.finish s.1 with
  | mk r t =>
    rw [h0] at h
    cases r with
    | ok x =>
      rcases h with h | h
      · cases h
      · simp only [Res.step]
        cases h1 : D1.finish s.2 with
        | mk r' t' => rw [h1] at h; cases r' <;> first | rfl | cases h
    | _ => rfl

theorem Spent.pair {s : σ0 × σ1} (h : Spent D0 s.1 ∨ Spent D1 s.2) : Spent (tupleDecoder2 D0 D1) s := by
  constructor
  · intro hi
    simp only [tupleDecoder2, Bool.and_eq_true] at hi
    exact pair_finish_fails (h.imp (fun h => h.1 hi.1) (fun h => h.1 hi.2))
  · intro _ b e hb he h0 hi
    have hlen : 0 < b.length := List.length_pos_iff.2 hb
    revert h0 hi
    simp only [tupleDecoder2]
    cases ht : tryDecode D0 s.1 0 b e with
    | ret r t =>
      intro h0 hi
      dsimp only at h0 hi
      rcases tryDecode_kinds D0 s.1 e (Nat.zero_le b.length) with ⟨_, ht'⟩ | ⟨_, _, _, _, _, ht'⟩ | ⟨_, r2, t', _, hok, r', ht', hr⟩
      · rw [ht] at ht'; cases ht'
      · rw [ht] at ht'; cases ht'
      · rw [ht] at ht'; cases ht'
        subst h0
        simp only [Bool.and_eq_true] at hi
        rw [← hr, hi.1] at hok
        cases hok
    | next o t =>
      dsimp only
      cases ht1 : tryDecode D1 s.2 o b e with
      | ret r t1 =>
        intro h0 hi
        dsimp only at h0 hi
        rcases Nat.lt_or_ge b.length o with hlt | hge
        · have : tryDecode D1 s.2 o b e = .ret .panic s.2 ∨ tryDecode D1 s.2 o b e = .next o s.2 := by
            unfold tryDecode
            split
            · exact .inr rfl
            · exact .inl rfl
          rcases this with h | h <;> rw [ht1] at h <;> cases h
          cases h0
        rcases tryDecode_kinds D1 s.2 e hge with ⟨_, ht'⟩ | ⟨_, _, _, _, _, ht'⟩ | ⟨_, r2, t', _, hok, r', ht', hr⟩
        · rw [ht1] at ht'; cases ht'
        · rw [ht1] at ht'; cases ht'
        · rw [ht1] at ht'; cases ht'
          subst h0
          simp only [Bool.and_eq_true] at hi
          rw [← hr, hi.2] at hok
          cases hok
      | next o1 t1 =>
        intro h0 _
        simp only [Res.ok.injEq] at h0
        subst h0
        have := tryDecode_next_le ht1
        have : o = 0 := by omega
        subst this
        exact pair_finish_fails (s := (t, t1)) (h.imp (fun h => h.next hb he ht) (fun h => h.next hb he ht1))

/-- How a pair is decoded: both parts are used item by item. -/
theorem pair_ready {s₀ : σ0 × σ1} {s : σ0 × σ1} (hsafe : SafeFrom D0 s₀.1) (hs : ReachItem (tupleDecoder2 D0 D1) s₀ s) :
    Ready D0 s₀.1 s.1 ∧ Ready D1 s₀.2 s.2 := by
  have hfin : ∀ s : σ0 × σ1, (tupleDecoder2 D0 D1).isIdle s = true → Ready D0 s₀.1 s.1 → Ready D1 s₀.2 s.2 →
      Ready D0 s₀.1 ((tupleDecoder2 D0 D1).finish s).2.1 ∧ Ready D1 s₀.2 ((tupleDecoder2 D0 D1).finish s).2.2 := by
    intro s hi h0 h1
    simp only [tupleDecoder2, Bool.and_eq_true] at hi
    have h2 := h0.taken hi.1
    have h3 := h1.taken hi.2
    simp only [tupleDecoder2]
    cases hf0 : D0.finish s.1 with
    | mk r t =>
      rw [hf0] at h2
      cases r with
      | ok x =>
        simp only [Res.step]
        cases hf1 : D1.finish s.2 with
        | mk r' t' =>
          rw [hf1] at h3
          cases r' <;> exact ⟨.inl h2, .inl h3⟩
      | _ => exact ⟨.inl h2, h1⟩
  have hdec : ∀ (s : σ0 × σ1) b e, EosSane e b.length → Reach D0 s₀.1 s.1 → Ready D0 s₀.1 s.1 → Ready D1 s₀.2 s.2 →
      Ready D0 s₀.1 ((tupleDecoder2 D0 D1).decode s b e).2.1 ∧ Ready D1 s₀.2 ((tupleDecoder2 D0 D1).decode s b e).2.2 := by
    intro s b e he hr h0 h1
    simp only [tupleDecoder2]
    have t0 := tryDecode_ready h0 he (Nat.zero_le b.length)
    cases ht : tryDecode D0 s.1 0 b e with
    | ret r t => exact ⟨.inl (t0.2 _ _ ht).1, h1⟩
    | next o t =>
      have t1 := tryDecode_ready h1 he (tryDecode_within hsafe hr he (Nat.zero_le _) ht)
      dsimp only
      cases ht1 : tryDecode D1 s.2 o b e with
      | ret r t' => exact ⟨(t0.1 _ _ ht).2, .inl (t1.2 _ _ ht1).1⟩
      | next o' t' => exact ⟨(t0.1 _ _ ht).2, (t1.1 _ _ ht1).2⟩
  induction hs with
  | refl => exact ⟨.inl .refl, .inl .refl⟩
  | @decode s b e hs he _ _ ih => exact hdec s b e he (reach_pair hs.reach).1 ih.1 ih.2
  | @item s b e hs he _ hok ih =>
    obtain ⟨h1, h2⟩ := hdec s b e he (reach_pair hs.reach).1 ih.1 ih.2
    simp only [Bool.and_eq_true] at hok
    exact hfin _ hok.2 h1 h2
  | @finish s hs hi ih => exact hfin s hi ih.1 ih.2

/-- A call of `decode` of a pair that does not complete the item stops in one of its parts. -/
theorem pair_stops {s₀ : σ0 × σ1} {s : σ0 × σ1} (hsafe : SafeFrom D0 s₀.1) (hs : ReachItem (tupleDecoder2 D0 D1) s₀ s)
    {b : Bytes} {e : Eos} (he : EosSane e b.length)
    (hok : (((tupleDecoder2 D0 D1).decode s b e).1.isOk &&
      (tupleDecoder2 D0 D1).isIdle ((tupleDecoder2 D0 D1).decode s b e).2) = false) :
    (ReachItem D0 s₀.1 ((tupleDecoder2 D0 D1).decode s b e).2.1 ∧
      (Follows D0 s₀.1 → Spent D0 ((tupleDecoder2 D0 D1).decode s b e).2.1)) ∨
    (Follows D1 s₀.2 → Spent D1 ((tupleDecoder2 D0 D1).decode s b e).2.2) := by
  obtain ⟨h0, h1⟩ := pair_ready hsafe hs
  have hr := (reach_pair hs.reach).1
  revert hok
  simp only [tupleDecoder2]
  have t0 := tryDecode_ready h0 he (Nat.zero_le b.length)
  cases ht : tryDecode D0 s.1 0 b e with
  | ret r t => intro _; exact .inl ⟨(t0.2 _ _ ht).1, (t0.2 _ _ ht).2.2⟩
  | next o t =>
    have t1 := tryDecode_ready h1 he (tryDecode_within hsafe hr he (Nat.zero_le _) ht)
    dsimp only
    cases ht1 : tryDecode D1 s.2 o b e with
    | ret r t' => intro _; exact .inr (t1.2 _ _ ht1).2.2
    | next o' t' =>
      intro hok
      dsimp only at hok
      rw [(t0.1 _ _ ht).1, (t1.1 _ _ ht1).1] at hok
      cases hok

theorem productive_pair {s0 : σ0} {s1 : σ1} (hsafe : SafeFrom D0 s0) (hp : Productive D0 s0) (hf : Follows D1 s1) :
    Productive (tupleDecoder2 D0 D1) (s0, s1) := by
  have inv : ∀ s, ReachItem (tupleDecoder2 D0 D1) (s0, s1) s → ReachItem D0 s0 s.1 ∨ Spent D1 s.2 := by
    have hfin : ∀ s : σ0 × σ1, (tupleDecoder2 D0 D1).isIdle s = true → Ready D0 s0 s.1 →
        ReachItem D0 s0 ((tupleDecoder2 D0 D1).finish s).2.1 := by
      intro s hi h0
      simp only [tupleDecoder2, Bool.and_eq_true] at hi
      have h2 := h0.taken hi.1
      simp only [tupleDecoder2]
      cases hf0 : D0.finish s.1 with
      | mk r t =>
        rw [hf0] at h2
        cases r with
        | ok x =>
          simp only [Res.step]
          cases D1.finish s.2 with
          | mk r' t' => cases r' <;> exact h2
        | _ => exact h2
    intro s hs
    cases hs with
    | refl => exact .inl .refl
    | decode b e hs he hi hok => exact (pair_stops hsafe hs he hok).imp (·.1) (· hf)
    | @item s b e hs he hi hok =>
      left
      have hok2 := hok
      simp only [Bool.and_eq_true] at hok2
      refine hfin _ hok2.2 ?_
      obtain ⟨h0, h1⟩ := pair_ready hsafe hs
      have t0 := tryDecode_ready h0 he (Nat.zero_le b.length)
      simp only [tupleDecoder2]
      cases ht : tryDecode D0 s.1 0 b e with
      | ret r t => exact .inl (t0.2 _ _ ht).1
      | next o t =>
        dsimp only
        cases tryDecode D1 s.2 o b e <;> exact (t0.1 _ _ ht).2
    | finish hs hi => exact .inl (hfin _ hi (pair_ready hsafe hs).1)
  intro s hs
  have h := Spent.pair ((inv s hs).imp_left (hp.spent ·))
  exact ⟨h.1, fun b e hb he hi => h.2 hi b e hb he⟩

theorem follows_pair {s0 : σ0} {s1 : σ1} (hsafe : SafeFrom D0 s0) (h0 : Follows D0 s0) (h1 : Follows D1 s1) :
    Follows (tupleDecoder2 D0 D1) (s0, s1) := by
  intro s hs hi b e he
  have hp := pair_stops hsafe hs he
  refine ⟨fun hok hi' => ?_, fun hi' => ?_⟩
  · exact (Spent.pair ((hp (by rw [hok]; rfl)).imp (·.2 h0) (· h1))).1 hi'
  · exact (Spent.pair ((hp (by rw [hi', Bool.and_false])).imp (·.2 h0) (· h1))).2 hi'

/-! ## `and_then` -/

theorem productive_andThen {s0 : σ0} {f : α0 → σ1} (hsafe : SafeFrom D0 s0) (hp : Productive D0 s0)
    (hf : ∀ x, Follows D1 (f x)) : Productive (andThenDecoder D0 D1 f) (s0, none) := by
  have second : ∀ (u : σ0) (s1 : σ1) x o b e, Ready D1 (f x) s1 → EosSane e b.length → o ≤ b.length →
      ((secondOut u (tryDecode D1 s1 o b e)).1.isOk && (andThenDecoder D0 D1 f).isIdle (secondOut u (tryDecode D1 s1 o b e)).2)
        = false → ∃ s1', (secondOut u (tryDecode D1 s1 o b e)).2 = (u, some s1') ∧ Spent D1 s1' ∧ ReachItem D1 (f x) s1' := by
    intro u s1 x o b e h1 he hl
    have t1 := tryDecode_ready h1 he hl
    cases ht : tryDecode D1 s1 o b e with
    | ret r t => intro _; exact ⟨t, rfl, (t1.2 _ _ ht).2.2 (hf x), (t1.2 _ _ ht).1⟩
    | next o t =>
      intro hok
      have := (t1.1 _ _ ht).1
      simp [secondOut, andThenDecoder, Res.isOk, this] at hok
  have inv : ∀ s, ReachItem (andThenDecoder D0 D1 f) (s0, none) s → ReachItem D0 s0 s.1 ∧
      ∀ s1, s.2 = some s1 → Spent D1 s1 ∧ ∃ x, ReachItem D1 (f x) s1 := by
    have hfst : ∀ (s : σ0 × Option σ1) b e, ReachItem D0 s0 s.1 → EosSane e b.length →
        ReachItem D0 s0 ((andThenDecoder D0 D1 f).decode s b e).2.1 := by
      rintro ⟨u, v⟩ b e h0 he
      have t0 := tryDecode_reachItem (off := 0) h0 he
      cases v with
      | some s1 =>
        rw [andThen_decode_some]
        cases tryDecode D1 s1 0 b e <;> exact h0
      | none =>
        rw [andThen_decode_none]
        dsimp only at t0
        cases ht : tryDecode D0 u 0 b e with
        | ret r t => exact t0.2 _ _ ht
        | next o t =>
          have h2 := t0.1 _ _ ht
          dsimp only
          cases hfi : D0.finish t with
          | mk r t' =>
            rw [hfi] at h2
            cases r with
            | ok x =>
              simp only [Res.step]
              cases tryDecode D1 (f x) o b e <;> exact h2
            | _ => exact h2
    have hfin : ∀ s : σ0 × Option σ1, ((andThenDecoder D0 D1 f).finish s).2 = (s.1, none) := by
      rintro ⟨u, v⟩
      cases v <;> rfl
    intro s hs
    induction hs with
    | refl => exact ⟨.refl, fun _ h => by cases h⟩
    | @decode s b e _ he hi hok ih =>
      refine ⟨hfst s b e ih.1 he, ?_⟩
      obtain ⟨u, v⟩ := s
      cases v with
      | some s1 =>
        obtain ⟨h1, x, h2⟩ := ih.2 s1 rfl
        rw [andThen_decode_some] at hok ⊢
        obtain ⟨t, h3, h4, h5⟩ := second u s1 x 0 b e (.inl h2) he (Nat.zero_le _) hok
        rw [h3]
        rintro _ ⟨⟩
        exact ⟨h4, x, h5⟩
      | none =>
        rw [andThen_decode_none] at hok ⊢
        cases ht : tryDecode D0 u 0 b e with
        | ret r t => rintro _ ⟨⟩
        | next o t =>
          rw [ht] at hok
          dsimp only at hok ⊢
          cases hfi : D0.finish t with
          | mk r t' =>
            rw [hfi] at hok
            cases r with
            | ok x =>
              simp only [Res.step] at hok ⊢
              obtain ⟨t, h3, h4, h5⟩ := second t' (f x) x o b e (.inl .refl) he
                (tryDecode_within hsafe ih.1.reach he (Nat.zero_le _) ht) hok
              rw [h3]
              rintro _ ⟨⟩
              exact ⟨h4, x, h5⟩
            | _ => rintro _ ⟨⟩
    | @item s b e _ he hi hok ih =>
      rw [hfin]
      exact ⟨hfst s b e ih.1 he, fun _ h => by cases h⟩
    | @finish s _ hi ih =>
      rw [hfin]
      exact ⟨ih.1, fun _ h => by cases h⟩
  intro s hs
  obtain ⟨h0, h1⟩ := inv s hs
  obtain ⟨u, v⟩ := s
  cases v with
  | some s1 =>
    obtain ⟨h2, _⟩ := h1 s1 rfl
    constructor
    · intro hi; exact h2.1 hi
    · intro b e hb he hi
      rw [andThen_decode_some]
      cases ht : tryDecode D1 s1 0 b e with
      | ret r t =>
        rcases tryDecode_kinds D1 s1 e (Nat.zero_le b.length) with ⟨_, ht'⟩ | ⟨_, _, _, _, _, ht'⟩ | ⟨_, r2, t', _, hok, r', ht', hr⟩
        · rw [ht] at ht'; cases ht'
        · rw [ht] at ht'; cases ht'
        · rw [ht] at ht'; cases ht'
          intro h3 h4
          simp only [secondOut] at h3
          subst h3
          rw [show D1.isIdle t = true from h4, ← hr] at hok
          cases hok
      | next o t =>
        intro h3 h4
        simp only [secondOut, Res.ok.injEq] at h3
        subst h3
        exact h2.next hb he ht
  | none =>
    constructor
    · intro hi; cases hi
    · intro b e hb he hi
      have hlen : 0 < b.length := List.length_pos_iff.2 hb
      rw [andThen_decode_none]
      cases ht : tryDecode D0 u 0 b e with
      | ret r t => intro _ h; cases h
      | next o t =>
        dsimp only
        cases hfi : D0.finish t with
        | mk r t' =>
          cases r with
          | ok x =>
            have hmv := productive_moves hp h0 he hlen ht (by rw [hfi]; rfl)
            have hle := tryDecode_within hsafe h0.reach he (Nat.zero_le _) ht
            simp only [Res.step]
            have t1 := tryDecode_ready (s := f x) (.inl (ReachItem.refl (D := D1) (s₀ := f x))) he hle
            cases ht1 : tryDecode D1 (f x) o b e with
            | ret r t =>
              intro h3 h4
              have := (t1.2 _ _ ht1).2.1
              simp only [secondOut] at h3
              subst h3
              rw [show D1.isIdle t = true from h4] at this
              cases this
            | next o' t =>
              intro h3
              have := tryDecode_next_le ht1
              simp only [secondOut, Res.ok.injEq] at h3
              omega
          | _ => intro h; cases h

end

/-- The two kinds of weighed formats. -/
theorem weighed_spec {σ α : Type} {c : Bool} {D : Decoder σ α} {s : σ} (h : Weighed c D s) :
    (c = true → Productive D s) ∧ Follows D s := by
  induction h with
  | own h => exact ⟨fun _ => h, h.follows⟩
  | ownLater h => exact ⟨fun h => (by cases h), h⟩
  | later _ ih => exact ⟨fun h => (by cases h), ih.2⟩
  | number f k hk => exact ⟨fun _ => productive_number f hk, (productive_number f hk).follows⟩
  | bytes b hb => exact ⟨fun _ => productive_bytes hb, follows_bytes b⟩
  | bytesLater b => exact ⟨fun h => (by cases h), follows_bytes b⟩
  | remaining => exact ⟨fun _ => productive_remaining, productive_remaining.follows⟩
  | padding x => exact ⟨fun _ => productive_padding x, (productive_padding x).follows⟩
  | null => exact ⟨fun h => (by cases h), follows_null⟩
  | collect D s => exact ⟨fun _ => productive_collect D s, (productive_collect D s).follows⟩
  | collectN n _ ih => exact ⟨fun h => (by cases h), follows_collectN (ih.1 rfl) n⟩
  | map f _ ih =>
    exact ⟨fun h => (around_map _ f).productive trivial (ih.1 h), (around_map _ f).follows trivial ih.2⟩
  | tryMap f _ ih =>
    exact ⟨fun h => (around_tryMap _ f).productive trivial (ih.1 h), (around_tryMap _ f).follows trivial ih.2⟩
  | utf8 _ ih => exact ⟨fun h => (around_utf8 _).productive trivial (ih.1 h), (around_utf8 _).follows trivial ih.2⟩
  | mapErr f _ ih =>
    exact ⟨fun h => (around_mapErr _ f).productive trivial (ih.1 h), (around_mapErr _ f).follows trivial ih.2⟩
  | maybeEos _ ih =>
    exact ⟨fun h => (around_maybeEos _).productive trivial (ih.1 h), (around_maybeEos _).follows trivial ih.2⟩
  | captured F x _ ih =>
    exact ⟨fun h => (around_captured F x).productive rfl (ih.1 h), (around_captured F x).follows rfl ih.2⟩
  | omittable _ ih =>
    exact ⟨fun h => (around_omittable _).productive rfl (ih.1 h), (around_omittable _).follows rfl ih.2⟩
  | omittableLater skip _ ih =>
    refine ⟨fun h => (by cases h), ?_⟩
    cases skip with
    | true => exact follows_omitted
    | false => exact (around_omittable _).follows rfl ih.2
  | maxBytes n _ ih =>
    have := (around_maxBytes _).productive (w₀ := .new _ n) trivial (ih.1 rfl)
    exact ⟨fun _ => this, this.follows⟩
  | peekable hst _ ih => exact ⟨fun _ => productive_peekable hst (ih.1 rfl), (productive_peekable hst (ih.1 rfl)).follows⟩
  | length n h0 hn hs he => exact ⟨fun _ => productive_length h0 hn hs he, (productive_length h0 hn hs he).follows⟩
  | lengthLater n hn hs he hc => exact ⟨fun h => (by cases h), follows_length hn hs he hc⟩
  | pair hs _ _ ih0 ih1 => exact ⟨fun h => productive_pair hs (ih0.1 h) ih1.2, follows_pair hs ih0.2 ih1.2⟩
  | andThen f hs _ _ ih0 ih1 =>
    have := productive_andThen (f := f) hs (ih0.1 rfl) (fun x => (ih1 x).2)
    exact ⟨fun _ => this, this.follows⟩

/-! ## What accepts the empty frame -/

theorem closes_remaining : Closes remainingBytesDecoder .new := by
  have inv : ∀ s, EmptyFrames remainingBytesDecoder .new s → s = .new := by
    intro s hs
    induction hs with
    | refl => rfl
    | frame _ _ ih => subst ih; decide +kernel
    | finish _ _ ih => subst ih; decide +kernel
  intro s hs _
  rw [inv s hs]
  decide +kernel

theorem closes_collect (D : Decoder σ α) (s₀ : σ) : Closes (collectDecoder D) ⟨s₀, [], false⟩ := by
  intro s _ hi
  have : s.eos = false := hi
  simp only [collectDecoder, this, Bool.false_eq_true, if_false]
  rw [collectLoop.eq_1]
  simp [Eos.new, Eos.isReached, Res.isOk]

theorem emptyFrames_same {D : Decoder σ α} {W : Decoder σ β} {s₀ s : σ} (hd : W.decode = D.decode) (hi : W.isIdle = D.isIdle)
    (hf : ∀ s, (W.finish s).2 = (D.finish s).2) (h : EmptyFrames W s₀ s) : EmptyFrames D s₀ s := by
  induction h with
  | refl => exact .refl
  | frame _ h ih => rw [hf, hd]; rw [hi] at h; exact ih.frame h
  | finish _ h ih => rw [hf]; rw [hi] at h; exact ih.finish h

theorem closes_map {D : Decoder σ α} {s₀ : σ} (f : α → β) (h : Closes D s₀) : Closes (mapDecoder D f) s₀ :=
  fun s hs hi => h s (emptyFrames_same (W := mapDecoder D f) rfl rfl (fun s => ((around_map D f).finish (w := s) trivial).2.1) hs) hi

theorem closes_tryMap {D : Decoder σ α} {s₀ : σ} (f : α → Except ErrorKind β) (h : Closes D s₀) :
    Closes (tryMapDecoder D f) s₀ :=
  fun s hs hi => h s (emptyFrames_same (W := tryMapDecoder D f) rfl rfl (fun s => ((around_tryMap D f).finish (w := s) trivial).2.1) hs) hi

theorem closes_utf8 {D : Decoder σ Bytes} {s₀ : σ} (h : Closes D s₀) : Closes (utf8Decoder D) s₀ :=
  fun s hs hi => h s (emptyFrames_same (W := utf8Decoder D) rfl rfl (fun s => ((around_utf8 D).finish (w := s) trivial).2.1) hs) hi

/-! ## The length of a list -/

/-- What the loop of `collect` has added to the list is paid for by bytes. -/
theorem collectLoop_items_le {D : Decoder σ α} {s₀ : σ} (hp : Productive D s₀) {buf : Bytes} {e : Eos}
    (he : EosSane e buf.length) : ∀ off s items x, collectLoop D buf e off s items = some x → ReachItem D s₀ s →
      match x with
      | .done o _ l => l.length + off ≤ items.length + o
      | .ret (.ok o) _ l => l.length + off ≤ items.length + o
      | .ret _ _ _ => True := by
  apply collectLoop.partial_correctness D buf e (motive := fun off s items x => ReachItem D s₀ s →
      match x with
      | .done o _ l => l.length + off ≤ items.length + o
      | .ret (.ok o) _ l => l.length + off ≤ items.length + o
      | .ret _ _ _ => True)
  intro loop ih off s items x heq hr
  have ht := tryDecode_reachItem (off := off) hr he
  split at heq
  · rename_i hlt
    split at heq
    · rename_i r t htr
      cases heq
      rcases tryDecode_kinds D s e (Nat.le_of_lt hlt) with ⟨_, h⟩ | ⟨_, _, _, _, _, h⟩ | ⟨hi, r2, t2, hd, _, r', h, _⟩
      · rw [htr] at h; cases h
      · rw [htr] at h; cases h
      · cases r with
        | ok o =>
          have : off ≤ o := by
            revert htr
            unfold tryDecode
            rw [if_neg (by rw [hi]; simp), if_neg (by omega), hd]
            cases r2 with
            | ok k =>
              dsimp only
              split
              · intro h; cases h
              · intro h; cases h; omega
            | _ => intro h; cases h
          dsimp only
          omega
        | _ => trivial
    · rename_i o s' htr
      have h1 := ht.1 _ _ htr
      split at heq
      · rename_i y s'' hfin
        rw [hfin] at h1
        have hmv := productive_moves hp hr he hlt htr (by rw [hfin]; rfl)
        have := ih _ _ _ _ heq h1
        revert this
        split <;> first | exact id | (simp only [List.length_append, List.length_singleton]; omega)
      all_goals (cases heq; trivial)
  · cases heq
    exact Nat.le_refl _

theorem collect_feed_le {D : Decoder σ α} {s₀ : σ} (hp : Productive D s₀) (chunks : List (Bytes × Eos))
    (hs : ∀ c ∈ chunks, EosSane c.2 c.1.length) : ∀ (s : CollectState σ α), ReachItem D s₀ s.inner → ∀ n xs s',
      feed (collectDecoder D) s chunks = some (n, xs, s') → xs.length ≤ s.items.length + n := by
  have idle : ∀ (s : CollectState σ α) (rest : List (Bytes × Eos)) n xs s', s.eos = true →
      feed (collectDecoder D) s rest = some (n, xs, s') → xs.length ≤ s.items.length + n := by
    intro s rest n xs s' he hf
    unfold feed at hf
    rw [if_pos (show (collectDecoder D).isIdle s = true from he)] at hf
    simp only [collectDecoder, he, if_true] at hf
    cases hf
    omega
  induction chunks with
  | nil =>
    intro s hr n xs s' hf
    cases he : s.eos with
    | true => exact idle s [] n xs s' he hf
    | false =>
      unfold feed at hf
      rw [if_neg (by rw [show (collectDecoder D).isIdle s = s.eos from rfl, he]; simp)] at hf
      cases hf
  | cons c rest ih =>
    intro s hr n xs s' hf
    obtain ⟨b, e⟩ := c
    cases he : s.eos with
    | true => exact idle s _ n xs s' he hf
    | false =>
      unfold feed at hf
      rw [if_neg (by rw [show (collectDecoder D).isIdle s = s.eos from rfl, he]; simp)] at hf
      dsimp only at hf
      have hsane : EosSane e b.length := hs (b, e) (by simp)
      have hstep : ∀ k t, (collectDecoder D).decode s b e = (.ok k, t) →
          ReachItem D s₀ t.inner ∧ t.items.length ≤ s.items.length + k := by
        intro k t hd
        simp only [collectDecoder, he, Bool.false_eq_true, if_false] at hd
        cases hl : collectLoop D b e 0 s.inner s.items with
        | none => rw [hl] at hd; cases hd
        | some x =>
          have h1 := collectLoop_reachItem hsane _ _ _ _ hl hr
          have h2 := collectLoop_items_le hp hsane _ _ _ _ hl hr
          rw [hl] at hd
          cases x with
          | done o i l => cases hd; exact ⟨h1, by simpa using h2⟩
          | ret r i l =>
            cases r with
            | ok o => cases hd; exact ⟨h1, by simpa using h2⟩
            | _ => cases hd
      cases hd : (collectDecoder D).decode s b e with
      | mk r t =>
        rw [hd] at hf
        cases r with
        | ok k =>
          obtain ⟨h1, h2⟩ := hstep k t hd
          dsimp only at hf
          split at hf
          · cases hfe : feed (collectDecoder D) t rest with
            | none => rw [hfe] at hf; cases hf
            | some p =>
              rw [hfe] at hf
              obtain ⟨m, ys, u⟩ := p
              simp only [Option.map_some, Option.some.injEq, Prod.mk.injEq] at hf
              obtain ⟨rfl, rfl, rfl⟩ := hf
              have := ih (fun c hc => hs c (by simp [hc])) t h1 m ys u hfe
              omega
          · cases hf
        | _ => cases hf

end Bytecodec
