import Verif.Spec.Reuse
import Verif.Lemmas.Captured
/-!
# Lemmas for C55: decoders are as new after each item
-/
namespace Bytecodec

open Spec

variable {σ α β : Type}

/-- Two outcomes that agree, with related states. -/
def Agree (R : σ → σ → Prop) (p q : Res α × σ) : Prop := p.1 = q.1 ∧ R p.2 q.2

/-- States that a caller cannot tell apart. -/
structure Bisim (D : Decoder σ α) (R : σ → σ → Prop) : Prop where
  idle : ∀ {s t}, R s t → D.isIdle s = D.isIdle t
  req : ∀ {s t}, R s t → D.requiring s = D.requiring t
  decode : ∀ {s t}, R s t → ∀ b e, Agree R (D.decode s b e) (D.decode t b e)
  finish : ∀ {s t}, R s t → Agree R (D.finish s) (D.finish t)

theorem Bisim.observe {D : Decoder σ α} {R : σ → σ → Prop} (h : Bisim D R) : ∀ (calls : List Call) {s t : σ},
    R s t → observe D s calls = observe D t calls := by
  intro calls
  induction calls with
  | nil => intros; rfl
  | cons c cs ih =>
    intro s t hr
    have key : callAnswer D s c = callAnswer D t c ∧ R (callState D s c) (callState D t c) := by
      cases c with
      | decode b e =>
        obtain ⟨h1, h2⟩ := h.decode hr b e
        exact ⟨by simp only [callAnswer, h1], h2⟩
      | finish =>
        obtain ⟨h1, h2⟩ := h.finish hr
        exact ⟨by simp only [callAnswer, h1], h2⟩
    simp only [Spec.observe]
    rw [key.1, h.idle key.2, h.req key.2, ih key.2]

/-- Not being able to tell states apart is preserved by calls. -/
theorem bisim_same (D : Decoder σ α) : Bisim D (Same D) := by
  have key : ∀ {s t}, Same D s t → ∀ c, callAnswer D s c = callAnswer D t c ∧
      Same D (callState D s c) (callState D t c) := by
    rintro s t ⟨_, _, h⟩ c
    have h1 := h [c]
    simp only [Spec.observe, List.cons.injEq, Seen.mk.injEq, and_true] at h1
    refine ⟨h1.1, h1.2.1, h1.2.2, fun cs => ?_⟩
    have h2 := h (c :: cs)
    simp only [Spec.observe, List.cons.injEq] at h2
    exact h2.2
  refine ⟨fun h => h.1, fun h => h.2.1, fun h b e => ?_, fun h => ?_⟩
  · have := key h (.decode b e)
    simp only [callAnswer, Answer.decode.injEq] at this
    exact this
  · have := key h .finish
    simp only [callAnswer, Answer.finish.injEq] at this
    exact this

/-- After an item the decoder cannot be told apart from a new one. -/
def Renews (D : Decoder σ α) (s₀ : σ) : Prop :=
  ∃ R, Bisim D R ∧ ∀ s, Fed D s₀ s → ∀ x s', D.finish s = (.ok x, s') → R s' s₀

/-! ## `Res.step` -/

theorem Agree.step {τ : Type} {R : σ → σ → Prop} {S : τ → τ → Prop} {p q : Res α × σ} (h : Agree R p q)
    {w w' : σ → τ} {k k' : α → σ → Res β × τ} (hw : ∀ s t, R s t → S (w s) (w' t))
    (hk : ∀ x s t, R s t → Agree S (k x s) (k' x t)) : Agree S (Res.step p w k) (Res.step q w' k') := by
  obtain ⟨r, s⟩ := p
  obtain ⟨r', t⟩ := q
  obtain ⟨h1, h2⟩ := h
  simp only at h1 h2
  subst h1
  cases r with
  | ok x => exact hk x s t h2
  | err k => exact ⟨rfl, hw _ _ h2⟩
  | panic => exact ⟨rfl, hw _ _ h2⟩
  | capacity => exact ⟨rfl, hw _ _ h2⟩
  | diverge => exact ⟨rfl, hw _ _ h2⟩

theorem Agree.mk {R : σ → σ → Prop} {r : Res α} {s t : σ} (h : R s t) : Agree R (r, s) (r, t) := ⟨rfl, h⟩

theorem Agree.ite {R : σ → σ → Prop} {p q p' q' : Res α × σ} (c : Prop) [Decidable c] (h : Agree R p q)
    (h' : Agree R p' q') : Agree R (if c then p else p') (if c then q else q') := by
  split <;> assumption

theorem Bisim.agree {D : Decoder σ α} {R : σ → σ → Prop} (h : Bisim D R) {s t : σ} (hr : R s t) (b e) :
    Agree R (D.decode s b e) (D.decode t b e) := h.decode hr b e

theorem Bisim.agreeF {D : Decoder σ α} {R : σ → σ → Prop} (h : Bisim D R) {s t : σ} (hr : R s t) :
    Agree R (D.finish s) (D.finish t) := h.finish hr

/-- An outcome that is `ok` comes from an inner outcome that is `ok`. -/
theorem step_ok {τ : Type} {p : Res α × σ} {w : σ → τ} {k : α → σ → Res β × τ} {y : β} {t : τ}
    (h : Res.step p w k = (.ok y, t)) : ∃ x s, p = (.ok x, s) ∧ k x s = (.ok y, t) := by
  obtain ⟨r, s⟩ := p
  cases r with
  | ok x => exact ⟨x, s, rfl, h⟩
  | err k => cases congrArg Prod.fst h
  | panic => cases congrArg Prod.fst h
  | capacity => cases congrArg Prod.fst h
  | diverge => cases congrArg Prod.fst h

/-! ## Leaves -/

theorem take_splice {b src : Bytes} {o : Nat} (h : o + src.length ≤ b.length) :
    (splice b o src).take (o + src.length) = b.take o ++ src := by
  have : (b.take o ++ src).length = o + src.length := by
    simp only [List.length_append, List.length_take]; omega
  rw [splice, ← this, List.take_left']
  rfl

theorem length_splice' {b src : Bytes} {o : Nat} (h : o + src.length ≤ b.length) :
    (splice b o src).length = b.length := by
  simp only [splice, List.length_append, List.length_take, List.length_drop]; omega

/-- The same number of bytes decoded, and the same bytes. -/
def CopyRel (s t : CopyableState) : Prop :=
  s.bytes.length = t.bytes.length ∧ s.offset = t.offset ∧ s.bytes.take s.offset = t.bytes.take s.offset

theorem bisim_copyable : Bisim copyableBytesDecoder CopyRel where
  idle := by rintro s t ⟨h1, h2, _⟩; simp only [copyableBytesDecoder, h1, h2]
  req := by rintro s t ⟨h1, h2, _⟩; simp only [copyableBytesDecoder, h1, h2]
  decode := by
    rintro ⟨sb, so⟩ ⟨tb, to⟩ ⟨h1, h2, h3⟩ b e
    simp only at h1 h2 h3
    subst h2
    simp only [copyableBytesDecoder, h1]
    by_cases hp : tb.length < so
    · rw [if_pos hp, if_pos hp]; exact ⟨rfl, h1, rfl, h3⟩
    · rw [if_neg hp, if_neg hp]
      have hl : (b.take (min b.length (tb.length - so))).length = min b.length (tb.length - so) := by
        rw [List.length_take]; omega
      have e1 : (splice sb so (b.take (min b.length (tb.length - so)))).length = tb.length := by
        rw [length_splice' (by rw [hl]; omega), h1]
      have e2 : (splice tb so (b.take (min b.length (tb.length - so)))).length = tb.length :=
        length_splice' (by rw [hl]; omega)
      have hr : CopyRel ⟨splice sb so (b.take (min b.length (tb.length - so))), so + min b.length (tb.length - so)⟩
          ⟨splice tb so (b.take (min b.length (tb.length - so))), so + min b.length (tb.length - so)⟩ := by
        refine ⟨by simp only [e1, e2], rfl, ?_⟩
        have a1 := take_splice (b := sb) (o := so) (src := b.take (min b.length (tb.length - so))) (by rw [hl]; omega)
        have a2 := take_splice (b := tb) (o := so) (src := b.take (min b.length (tb.length - so))) (by rw [hl]; omega)
        rw [hl] at a1 a2
        simp only [a1, a2, h3]
      rw [e1, e2]
      exact Agree.ite _ (.mk hr) (.mk hr)
  finish := by
    rintro ⟨sb, so⟩ ⟨tb, to⟩ ⟨h1, h2, h3⟩
    simp only at h1 h2 h3
    subst h2
    simp only [copyableBytesDecoder, h1]
    by_cases hp : so = tb.length
    · rw [if_pos hp, if_pos hp]
      rw [hp, List.take_of_length_le (by omega), List.take_of_length_le (by omega)] at h3
      exact ⟨by rw [h3], h1, rfl, by simp⟩
    · rw [if_neg hp, if_neg hp]
      exact ⟨rfl, h1, rfl, h3⟩

theorem fed_copyable_length {s₀ s : CopyableState} (h : Fed copyableBytesDecoder s₀ s) :
    s.bytes.length = s₀.bytes.length := by
  induction h with
  | new => rfl
  | @decode s s' b e n _ hn hd ih =>
    simp only [copyableBytesDecoder] at hd
    split at hd
    · cases congrArg Prod.fst hd
    · split at hd
      · cases congrArg Prod.fst hd
      · have := congrArg Prod.snd hd
        simp only at this
        rw [← this]
        simp only
        rw [length_splice' (by rw [List.length_take]; omega), ih]

theorem renews_copyable (s₀ : CopyableState) (h0 : s₀.offset = 0) : Renews copyableBytesDecoder s₀ := by
  refine ⟨CopyRel, bisim_copyable, fun s hs x s' hf => ?_⟩
  simp only [copyableBytesDecoder] at hf
  split at hf
  · have := congrArg Prod.snd hf
    simp only at this
    subst this
    exact ⟨by simpa using fed_copyable_length hs, h0.symm, by simp⟩
  · cases congrArg Prod.fst hf

theorem bisim_eq (D : Decoder σ α) : Bisim D Eq where
  idle := by rintro _ _ rfl; rfl
  req := by rintro _ _ rfl; rfl
  decode := by rintro _ _ rfl _ _; exact ⟨rfl, rfl⟩
  finish := by rintro _ _ rfl; exact ⟨rfl, rfl⟩

theorem renews_remaining : Renews remainingBytesDecoder .new := by
  refine ⟨Eq, bisim_eq _, fun s _ x s' hf => ?_⟩
  simp only [remainingBytesDecoder] at hf
  split at hf
  · exact (congrArg Prod.snd hf).symm
  · cases congrArg Prod.fst hf

theorem renews_null : Renews nullDecoder () := ⟨Eq, bisim_eq _, fun _ _ _ _ _ => rfl⟩

theorem fed_padding {s₀ s : PaddingState} (h : Fed paddingDecoder s₀ s) : s.expected = s₀.expected := by
  induction h with
  | new => rfl
  | @decode s s' b e n _ hn hd ih =>
    have h2 := congrArg Prod.snd hd
    simp only [paddingDecoder] at h2
    split at h2
    · rw [← h2, ih]
    · split at h2
      · split at h2
        · rw [← h2]; exact ih
        · rw [← h2, ih]
      · rw [← h2]; exact ih

theorem renews_padding (b : Option UInt8) : Renews paddingDecoder (.new b) := by
  refine ⟨Eq, bisim_eq _, fun s hs x s' hf => ?_⟩
  have he := fed_padding hs
  simp only [paddingDecoder] at hf
  split at hf
  · have := congrArg Prod.snd hf
    simp only at this
    rw [← this, he]
    rfl
  · cases congrArg Prod.fst hf

theorem renews_monolithic (parse : MonolithicParser α) : Renews (monolithicDecoder parse) .new := by
  refine ⟨Eq, bisim_eq _, fun s hs x s' h => ?_⟩
  have hi : s.item ≠ none → s.buf = [] := by
    clear h
    induction hs with
    | new => intro _; rfl
    | @decode s s' b e n _ hn hd ih =>
      have hsome : s.item = none := by
        cases hi : s.item with
        | none => rfl
        | some x =>
          have := hn (by simp [monolithicDecoder, hi])
          rw [this] at hi
          cases hi
      simp only [monolithicDecoder] at hd
      split at hd
      · split at hd
        · cases hd; intro _; rfl
        all_goals cases congrArg Prod.fst hd
      · cases hd
        intro h
        exact absurd hsome h
  obtain ⟨it, b⟩ := s
  cases it with
  | none => cases congrArg Prod.fst h
  | some y =>
    have := congrArg Prod.snd h
    simp only [monolithicDecoder] at this
    rw [← this, show b = [] from hi (by simp)]
    rfl

/-! ## Mapping combinators -/

theorem bisim_map {D : Decoder σ α} {R} (h : Bisim D R) (f : α → β) : Bisim (mapDecoder D f) R where
  idle := h.idle
  req := h.req
  decode := h.decode
  finish := fun hr => Agree.step (h.agreeF hr) (fun _ _ h => h) fun _ _ _ h => .mk h

theorem bisim_tryMap {D : Decoder σ α} {R} (h : Bisim D R) (f : α → Except ErrorKind β) :
    Bisim (tryMapDecoder D f) R where
  idle := h.idle
  req := h.req
  decode := h.decode
  finish := fun hr => Agree.step (h.agreeF hr) (fun _ _ h => h) fun x _ _ h => by
    cases f x <;> exact .mk h

theorem bisim_utf8 {D : Decoder σ Bytes} {R} (h : Bisim D R) : Bisim (utf8Decoder D) R where
  idle := h.idle
  req := h.req
  decode := h.decode
  finish := fun hr => Agree.step (h.agreeF hr) (fun _ _ h => h) fun x _ _ h => by
    cases fromUtf8 x <;> exact .mk h

theorem bisim_mapErr {D : Decoder σ α} {R} (h : Bisim D R) (f : ErrorKind → ErrorKind) :
    Bisim (mapErrDecoder D f) R where
  idle := h.idle
  req := h.req
  decode := fun hr b e => ⟨by simp only [mapErrDecoder, (h.decode hr b e).1], (h.decode hr b e).2⟩
  finish := fun hr => ⟨by simp only [mapErrDecoder, (h.finish hr).1], (h.finish hr).2⟩

/-- The same `decode`: the same states after feeding. -/
theorem fed_congr {D : Decoder σ α} {D' : Decoder σ β} {s₀ s : σ} (hi : ∀ s, D.isIdle s = D'.isIdle s)
    (hd : ∀ s b e n s', D.decode s b e = (.ok n, s') → D'.decode s b e = (.ok n, s')) (h : Fed D s₀ s) :
    Fed D' s₀ s := by
  induction h with
  | new => exact .new
  | decode _ hn h1 ih => exact ih.decode (fun h => hn (by rw [hi]; exact h)) (hd _ _ _ _ _ h1)

theorem renews_map {D : Decoder σ α} {s₀ : σ} (h : Renews D s₀) (f : α → β) : Renews (mapDecoder D f) s₀ := by
  obtain ⟨R, hb, hf⟩ := h
  refine ⟨R, bisim_map hb f, fun s hs x s' h => ?_⟩
  obtain ⟨y, t, h1, h2⟩ := step_ok h
  cases h2
  exact hf s (fed_congr (D := mapDecoder D f) (D' := D) (fun _ => rfl) (fun _ _ _ _ _ h => h) hs) _ _ h1

theorem renews_tryMap {D : Decoder σ α} {s₀ : σ} (h : Renews D s₀) (f : α → Except ErrorKind β) :
    Renews (tryMapDecoder D f) s₀ := by
  obtain ⟨R, hb, hf⟩ := h
  refine ⟨R, bisim_tryMap hb f, fun s hs x s' h => ?_⟩
  obtain ⟨y, t, h1, h2⟩ := step_ok h
  split at h2 <;> cases h2
  exact hf s (fed_congr (D := tryMapDecoder D f) (D' := D) (fun _ => rfl) (fun _ _ _ _ _ h => h) hs) _ _ h1

theorem renews_utf8 {D : Decoder σ Bytes} {s₀ : σ} (h : Renews D s₀) : Renews (utf8Decoder D) s₀ := by
  obtain ⟨R, hb, hf⟩ := h
  refine ⟨R, bisim_utf8 hb, fun s hs x s' h => ?_⟩
  obtain ⟨y, t, h1, h2⟩ := step_ok h
  split at h2 <;> cases h2
  exact hf s (fed_congr (D := utf8Decoder D) (D' := D) (fun _ => rfl) (fun _ _ _ _ _ h => h) hs) _ _ h1

theorem mapErr_ok {r : Res α} {f : ErrorKind → ErrorKind} {x : α} (h : r.mapErr f = .ok x) : r = .ok x := by
  cases r <;> first | exact h | cases h

theorem renews_mapErr {D : Decoder σ α} {s₀ : σ} (h : Renews D s₀) (f : ErrorKind → ErrorKind) :
    Renews (mapErrDecoder D f) s₀ := by
  obtain ⟨R, hb, hf⟩ := h
  refine ⟨R, bisim_mapErr hb f, fun s hs x s' h => ?_⟩
  refine hf s (fed_congr (D := mapErrDecoder D f) (D' := D) (fun _ => rfl) (fun s b e n s' h => ?_) hs) x s' ?_
  · exact Prod.ext (mapErr_ok (congrArg Prod.fst h)) (congrArg Prod.snd h :)
  · exact Prod.ext (mapErr_ok (congrArg Prod.fst h)) (congrArg Prod.snd h :)

theorem renews_number (f : Bytes → α) (k : Nat) : Renews (fixDecoder f) (fixInit k) :=
  renews_map (renews_copyable (fixInit k) rfl) f

/-! ## `Omittable` -/

theorem renews_omittable {D : Decoder σ α} {s₀ : σ} (h : Renews D s₀) (o : Bool) :
    Renews (omittableDecoder D) ⟨s₀, o⟩ := by
  obtain ⟨R, hb, hf⟩ := h
  by_cases ho : o = true
  · subst ho
    refine ⟨Eq, bisim_eq _, fun s hs x s' h => ?_⟩
    have hs' : s = ⟨s₀, true⟩ := by
      clear h
      induction hs with
      | new => rfl
      | decode _ _ hd ih =>
        subst ih
        exact (congrArg Prod.snd hd).symm
    subst hs'
    exact (congrArg Prod.snd h).symm
  · have ho : o = false := by simpa using ho
    subst ho
    refine ⟨fun s t => s.doOmit = false ∧ t.doOmit = false ∧ R s.inner t.inner, ?_, fun s hs x s' h => ?_⟩
    · constructor
      · rintro ⟨s, so⟩ ⟨t, to⟩ ⟨h1, h2, h3⟩
        cases h1; cases h2
        simp only [omittableDecoder, hb.idle h3]
      · rintro ⟨s, so⟩ ⟨t, to⟩ ⟨h1, h2, h3⟩
        cases h1; cases h2
        simp only [omittableDecoder]
        exact hb.req h3
      · rintro ⟨s, so⟩ ⟨t, to⟩ ⟨h1, h2, h3⟩ b e
        cases h1; cases h2
        exact Agree.step (hb.agree h3 b e) (fun _ _ h => ⟨rfl, rfl, h⟩) fun _ _ _ h => .mk ⟨rfl, rfl, h⟩
      · rintro ⟨s, so⟩ ⟨t, to⟩ ⟨h1, h2, h3⟩
        cases h1; cases h2
        exact Agree.step (hb.agreeF h3) (fun _ _ h => ⟨rfl, rfl, h⟩) fun _ _ _ h => .mk ⟨rfl, rfl, h⟩
    · have hi : s.doOmit = false ∧ Fed D s₀ s.inner := by
        clear h
        induction hs with
        | new => exact ⟨rfl, .new⟩
        | @decode s s' b e n _ hn hd ih =>
          obtain ⟨i, o⟩ := s
          obtain ⟨h1, h2⟩ := ih
          cases h1
          obtain ⟨m, t, h3, h4⟩ := step_ok hd
          cases h4
          exact ⟨rfl, h2.decode (fun h => congrArg OmitState.inner (hn h)) h3⟩
      obtain ⟨i, o⟩ := s
      obtain ⟨h1, h2⟩ := hi
      cases h1
      obtain ⟨m, t, h3, h4⟩ := step_ok h
      cases h4
      exact ⟨rfl, rfl, hf _ h2 _ _ h3⟩

/-! ## `Length` -/

theorem renews_length {D : Decoder σ α} {s₀ : σ} (h : Renews D s₀) (n : Nat) :
    Renews (lengthDecoder D) (.new s₀ n) := by
  obtain ⟨R, hb, hf⟩ := h
  refine ⟨fun s t => R s.inner t.inner ∧ s.expected = t.expected ∧ s.remaining = t.remaining, ?_,
    fun s hs x s' h => ?_⟩
  · constructor
    · rintro ⟨s, sx, sr⟩ ⟨t, tx, tr⟩ ⟨h1, h2, h3⟩; exact hb.idle h1
    · rintro ⟨s, sx, sr⟩ ⟨t, tx, tr⟩ ⟨h1, h2, h3⟩
      simp only at h3
      simp only [lengthDecoder, h3]
    · rintro ⟨s, sx, sr⟩ ⟨t, tx, tr⟩ ⟨h1, h2, h3⟩ b e
      simp only at h1 h2 h3
      subst h2 h3
      simp only [lengthDecoder]
      have hgo := Agree.step (hb.agree h1 (b.take (min b.length sr))
          (Eos.withRemainingBytes (.finite (sr - min b.length sr))))
        (S := fun (s t : LengthState σ) => R s.inner t.inner ∧ s.expected = t.expected ∧ s.remaining = t.remaining)
        (w := fun i => ⟨i, sx, sr⟩) (w' := fun i => ⟨i, sx, sr⟩)
        (k := fun size i => if sr < size then (.panic, ⟨i, sx, sr⟩) else (.ok size, ⟨i, sx, sr - size⟩))
        (k' := fun size i => if sr < size then (.panic, ⟨i, sx, sr⟩) else (.ok size, ⟨i, sx, sr - size⟩))
        (fun _ _ h => ⟨h, rfl, rfl⟩)
        (fun x _ _ h => Agree.ite _ (.mk ⟨h, rfl, rfl⟩) (.mk ⟨h, rfl, rfl⟩))
      cases e.remainingBytes.toU64 with
      | none => exact hgo
      | some m => exact Agree.ite _ (.mk ⟨h1, rfl, rfl⟩) (Agree.ite _ (.mk ⟨h1, rfl, rfl⟩) hgo)
    · rintro ⟨s, sx, sr⟩ ⟨t, tx, tr⟩ ⟨h1, h2, h3⟩
      simp only at h1 h2 h3
      subst h2 h3
      simp only [lengthDecoder]
      exact Agree.ite _ (Agree.step (hb.agreeF h1) (fun _ _ h => ⟨h, rfl, rfl⟩) fun _ _ _ h => .mk ⟨h, rfl, rfl⟩)
        (.mk ⟨h1, rfl, rfl⟩)
  · have hi : Fed D s₀ s.inner ∧ s.expected = n := by
      clear h
      induction hs with
      | new => exact ⟨.new, rfl⟩
      | @decode s s' b e m _ hn hd ih =>
        obtain ⟨h1, h2⟩ := ih
        have hgo : ∀ {c}, Res.step (D.decode s.inner (b.take c)
            (Eos.withRemainingBytes (.finite (s.remaining - c))))
            (fun i => { s with inner := i }) (fun size i =>
              if s.remaining < size then (.panic, { s with inner := i })
              else (.ok size, { s with inner := i, remaining := s.remaining - size })) = (.ok m, s') →
            Fed D s₀ s'.inner ∧ s'.expected = n := by
          intro c hg
          obtain ⟨x, t, h3, h4⟩ := step_ok hg
          split at h4
          · cases congrArg Prod.fst h4
          · cases h4
            exact ⟨h1.decode (fun h => by rw [hn h]; rfl) h3, h2⟩
        simp only [lengthDecoder] at hd
        split at hd
        · split at hd
          · cases congrArg Prod.fst hd
          · split at hd
            · cases congrArg Prod.fst hd
            · exact hgo hd
        · exact hgo hd
    simp only [lengthDecoder] at h
    split at h
    · obtain ⟨y, t, h3, h4⟩ := step_ok h
      cases h4
      exact ⟨hf _ hi.1 _ _ h3, hi.2, hi.2⟩
    · cases congrArg Prod.fst h

/-! ## `MaxBytes` -/

theorem renews_maxBytes {D : Decoder σ α} {s₀ : σ} (h : Renews D s₀) (n : Nat) :
    Renews (maxBytesDecoder D) (.new s₀ n) := by
  obtain ⟨R, hb, hf⟩ := h
  refine ⟨fun s t => R s.inner t.inner ∧ s.consumed = t.consumed ∧ s.max = t.max, ?_, fun s hs x s' h => ?_⟩
  · constructor
    · rintro ⟨s, sx, sr⟩ ⟨t, tx, tr⟩ ⟨h1, h2, h3⟩; exact hb.idle h1
    · rintro ⟨s, sx, sr⟩ ⟨t, tx, tr⟩ ⟨h1, h2, h3⟩; exact hb.req h1
    · rintro ⟨s, sx, sr⟩ ⟨t, tx, tr⟩ ⟨h1, h2, h3⟩ b e
      simp only at h1 h2 h3
      subst h2 h3
      simp only [maxBytesDecoder]
      have hgo := Agree.step (hb.agree h1 b e)
        (S := fun (s t : MaxBytesState σ) => R s.inner t.inner ∧ s.consumed = t.consumed ∧ s.max = t.max)
        (w := fun i => ⟨i, sx, sr⟩) (w' := fun i => ⟨i, sx, sr⟩)
        (k := fun size i => (.ok size, ⟨i, sx + size, sr⟩)) (k' := fun size i => (.ok size, ⟨i, sx + size, sr⟩))
        (fun _ _ h => ⟨h, rfl, rfl⟩) (fun x _ _ h => .mk ⟨h, rfl, rfl⟩)
      cases e.remainingBytes with
      | infinite => exact ⟨rfl, h1, rfl, rfl⟩
      | unknown => exact Agree.ite _ (.mk ⟨h1, rfl, rfl⟩) (Agree.ite _ hgo (.mk ⟨h1, rfl, rfl⟩))
      | finite m =>
        exact Agree.ite _ (.mk ⟨h1, rfl, rfl⟩) (Agree.ite _ (.mk ⟨h1, rfl, rfl⟩)
          (Agree.ite _ hgo (.mk ⟨h1, rfl, rfl⟩)))
    · rintro ⟨s, sx, sr⟩ ⟨t, tx, tr⟩ ⟨h1, h2, h3⟩
      simp only at h1 h2 h3
      subst h2 h3
      exact Agree.step (hb.agreeF h1) (fun _ _ h => ⟨h, rfl, rfl⟩) fun _ _ _ h => .mk ⟨h, rfl, rfl⟩
  · have hi : Fed D s₀ s.inner ∧ s.max = n := by
      clear h
      induction hs with
      | new => exact ⟨.new, rfl⟩
      | @decode s s' b e m _ hn hd ih =>
        obtain ⟨h1, h2⟩ := ih
        have hgo : Res.step (D.decode s.inner b e) (fun i => { s with inner := i }) (fun size i =>
            (.ok size, { s with inner := i, consumed := s.consumed + size })) = (.ok m, s') →
            Fed D s₀ s'.inner ∧ s'.max = n := by
          intro hg
          obtain ⟨x, t, h3, h4⟩ := step_ok hg
          cases h4
          exact ⟨h1.decode (fun h => by rw [hn h]; rfl) h3, h2⟩
        simp only [maxBytesDecoder] at hd
        split at hd
        · cases congrArg Prod.fst hd
        · split at hd
          · cases congrArg Prod.fst hd
          · split at hd
            · exact hgo hd
            · cases congrArg Prod.fst hd
        · split at hd
          · cases congrArg Prod.fst hd
          · split at hd
            · cases congrArg Prod.fst hd
            · split at hd
              · exact hgo hd
              · cases congrArg Prod.fst hd
    obtain ⟨y, t, h3, h4⟩ := step_ok h
    cases h4
    exact ⟨hf _ hi.1 _ _ h3, rfl, hi.2⟩

/-! ## `Peekable` -/

theorem renews_peekable {D : Decoder σ α} {s₀ : σ} (h : Renews D s₀) :
    Renews (peekableDecoder D) ⟨s₀, none⟩ := by
  obtain ⟨R, hb, hf⟩ := h
  refine ⟨fun s t => R s.inner t.inner ∧ s.item = t.item, ?_, fun s hs x s' h => ?_⟩
  · constructor
    · rintro ⟨s, si⟩ ⟨t, ti⟩ ⟨h1, h2⟩
      simp only at h2
      simp only [peekableDecoder, h2]
    · rintro ⟨s, si⟩ ⟨t, ti⟩ ⟨h1, h2⟩
      simp only at h1 h2
      simp only [peekableDecoder, h2, hb.req h1]
    · rintro ⟨s, si⟩ ⟨t, ti⟩ ⟨h1, h2⟩ b e
      simp only at h1 h2
      subst h2
      refine Agree.ite _ (Agree.step (hb.agree h1 b e) (fun _ _ h => ⟨h, rfl⟩) fun size i j hij => ?_) (.mk ⟨h1, rfl⟩)
      rw [hb.idle hij]
      exact Agree.ite _ (Agree.step (hb.agreeF hij) (fun _ _ h => ⟨h, rfl⟩) fun _ _ _ h => .mk ⟨h, rfl⟩)
        (.mk ⟨hij, rfl⟩)
    · rintro ⟨s, si⟩ ⟨t, ti⟩ ⟨h1, h2⟩
      simp only at h1 h2
      subst h2
      cases si with
      | none => exact ⟨rfl, h1, rfl⟩
      | some x => exact ⟨rfl, h1, rfl⟩
  · have hi : (s.item = none → Fed D s₀ s.inner) ∧ (s.item ≠ none → R s.inner s₀) ∧
        (s.item = none → D.isIdle s.inner = true → s.inner = s₀) := by
      clear h
      induction hs with
      | new => exact ⟨fun _ => .new, fun h => absurd rfl h, fun _ _ => rfl⟩
      | @decode s s' b e m _ hn hd ih =>
        obtain ⟨i, it⟩ := s
        cases it with
        | some y =>
          have := congrArg Prod.snd hd
          simp only [peekableDecoder] at this
          subst this
          exact ih
        | none =>
          obtain ⟨sz, t, h3, h4⟩ := step_ok hd
          have hfed := (ih.1 rfl).decode (ih.2.2 rfl) h3
          split at h4
          · obtain ⟨y, t', h5, h6⟩ := step_ok h4
            cases h6
            exact ⟨fun h => (by cases h), fun _ => hf _ hfed _ _ h5, fun h => (by cases h)⟩
          · cases h4
            exact ⟨fun _ => hfed, fun h => absurd rfl h, fun _ h => absurd h ‹_›⟩
    obtain ⟨i, it⟩ := s
    cases it with
    | none => cases congrArg Prod.fst h
    | some y =>
      have := congrArg Prod.snd h
      simp only [peekableDecoder] at this
      subst this
      exact ⟨hi.2.1 (by simp), rfl⟩

/-! ## `MaybeEos` -/

theorem renews_maybeEos {D : Decoder σ α} {s₀ : σ} (h : Renews D s₀) :
    Renews (maybeEosDecoder D) (.new s₀) := by
  obtain ⟨R, hb, hf⟩ := h
  refine ⟨fun s t => R s.inner t.inner ∧ s.started = t.started, ?_, fun s hs x s' h => ?_⟩
  · constructor
    · rintro ⟨s, si⟩ ⟨t, ti⟩ ⟨h1, h2⟩; exact hb.idle h1
    · rintro ⟨s, si⟩ ⟨t, ti⟩ ⟨h1, h2⟩; exact hb.req h1
    · rintro ⟨s, si⟩ ⟨t, ti⟩ ⟨h1, h2⟩ b e
      simp only at h1 h2
      subst h2
      exact Agree.step (hb.agree h1 b _) (fun _ _ h => ⟨h, rfl⟩) fun _ _ _ h => .mk ⟨h, rfl⟩
    · rintro ⟨s, si⟩ ⟨t, ti⟩ ⟨h1, h2⟩
      simp only at h1 h2
      subst h2
      exact Agree.step (hb.agreeF h1) (fun _ _ h => ⟨h, rfl⟩) fun _ _ _ h => .mk ⟨h, rfl⟩
  · have hi : Fed D s₀ s.inner := by
      clear h
      induction hs with
      | new => exact .new
      | @decode s s' b e m _ hn hd ih =>
        obtain ⟨sz, t, h3, h4⟩ := step_ok hd
        cases h4
        exact ih.decode (fun h => by rw [hn h]; rfl) h3
    obtain ⟨y, t, h3, h4⟩ := step_ok h
    cases h4
    exact ⟨hf _ hi _ _ h3, rfl⟩

/-! ## Pairs and `AndThen` -/

/-- Two exits of `bytecodec_try_decode!` that agree, with related states. -/
inductive AgreeF {ω : Type} (R : σ → σ → Prop) : Flow ω σ → Flow ω σ → Prop
  | next (o : ω) {s t : σ} : R s t → AgreeF R (.next o s) (.next o t)
  | ret (r : Res ω) {s t : σ} : R s t → AgreeF R (.ret r s) (.ret r t)

theorem Bisim.tryDecode {D : Decoder σ α} {R : σ → σ → Prop} (h : Bisim D R) {s t : σ} (hr : R s t) (o b e) :
    AgreeF R (tryDecode D s o b e) (tryDecode D t o b e) := by
  unfold Bytecodec.tryDecode
  rw [← h.idle hr]
  split
  · exact .next _ hr
  · split
    · exact .ret _ hr
    · obtain ⟨h1, h2⟩ := h.decode hr (b.drop o) e
      generalize D.decode s (b.drop o) e = p at h1 h2
      generalize D.decode t (b.drop o) e = q at h1 h2
      obtain ⟨r, s'⟩ := p
      obtain ⟨r', t'⟩ := q
      simp only at h1 h2
      subst h1
      cases r with
      | ok n =>
        simp only
        rw [← h.idle h2]
        split
        · exact .next _ h2
        · exact .ret _ h2
      | err k => exact .ret _ h2
      | panic => exact .ret _ h2
      | capacity => exact .ret _ h2
      | diverge => exact .ret _ h2

/-- After `bytecodec_try_decode!` without an error the component has been fed. -/
theorem tryDecode_fed {D : Decoder σ α} {s₀ s : σ} (h : Fed D s₀ s) {o : Nat} {b : Bytes} {e : Eos} {s' : σ} :
    (∀ o', tryDecode D s o b e = .next o' s' → Fed D s₀ s') ∧
    (∀ n, tryDecode D s o b e = .ret (.ok n) s' → Fed D s₀ s') := by
  unfold Bytecodec.tryDecode
  constructor
  · intro o' hn
    split at hn
    · cases hn; exact h
    · split at hn
      · cases hn
      · split at hn
        · split at hn
          · cases hn; exact h.decode (fun h' => absurd h' ‹_›) ‹_›
          · cases hn
        all_goals cases hn
  · intro n hn
    split at hn
    · cases hn
    · split at hn
      · cases hn
      · split at hn
        · split at hn
          · cases hn
          · cases hn; exact h.decode (fun h' => absurd h' ‹_›) ‹_›
        all_goals cases hn

theorem renews_pair {σ0 α0 σ1 α1 : Type} {D0 : Decoder σ0 α0} {D1 : Decoder σ1 α1} {s0 : σ0} {s1 : σ1}
    (h0 : Renews D0 s0) (h1 : Renews D1 s1) : Renews (tupleDecoder2 D0 D1) (s0, s1) := by
  obtain ⟨R0, hb0, hf0⟩ := h0
  obtain ⟨R1, hb1, hf1⟩ := h1
  refine ⟨fun s t => R0 s.1 t.1 ∧ R1 s.2 t.2, ?_, fun s hs x s' h => ?_⟩
  · constructor
    · rintro s t ⟨h1, h2⟩
      simp only [tupleDecoder2, hb0.idle h1, hb1.idle h2]
    · rintro s t ⟨h1, h2⟩
      simp only [tupleDecoder2, hb0.req h1, hb1.req h2]
    · rintro s t ⟨h1, h2⟩ b e
      simp only [tupleDecoder2]
      have a0 := hb0.tryDecode h1 0 b e
      generalize tryDecode D0 s.1 0 b e = p at a0
      generalize tryDecode D0 t.1 0 b e = q at a0
      cases a0 with
      | ret r hr => exact ⟨rfl, hr, h2⟩
      | next o hr =>
        simp only
        have a1 := hb1.tryDecode h2 o b e
        generalize tryDecode D1 s.2 o b e = p at a1
        generalize tryDecode D1 t.2 o b e = q at a1
        cases a1 with
        | ret r hr' => exact ⟨rfl, hr, hr'⟩
        | next o hr' => exact ⟨rfl, hr, hr'⟩
    · rintro s t ⟨h1, h2⟩
      exact Agree.step (hb0.agreeF h1) (fun _ _ h => ⟨h, h2⟩) fun _ _ _ h =>
        Agree.step (hb1.agreeF h2) (fun _ _ h' => ⟨h, h'⟩) fun _ _ _ h' => .mk ⟨h, h'⟩
  · have hi : Fed D0 s0 s.1 ∧ Fed D1 s1 s.2 := by
      clear h
      induction hs with
      | new => exact ⟨.new, .new⟩
      | @decode s s' b e m _ hn hd ih =>
        simp only [tupleDecoder2] at hd
        cases ht : tryDecode D0 s.1 0 b e with
        | ret r t0 =>
          rw [ht] at hd
          cases hd
          exact ⟨(tryDecode_fed ih.1).2 _ ht, ih.2⟩
        | next o t0 =>
          rw [ht] at hd
          simp only at hd
          have hf := (tryDecode_fed ih.1).1 _ ht
          cases ht' : tryDecode D1 s.2 o b e with
          | ret r t1 =>
            rw [ht'] at hd
            cases hd
            exact ⟨hf, (tryDecode_fed ih.2).2 _ ht'⟩
          | next o t1 =>
            rw [ht'] at hd
            cases hd
            exact ⟨hf, (tryDecode_fed ih.2).1 _ ht'⟩
    obtain ⟨y, t, h3, h4⟩ := step_ok h
    obtain ⟨z, u, h5, h6⟩ := step_ok h4
    cases h6
    exact ⟨hf0 _ hi.1 _ _ h3, hf1 _ hi.2 _ _ h5⟩

theorem renews_andThen {σ0 α0 σ1 α1 : Type} {D0 : Decoder σ0 α0} (D1 : Decoder σ1 α1) {s0 : σ0} (f : α0 → σ1)
    (h0 : Renews D0 s0) : Renews (andThenDecoder D0 D1 f) (s0, none) := by
  obtain ⟨R, hb, hf⟩ := h0
  refine ⟨fun s t => R s.1 t.1 ∧ s.2 = t.2, ?_, fun s hs x s' h => ?_⟩
  · have second : ∀ (b : Bytes) (e : Eos) (s t : σ0) (o : Nat) (u : σ1), R s t →
        Agree (fun s t : σ0 × Option σ1 => R s.1 t.1 ∧ s.2 = t.2)
          (match tryDecode D1 u o b e with
            | .ret r s1' => (r, (s, some s1'))
            | .next offset s1' => (.ok offset, (s, some s1')))
          (match tryDecode D1 u o b e with
            | .ret r s1' => (r, (t, some s1'))
            | .next offset s1' => (.ok offset, (t, some s1'))) := by
      intro b e s t o u hr
      cases tryDecode D1 u o b e <;> exact .mk ⟨hr, rfl⟩
    constructor
    · rintro ⟨s, si⟩ ⟨t, ti⟩ ⟨h1, h2⟩
      simp only at h1 h2
      subst h2
      rfl
    · rintro ⟨s, si⟩ ⟨t, ti⟩ ⟨h1, h2⟩
      simp only at h1 h2
      subst h2
      cases si with
      | none => exact hb.req h1
      | some u => rfl
    · rintro ⟨s, si⟩ ⟨t, ti⟩ ⟨h1, h2⟩ b e
      simp only at h1 h2
      subst h2
      cases si with
      | some u => exact second b e s t 0 u h1
      | none =>
        simp only [andThenDecoder]
        have a0 := hb.tryDecode h1 0 b e
        generalize tryDecode D0 s 0 b e = p at a0
        generalize tryDecode D0 t 0 b e = q at a0
        cases a0 with
        | ret r hr => exact ⟨rfl, hr, rfl⟩
        | next o hr => exact Agree.step (hb.agreeF hr) (fun _ _ h => ⟨h, rfl⟩) fun x _ _ h => second b e _ _ o _ h
    · rintro ⟨s, si⟩ ⟨t, ti⟩ ⟨h1, h2⟩
      simp only at h1 h2
      subst h2
      cases si with
      | none => exact ⟨rfl, h1, rfl⟩
      | some u => exact ⟨rfl, h1, rfl⟩
  · have hi : (s.2 = none → Fed D0 s0 s.1) ∧ (s.2 ≠ none → R s.1 s0) := by
      clear h
      induction hs with
      | new => exact ⟨fun _ => .new, fun h => absurd rfl h⟩
      | @decode s s' b e m _ hn hd ih =>
        obtain ⟨i, it⟩ := s
        have second : ∀ {j : σ0} {o : Nat} {u : σ1}, R j s0 → (match tryDecode D1 u o b e with
            | .ret r s1' => (r, (j, some s1'))
            | .next offset s1' => (.ok offset, (j, some s1'))) = ((.ok m : Res Nat), s') →
            (s'.2 = none → Fed D0 s0 s'.1) ∧ (s'.2 ≠ none → R s'.1 s0) := by
          intro j o u hj hm
          split at hm <;> (cases hm; exact ⟨fun h => (by cases h), fun _ => hj⟩)
        cases it with
        | some y => exact second (ih.2 (by simp)) hd
        | none =>
          simp only [andThenDecoder] at hd
          cases ht : tryDecode D0 i 0 b e with
          | ret r t0 =>
            rw [ht] at hd
            cases hd
            exact ⟨fun _ => (tryDecode_fed (ih.1 rfl)).2 _ ht, fun h => absurd rfl h⟩
          | next o t0 =>
            rw [ht] at hd
            obtain ⟨y, t, h3, h4⟩ := step_ok hd
            exact second (hf _ ((tryDecode_fed (ih.1 rfl)).1 _ ht) _ _ h3) h4
    obtain ⟨i, it⟩ := s
    cases it with
    | none => cases congrArg Prod.fst h
    | some y =>
      have := congrArg Prod.snd h
      simp only [andThenDecoder] at this
      subst this
      exact ⟨hi.2 (by simp), rfl⟩

theorem fed_captured {ε : Type} {F : ε → Decoder σ α} {x : ε} {s₀ : σ} {t : ε × σ}
    (h : Fed (capturedDecoder F) (x, s₀) t) : t.1 = x ∧ Fed (F x) s₀ t.2 := by
  induction h with
  | new => exact ⟨rfl, .new⟩
  | @decode s s' b e n _ hi hd ih =>
    obtain ⟨y, s⟩ := s
    obtain ⟨rfl, ih⟩ := ih
    obtain ⟨hd, h1⟩ := captured_decode.1 hd
    exact ⟨h1, ih.decode (fun h => congrArg Prod.snd (hi h)) hd⟩

theorem renews_captured {ε : Type} {F : ε → Decoder σ α} {x : ε} {s₀ : σ} (h : Renews (F x) s₀) :
    Renews (capturedDecoder F) (x, s₀) := by
  obtain ⟨R, hb, hf⟩ := h
  refine ⟨fun s t => s.1 = x ∧ t.1 = x ∧ R s.2 t.2, ⟨?_, ?_, ?_, ?_⟩, ?_⟩
  · rintro ⟨_, s⟩ ⟨_, t⟩ ⟨rfl, h, hr⟩; cases h; exact hb.idle hr
  · rintro ⟨_, s⟩ ⟨_, t⟩ ⟨rfl, h, hr⟩; cases h; exact hb.req hr
  · rintro ⟨_, s⟩ ⟨_, t⟩ ⟨rfl, h, hr⟩ b e; cases h
    exact ⟨(hb.decode hr b e).1, rfl, rfl, (hb.decode hr b e).2⟩
  · rintro ⟨_, s⟩ ⟨_, t⟩ ⟨rfl, h, hr⟩; cases h
    exact ⟨(hb.finish hr).1, rfl, rfl, (hb.finish hr).2⟩
  · intro s hs y s' he
    have key : s.1 = x ∧ Fed (F x) s₀ s.2 := fed_captured hs
    obtain ⟨z, s⟩ := s
    obtain ⟨rfl, hs⟩ := key
    obtain ⟨he, h1⟩ := captured_finish.1 he
    exact ⟨h1, rfl, hf s hs y s'.2 he⟩

theorem parts_renews {own : OwnDecoder} (hP : ∀ σ α (D : Decoder σ α) s, own σ α D s → AsNew D s)
    {σ α : Type} {D : Decoder σ α} {s₀ : σ} (h : ReusableWith own D s₀) : Renews D s₀ := by
  induction h with
  | own h => exact ⟨_, bisim_same _, fun s hs x s' hf => hP _ _ _ _ h s x s' hs hf⟩
  | copyable b => exact renews_copyable _ rfl
  | remaining => exact renews_remaining
  | null => exact renews_null
  | padding b => exact renews_padding b
  | number f k => exact renews_number f k
  | monolithic parse => exact renews_monolithic parse
  | utf8 _ ih => exact renews_utf8 ih
  | map f _ ih => exact renews_map ih f
  | tryMap f _ ih => exact renews_tryMap ih f
  | mapErr f _ ih => exact renews_mapErr ih f
  | omittable o _ ih => exact renews_omittable ih o
  | length n _ ih => exact renews_length ih n
  | maxBytes n _ ih => exact renews_maxBytes ih n
  | peekable _ ih => exact renews_peekable ih
  | maybeEos _ ih => exact renews_maybeEos ih
  | pair _ _ ih0 ih1 => exact renews_pair ih0 ih1
  | andThen D1 f _ ih => exact renews_andThen D1 f ih
  | captured F x _ ih => exact renews_captured ih

theorem Spec.Reusable.renews {σ α : Type} {D : Decoder σ α} {s₀ : σ} (h : Reusable D s₀) : Renews D s₀ :=
  parts_renews (fun _ _ _ _ h => h.elim) h

end Bytecodec
