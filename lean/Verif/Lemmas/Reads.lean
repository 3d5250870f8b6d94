import Verif.Lemmas.Join
import Verif.Spec.Format
/-!
# Combinators preserve formats
-/
namespace Bytecodec

open Spec

variable {σ α β : Type}

theorem sane_le {e : Eos} {m n : Nat} (h : EosSane e n) (hm : m ≤ n) : EosSane e m :=
  fun r hr => by have := h r hr; omega

theorem reached_finite {e : Eos} (h : e.isReached = true) : e = ⟨.finite 0⟩ := by
  obtain ⟨c⟩ := e
  cases c with
  | finite n =>
    simp only [Eos.isReached] at h
    have : n = 0 := by simpa using h
    rw [this]
  | _ => simp [Eos.isReached] at h

theorem Spec.Reads.take {delim again : Bool} {D : Decoder σ α} {F : σ → Prop} {wire : α → Bytes → Prop}
    (h : Reads delim again D F wire) {s : σ} {x : α} {bs tail : Bytes} {e : Eos} (hs : F s)
    (hw : wire x bs) (he : EosSane e (bs ++ tail).length)
    (hd : delim = true ∨ tail = [] ∧ e.isReached = true) :
    ∃ t s', Item D s (bs ++ tail) e bs.length t x s' ∧ (again = true → F s') := by
  obtain ⟨s', h1, h2⟩ := h.item hs hw he hd
  obtain ⟨t, ht⟩ := feed_one.1 h1
  exact ⟨t, s', ht, h2⟩

theorem reads_of {delim again : Bool} {D : Decoder σ α} {F : σ → Prop} {wire : α → Bytes → Prop}
    (item : ∀ {s x bs tail e}, F s → wire x bs → EosSane e (bs ++ tail).length →
      (delim = true ∨ tail = [] ∧ e.isReached = true) →
      ∃ t s', Item D s (bs ++ tail) e bs.length t x s' ∧ (again = true → F s'))
    (idle : ∀ {s x bs b e}, F s → wire x bs → D.isIdle s = true → EosSane e b.length →
      (delim = true ∨ b = [] ∧ (e.isReached = true ∨ e = Eos.new false)) → D.decode s b e = (.ok 0, s)) :
    Reads delim again D F wire where
  item := by
    intro s x bs tail e hs hw he hd
    obtain ⟨t, s', h1, h2⟩ := item hs hw he hd
    exact ⟨s', feed_one.2 ⟨t, h1⟩, h2⟩
  idle := idle

theorem Spec.Reads.weaken {delim again : Bool} {D : Decoder σ α} {F : σ → Prop} {wire wire' : α → Bytes → Prop}
    (h : Reads delim again D F wire) (hw : ∀ x bs, wire' x bs → wire x bs) : Reads delim again D F wire' where
  item := fun hs hx he hd => h.item hs (hw _ _ hx) he hd
  idle := fun hs hx hi he hd => h.idle hs (hw _ _ hx) hi he hd

/-- Less is claimed. -/
theorem Spec.Reads.relax {delim again delim' again' : Bool} {D : Decoder σ α} {F : σ → Prop}
    {wire : α → Bytes → Prop} (h : Reads delim again D F wire) (hd : delim' = true → delim = true)
    (ha : again' = true → again = true) : Reads delim' again' D F wire where
  item := by
    intro s x bs tail e hs hx he hd'
    obtain ⟨s', h1, h2⟩ := h.item hs hx he (hd'.imp_left hd)
    exact ⟨s', h1, fun h => h2 (ha h)⟩
  idle := fun hs hx hi he hd' => h.idle hs hx hi he (hd'.imp_left hd)

/-! ## Leaves -/

theorem reads_copyable (k : Nat) : Reads true true copyableBytesDecoder
    (fun s => s.offset = 0 ∧ s.bytes.length = k) (fun x bs => x = bs ∧ bs.length = k) := by
  have idle : ∀ {s : CopyableState} {b : Bytes} {e : Eos}, s.offset = 0 ∧ s.bytes.length = k →
      copyableBytesDecoder.isIdle s = true → copyableBytesDecoder.decode s b e = (.ok 0, s) := by
    rintro ⟨B, off⟩ b e ⟨rfl, h2⟩ hi
    simp only [copyableBytesDecoder, beq_iff_eq] at hi
    have hB : B = [] := List.eq_nil_of_length_eq_zero hi.symm
    subst hB
    simp [copyableBytesDecoder, splice]
  refine reads_of ?_ (fun hs _ hi _ _ => idle hs hi)
  rintro ⟨B, off⟩ x bs tail e ⟨rfl, h2⟩ ⟨rfl, h4⟩ he hd
  simp only at h2
  have key : copyableBytesDecoder.decode ⟨B, 0⟩ (x ++ tail) e = (.ok x.length, ⟨x, x.length⟩) := by
    rw [copyable_eq _ _ (by simp)]
    simp only [List.length_append, Nat.zero_add, Nat.sub_zero, h2]
    have e1 : min (x.length + tail.length) k = x.length := by omega
    rw [e1, if_neg (by omega)]
    have e2 : (x ++ tail).take k = x := by rw [← h4]; simp
    rw [e2]
    simp [splice, h2, h4]
  cases hi : copyableBytesDecoder.isIdle ⟨B, 0⟩ with
  | true =>
    have := idle (b := x ++ tail) (e := e) ⟨rfl, h2⟩ hi
    rw [key] at this
    simp only [Prod.mk.injEq, Res.ok.injEq, CopyableState.mk.injEq] at this
    refine ⟨⟨B, 0⟩, ⟨B, 0⟩, (item_quiet hi).2 ⟨by omega, rfl, ?_⟩, fun _ => ⟨rfl, h2⟩⟩
    have hB : B.length = 0 := by omega
    simp [copyableBytesDecoder, hB, this.2.1]
  | false =>
    refine ⟨⟨x, x.length⟩, ⟨x, 0⟩, (item_busy hi).2 ⟨key, ?_, ?_⟩, fun _ => ⟨rfl, h4⟩⟩
    · simp [copyableBytesDecoder]
    · simp [copyableBytesDecoder]

/-- Numbers. -/
theorem reads_number (f : Bytes → α) (k : Nat) : Reads true true (fixDecoder f)
    (fun s => s.offset = 0 ∧ s.bytes.length = k) (fun x bs => x = f bs ∧ bs.length = k) := by
  have h := reads_copyable k
  refine reads_of ?_ (fun hs hw hi he hd => h.idle (x := _) (bs := _) hs ⟨rfl, hw.2⟩ hi he hd)
  rintro s x bs tail e hs ⟨rfl, h4⟩ he hd
  obtain ⟨t, s', h1, h2⟩ := h.take (x := bs) hs ⟨rfl, h4⟩ he hd
  refine ⟨t, s', ⟨?_, ?_⟩, h2⟩
  · have := h1.1
    simp only [tryDecode, fixDecoder] at this ⊢
    exact this
  · simp [fixDecoder, h1.2, Res.step]

/-- `BytesDecoder` takes one item only. -/
theorem reads_bytes (k : Nat) : Reads true false bytesDecoder
    (fun s => ∃ b, s = .new b ∧ b.length = k) (fun x bs => x = bs ∧ bs.length = k) := by
  have h := reads_copyable k
  refine reads_of ?_ ?_
  · rintro s x bs tail e ⟨B, rfl, hB⟩ hw he hd
    obtain ⟨t, s', h1, h2⟩ := h.take (s := ⟨B, 0⟩) ⟨rfl, hB⟩ hw he hd
    have fin : ∀ {t : CopyableState}, copyableBytesDecoder.finish t = (.ok x, s') →
        bytesDecoder.finish ⟨some t.bytes, t.offset⟩ = (.ok x, ⟨none, t.offset⟩) := by
      intro t ht
      simp only [copyableBytesDecoder] at ht
      split at ht
      · next h0 =>
        cases ht
        simp [bytesDecoder, BytesDecoderState.exact, h0]
      · cases ht
    have hid : bytesDecoder.isIdle (.new B) = copyableBytesDecoder.isIdle ⟨B, 0⟩ := bytes_idle (by simp)
    cases hi : copyableBytesDecoder.isIdle ⟨B, 0⟩ with
    | true =>
      rw [item_quiet hi] at h1
      refine ⟨.new B, ⟨none, 0⟩, (item_quiet (hid.trans hi)).2 ⟨h1.1, rfl, fin h1.2.2⟩, by simp⟩
    | false =>
      rw [item_busy hi] at h1
      have hb := copyable_bounded (s := ⟨B, 0⟩) (by simp) h1.1
      exact ⟨⟨some t.bytes, t.offset⟩, ⟨none, t.offset⟩, (item_busy (hid.trans hi)).2
        ⟨(bytes_ok (by simp)).2 ⟨t, h1.1, rfl⟩, (bytes_idle hb).trans h1.2.1, fin h1.2.2⟩, by simp⟩
  · rintro s x bs b e ⟨B, rfl, hB⟩ hw hi he hd
    have hid : bytesDecoder.isIdle (.new B) = copyableBytesDecoder.isIdle ⟨B, 0⟩ := bytes_idle (by simp)
    have := h.idle (s := ⟨B, 0⟩) ⟨rfl, hB⟩ hw (hid.symm.trans hi) he hd
    exact (bytes_ok (bs := B) (off := 0) (by simp)).2 ⟨_, this, rfl⟩

theorem reads_remaining : Reads false true remainingBytesDecoder
    (fun s => s = .new) (fun x bs => x = bs ∧ bs.length < 2 ^ 63) := by
  refine reads_of ?_ ?_
  · rintro s x bs tail e rfl ⟨rfl, h4⟩ he hd
    rcases hd with hd | ⟨rfl, hd⟩
    · cases hd
    rw [List.append_nil] at he ⊢
    refine ⟨⟨x, true⟩, .new, (item_busy rfl).2 ⟨(remaining_ok rfl).2 ⟨rfl, ?_, ?_⟩, rfl, rfl⟩, by simp⟩
    · simp [RemainingState.new, hd]
    · intro m hm
      rw [reached_finite hd] at hm
      cases hm
      simp [RemainingState.new]
      omega
  · rintro s x bs b e rfl _ hi
    cases hi

theorem reads_null : Reads true true nullDecoder (fun _ => True) (fun _ bs => bs = []) := by
  refine reads_of ?_ ?_
  · rintro s x bs tail e _ rfl _ _
    exact ⟨s, s, (item_quiet rfl).2 ⟨rfl, rfl, rfl⟩, by simp⟩
  · intro s x bs b e _ _ _ _ _
    rfl

theorem reads_padding (c : Option UInt8) : Reads false true paddingDecoder (fun s => s = .new c)
    (fun _ bs => ∀ p, c = some p → ∀ b ∈ bs, b = p) := by
  refine reads_of ?_ ?_
  · rintro s x bs tail e rfl hw _ hd
    rcases hd with hd | ⟨rfl, hd⟩
    · cases hd
    rw [List.append_nil]
    refine ⟨⟨c, true⟩, .new c, (item_busy rfl).2 ⟨(padding_ok rfl).2 ⟨rfl, ?_, ?_⟩, rfl, rfl⟩, by simp⟩
    · simp [PaddingState.new, hd]
    · intro p hp
      simp only [List.all_eq_true, beq_iff_eq]
      exact hw p hp
  · rintro s x bs b e rfl _ hi
    cases hi

theorem reads_monolithic (parse : MonolithicParser α) : Reads false true (monolithicDecoder parse)
    (fun s => s = .new) (fun x bs => parse [] bs = (.ok x, bs.length)) := by
  refine reads_of ?_ ?_
  · rintro s x bs tail e rfl hw _ hd
    rcases hd with hd | ⟨rfl, hd⟩
    · cases hd
    rw [List.append_nil]
    refine ⟨⟨some x, []⟩, .new, (item_busy rfl).2 ⟨?_, rfl, rfl⟩, by simp⟩
    simp [monolithicDecoder, hd, MonoDecState.new, hw]
  · rintro s x bs b e rfl _ hi
    cases hi

/-! ## Conversions of the item -/

theorem item_congr {D : Decoder σ α} {D' : Decoder σ β} (hd : D'.decode = D.decode) (hi : D'.isIdle = D.isIdle)
    {s t s' : σ} {b : Bytes} {e : Eos} {n : Nat} {x : α} {y : β} (h : Item D s b e n t x s')
    (hf : D'.finish t = (.ok y, s')) : Item D' s b e n t y s' := by
  refine ⟨?_, hf⟩
  have := h.1
  simp only [tryDecode] at this ⊢
  rw [hd, hi]
  exact this

theorem reads_map {delim again : Bool} {D : Decoder σ α} {F : σ → Prop} {wire : α → Bytes → Prop} (f : α → β)
    (h : Reads delim again D F wire) :
    Reads delim again (mapDecoder D f) F (fun y bs => ∃ x, wire x bs ∧ f x = y) := by
  refine reads_of ?_ (by rintro s y bs b e hs ⟨x, hw, _⟩ hi he hd; exact h.idle hs hw hi he hd)
  rintro s y bs tail e hs ⟨x, hw, rfl⟩ he hd
  obtain ⟨t, s', h1, h2⟩ := h.take hs hw he hd
  exact ⟨t, s', item_congr (D := D) (D' := mapDecoder D f) rfl rfl h1 (by simp [mapDecoder, h1.2, Res.step]), h2⟩

theorem reads_tryMap {delim again : Bool} {D : Decoder σ α} {F : σ → Prop} {wire : α → Bytes → Prop}
    (f : α → Except ErrorKind β) (h : Reads delim again D F wire) :
    Reads delim again (tryMapDecoder D f) F (fun y bs => ∃ x, wire x bs ∧ f x = .ok y) := by
  refine reads_of ?_ (by rintro s y bs b e hs ⟨x, hw, _⟩ hi he hd; exact h.idle hs hw hi he hd)
  rintro s y bs tail e hs ⟨x, hw, hx⟩ he hd
  obtain ⟨t, s', h1, h2⟩ := h.take hs hw he hd
  exact ⟨t, s', item_congr (D := D) (D' := tryMapDecoder D f) rfl rfl h1 (by simp [tryMapDecoder, h1.2, Res.step, hx]), h2⟩

theorem reads_utf8 {delim again : Bool} {D : Decoder σ Bytes} {F : σ → Prop} {wire : Bytes → Bytes → Prop}
    (h : Reads delim again D F wire) :
    Reads delim again (utf8Decoder D) F (fun y bs => ∃ x, wire x bs ∧ fromUtf8 x = some y) := by
  refine reads_of ?_ (by rintro s y bs b e hs ⟨x, hw, _⟩ hi he hd; exact h.idle hs hw hi he hd)
  rintro s y bs tail e hs ⟨x, hw, hx⟩ he hd
  obtain ⟨t, s', h1, h2⟩ := h.take hs hw he hd
  exact ⟨t, s', item_congr (D := D) (D' := utf8Decoder D) rfl rfl h1 (by simp [utf8Decoder, h1.2, Res.step, hx]), h2⟩

theorem reads_captured {ε : Type} {C : ε → Decoder σ α} {v : ε} {delim again : Bool} {F : σ → Prop}
    {wire : α → Bytes → Prop} (h : Reads delim again (C v) F wire) :
    Reads delim again (capturedDecoder C) (fun s => s.1 = v ∧ F s.2) wire := by
  refine reads_of ?_ ?_
  · rintro ⟨_, s⟩ y bs tail e ⟨rfl, hs⟩ hw he hd
    obtain ⟨t, s', h1, h2⟩ := h.take hs hw he hd
    exact ⟨(_, t), (_, s'), item_captured.2 ⟨h1, rfl, rfl⟩, fun ha => ⟨rfl, h2 ha⟩⟩
  · rintro ⟨_, s⟩ x bs b e ⟨rfl, hs⟩ hw hi he hd
    exact captured_decode.2 ⟨h.idle hs hw hi he hd, rfl⟩

theorem reads_mapErr {delim again : Bool} {D : Decoder σ α} {F : σ → Prop} {wire : α → Bytes → Prop}
    (f : ErrorKind → ErrorKind) (h : Reads delim again D F wire) :
    Reads delim again (mapErrDecoder D f) F wire := by
  refine reads_of ?_ ?_
  · rintro s y bs tail e hs hw he hd
    obtain ⟨t, s', h1, h2⟩ := h.take hs hw he hd
    refine ⟨t, s', ?_, h2⟩
    cases hi : D.isIdle s with
    | true =>
      rw [item_quiet hi] at h1
      exact (item_quiet (D := mapErrDecoder D f) hi).2 ⟨h1.1, h1.2.1, by simp [mapErrDecoder, h1.2.2, Res.mapErr]⟩
    | false =>
      rw [item_busy hi] at h1
      exact (item_busy (D := mapErrDecoder D f) hi).2
        ⟨by simp [mapErrDecoder, h1.1, Res.mapErr], h1.2.1, by simp [mapErrDecoder, h1.2.2, Res.mapErr]⟩
  · intro s x bs b e hs hw hi he hd
    simp [mapErrDecoder, h.idle hs hw hi he hd, Res.mapErr]

/-! ## `Omittable`, `Peekable`, `MaybeEos` -/

theorem reads_omit_true (D : Decoder σ α) : Reads true true (omittableDecoder D) (fun s => s.doOmit = true)
    (fun o bs => o = none ∧ bs = []) := by
  refine reads_of ?_ ?_
  · rintro ⟨i, d⟩ x bs tail e rfl ⟨rfl, rfl⟩ _ _
    exact ⟨⟨i, true⟩, ⟨i, true⟩, (item_quiet (by simp [omittableDecoder])).2 ⟨rfl, rfl, by simp [omittableDecoder]⟩,
      fun _ => rfl⟩
  · rintro ⟨i, d⟩ x bs b e rfl _ _ _ _
    simp [omittableDecoder]

theorem reads_omit_false {delim again : Bool} {D : Decoder σ α} {F : σ → Prop} {wire : α → Bytes → Prop}
    (h : Reads delim again D F wire) :
    Reads delim again (omittableDecoder D) (fun s => F s.inner ∧ s.doOmit = false)
      (fun o bs => ∃ x, o = some x ∧ wire x bs) := by
  have idle : ∀ {i}, (omittableDecoder D).isIdle ⟨i, false⟩ = D.isIdle i := by
    intro i; simp [omittableDecoder]
  refine reads_of ?_ ?_
  · rintro ⟨i, d⟩ o bs tail e ⟨hs, rfl⟩ ⟨x, rfl, hw⟩ he hd
    obtain ⟨t, s', h1, h2⟩ := h.take hs hw he hd
    refine ⟨⟨t, false⟩, ⟨s', false⟩, ?_, fun h => ⟨h2 h, rfl⟩⟩
    cases hi : D.isIdle i with
    | true =>
      rw [item_quiet hi] at h1
      obtain ⟨h3, rfl, h4⟩ := h1
      exact (item_quiet (idle.trans hi)).2 ⟨h3, rfl, omit_fin.2 ⟨_, _, h4, rfl, rfl⟩⟩
    | false =>
      rw [item_busy hi] at h1
      exact (item_busy (idle.trans hi)).2 ⟨omit_ok.2 ⟨_, h1.1, rfl⟩, idle.trans h1.2.1, omit_fin.2 ⟨_, _, h1.2.2, rfl, rfl⟩⟩
  · rintro ⟨i, d⟩ o bs b e ⟨hs, rfl⟩ ⟨x, rfl, hw⟩ hi he hd
    exact omit_ok.2 ⟨_, h.idle hs hw (idle.symm.trans hi) he hd, rfl⟩

theorem reads_peekable {delim again : Bool} {D : Decoder σ α} {F : σ → Prop} {wire : α → Bytes → Prop}
    (h : Reads delim again D F wire) :
    Reads delim again (peekableDecoder D) (fun s => F s.inner ∧ s.item = none) wire := by
  refine reads_of ?_ ?_
  · rintro ⟨i, o⟩ x bs tail e ⟨hs, rfl⟩ hw he hd
    obtain ⟨t, s', h1, h2⟩ := h.take hs hw he hd
    refine ⟨⟨s', some x⟩, ⟨s', none⟩, (item_busy rfl).2 ⟨peek_ok.2 ?_, rfl, rfl⟩, fun h => ⟨h2 h, rfl⟩⟩
    cases hi : D.isIdle i with
    | true =>
      rw [item_quiet hi] at h1
      obtain ⟨h3, rfl, h4⟩ := h1
      have hb : bs = [] := List.eq_nil_of_length_eq_zero h3
      subst hb
      refine ⟨t, h.idle hs hw hi he ?_, .inr ⟨hi, _, _, h4, rfl⟩⟩
      exact hd.imp_right fun h => ⟨by simp [h.1], .inl h.2⟩
    | false =>
      rw [item_busy hi] at h1
      exact ⟨t, h1.1, .inr ⟨h1.2.1, _, _, h1.2.2, rfl⟩⟩
  · rintro ⟨i, o⟩ x bs b e ⟨hs, rfl⟩ _ hi
    cases hi

theorem reads_maybeEos {delim again : Bool} {D : Decoder σ α} {F : σ → Prop} {wire : α → Bytes → Prop}
    (h : Reads delim again D F wire) :
    Reads delim again (maybeEosDecoder D) (fun s => F s.inner ∧ s.started = false)
      (fun x bs => wire x bs ∧ (delim = true ∨ bs ≠ [])) := by
  have sane : ∀ {st b e}, EosSane e (List.length (α := UInt8) b) → EosSane (maybeMark st b e) b.length := by
    intro st b e he
    simp only [maybeMark]
    split
    · intro r hr; simp [Eos.new] at hr
    · exact he
  have hidle : ∀ {i st}, (maybeEosDecoder D).isIdle ⟨i, st⟩ = D.isIdle i := fun {_ _} => rfl
  refine reads_of ?_ ?_
  · rintro ⟨i, st⟩ x bs tail e ⟨hs, rfl⟩ ⟨hw, hne⟩ he hd
    have hd' : delim = true ∨ tail = [] ∧ (maybeMark false (bs ++ tail) e).isReached = true := by
      rcases hd with hd | ⟨rfl, hd⟩
      · exact .inl hd
      · rcases hne with hne | hne
        · exact .inl hne
        · refine .inr ⟨rfl, ?_⟩
          simp [maybeMark, hne, hd]
    obtain ⟨t, s', h1, h2⟩ := h.take hs hw (sane (st := false) he) hd'
    cases hi : D.isIdle i with
    | true =>
      rw [item_quiet hi] at h1
      obtain ⟨h3, rfl, h4⟩ := h1
      exact ⟨⟨t, false⟩, ⟨s', false⟩, (item_quiet (D := maybeEosDecoder D) (s := ⟨t, false⟩) hi).2
        ⟨h3, rfl, maybe_fin.2 ⟨_, h4, rfl⟩⟩, fun h => ⟨h2 h, rfl⟩⟩
    | false =>
      rw [item_busy hi] at h1
      exact ⟨_, ⟨s', false⟩, (item_busy (D := maybeEosDecoder D) (s := ⟨i, false⟩) hi).2
        ⟨maybe_ok.2 ⟨_, h1.1, rfl⟩, h1.2.1, maybe_fin.2 ⟨_, h1.2.2, rfl⟩⟩, fun h => ⟨h2 h, rfl⟩⟩
  · rintro ⟨i, st⟩ x bs b e ⟨hs, rfl⟩ ⟨hw, _⟩ hi he hd
    refine maybe_ok.2 ⟨i, h.idle hs hw hi (sane (st := false) he) ?_, by simp⟩
    refine hd.imp_right fun ⟨h1, h2⟩ => ⟨h1, ?_⟩
    simp only [maybeMark]
    split
    · exact .inr rfl
    · exact h2

/-! ## `Length` and `MaxBytes` -/

theorem reads_length {delim again : Bool} {D : Decoder σ α} {F : σ → Prop} {wire : α → Bytes → Prop} (n : Nat)
    (h : Reads delim again D F wire) (hn : n < 2 ^ 64) :
    Reads true again (lengthDecoder D) (fun s => F s.inner ∧ s.expected = n ∧ s.remaining = n)
      (fun x bs => wire x bs ∧ bs.length = n) := by
  have sane : ∀ {b : Bytes}, b.length ≤ n → EosSane ⟨.finite 0⟩ b.length := by
    intro b hb r hr; cases hr; omega
  refine reads_of ?_ ?_
  · rintro ⟨i, x0, r⟩ x bs tail e ⟨hs, hx, hr⟩ ⟨hw, hl⟩ he _
    simp only at hs hx hr
    subst hx hr
    obtain ⟨t, s', h1, h2⟩ := h.take (tail := []) (e := ⟨.finite 0⟩) hs hw
      (sane (by simp; omega)) (.inr ⟨rfl, rfl⟩)
    rw [List.append_nil] at h1
    cases hi : D.isIdle i with
    | true =>
      rw [item_quiet hi] at h1
      obtain ⟨h3, rfl, h4⟩ := h1
      have h0 : r = 0 := by omega
      subst h0
      exact ⟨⟨t, 0, 0⟩, ⟨s', 0, 0⟩, (item_quiet (D := lengthDecoder D) (s := ⟨t, 0, 0⟩) hi).2
        ⟨h3, rfl, length_fin.2 ⟨rfl, _, h4, rfl⟩⟩, fun h => ⟨h2 h, rfl, rfl⟩⟩
    | false =>
      rw [item_busy hi] at h1
      refine ⟨⟨t, r, r - bs.length⟩, ⟨s', r, r⟩, (item_busy (D := lengthDecoder D) (s := ⟨i, r, r⟩) hi).2
        ⟨length_ok.2 ⟨?_, t, ?_, by simp; omega, rfl⟩, h1.2.1, length_fin.2 ⟨by simp; omega, _, h1.2.2, rfl⟩⟩,
        fun h => ⟨h2 h, rfl, rfl⟩⟩
      · intro m hm
        have := he m hm
        refine ⟨this, ?_⟩
        simp only [List.length_append]
        omega
      · simp only
        have e1 : (bs ++ tail).take r = bs := by rw [← hl]; simp
        have e2 : r - min (bs ++ tail).length r = 0 := by simp only [List.length_append]; omega
        rw [e1, e2]
        exact h1.1
  · rintro ⟨i, x0, r⟩ x bs b e ⟨hs, hx, hr⟩ ⟨hw, hl⟩ hi he _
    simp only at hs hx hr
    subst hx hr
    obtain ⟨t, s', h1, h2⟩ := h.take (tail := []) (e := ⟨.finite 0⟩) hs hw
      (sane (by simp; omega)) (.inr ⟨rfl, rfl⟩)
    replace hi : D.isIdle i = true := hi
    rw [item_quiet hi] at h1
    have h0 : r = 0 := by omega
    subst h0
    refine length_ok.2 ⟨?_, i, ?_, by simp, rfl⟩
    · intro m hm
      exact ⟨he m hm, by simp⟩
    · have := h.idle (e := ⟨.finite 0⟩) (b := []) hs hw hi (sane (by simp)) (.inr ⟨rfl, .inl rfl⟩)
      simpa using this

theorem reads_maxBytes {delim again : Bool} {D : Decoder σ α} {F : σ → Prop} {wire : α → Bytes → Prop} (n : Nat)
    (h : Reads delim again D F wire) :
    Reads false again (maxBytesDecoder D) (fun s => F s.inner ∧ s.consumed = 0 ∧ s.max = n)
      (fun x bs => wire x bs ∧ bs.length ≤ n) := by
  refine reads_of ?_ ?_
  · rintro ⟨i, c, m⟩ x bs tail e ⟨hs, rfl, rfl⟩ ⟨hw, hl⟩ he hd
    rcases hd with hd | ⟨rfl, hd⟩
    · cases hd
    obtain ⟨t, s', h1, h2⟩ := h.take hs hw he (.inr ⟨rfl, hd⟩)
    rw [List.append_nil] at h1 he ⊢
    simp only at hl
    cases hi : D.isIdle i with
    | true =>
      rw [item_quiet hi] at h1
      obtain ⟨h3, rfl, h4⟩ := h1
      exact ⟨⟨t, 0, m⟩, ⟨s', 0, m⟩, (item_quiet (D := maxBytesDecoder D) (s := ⟨t, 0, m⟩) hi).2
        ⟨h3, rfl, maxBytes_fin.2 ⟨_, h4, rfl⟩⟩, fun h => ⟨h2 h, rfl, rfl⟩⟩
    | false =>
      rw [item_busy hi] at h1
      refine ⟨⟨t, 0 + bs.length, m⟩, ⟨s', 0, m⟩, (item_busy (D := maxBytesDecoder D) (s := ⟨i, 0, m⟩) hi).2
        ⟨maxBytes_ok.2 ⟨?_, by simp, by simpa using hl, ?_, t, h1.1, rfl⟩, h1.2.1, maxBytes_fin.2 ⟨_, h1.2.2, rfl⟩⟩,
        fun h => ⟨h2 h, rfl, rfl⟩⟩
      · rw [reached_finite hd]; simp
      · intro r hr
        have := he r hr
        rw [reached_finite hd] at hr
        cases hr
        exact ⟨by omega, by simpa using hl⟩
  · rintro ⟨i, c, m⟩ x bs b e ⟨hs, rfl, rfl⟩ ⟨hw, hl⟩ hi he hd
    rcases hd with hd | ⟨rfl, hd⟩
    · cases hd
    have hidle := h.idle (e := e) (b := []) hs hw hi he (.inr ⟨rfl, hd⟩)
    refine maxBytes_ok.2 ⟨?_, by simp, by simp, ?_, i, hidle, rfl⟩
    · rcases hd with hd | rfl
      · rw [reached_finite hd]; simp
      · simp [Eos.new]
    · intro r hr
      rcases hd with hd | rfl
      · rw [reached_finite hd] at hr
        cases hr
        simp
      · simp [Eos.new] at hr

/-! ## Sequences -/

theorem reads_pair {delim again : Bool} {σ0 α0 σ1 α1 : Type} {D0 : Decoder σ0 α0} {D1 : Decoder σ1 α1}
    {F0 : σ0 → Prop} {F1 : σ1 → Prop} {w0 : α0 → Bytes → Prop} {w1 : α1 → Bytes → Prop}
    (h0 : Reads true again D0 F0 w0) (h1 : Reads delim again D1 F1 w1) :
    Reads delim again (tupleDecoder2 D0 D1) (fun s => F0 s.1 ∧ F1 s.2)
      (fun x bs => ∃ b0 b1, bs = b0 ++ b1 ∧ w0 x.1 b0 ∧ w1 x.2 b1) := by
  refine reads_of ?_ ?_
  · rintro ⟨s0, s1⟩ ⟨x0, x1⟩ bs tail e ⟨hs0, hs1⟩ ⟨b0, b1, rfl, hw0, hw1⟩ he hd
    rw [List.append_assoc] at he ⊢
    obtain ⟨t0, u0, p1, p2⟩ := h0.take hs0 hw0 he (.inl rfl)
    obtain ⟨t1, u1, q1, q2⟩ := h1.take (tail := tail) (e := e) hs1 hw1 (sane_le he (by simp)) hd
    refine ⟨(t0, t1), (u0, u1), pair_item.2 ⟨b0.length, p1, (tryDecode_at (by simp)).2 ⟨by simp, ?_⟩, q1.2⟩,
      fun h => ⟨p2 h, q2 h⟩⟩
    rw [List.drop_left, List.length_append, Nat.add_sub_cancel_left]
    exact q1.1
  · rintro ⟨s0, s1⟩ ⟨x0, x1⟩ bs b e ⟨hs0, hs1⟩ ⟨b0, b1, rfl, hw0, hw1⟩ hi he hd
    simp only [tupleDecoder2, Bool.and_eq_true] at hi
    simp only [tupleDecoder2]
    rw [tryDecode_quiet hi.1]
    simp only
    rw [tryDecode_quiet hi.2]

theorem reads_andThen {delim again again1 : Bool} {σ0 α0 σ1 α1 : Type} {D0 : Decoder σ0 α0} {D1 : Decoder σ1 α1}
    {F0 : σ0 → Prop} {F1 : α0 → σ1 → Prop} {w0 : α0 → Bytes → Prop} {w1 : α0 → α1 → Bytes → Prop} {f : α0 → σ1}
    (h0 : Reads true again D0 F0 w0) (h1 : ∀ y, Reads delim again1 D1 (F1 y) (w1 y)) (hf : ∀ y, F1 y (f y)) :
    Reads delim again (andThenDecoder D0 D1 f) (fun s => F0 s.1 ∧ s.2 = none)
      (fun x bs => ∃ y b0 b1, bs = b0 ++ b1 ∧ w0 y b0 ∧ w1 y x b1) := by
  refine reads_of ?_ ?_
  · rintro ⟨s0, _⟩ x bs tail e ⟨hs0, rfl⟩ ⟨y, b0, b1, rfl, hw0, hw1⟩ he hd
    rw [List.append_assoc] at he ⊢
    obtain ⟨t0, u0, p1, p2⟩ := h0.take hs0 hw0 he (.inl rfl)
    obtain ⟨t1, u1, q1, q2⟩ := (h1 y).take (tail := tail) (e := e) (hf y) hw1 (sane_le he (by simp)) hd
    refine ⟨(u0, some t1), (u0, none), (item_busy rfl).2 ⟨?_, ?_, ?_⟩, fun h => ⟨p2 h, rfl⟩⟩
    · rw [andThen_none_next p1]
      have : tryDecode D1 (f y) b0.length (b0 ++ (b1 ++ tail)) e = .next (b0 ++ b1).length t1 := by
        refine (tryDecode_at (by simp)).2 ⟨by simp, ?_⟩
        rw [List.drop_left, List.length_append, Nat.add_sub_cancel_left]
        exact q1.1
      rw [this]
      rfl
    · exact q1.idle
    · exact andThen_fin.2 ⟨by rw [q1.2], rfl⟩
  · rintro ⟨s0, _⟩ x bs b e ⟨hs0, rfl⟩ _ hi
    cases hi

theorem many_runs {D : Decoder σ α} {F : σ → Prop} {wire : α → Bytes → Prop} (h : Reads true true D F wire)
    {xs : List α} {bs : Bytes} (hm : Many wire xs bs) : ∀ {s tail e}, F s → EosSane e (bs ++ tail).length →
    ∃ s', Runs D e (bs ++ tail) s xs bs.length s' ∧ F s' := by
  induction hm with
  | nil => intro s tail e hs _; exact ⟨s, .stop _ _, hs⟩
  | @cons x b xs bs hw hne _ ih =>
    intro s tail e hs he
    rw [List.append_assoc] at he ⊢
    obtain ⟨t, s1, h1, h2⟩ := h.take hs hw he (.inl rfl)
    obtain ⟨s2, h3, h4⟩ := ih (s := s1) (tail := tail) (e := e) (h2 rfl) (sane_le he (by simp))
    refine ⟨s2, ?_, h4⟩
    rw [List.length_append]
    exact .step (by simp [hne]) h1 (by simp) (by rw [List.drop_left]; exact h3)

theorem reads_collect {D : Decoder σ α} {F : σ → Prop} {wire : α → Bytes → Prop} (h : Reads true true D F wire) :
    Reads false true (collectDecoder D) (fun s => F s.inner ∧ s.items = [] ∧ s.eos = false) (Many wire) := by
  refine reads_of ?_ ?_
  · rintro ⟨i, items, eos⟩ xs bs tail e ⟨hs, rfl, rfl⟩ hm he hd
    rcases hd with hd | ⟨rfl, hd⟩
    · cases hd
    obtain ⟨s', h1, h2⟩ := many_runs h hm (tail := []) hs he
    rw [List.append_nil] at h1 ⊢
    refine ⟨⟨s', xs, true⟩, ⟨s', [], false⟩, (item_busy rfl).2 ⟨?_, rfl, rfl⟩, fun _ => ⟨h2, rfl, rfl⟩⟩
    have := runs_collect (s := ⟨i, [], false⟩) h1 rfl hd
    simpa using this
  · rintro ⟨i, items, eos⟩ xs bs b e ⟨hs, rfl, rfl⟩ _ hi
    cases hi

theorem reads_collectN {D : Decoder σ α} {F : σ → Prop} {wire : α → Bytes → Prop} (n : Nat)
    (h : Reads true true D F wire) :
    Reads true false (collectNDecoder D) (fun s => F s.inner ∧ s.items = [] ∧ s.remaining = n)
      (fun xs bs => Many wire xs bs ∧ xs.length = n) := by
  have dec : ∀ {i xs bs tail e}, F i → Many wire xs bs → EosSane e (bs ++ tail).length →
      ∃ s', (collectNDecoder D).decode ⟨i, xs.length, []⟩ (bs ++ tail) e = (.ok bs.length, ⟨s', 0, xs⟩) := by
    intro i xs bs tail e hs hm he
    obtain ⟨s', h1, h2⟩ := many_runs h hm hs he
    have := runs_collectN (s := ⟨i, xs.length, []⟩) h1 rfl
    exact ⟨s', by simpa using this⟩
  refine reads_of ?_ ?_
  · rintro ⟨i, r, items⟩ xs bs tail e ⟨hs, rfl, rfl⟩ ⟨hm, rfl⟩ he hd
    cases hi : (collectNDecoder D).isIdle (⟨i, xs.length, []⟩ : CollectNState σ α) with
    | true =>
      have hr := collectN_idle.1 hi
      simp only at hr
      have hx : xs = [] := List.eq_nil_of_length_eq_zero hr
      subst hx
      cases hm
      refine ⟨⟨i, 0, []⟩, ⟨i, 0, []⟩, (item_quiet hi).2 ⟨rfl, rfl, by simp [collectNDecoder]⟩, by simp⟩
    | false =>
      obtain ⟨s', h1⟩ := dec hs hm he
      exact ⟨⟨s', 0, xs⟩, ⟨s', 0, []⟩, (item_busy hi).2 ⟨h1, by simp [collectNDecoder], by simp [collectNDecoder]⟩,
        by simp⟩
  · rintro ⟨i, r, items⟩ xs bs b e ⟨hs, rfl, rfl⟩ ⟨hm, rfl⟩ hi he hd
    have hr := collectN_idle.1 hi
    simp only at hr
    simp [collectNDecoder, hr, collectNLoop]

end Bytecodec
