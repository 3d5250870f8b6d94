import Verif.Lemmas.Feed
/-!
# Joining two buffers: the converse of the splitting law
-/
namespace Bytecodec

open Spec

set_option linter.unusedSimpArgs false

variable {σ α β : Type}

/-- The joining law on the states satisfying `I`. `c`: also when the end of the stream is announced
with an empty buffer. `k`: an item cannot be completed by repeating the end of the stream. `q`: never `Ok` at the end of the stream while still waiting for bytes. -/
structure Joins (c k q : Bool) (D : Decoder σ α) (I : σ → Prop) : Prop where
  bound : ∀ {s b e n t x s'}, I s → Item D s b e n t x s' → n ≤ b.length
  again : ∀ {s b e n t x s'}, I s → Item D s b e n t x s' → I s'
  part : ∀ {s b e n s1}, I s → tryDecode D s 0 b e = .ret (.ok n) s1 → I s1
  quiet : ∀ {s b e n t}, I s → D.isIdle s = true → D.decode s b e = (.ok n, t) → n = 0 ∧ t = s
  still : ∀ {s a b e e1 n t x s'}, I s → D.isIdle s = true → D.decode s a e1 = (.ok n, t) →
    D.finish s = (.ok x, s') → Earlier e1 e b.length → e1.isReached = false →
    EosSane e (a ++ b).length → D.decode s (a ++ b) e = (.ok 0, s)
  extend : ∀ {s a b e e1 n t x s'}, I s → Item D s a e1 n t x s' → Earlier e1 e b.length →
    e1.isReached = false → EosSane e (a ++ b).length → Item D s (a ++ b) e n t x s'
  join : ∀ {s a b e e1 s1 m t x s'}, I s → tryDecode D s 0 a e1 = .ret (.ok a.length) s1 →
    Item D s1 b e m t x s' → Earlier e1 e b.length → e1.isReached = false →
    EosSane e (a ++ b).length → (c = true ∨ b ≠ [] ∨ e.isReached = false) →
    Item D s (a ++ b) e (a.length + m) t x s'
  closed : k = true → ∀ {s a e s1 m t x s'}, I s → e.isReached = true →
    tryDecode D s 0 a e = .ret (.ok a.length) s1 → Item D s1 [] e m t x s' → False
  strict : q = true → ∀ {s b e n s1}, I s → e.isReached = true →
    tryDecode D s 0 b e = .ret (.ok n) s1 → False

theorem Joins.transfer {c k q : Bool} {D : Decoder σ α} {D' : Decoder σ β} {I : σ → Prop}
    (h : Joins c k q D I)
    (hd : ∀ s b e n t, D'.decode s b e = (.ok n, t) ↔ D.decode s b e = (.ok n, t))
    (hi : ∀ s, D'.isIdle s = D.isIdle s)
    (hf : ∀ t y s', D'.finish t = (.ok y, s') → ∃ x, D.finish t = (.ok x, s')) : Joins c k q D' I := by
  have hn : ∀ s b e n t, tryDecode D' s 0 b e = .next n t ↔ tryDecode D s 0 b e = .next n t := by
    intro s b e n t
    cases hs : D.isIdle s with
    | true => rw [tryDecode_quiet hs, tryDecode_quiet ((hi s).trans hs)]
    | false => rw [tryDecode_next_iff hs, tryDecode_next_iff ((hi s).trans hs), hd, hi]
  have hr : ∀ s b e n t, tryDecode D' s 0 b e = .ret (.ok n) t ↔
      tryDecode D s 0 b e = .ret (.ok n) t := by
    intro s b e n t
    cases hs : D.isIdle s with
    | true => simp [tryDecode_quiet hs, tryDecode_quiet ((hi s).trans hs)]
    | false => rw [tryDecode_ret_iff hs, tryDecode_ret_iff ((hi s).trans hs), hd, hi]
  have hit : ∀ {s b e n t y s'}, Item D' s b e n t y s' → ∃ x, Item D s b e n t x s' := by
    rintro s b e n t y s' ⟨h1, h2⟩
    obtain ⟨x, hx⟩ := hf t y s' h2
    exact ⟨x, (hn _ _ _ _ _).1 h1, hx⟩
  constructor
  · intro s b e n t y s' hI hit'
    obtain ⟨x, hx⟩ := hit hit'
    exact h.bound hI hx
  · intro s b e n t y s' hI hit'
    obtain ⟨x, hx⟩ := hit hit'
    exact h.again hI hx
  · intro s b e n s1 hI h1
    exact h.part hI ((hr _ _ _ _ _).1 h1)
  · intro s b e n t hI hs h1
    exact h.quiet hI ((hi s).symm.trans hs) ((hd _ _ _ _ _).1 h1)
  · intro s a b e e1 n t y s' hI hs h1 h2 h3 h4 h5
    obtain ⟨x, hx⟩ := hf s y s' h2
    exact (hd _ _ _ _ _).2 (h.still hI ((hi s).symm.trans hs) ((hd _ _ _ _ _).1 h1) hx h3 h4 h5)
  · intro s a b e e1 n t y s' hI h1 h2 h3 h4
    obtain ⟨x, hx⟩ := hit h1
    exact ⟨(hn _ _ _ _ _).2 (h.extend hI hx h2 h3 h4).1, h1.2⟩
  · intro s a b e e1 s1 m t y s' hI h1 h2 h3 h4 h5 h6
    obtain ⟨x, hx⟩ := hit h2
    exact ⟨(hn _ _ _ _ _).2 (h.join hI ((hr _ _ _ _ _).1 h1) hx h3 h4 h5 h6).1, h2.2⟩
  · intro hk s a e s1 m t y s' hI h1 h2 h3
    obtain ⟨x, hx⟩ := hit h3
    exact h.closed hk hI h1 ((hr _ _ _ _ _).1 h2) hx
  · intro hq s b e n s1 hI h1 h2
    exact h.strict hq hI h1 ((hr _ _ _ _ _).1 h2)

/-- Build the law from the behaviour of `decode` in busy states. -/
theorem Joins.of_busy {c k q : Bool} {D : Decoder σ α} {I : σ → Prop}
    (bound : ∀ {s b e n t x s'}, I s → D.isIdle s = false → D.decode s b e = (.ok n, t) →
      D.isIdle t = true → D.finish t = (.ok x, s') → n ≤ b.length)
    (again : ∀ {s b e n t x s'}, I s → D.isIdle s = false → D.decode s b e = (.ok n, t) →
      D.isIdle t = true → D.finish t = (.ok x, s') → I s')
    (againQuiet : ∀ {s x s'}, I s → D.isIdle s = true → D.finish s = (.ok x, s') → I s')
    (part : ∀ {s b e n s1}, I s → D.isIdle s = false → D.decode s b e = (.ok n, s1) →
      D.isIdle s1 = false → I s1)
    (quiet : ∀ {s b e n t}, I s → D.isIdle s = true → D.decode s b e = (.ok n, t) → n = 0 ∧ t = s)
    (still : ∀ {s a b e e1 n t x s'}, I s → D.isIdle s = true → D.decode s a e1 = (.ok n, t) →
      D.finish s = (.ok x, s') → Earlier e1 e b.length → e1.isReached = false →
      EosSane e (a ++ b).length → D.decode s (a ++ b) e = (.ok 0, s))
    (extend : ∀ {s a b e e1 n t x s'}, I s → D.isIdle s = false → D.decode s a e1 = (.ok n, t) →
      D.isIdle t = true → D.finish t = (.ok x, s') → Earlier e1 e b.length →
      e1.isReached = false → EosSane e (a ++ b).length → D.decode s (a ++ b) e = (.ok n, t))
    (join : ∀ {s a b e e1 s1 m t x s'}, I s → D.isIdle s = false →
      D.decode s a e1 = (.ok a.length, s1) → D.isIdle s1 = false → D.decode s1 b e = (.ok m, t) →
      D.isIdle t = true → D.finish t = (.ok x, s') → Earlier e1 e b.length → e1.isReached = false →
      EosSane e (a ++ b).length → (c = true ∨ b ≠ [] ∨ e.isReached = false) →
      D.decode s (a ++ b) e = (.ok (a.length + m), t))
    (closed : k = true → ∀ {s a e s1 m t x s'}, I s → D.isIdle s = false → e.isReached = true →
      D.decode s a e = (.ok a.length, s1) → D.isIdle s1 = false → D.decode s1 [] e = (.ok m, t) →
      D.isIdle t = true → D.finish t = (.ok x, s') → False)
    (strict : q = true → ∀ {s b e n s1}, I s → D.isIdle s = false → e.isReached = true →
      D.decode s b e = (.ok n, s1) → D.isIdle s1 = false → False) : Joins c k q D I := by
  constructor
  · intro s b e n t x s' hI hit
    cases hs : D.isIdle s with
    | true => rw [item_quiet hs] at hit; omega
    | false => rw [item_busy hs] at hit; exact bound hI hs hit.1 hit.2.1 hit.2.2
  · intro s b e n t x s' hI hit
    cases hs : D.isIdle s with
    | true => rw [item_quiet hs] at hit; exact againQuiet hI hs hit.2.2
    | false => rw [item_busy hs] at hit; exact again hI hs hit.1 hit.2.1 hit.2.2
  · intro s b e n s1 hI h1
    have hs := tryDecode_ret_busy h1
    rw [tryDecode_ret_iff hs] at h1
    exact part hI hs h1.1 h1.2
  · exact quiet
  · exact still
  · intro s a b e e1 n t x s' hI hit h2 h3 h4
    cases hs : D.isIdle s with
    | true => rw [item_quiet hs] at hit ⊢; exact hit
    | false =>
      rw [item_busy hs] at hit ⊢
      exact ⟨extend hI hs hit.1 hit.2.1 hit.2.2 h2 h3 h4, hit.2⟩
  · intro s a b e e1 s1 m t x s' hI h1 hit h3 h4 h5 h6
    have hs := tryDecode_ret_busy h1
    rw [tryDecode_ret_iff hs] at h1
    rw [item_busy h1.2] at hit
    rw [item_busy hs]
    exact ⟨join hI hs h1.1 h1.2 hit.1 hit.2.1 hit.2.2 h3 h4 h5 h6, hit.2⟩
  · intro hk s a e s1 m t x s' hI hr h1 hit
    have hs := tryDecode_ret_busy h1
    rw [tryDecode_ret_iff hs] at h1
    rw [item_busy h1.2] at hit
    exact closed hk hI hs hr h1.1 h1.2 hit.1 hit.2.1 hit.2.2
  · intro hq s b e n s1 hI hr h1
    have hs := tryDecode_ret_busy h1
    rw [tryDecode_ret_iff hs] at h1
    exact strict hq hI hs hr h1.1 h1.2

/-- Decoders of the user's own. -/
theorem Spec.Bytewise.joins {p : Bool} {D : Decoder σ α} {I : σ → Prop} (c k q : Bool) (h : Bytewise p D I) : Joins c k q D I := by
  apply Joins.of_busy
  · intro s b e n t x s' hI hs hd ht hf
    exact h.splits.bound hI ((item_busy hs).2 ⟨hd, ht, hf⟩)
  · intro s b e n t x s' hI hs hd ht hf
    exact h.splits.again hI ((item_busy hs).2 ⟨hd, ht, hf⟩)
  · intro s x s' hI _ hf
    have := h.staysFinish hI
    rwa [hf] at this
  · intro s b e n s1 hI hs hd _
    rcases h.outcome e b hI hs with ⟨m, u, hu, hIu, _⟩ | ⟨k, u, hu, _⟩
    · rw [hu] at hd; cases hd; exact hIu
    · rw [hu] at hd; cases hd
  · intro s b e n t hI hs hd
    rw [h.idle hI hs] at hd
    cases hd
    exact ⟨rfl, rfl⟩
  · intro s a b e e1 n t x s' hI hs _ _ _ _ _
    exact h.idle hI hs
  · intro s a b e e1 n t x s' hI hs hd ht _ _ hne _
    rw [h.append hne a hI hs, hd]
    simp only [thenDecode, ht, if_true]
  · intro s a b e e1 s1 m t x s' hI hs hd hs1 hd1 _ _ _ hne _ _
    rw [h.append hne a hI hs, hd]
    simp only [thenDecode, hs1, Bool.false_eq_true, if_false]
    rw [hd1]
  · intro _ s a e s1 m t x s' hI hs he hd hs1 _ _ _
    rcases h.outcome e a hI hs with ⟨m, u, hu, hIu, _, hx⟩ | ⟨k, u, hu, _⟩
    · rw [hu] at hd; cases hd; rw [(hx hs1).2] at he; cases he
    · rw [hu] at hd; cases hd
  · intro _ s b e n s1 hI hs he hd hs1
    rcases h.outcome e b hI hs with ⟨m, u, hu, hIu, _, hx⟩ | ⟨k, u, hu, _⟩
    · rw [hu] at hd; cases hd; rw [(hx hs1).2] at he; cases he
    · rw [hu] at hd; cases hd

theorem sane_drop {e : Eos} {b c : Bytes} (h : EosSane e c.length) (hb : b.length ≤ c.length) :
    EosSane e b.length := fun n hn => by have := h n hn; omega

/-! ## Leaf decoders -/

theorem copyable_strict {s t : CopyableState} {b : Bytes} {e : Eos} {n : Nat}
    (h : s.offset ≤ s.bytes.length) (hr : e.isReached = true)
    (hd : copyableBytesDecoder.decode s b e = (.ok n, t)) : copyableBytesDecoder.isIdle t = true := by
  rw [copyable_eq _ _ h] at hd
  split at hd
  · cases hd
  · next hc =>
    cases hd
    simp only [copyableBytesDecoder]
    rw [splice_length (by simp; omega)]
    simp only [hr, and_true] at hc
    simp
    omega

theorem joins_copyable (c k q : Bool) :
    Joins c k q copyableBytesDecoder (fun s => s.offset ≤ s.bytes.length) := by
  have H := splits_copyable false
  have quiet : ∀ {s b e n t}, s.offset ≤ s.bytes.length → copyableBytesDecoder.isIdle s = true →
      copyableBytesDecoder.decode s b e = (.ok n, t) → n = 0 ∧ t = s := by
    intro s b e n t hI hs hd
    have hs : s.offset = s.bytes.length := by simpa [copyableBytesDecoder] using hs
    obtain ⟨bs, off⟩ := s
    simp only at hs
    subst hs
    rw [copyable_eq _ _ hI] at hd
    simp [splice_nil] at hd
    exact ⟨hd.1.symm, hd.2.symm⟩
  apply Joins.of_busy
  · intro s b e n t x s' hI hs hd ht hf
    exact H.bound hI ((item_busy hs).2 ⟨hd, ht, hf⟩)
  · intro s b e n t x s' hI hs hd ht hf
    exact H.again hI ((item_busy hs).2 ⟨hd, ht, hf⟩)
  · intro s x s' hI hs hf
    exact H.again hI ((item_quiet (b := []) (e := Eos.new false) hs).2 ⟨rfl, rfl, hf⟩)
  · intro s b e n s1 hI hs hd _
    exact copyable_bounded hI hd
  · exact quiet
  · intro s a b e e1 n t x s' hI hs hd hf he hne hsane
    have hs' : s.offset = s.bytes.length := by simpa [copyableBytesDecoder] using hs
    obtain ⟨bs, off⟩ := s
    simp only at hs'
    subst hs'
    rw [copyable_eq _ _ hI]
    simp [splice_nil]
  · intro s a b e e1 n t x s' hI hs hd ht hf he hne hsane
    obtain ⟨bs, off⟩ := s
    simp only at hI
    have ht' : t.offset = t.bytes.length := by simpa [copyableBytesDecoder] using ht
    rw [copyable_eq _ _ hI] at hd ⊢
    simp only [hne] at hd
    simp at hd
    obtain ⟨rfl, rfl⟩ := hd
    simp only at ht'
    rw [splice_length (by simp; omega)] at ht'
    simp only
    have e1 : min (a ++ b).length (bs.length - off) = min a.length (bs.length - off) := by
      simp only [List.length_append]; omega
    rw [e1, if_neg (by omega), List.take_append_of_le_length (by omega)]
  · intro s a b e e1 s1 m t x s' hI hs hd hs1 hd1 ht hf he hne hsane _
    obtain ⟨bs, off⟩ := s
    simp only at hI
    have hb1 := copyable_bounded hI hd
    have ht' : t.offset = t.bytes.length := by simpa [copyableBytesDecoder] using ht
    have hs1' : s1.offset ≠ s1.bytes.length := by simpa [copyableBytesDecoder] using hs1
    rw [copyable_eq _ _ hI] at hd ⊢
    simp only [hne] at hd
    simp at hd
    obtain ⟨hlen, rfl⟩ := hd
    rw [hlen] at hd1 hb1 hs1'
    simp only at hb1 hs1'
    rw [splice_length (by simp; omega)] at hb1 hs1'
    rw [copyable_eq _ _ (by simp only; rw [splice_length (by simp; omega)]; omega)] at hd1
    simp only at hd1
    split at hd1
    · cases hd1
    · next hc =>
      cases hd1
      simp only at ht' hc
      rw [splice_split hI (by omega), splice_length (by simp; omega), splice_length (by simp; omega)] at ht'
      simp only
      rw [splice_split hI (by omega), splice_length (by simp; omega)]
      have e1 : min (a ++ b).length (bs.length - off) =
          a.length + min b.length (bs.length - (off + a.length)) := by
        simp only [List.length_append]; omega
      rw [e1, if_neg (by omega), Nat.add_assoc]
  · intro hk s a e s1 m t x s' hI hs hr hd hs1
    have := copyable_strict hI hr hd
    rw [this] at hs1
    cases hs1
  · intro _ s b e n s1 hI hs hr hd hs1
    have := copyable_strict hI hr hd
    rw [this] at hs1
    cases hs1

theorem joins_bytes (c k q : Bool) :
    Joins c k q bytesDecoder (fun s => ∀ b, s.bytes = some b → s.offset ≤ b.length) := by
  have H := splits_bytes false
  have C := joins_copyable c k q
  have idleFin : ∀ u : CopyableState, copyableBytesDecoder.isIdle u = true →
      copyableBytesDecoder.finish u = (.ok u.bytes, { u with offset := 0 }) := by
    intro u hu
    have : u.offset = u.bytes.length := by simpa [copyableBytesDecoder] using hu
    simp [copyableBytesDecoder, this]
  have busySome : ∀ {s}, bytesDecoder.isIdle s = false → ∃ bs, s.bytes = some bs := by
    intro s hs
    obtain ⟨o, off⟩ := s
    cases o with
    | none => simp [bytesDecoder, BytesDecoderState.exact] at hs
    | some bs => exact ⟨bs, rfl⟩
  apply Joins.of_busy
  · intro s b e n t x s' hI hs hd ht hf
    exact H.bound hI ((item_busy hs).2 ⟨hd, ht, hf⟩)
  · intro s b e n t x s' hI hs hd ht hf
    exact H.again hI ((item_busy hs).2 ⟨hd, ht, hf⟩)
  · intro s x s' hI hs hf
    exact H.again hI ((item_quiet (b := []) (e := Eos.new false) hs).2 ⟨rfl, rfl, hf⟩)
  · intro s b e n s1 hI hs hd _
    obtain ⟨o, off⟩ := s
    obtain ⟨bs, rfl⟩ := busySome hs
    obtain ⟨u, hu, rfl⟩ := (bytes_ok (hI bs rfl)).1 hd
    intro b' hb'; cases hb'
    exact copyable_bounded (hI bs rfl) hu
  · intro s b e n t hI hs hd
    obtain ⟨o, off⟩ := s
    cases o with
    | none => simp [bytesDecoder] at hd
    | some bs =>
      obtain ⟨u, hu, rfl⟩ := (bytes_ok (hI bs rfl)).1 hd
      rw [bytes_idle (hI bs rfl)] at hs
      obtain ⟨h1, h2⟩ := C.quiet (hI bs rfl) hs hu
      subst h2
      exact ⟨h1, rfl⟩
  · intro s a b e e1 n t x s' hI hs hd hf he hne hsane
    obtain ⟨o, off⟩ := s
    cases o with
    | none => simp [bytesDecoder] at hd
    | some bs =>
      obtain ⟨u, hu, rfl⟩ := (bytes_ok (hI bs rfl)).1 hd
      rw [bytes_idle (hI bs rfl)] at hs
      have := C.still (hI bs rfl) hs hu (idleFin _ hs) he hne hsane
      exact (bytes_ok (hI bs rfl)).2 ⟨_, this, rfl⟩
  · intro s a b e e1 n t x s' hI hs hd ht hf he hne hsane
    obtain ⟨o, off⟩ := s
    obtain ⟨bs, rfl⟩ := busySome hs
    have hI := hI bs rfl
    obtain ⟨u, hu, rfl⟩ := (bytes_ok hI).1 hd
    rw [bytes_idle hI] at hs
    rw [bytes_idle (copyable_bounded hI hu)] at ht
    have := C.extend hI ((item_busy hs).2 ⟨hu, ht, idleFin u ht⟩) he hne hsane
    rw [item_busy hs] at this
    exact (bytes_ok hI).2 ⟨_, this.1, rfl⟩
  · intro s a b e e1 s1 m t x s' hI hs hd hs1 hd1 ht hf he hne hsane hc
    obtain ⟨o, off⟩ := s
    obtain ⟨bs, rfl⟩ := busySome hs
    have hI := hI bs rfl
    obtain ⟨u, hu, rfl⟩ := (bytes_ok hI).1 hd
    have hb := copyable_bounded hI hu
    obtain ⟨v, hv, rfl⟩ := (bytes_ok hb).1 hd1
    rw [bytes_idle hI] at hs
    rw [bytes_idle hb] at hs1
    rw [bytes_idle (copyable_bounded hb hv)] at ht
    have := C.join hI ((tryDecode_ret_iff hs).2 ⟨hu, hs1⟩) ((item_busy hs1).2 ⟨hv, ht, idleFin _ ht⟩)
      he hne hsane hc
    rw [item_busy hs] at this
    exact (bytes_ok hI).2 ⟨_, this.1, rfl⟩
  · intro hk s a e s1 m t x s' hI hs hr hd hs1
    obtain ⟨o, off⟩ := s
    obtain ⟨bs, rfl⟩ := busySome hs
    have hI := hI bs rfl
    obtain ⟨u, hu, rfl⟩ := (bytes_ok hI).1 hd
    rw [bytes_idle (copyable_bounded hI hu), copyable_strict hI hr hu] at hs1
    cases hs1
  · intro _ s b e n s1 hI hs hr hd hs1
    obtain ⟨o, off⟩ := s
    obtain ⟨bs, rfl⟩ := busySome hs
    have hI := hI bs rfl
    obtain ⟨u, hu, rfl⟩ := (bytes_ok hI).1 hd
    rw [bytes_idle (copyable_bounded hI hu), copyable_strict hI hr hu] at hs1
    cases hs1

theorem remaining_ok {s b e n t} (hs : remainingBytesDecoder.isIdle s = false) :
    remainingBytesDecoder.decode s b e = (.ok n, t) ↔
      n = b.length ∧ t = ⟨s.buf ++ b, e.isReached⟩ ∧
      ∀ m, e.remaining = .finite m → b.length + m < 2 ^ 64 ∧ s.buf.length + (b.length + m) < 2 ^ 63 := by
  have hs : s.eos = false := hs
  simp only [remainingBytesDecoder, hs, Eos.remainingBytes]
  cases hc : e.remaining with
  | finite m =>
    simp only [ByteCount.toU64]
    by_cases h1 : 2 ^ 64 ≤ b.length + m
    · simp [h1] <;> omega
    · by_cases h2 : 2 ^ 63 ≤ s.buf.length + (b.length + m)
      · simp [h1, h2] <;> omega
      · simp [h1, h2]
        constructor
        · rintro ⟨rfl, rfl⟩; exact ⟨rfl, rfl, by omega⟩
        · rintro ⟨rfl, rfl, _⟩; exact ⟨rfl, rfl⟩
  | _ =>
    simp only [ByteCount.toU64]
    constructor
    · intro h; cases h; exact ⟨rfl, rfl, by simp⟩
    · rintro ⟨rfl, rfl, _⟩; rfl

theorem joins_remaining (c k q : Bool) : Joins c k q remainingBytesDecoder (fun _ => True) := by
  apply Joins.of_busy
  · intro s b e n t x s' hI hs hd ht hf
    have := (remaining_ok hs).1 hd
    omega
  · intros; trivial
  · intros; trivial
  · intros; trivial
  · intro s b e n t hI hs hd
    have hs : s.eos = true := hs
    simp [remainingBytesDecoder, hs] at hd
    exact ⟨hd.1.symm, hd.2.symm⟩
  · intro s a b e e1 n t x s' hI hs hd hf he hne hsane
    have hs : s.eos = true := hs
    simp [remainingBytesDecoder, hs]
  · intro s a b e e1 n t x s' hI hs hd ht hf he hne hsane
    obtain ⟨rfl, rfl, h3⟩ := (remaining_ok hs).1 hd
    simp [remainingBytesDecoder, hne] at ht
  · intro s a b e e1 s1 m t x s' hI hs hd hs1 hd1 ht hf he hne hsane hc
    obtain ⟨_, rfl, h3⟩ := (remaining_ok hs).1 hd
    obtain ⟨rfl, rfl, h4⟩ := (remaining_ok hs1).1 hd1
    rw [remaining_ok hs]
    refine ⟨by simp, by simp, ?_⟩
    intro k hk
    have := h4 k hk
    have := hsane k hk
    simp only [List.length_append] at *
    omega
  · intro hk s a e s1 m t x s' hI hs hr hd hs1
    obtain ⟨_, rfl, h3⟩ := (remaining_ok hs).1 hd
    simp [remainingBytesDecoder, hr] at hs1
  · intro _ s b e n s1 hI hs hr hd hs1
    obtain ⟨_, rfl, h3⟩ := (remaining_ok hs).1 hd
    simp [remainingBytesDecoder, hr] at hs1

theorem joins_null (c k q : Bool) : Joins c k q nullDecoder (fun _ => True) := by
  apply Joins.of_busy
  · intro s b e n t x s' hI hs; cases hs
  · intros; trivial
  · intros; trivial
  · intros; trivial
  · intro s b e n t hI hs hd; cases hd; exact ⟨rfl, rfl⟩
  · intros; rfl
  · intro s a b e e1 n t x s' hI hs; cases hs
  · intro s a b e e1 s1 m t x s' hI hs; cases hs
  · intro hk s a e s1 m t x s' hI hs; cases hs
  · intro _ s b e n s1 hI hs; cases hs

theorem padding_ok {s b e n t} (hs : paddingDecoder.isIdle s = false) :
    paddingDecoder.decode s b e = (.ok n, t) ↔
      n = b.length ∧ t = { s with eos := e.isReached } ∧
      ∀ c, s.expected = some c → b.all (fun x => x == c) = true := by
  have hs : s.eos = false := hs
  simp only [paddingDecoder, hs]
  cases hc : s.expected with
  | none =>
    constructor
    · intro h; cases h; exact ⟨rfl, rfl, by simp⟩
    · rintro ⟨rfl, rfl, _⟩; rfl
  | some c =>
    simp only
    by_cases h1 : b.all (fun x => x == c) = true
    · rw [if_neg (by simp), if_pos h1]
      constructor
      · intro h; cases h; exact ⟨rfl, rfl, by simpa using h1⟩
      · rintro ⟨rfl, rfl, _⟩; rfl
    · rw [if_neg (by simp), if_neg h1]
      constructor
      · intro h; cases h
      · rintro ⟨rfl, rfl, h⟩; exact absurd (h c rfl) h1

theorem joins_padding (c k q : Bool) : Joins c k q paddingDecoder (fun _ => True) := by
  apply Joins.of_busy
  · intro s b e n t x s' hI hs hd ht hf
    have := (padding_ok hs).1 hd
    omega
  · intros; trivial
  · intros; trivial
  · intros; trivial
  · intro s b e n t hI hs hd
    have hs : s.eos = true := hs
    simp [paddingDecoder, hs] at hd
    exact ⟨hd.1.symm, hd.2.symm⟩
  · intro s a b e e1 n t x s' hI hs hd hf he hne hsane
    have hs : s.eos = true := hs
    simp [paddingDecoder, hs]
  · intro s a b e e1 n t x s' hI hs hd ht hf he hne hsane
    obtain ⟨rfl, rfl, h3⟩ := (padding_ok hs).1 hd
    simp [paddingDecoder, hne] at ht
  · intro s a b e e1 s1 m t x s' hI hs hd hs1 hd1 ht hf he hne hsane hc
    obtain ⟨_, rfl, h3⟩ := (padding_ok hs).1 hd
    obtain ⟨rfl, rfl, h4⟩ := (padding_ok hs1).1 hd1
    rw [padding_ok hs]
    refine ⟨by simp, by simp, ?_⟩
    intro k hk
    have h5 := h3 k hk
    have h6 := h4 k hk
    rw [List.all_append, h5, h6]
    rfl
  · intro hk s a e s1 m t x s' hI hs hr hd hs1
    obtain ⟨_, rfl, h3⟩ := (padding_ok hs).1 hd
    simp [paddingDecoder, hr] at hs1
  · intro _ s b e n s1 hI hs hr hd hs1
    obtain ⟨_, rfl, h3⟩ := (padding_ok hs).1 hd
    simp [paddingDecoder, hr] at hs1

theorem joins_monolithic (c k q : Bool) {parse : MonolithicParser α} (hp : WholeParser parse) :
    Joins c k q (monolithicDecoder parse) (fun s => s.item = none) := by
  have H := splits_monolithic hp
  have done : ∀ {s b e n t}, s.item = none → (monolithicDecoder parse).decode s b e = (.ok n, t) →
      (e.isReached = true ∧ n = b.length ∧ ∃ x, (parse s.buf b).1 = .ok x ∧ t = ⟨some x, []⟩) ∨
      (e.isReached = false ∧ n = b.length ∧ t = ⟨none, s.buf ++ b⟩) := by
    intro s b e n t hI hd
    simp only [monolithicDecoder] at hd
    split at hd
    · next hr =>
      left
      split at hd
      · next item m hm =>
        cases hd
        have h1 := hp.whole s.buf b item (by rw [hm])
        rw [hm] at h1
        simp only at h1
        exact ⟨hr, by omega, item, by rw [hm], rfl⟩
      all_goals cases hd
    · next hr =>
      right
      cases hd
      exact ⟨by simpa using hr, rfl, by rw [hI]⟩
  apply Joins.of_busy
  · intro s b e n t x s' hI hs hd ht hf
    exact H.bound hI ((item_busy hs).2 ⟨hd, ht, hf⟩)
  · intro s b e n t x s' hI hs hd ht hf
    exact H.again hI ((item_busy hs).2 ⟨hd, ht, hf⟩)
  · intro s x s' hI hs hf
    exact H.again hI ((item_quiet (b := []) (e := Eos.new false) hs).2 ⟨rfl, rfl, hf⟩)
  · intro s b e n s1 hI hs hd hs1
    rcases done hI hd with ⟨_, _, x, _, rfl⟩ | ⟨_, _, rfl⟩
    · cases hs1
    · rfl
  · intro s b e n t hI hs
    simp [monolithicDecoder, hI] at hs
  · intro s a b e e1 n t x s' hI hs
    simp [monolithicDecoder, hI] at hs
  · intro s a b e e1 n t x s' hI hs hd ht hf he hne hsane
    rcases done hI hd with ⟨h, _⟩ | ⟨_, _, rfl⟩
    · rw [h] at hne; cases hne
    · cases ht
  · intro s a b e e1 s1 m t x s' hI hs hd hs1 hd1 ht hf he hne hsane hc
    rcases done hI hd with ⟨h, _⟩ | ⟨_, _, rfl⟩
    · rw [h] at hne; cases hne
    · rcases done rfl hd1 with ⟨hr, rfl, y, hy, rfl⟩ | ⟨_, _, rfl⟩
      · simp only at hy
        rw [hp.chain] at hy
        have hw := hp.whole s.buf (a ++ b) y hy
        simp only [monolithicDecoder, hr, if_true]
        rcases hq : parse s.buf (a ++ b) with ⟨r, m⟩
        rw [hq] at hy hw
        simp only at hy hw
        subst hy
        simp only [List.length_append] at hw ⊢
        congr 2
        omega
      · cases ht
  · intro hk s a e s1 m t x s' hI hs hr hd hs1
    rcases done hI hd with ⟨_, _, x, _, rfl⟩ | ⟨h, _⟩
    · cases hs1
    · rw [hr] at h; cases h
  · intro _ s b e n s1 hI hs hr hd hs1
    rcases done hI hd with ⟨_, _, x, _, rfl⟩ | ⟨h, _⟩
    · cases hs1
    · rw [hr] at h; cases h

/-! ## Combinators without state of their own -/

theorem joins_fix (c k q : Bool) (f : Bytes → α) :
    Joins c k q (fixDecoder f) (fun s => s.offset ≤ s.bytes.length) := by
  refine (joins_copyable c k q).transfer (fun _ _ _ _ _ => Iff.rfl) (fun _ => rfl) ?_
  intro t y s' h
  exact step_id_ok (by rintro a s y s' h; cases h; rfl) h

theorem joins_utf8 {c k q : Bool} {D : Decoder σ Bytes} {I : σ → Prop} (h : Joins c k q D I) :
    Joins c k q (utf8Decoder D) I := by
  refine h.transfer (fun _ _ _ _ _ => Iff.rfl) (fun _ => rfl) ?_
  intro t y s' h
  refine step_id_ok ?_ h
  intro a s y s' h
  split at h <;> cases h
  rfl

theorem joins_map {c k q : Bool} {D : Decoder σ α} {I : σ → Prop} (f : α → β) (h : Joins c k q D I) :
    Joins c k q (mapDecoder D f) I := by
  refine h.transfer (fun _ _ _ _ _ => Iff.rfl) (fun _ => rfl) ?_
  intro t y s' h
  exact step_id_ok (by rintro a s y s' h; cases h; rfl) h

theorem joins_tryMap {c k q : Bool} {D : Decoder σ α} {I : σ → Prop} (f : α → Except ErrorKind β)
    (h : Joins c k q D I) : Joins c k q (tryMapDecoder D f) I := by
  refine h.transfer (fun _ _ _ _ _ => Iff.rfl) (fun _ => rfl) ?_
  intro t y s' h
  refine step_id_ok ?_ h
  intro a s y s' h
  split at h <;> cases h
  rfl

theorem joins_mapErr {c k q : Bool} {D : Decoder σ α} {I : σ → Prop} (f : ErrorKind → ErrorKind)
    (h : Joins c k q D I) : Joins c k q (mapErrDecoder D f) I := by
  refine h.transfer ?_ (fun _ => rfl) ?_
  · intro s b e n t
    simp only [mapErrDecoder, Prod.mk.injEq, mapErr_ok_iff]
    constructor
    · rintro ⟨h1, h2⟩; exact Prod.ext h1 h2
    · intro h; rw [h]; exact ⟨rfl, rfl⟩
  · intro t y s' h
    simp only [mapErrDecoder, Prod.mk.injEq, mapErr_ok_iff] at h
    exact ⟨y, Prod.ext_iff.2 h⟩

/-! ## `Omittable` -/

theorem joins_omit {c k q : Bool} {D : Decoder σ α} {I : σ → Prop} (h : Joins c k q D I) :
    Joins c k q (omittableDecoder D) (fun s => I s.inner) := by
  have busy : ∀ {i d}, (omittableDecoder D).isIdle ⟨i, d⟩ = false → d = false ∧ D.isIdle i = false := by
    intro i d hs
    simpa [omittableDecoder] using hs
  have idle : ∀ {i}, (omittableDecoder D).isIdle ⟨i, false⟩ = D.isIdle i := by
    intro i; simp [omittableDecoder]
  apply Joins.of_busy
  · intro s b e n t x s' hI hs hd ht hf
    obtain ⟨i, d⟩ := s
    obtain ⟨rfl, hs'⟩ := busy hs
    obtain ⟨j, hj, rfl⟩ := omit_ok.1 hd
    obtain ⟨y, k, hk, rfl, rfl⟩ := omit_fin.1 hf
    exact h.bound hI ((item_busy hs').2 ⟨hj, idle ▸ ht, hk⟩)
  · intro s b e n t x s' hI hs hd ht hf
    obtain ⟨i, d⟩ := s
    obtain ⟨rfl, hs'⟩ := busy hs
    obtain ⟨j, hj, rfl⟩ := omit_ok.1 hd
    obtain ⟨y, k, hk, rfl, rfl⟩ := omit_fin.1 hf
    exact h.again hI ((item_busy hs').2 ⟨hj, idle ▸ ht, hk⟩)
  · intro s x s' hI hs hf
    obtain ⟨i, d⟩ := s
    cases d with
    | true => simp [omittableDecoder] at hf; rw [← hf.2]; exact hI
    | false =>
      obtain ⟨y, k, hk, rfl, rfl⟩ := omit_fin.1 hf
      exact h.again hI ((item_quiet (b := []) (e := Eos.new false) (idle ▸ hs)).2 ⟨rfl, rfl, hk⟩)
  · intro s b e n s1 hI hs hd hs1
    obtain ⟨i, d⟩ := s
    obtain ⟨rfl, hs'⟩ := busy hs
    obtain ⟨j, hj, rfl⟩ := omit_ok.1 hd
    exact h.part hI ((tryDecode_ret_iff hs').2 ⟨hj, idle ▸ hs1⟩)
  · intro s b e n t hI hs hd
    obtain ⟨i, d⟩ := s
    cases d with
    | true =>
      simp [omittableDecoder] at hd
      exact ⟨hd.1.symm, hd.2.symm⟩
    | false =>
      obtain ⟨j, hj, rfl⟩ := omit_ok.1 hd
      obtain ⟨h1, h2⟩ := h.quiet hI (idle ▸ hs) hj
      exact ⟨h1, by rw [h2]⟩
  · intro s a b e e1 n t x s' hI hs hd hf he hne hsane
    obtain ⟨i, d⟩ := s
    cases d with
    | true => simp [omittableDecoder]
    | false =>
      obtain ⟨j, hj, rfl⟩ := omit_ok.1 hd
      obtain ⟨y, k, hk, rfl, rfl⟩ := omit_fin.1 hf
      exact omit_ok.2 ⟨_, h.still hI (idle ▸ hs) hj hk he hne hsane, rfl⟩
  · intro s a b e e1 n t x s' hI hs hd ht hf he hne hsane
    obtain ⟨i, d⟩ := s
    obtain ⟨rfl, hs'⟩ := busy hs
    obtain ⟨j, hj, rfl⟩ := omit_ok.1 hd
    obtain ⟨y, k, hk, rfl, rfl⟩ := omit_fin.1 hf
    have := h.extend hI ((item_busy hs').2 ⟨hj, idle ▸ ht, hk⟩) he hne hsane
    rw [item_busy hs'] at this
    exact omit_ok.2 ⟨_, this.1, rfl⟩
  · intro s a b e e1 s1 m t x s' hI hs hd hs1 hd1 ht hf he hne hsane hc
    obtain ⟨i, d⟩ := s
    obtain ⟨rfl, hs'⟩ := busy hs
    obtain ⟨j, hj, rfl⟩ := omit_ok.1 hd
    obtain ⟨j1, hj1, rfl⟩ := omit_ok.1 hd1
    obtain ⟨y, k, hk, rfl, rfl⟩ := omit_fin.1 hf
    have hs1' : D.isIdle j = false := idle ▸ hs1
    have := h.join hI ((tryDecode_ret_iff hs').2 ⟨hj, hs1'⟩)
      ((item_busy hs1').2 ⟨hj1, idle ▸ ht, hk⟩) he hne hsane hc
    rw [item_busy hs'] at this
    exact omit_ok.2 ⟨_, this.1, rfl⟩
  · intro hkk s a e s1 m t x s' hI hs hr hd hs1 hd1 ht hf
    obtain ⟨i, d⟩ := s
    obtain ⟨rfl, hs'⟩ := busy hs
    obtain ⟨j, hj, rfl⟩ := omit_ok.1 hd
    obtain ⟨j1, hj1, rfl⟩ := omit_ok.1 hd1
    obtain ⟨y, k, hk, rfl, rfl⟩ := omit_fin.1 hf
    have hs1' : D.isIdle j = false := idle ▸ hs1
    exact h.closed hkk hI hr ((tryDecode_ret_iff hs').2 ⟨hj, hs1'⟩)
      ((item_busy hs1').2 ⟨hj1, idle ▸ ht, hk⟩)
  · intro hq s b e n s1 hI hs hr hd hs1
    obtain ⟨i, d⟩ := s
    obtain ⟨rfl, hs'⟩ := busy hs
    obtain ⟨j, hj, rfl⟩ := omit_ok.1 hd
    exact h.strict hq hI hr ((tryDecode_ret_iff hs').2 ⟨hj, idle ▸ hs1⟩)

/-! ## `Length` -/

theorem joins_length (c k : Bool) {c' q' : Bool} {D : Decoder σ α} {I : σ → Prop} (h : Joins c' true q' D I) :
    Joins c k false (lengthDecoder D)
      (fun s => I s.inner ∧ s.remaining ≤ s.expected ∧ s.expected < 2 ^ 64) := by
  apply Joins.of_busy
  · rintro s b e n t x s' ⟨hI, hR, hE⟩ hs hd ht hf
    replace hs : D.isIdle s.inner = false := hs
    obtain ⟨_, i, hi, hn, rfl⟩ := length_ok.1 hd
    obtain ⟨h0, j, hj, rfl⟩ := length_fin.1 hf
    have := h.bound hI ((item_busy hs).2 ⟨hi, ht, hj⟩)
    simp at this
    omega
  · rintro s b e n t x s' ⟨hI, hR, hE⟩ hs hd ht hf
    replace hs : D.isIdle s.inner = false := hs
    obtain ⟨_, i, hi, hn, rfl⟩ := length_ok.1 hd
    obtain ⟨h0, j, hj, rfl⟩ := length_fin.1 hf
    exact ⟨h.again hI ((item_busy hs).2 ⟨hi, ht, hj⟩), Nat.le_refl _, hE⟩
  · rintro s x s' ⟨hI, hR, hE⟩ hs hf
    replace hs : D.isIdle s.inner = true := hs
    obtain ⟨h0, j, hj, rfl⟩ := length_fin.1 hf
    exact ⟨h.again hI ((item_quiet (b := []) (e := Eos.new false) hs).2 ⟨rfl, rfl, hj⟩), Nat.le_refl _, hE⟩
  · rintro s b e n s1 ⟨hI, hR, hE⟩ hs hd hs1
    replace hs : D.isIdle s.inner = false := hs
    obtain ⟨_, i, hi, hn, rfl⟩ := length_ok.1 hd
    exact ⟨h.part hI ((tryDecode_ret_iff hs).2 ⟨hi, hs1⟩), Nat.le_trans (Nat.sub_le _ _) hR, hE⟩
  · rintro s b e n t ⟨hI, hR, hE⟩ hs hd
    replace hs : D.isIdle s.inner = true := hs
    obtain ⟨_, i, hi, hn, rfl⟩ := length_ok.1 hd
    obtain ⟨rfl, rfl⟩ := h.quiet hI hs hi
    exact ⟨rfl, rfl⟩
  · rintro s a b e e1 n t x s' ⟨hI, hR, hE⟩ hs hd hf he hne hsane
    replace hs : D.isIdle s.inner = true := hs
    obtain ⟨_, i, hi, hn, rfl⟩ := length_ok.1 hd
    obtain ⟨h0, j, hj, rfl⟩ := length_fin.1 hf
    obtain ⟨rfl, rfl⟩ := h.quiet hI hs hi
    obtain ⟨si, se, sr⟩ := s
    simp only at h0
    subst h0
    rw [length_ok]
    simp only [List.take_zero, Nat.min_zero, Nat.sub_self] at hi ⊢
    refine ⟨?_, _, hi, Nat.le_refl _, rfl⟩
    intro r hr
    have := hsane r hr
    omega
  · rintro s a b e e1 n t x s' ⟨hI, hR, hE⟩ hs hd ht hf he hne hsane
    replace hs : D.isIdle s.inner = false := hs
    obtain ⟨_, i, hi, hn, rfl⟩ := length_ok.1 hd
    obtain ⟨h0, j, hj, rfl⟩ := length_fin.1 hf
    have hb := h.bound hI ((item_busy hs).2 ⟨hi, ht, hj⟩)
    simp only [List.length_take] at hb h0
    rw [length_ok]
    have hra : s.remaining ≤ a.length := by omega
    rw [List.take_append_of_le_length hra]
    have e1 : s.remaining - min (a ++ b).length s.remaining = 0 := by
      simp only [List.length_append]; omega
    have e2 : s.remaining - min a.length s.remaining = 0 := by omega
    rw [e2] at hi
    rw [e1]
    refine ⟨?_, i, hi, hn, rfl⟩
    intro r hr
    have := hsane r hr
    omega
  · rintro s a b e e1 s1 m t x s' ⟨hI, hR, hE⟩ hs hd hs1 hd1 ht hf he hne hsane _
    replace hs : D.isIdle s.inner = false := hs
    obtain ⟨_, i, hi, hn, rfl⟩ := length_ok.1 hd
    replace hs1 : D.isIdle i = false := hs1
    obtain ⟨_, i2, hi2, hn2, rfl⟩ := length_ok.1 hd1
    obtain ⟨h0, j, hj, rfl⟩ := length_fin.1 hf
    simp only at h0 hi2 hn2
    have hIi : I i := h.part hI ((tryDecode_ret_iff hs).2 ⟨hi, hs1⟩)
    have hb := h.bound hIi ((item_busy hs1).2 ⟨hi2, ht, hj⟩)
    simp only [List.length_take] at hb
    rw [List.take_of_length_le hn, Nat.min_eq_left hn] at hi
    have e2 : s.remaining - a.length - min b.length (s.remaining - a.length) = 0 := by omega
    rw [e2] at hi2
    have el : (b.take (s.remaining - a.length)).length = s.remaining - a.length := by simp; omega
    by_cases hk : s.remaining - a.length = 0
    · exfalso
      rw [hk] at hi hi2
      rw [List.take_zero] at hi2
      exact h.closed rfl hI rfl ((tryDecode_ret_iff hs).2 ⟨hi, hs1⟩) ((item_busy hs1).2 ⟨hi2, ht, hj⟩)
    · have hlen : s.remaining < 2 ^ 64 := by omega
      have := h.join (b := b.take (s.remaining - a.length)) hI ((tryDecode_ret_iff hs).2 ⟨hi, hs1⟩)
        ((item_busy hs1).2 ⟨hi2, ht, hj⟩) (.inr (by rw [el]; exact eosShift_zero _))
        (by simp [Eos.isReached]; omega)
        (by intro k hk; cases hk; simp only [List.length_append, el]; omega)
        (.inr (.inl (by intro hc; rw [hc] at el; simp at el; omega)))
      rw [item_busy hs] at this
      rw [length_ok]
      refine ⟨?_, i2, ?_, by omega, ?_⟩
      · intro r hr
        have := hsane r hr
        simp only [List.length_append] at this ⊢
        omega
      · have e3 : (a ++ b).take s.remaining = a ++ b.take (s.remaining - a.length) := by
          rw [List.take_append, List.take_of_length_le hn]
        have e4 : s.remaining - min (a ++ b).length s.remaining = 0 := by
          simp only [List.length_append]; omega
        rw [e3, e4]
        exact this.1
      · simp only [LengthState.mk.injEq, true_and]
        omega
  · rintro hk s a e s1 m t x s' ⟨hI, hR, hE⟩ hs hr hd hs1 hd1 ht hf
    replace hs : D.isIdle s.inner = false := hs
    obtain ⟨_, i, hi, hn, rfl⟩ := length_ok.1 hd
    replace hs1 : D.isIdle i = false := hs1
    obtain ⟨hcheck, i2, hi2, hn2, rfl⟩ := length_ok.1 hd1
    obtain ⟨h0, j, hj, rfl⟩ := length_fin.1 hf
    simp only at h0 hi2 hn2 hcheck
    have he : e.remaining = .finite 0 := by
      obtain ⟨c⟩ := e
      simp [Eos.isReached] at hr
      simp [hr]
    have := hcheck 0 he
    simp at this
    rw [List.take_of_length_le hn, Nat.min_eq_left hn] at hi
    have hk : s.remaining - a.length = 0 := by omega
    rw [hk] at hi hi2
    simp at hi2
    exact h.closed rfl hI rfl ((tryDecode_ret_iff hs).2 ⟨hi, hs1⟩) ((item_busy hs1).2 ⟨hi2, ht, hj⟩)
  · intro hq; cases hq

/-! ## `Peekable` -/

theorem joins_peekable {c k q : Bool} {D : Decoder σ α} {I : σ → Prop} (h : Joins c k q D I) :
    Joins c k q (peekableDecoder D) (fun s => I s.inner) := by
  have busy : ∀ {s : PeekState σ α}, (peekableDecoder D).isIdle s = false → ∃ i, s = ⟨i, none⟩ := by
    intro s hs
    obtain ⟨i, o⟩ := s
    cases o <;> simp [peekableDecoder] at hs
    exact ⟨i, rfl⟩
  have fin : ∀ {s s' : PeekState σ α} {x}, (peekableDecoder D).finish s = (.ok x, s') →
      s' = ⟨s.inner, none⟩ := by
    intro s s' x hf
    simp only [peekableDecoder] at hf
    split at hf <;> cases hf
    rfl
  have quiet : ∀ {s : PeekState σ α} (b e), (peekableDecoder D).isIdle s = true →
      (peekableDecoder D).decode s b e = (.ok 0, s) := by
    intro s b e hs
    obtain ⟨i, o⟩ := s
    cases o with
    | none => cases hs
    | some y => simp [peekableDecoder]
  have done : ∀ {i b e n} {t : PeekState σ α}, (peekableDecoder D).decode ⟨i, none⟩ b e = (.ok n, t) →
      (peekableDecoder D).isIdle t = true →
      ∃ j, D.decode i b e = (.ok n, j) ∧ D.isIdle j = true ∧ ∃ x k, D.finish j = (.ok x, k) ∧
        t = ⟨k, some x⟩ := by
    intro i b e n t hd ht
    obtain ⟨j, hj, hc⟩ := peek_ok.1 hd
    rcases hc with ⟨_, rfl⟩ | ⟨hi, y, k, hk, rfl⟩
    · cases ht
    · exact ⟨j, hj, hi, y, k, hk, rfl⟩
  have wait : ∀ {i b e n} {t : PeekState σ α}, I i →
      (peekableDecoder D).decode ⟨i, none⟩ b e = (.ok n, t) →
      (peekableDecoder D).isIdle t = false → D.isIdle i = false ∧
      ∃ j, D.decode i b e = (.ok n, j) ∧ D.isIdle j = false ∧ t = ⟨j, none⟩ := by
    intro i b e n t hI hd ht
    obtain ⟨j, hj, hc⟩ := peek_ok.1 hd
    rcases hc with ⟨hi, rfl⟩ | ⟨hi, y, k, hk, rfl⟩
    · cases hq : D.isIdle i with
      | true =>
        obtain ⟨_, rfl⟩ := h.quiet hI hq hj
        rw [hq] at hi; cases hi
      | false => exact ⟨rfl, j, hj, hi, rfl⟩
    · cases ht
  apply Joins.of_busy
  · intro s b e n t x s' hI hs hd ht hf
    obtain ⟨i, rfl⟩ := busy hs
    obtain ⟨j, hj, hi, y, k, hk, rfl⟩ := done hd ht
    cases hq : D.isIdle i with
    | true => have := h.quiet hI hq hj; omega
    | false => exact h.bound hI ((item_busy hq).2 ⟨hj, hi, hk⟩)
  · intro s b e n t x s' hI hs hd ht hf
    obtain ⟨i, rfl⟩ := busy hs
    obtain ⟨j, hj, hi, y, k, hk, rfl⟩ := done hd ht
    rw [fin hf]
    cases hq : D.isIdle i with
    | true =>
      obtain ⟨_, rfl⟩ := h.quiet hI hq hj
      exact h.again hI ((item_quiet (b := []) (e := Eos.new false) hq).2 ⟨rfl, rfl, hk⟩)
    | false => exact h.again hI ((item_busy hq).2 ⟨hj, hi, hk⟩)
  · intro s x s' hI hs hf
    rw [fin hf]
    exact hI
  · intro s b e n s1 hI hs hd hs1
    obtain ⟨i, rfl⟩ := busy hs
    obtain ⟨hq, j, hj, hi, rfl⟩ := wait hI hd hs1
    exact h.part hI ((tryDecode_ret_iff hq).2 ⟨hj, hi⟩)
  · intro s b e n t hI hs hd
    rw [quiet _ _ hs] at hd
    cases hd
    exact ⟨rfl, rfl⟩
  · intro s a b e e1 n t x s' hI hs hd hf he hne hsane
    exact quiet _ _ hs
  · intro s a b e e1 n t x s' hI hs hd ht hf he hne hsane
    obtain ⟨i, rfl⟩ := busy hs
    obtain ⟨j, hj, hi, y, k, hk, rfl⟩ := done hd ht
    cases hq : D.isIdle i with
    | true =>
      obtain ⟨rfl, rfl⟩ := h.quiet hI hq hj
      exact peek_ok.2 ⟨_, h.still hI hq hj hk he hne hsane, .inr ⟨hi, y, k, hk, rfl⟩⟩
    | false =>
      have := h.extend hI ((item_busy hq).2 ⟨hj, hi, hk⟩) he hne hsane
      rw [item_busy hq] at this
      exact peek_ok.2 ⟨_, this.1, .inr ⟨hi, y, k, hk, rfl⟩⟩
  · intro s a b e e1 s1 m t x s' hI hs hd hs1 hd1 ht hf he hne hsane hc
    obtain ⟨i, rfl⟩ := busy hs
    obtain ⟨hq, j, hj, hi, rfl⟩ := wait hI hd hs1
    obtain ⟨j1, hj1, hi1, y, k, hk, rfl⟩ := done hd1 ht
    have := h.join hI ((tryDecode_ret_iff hq).2 ⟨hj, hi⟩) ((item_busy hi).2 ⟨hj1, hi1, hk⟩) he hne hsane hc
    rw [item_busy hq] at this
    exact peek_ok.2 ⟨_, this.1, .inr ⟨hi1, y, k, hk, rfl⟩⟩
  · intro hkk s a e s1 m t x s' hI hs hr hd hs1 hd1 ht hf
    obtain ⟨i, rfl⟩ := busy hs
    obtain ⟨hq, j, hj, hi, rfl⟩ := wait hI hd hs1
    obtain ⟨j1, hj1, hi1, y, k, hk, rfl⟩ := done hd1 ht
    exact h.closed hkk hI hr ((tryDecode_ret_iff hq).2 ⟨hj, hi⟩) ((item_busy hi).2 ⟨hj1, hi1, hk⟩)
  · intro hqq s b e n s1 hI hs hr hd hs1
    obtain ⟨i, rfl⟩ := busy hs
    obtain ⟨hq, j, hj, hi, rfl⟩ := wait hI hd hs1
    exact h.strict hqq hI hr ((tryDecode_ret_iff hq).2 ⟨hj, hi⟩)

/-! ## `MaybeEos` -/

theorem maybeMark_cases (st : Bool) (b : Bytes) (e : Eos) :
    (st = false ∧ b = [] ∧ e.isReached = true ∧ maybeMark st b e = Eos.new false) ∨
    ((st = true ∨ b ≠ [] ∨ e.isReached = false) ∧ maybeMark st b e = e) := by
  unfold maybeMark
  by_cases hm : (!st && b.isEmpty && e.isReached) = true
  · left
    simp at hm
    rw [if_pos (by simp [hm])]
    exact ⟨hm.1.1, hm.1.2, hm.2, rfl⟩
  · right
    rw [if_neg hm]
    refine ⟨?_, rfl⟩
    cases st
    · right
      cases b
      · right; simpa using hm
      · left; simp
    · left; rfl

theorem earlier_new {e1 e : Eos} (h : Earlier e1 e 0) (h1 : e1.isReached = false)
    (h2 : e.isReached = true) : e1 = Eos.new false := by
  rcases h with h | h
  · exact h
  · rw [eosShift_id] at h
    rw [h, h2] at h1
    cases h1

theorem joins_maybeEos {c k q : Bool} {D : Decoder σ α} {I : σ → Prop} (h : Joins c k q D I) :
    Joins c k false (maybeEosDecoder D) (fun s => I s.inner) := by
  apply Joins.of_busy
  · intro s b e n t x s' hI hs hd ht hf
    replace hs : D.isIdle s.inner = false := hs
    obtain ⟨i, hi, rfl⟩ := maybe_ok.1 hd
    obtain ⟨j, hj, rfl⟩ := maybe_fin.1 hf
    exact h.bound hI ((item_busy hs).2 ⟨hi, ht, hj⟩)
  · intro s b e n t x s' hI hs hd ht hf
    replace hs : D.isIdle s.inner = false := hs
    obtain ⟨i, hi, rfl⟩ := maybe_ok.1 hd
    obtain ⟨j, hj, rfl⟩ := maybe_fin.1 hf
    exact h.again hI ((item_busy hs).2 ⟨hi, ht, hj⟩)
  · intro s x s' hI hs hf
    replace hs : D.isIdle s.inner = true := hs
    obtain ⟨j, hj, rfl⟩ := maybe_fin.1 hf
    exact h.again hI ((item_quiet (b := []) (e := Eos.new false) hs).2 ⟨rfl, rfl, hj⟩)
  · intro s b e n s1 hI hs hd hs1
    replace hs : D.isIdle s.inner = false := hs
    obtain ⟨i, hi, rfl⟩ := maybe_ok.1 hd
    exact h.part hI ((tryDecode_ret_iff hs).2 ⟨hi, hs1⟩)
  · intro s b e n t hI hs hd
    replace hs : D.isIdle s.inner = true := hs
    obtain ⟨i, hi, rfl⟩ := maybe_ok.1 hd
    obtain ⟨rfl, rfl⟩ := h.quiet hI hs hi
    exact ⟨rfl, rfl⟩
  · intro s a b e e1 n t x s' hI hs hd hf he hne hsane
    replace hs : D.isIdle s.inner = true := hs
    obtain ⟨i, hi, rfl⟩ := maybe_ok.1 hd
    obtain ⟨j, hj, rfl⟩ := maybe_fin.1 hf
    rw [maybeMark_not_reached hne] at hi
    obtain ⟨rfl, rfl⟩ := h.quiet hI hs hi
    refine maybe_ok.2 ⟨s.inner, ?_, rfl⟩
    rcases maybeMark_cases s.started (a ++ b) e with ⟨g1, g2, g3, g4⟩ | ⟨g1, g2⟩
    · obtain ⟨rfl, rfl⟩ := List.append_eq_nil_iff.1 g2
      rw [g4, ← earlier_new he hne g3]
      exact hi
    · rw [g2]
      exact h.still hI hs hi hj he hne hsane
  · intro s a b e e1 n t x s' hI hs hd ht hf he hne hsane
    replace hs : D.isIdle s.inner = false := hs
    obtain ⟨i, hi, rfl⟩ := maybe_ok.1 hd
    obtain ⟨j, hj, rfl⟩ := maybe_fin.1 hf
    rw [maybeMark_not_reached hne] at hi
    refine maybe_ok.2 ⟨i, ?_, rfl⟩
    rcases maybeMark_cases s.started (a ++ b) e with ⟨g1, g2, g3, g4⟩ | ⟨g1, g2⟩
    · obtain ⟨rfl, rfl⟩ := List.append_eq_nil_iff.1 g2
      rw [g4, ← earlier_new he hne g3]
      exact hi
    · rw [g2]
      have := h.extend hI ((item_busy hs).2 ⟨hi, ht, hj⟩) he hne hsane
      rw [item_busy hs] at this
      exact this.1
  · intro s a b e e1 s1 m t x s' hI hs hd hs1 hd1 ht hf he hne hsane hc
    replace hs : D.isIdle s.inner = false := hs
    obtain ⟨i, hi, rfl⟩ := maybe_ok.1 hd
    replace hs1 : D.isIdle i = false := hs1
    obtain ⟨i2, hi2, rfl⟩ := maybe_ok.1 hd1
    obtain ⟨j, hj, rfl⟩ := maybe_fin.1 hf
    rw [maybeMark_not_reached hne] at hi
    simp only at hi2
    refine maybe_ok.2 ⟨i2, ?_, ?_⟩
    · rcases maybeMark_cases s.started (a ++ b) e with ⟨g1, g2, g3, g4⟩ | ⟨g1, g2⟩
      · obtain ⟨rfl, rfl⟩ := List.append_eq_nil_iff.1 g2
        have e1n := earlier_new he hne g3
        subst e1n
        simp only [List.length_nil, ne_eq, not_true_eq_false, if_false] at hi2
        rw [g1, maybeMark, if_pos (by simp [g3])] at hi2
        rw [g4]
        have := h.join (a := []) (b := []) (e := Eos.new false) hI ((tryDecode_ret_iff hs).2 ⟨hi, hs1⟩)
          ((item_busy hs1).2 ⟨hi2, ht, hj⟩) (.inl rfl) rfl (fun k hk => by cases hk) (.inr (.inr rfl))
        rw [item_busy hs] at this
        exact this.1
      · have : maybeMark (if a.length ≠ 0 then true else s.started) b e = e := by
          rcases maybeMark_cases (if a.length ≠ 0 then true else s.started) b e with
            ⟨k1, k2, k3, k4⟩ | ⟨_, k⟩
          · exfalso
            split at k1
            · cases k1
            · next ha =>
              have ha : a = [] := List.eq_nil_of_length_eq_zero (by simpa using ha)
              subst ha; subst k2
              rw [k1, k3] at g1
              simp at g1
          · exact k
        rw [this] at hi2
        rw [g2]
        have := h.join hI ((tryDecode_ret_iff hs).2 ⟨hi, hs1⟩)
          ((item_busy hs1).2 ⟨hi2, ht, hj⟩) he hne hsane hc
        rw [item_busy hs] at this
        exact this.1
    · simp only [MaybeEosState.mk.injEq, true_and]
      by_cases ha : a.length = 0 <;> by_cases hm : m = 0 <;> simp [ha, hm]
  · intro hk s a e s1 m t x s' hI hs hr hd hs1 hd1 ht hf
    replace hs : D.isIdle s.inner = false := hs
    obtain ⟨i, hi, rfl⟩ := maybe_ok.1 hd
    replace hs1 : D.isIdle i = false := hs1
    obtain ⟨i2, hi2, rfl⟩ := maybe_ok.1 hd1
    obtain ⟨j, hj, rfl⟩ := maybe_fin.1 hf
    simp only at hi2
    rcases maybeMark_cases s.started a e with ⟨g1, rfl, g3, g4⟩ | ⟨g1, g2⟩
    · rw [g4] at hi
      simp only [List.length_nil, ne_eq, not_true_eq_false, if_false] at hi2
      rw [g4] at hi2
      have := h.join (a := []) (b := []) (e := Eos.new false) hI ((tryDecode_ret_iff hs).2 ⟨hi, hs1⟩)
        ((item_busy hs1).2 ⟨hi2, ht, hj⟩) (.inl rfl) rfl (fun k hk => by cases hk) (.inr (.inr rfl))
      rw [item_busy hs] at this
      simp only [List.append_nil] at this
      rw [hi] at this
      obtain ⟨q1, q2, _⟩ := this
      rw [(Prod.mk.inj q1).2] at hs1
      rw [hs1] at q2
      cases q2
    · rw [g2] at hi
      have : maybeMark (if a.length ≠ 0 then true else s.started) [] e = e := by
        unfold maybeMark
        rw [if_neg]
        rcases g1 with g | g | g
        · simp [g]
        · simp [g]
        · rw [hr] at g; cases g
      rw [this] at hi2
      exact h.closed hk hI hr ((tryDecode_ret_iff hs).2 ⟨hi, hs1⟩) ((item_busy hs1).2 ⟨hi2, ht, hj⟩)
  · intro hq; cases hq

/-! ## Pairs -/

theorem Joins.steps {c k q : Bool} {D : Decoder σ α} {I : σ → Prop} (h : Joins c k q D I) : Steps D I :=
  ⟨h.bound, h.again⟩

theorem Mid.bound' {D : Decoder σ α} {I : σ → Prop} (h : Steps D I)
    {s b e n t x s'} (hm : Mid D I s) (hi : Item D s b e n t x s') : n ≤ b.length := by
  rcases hm with hm | ⟨q, b', e', n', hq, hn⟩
  · exact h.bound hm hi
  · rw [item_quiet (tryDecode_next_isIdle hn)] at hi
    omega

theorem Mid.again' {D : Decoder σ α} {I : σ → Prop} (h : Steps D I)
    {s b e n t x s'} (hm : Mid D I s) (hi : Item D s b e n t x s') : I s' := by
  rcases hm with hm | ⟨q, b', e', n', hq, hn⟩
  · exact h.again hm hi
  · rw [item_quiet (tryDecode_next_isIdle hn)] at hi
    exact h.again hq ⟨hn, hi.2.2⟩

theorem Mid.ret {D : Decoder σ α} {I : σ → Prop} {s b e r t} (hm : Mid D I s)
    (hi : tryDecode D s 0 b e = .ret r t) : I s := by
  rcases hm with hm | ⟨q, b', e', n', hq, hn⟩
  · exact hm
  · rw [tryDecode_quiet (tryDecode_next_isIdle hn)] at hi
    cases hi

theorem Mid.extend {c k q : Bool} {D : Decoder σ α} {I : σ → Prop} (h : Joins c k q D I)
    {s a b e e1 n t x s'} (hm : Mid D I s) (hi : Item D s a e1 n t x s') (he : Earlier e1 e b.length)
    (hne : e1.isReached = false) (hsane : EosSane e (a ++ b).length) : Item D s (a ++ b) e n t x s' := by
  rcases hm with hm | ⟨q, b', e', n', hq, hn⟩
  · exact h.extend hm hi he hne hsane
  · have hs := tryDecode_next_isIdle hn
    rw [item_quiet hs] at hi ⊢
    exact hi

theorem pair_ret {σ0 α0 σ1 α1 : Type} {D0 : Decoder σ0 α0} {D1 : Decoder σ1 α1} {s t : σ0 × σ1}
    {b : Bytes} {e : Eos} {n : Nat} :
    tryDecode (tupleDecoder2 D0 D1) s 0 b e = .ret (.ok n) t ↔
      (tryDecode D0 s.1 0 b e = .ret (.ok n) t.1 ∧ t.2 = s.2) ∨
      ∃ n0, tryDecode D0 s.1 0 b e = .next n0 t.1 ∧ tryDecode D1 s.2 n0 b e = .ret (.ok n) t.2 := by
  rw [tryDecode_pair]
  rcases h0 : tryDecode D0 s.1 0 b e with ⟨n0, t0⟩ | ⟨r, t0⟩
  · simp only [Flow.bind]
    rcases h1 : tryDecode D1 s.2 n0 b e with ⟨n1, t1⟩ | ⟨r, t1⟩
    · simp only
      constructor
      · intro h; cases h
      · rintro (⟨h, _⟩ | ⟨m, h, h'⟩)
        · cases h
        · cases h; rw [h1] at h'; cases h'
    · simp only
      constructor
      · intro h; cases h
        exact .inr ⟨n0, rfl, h1⟩
      · rintro (⟨h, _⟩ | ⟨m, h, h'⟩)
        · cases h
        · cases h; rw [h1] at h'; cases h'; rfl
  · simp only [Flow.bind]
    constructor
    · intro h; cases h; exact .inl ⟨rfl, rfl⟩
    · rintro (⟨h, h'⟩ | ⟨m, h, h'⟩)
      · cases h
        rw [← h']
      · cases h

theorem tryDecode_ret_le {D : Decoder σ α} {s t : σ} {off n : Nat} {buf : Bytes} {e : Eos}
    (h : tryDecode D s off buf e = .ret (.ok n) t) : off ≤ buf.length := by
  rw [tryDecode] at h
  split at h
  · cases h
  · split at h
    · cases h
    · omega

theorem joins_pair {c k q : Bool} {σ0 α0 σ1 α1 : Type} {D0 : Decoder σ0 α0} {D1 : Decoder σ1 α1}
    {I0 : σ0 → Prop} {I1 : σ1 → Prop} (h0 : Joins c k q D0 I0) (h1 : Joins c k q D1 I1) :
    Joins c k q (tupleDecoder2 D0 D1) (fun s => Mid D0 I0 s.1 ∧ I1 s.2) := by
  have quiet : ∀ {s : σ0 × σ1} (b e), (tupleDecoder2 D0 D1).isIdle s = true →
      (tupleDecoder2 D0 D1).decode s b e = (.ok 0, s) := by
    intro s b e hs
    have hs' : D0.isIdle s.1 = true ∧ D1.isIdle s.2 = true := by simpa [tupleDecoder2] using hs
    rw [pair_decode, tryDecode_quiet hs'.1]
    simp only [Flow.bind]
    rw [tryDecode_quiet hs'.2]
    rfl
  constructor
  · rintro s b e n t x s' ⟨hI0, hI1⟩ hi
    obtain ⟨n0, g0, g1, g2⟩ := pair_item.1 hi
    have hb := hI0.bound' h0.steps g0
    rw [tryDecode_at hb] at g1
    have := h1.bound hI1 ⟨g1.2, g2⟩
    simp at this
    omega
  · rintro s b e n t x s' ⟨hI0, hI1⟩ hi
    obtain ⟨n0, g0, g1, g2⟩ := pair_item.1 hi
    have hb := hI0.bound' h0.steps g0
    rw [tryDecode_at hb] at g1
    exact ⟨.inl (hI0.again' h0.steps g0), h1.again hI1 ⟨g1.2, g2⟩⟩
  · rintro s b e n s1 ⟨hI0, hI1⟩ hr
    rcases pair_ret.1 hr with ⟨g0, g1⟩ | ⟨n0, g0, g1⟩
    · exact ⟨.inl (h0.part (hI0.ret g0) g0), by rw [g1]; exact hI1⟩
    · have hb := tryDecode_ret_le g1
      rw [tryDecode_at_ret hb] at g1
      exact ⟨hI0.next g0, h1.part hI1 g1.2⟩
  · rintro s b e n t ⟨hI0, hI1⟩ hs hd
    rw [quiet _ _ hs] at hd
    cases hd
    exact ⟨rfl, rfl⟩
  · rintro s a b e e1 n t x s' ⟨hI0, hI1⟩ hs hd hf he hne hsane
    exact quiet _ _ hs
  · rintro s a b e e1 n t x s' ⟨hI0, hI1⟩ hi he hne hsane
    obtain ⟨n0, g0, g1, g2⟩ := pair_item.1 hi
    have hb := hI0.bound' h0.steps g0
    rw [tryDecode_at hb] at g1
    have hsane1 : EosSane e (a.drop n0 ++ b).length :=
      sane_drop (c := a ++ b) hsane (by simp)
    have m0 := hI0.extend h0 g0 he hne hsane
    have m1 := h1.extend hI1 ⟨g1.2, g2⟩ he hne hsane1
    refine pair_item.2 ⟨n0, m0, (tryDecode_at (by simp; omega)).2 ⟨g1.1, ?_⟩, g2⟩
    rw [List.drop_append_of_le_length hb]
    exact m1.1
  · rintro s a b e e1 s1 m t x s' ⟨hI0, hI1⟩ hr hi he hne hsane hc
    obtain ⟨m0, g0, g1, g2⟩ := pair_item.1 hi
    rcases pair_ret.1 hr with ⟨f0, f1⟩ | ⟨n0, f0, f1⟩
    · rw [f1] at g1
      have hIs := h0.part (hI0.ret f0) f0
      have hb := h0.bound hIs g0
      have j0 := h0.join (hI0.ret f0) f0 g0 he hne hsane hc
      rw [tryDecode_at hb] at g1
      refine pair_item.2 ⟨a.length + m0, j0, (tryDecode_at (by simp; omega)).2 ⟨by omega, ?_⟩, g2⟩
      have e1 : (a ++ b).drop (a.length + m0) = b.drop m0 := by
        rw [List.drop_append, List.drop_eq_nil_of_le (by omega), List.nil_append]
        congr 1; omega
      have e2 : a.length + m - (a.length + m0) = m - m0 := by omega
      rw [e1, e2]
      exact g1.2
    · have hb := tryDecode_ret_le f1
      have hq := tryDecode_next_isIdle f0
      rw [item_quiet hq] at g0
      obtain ⟨rfl, g00, g01⟩ := g0
      rw [← g00] at f0 g01
      have j0 := hI0.extend h0 ⟨f0, g01⟩ he hne hsane
      rw [tryDecode_at_ret hb] at f1
      have hsane1 : EosSane e (a.drop n0 ++ b).length := sane_drop (c := a ++ b) hsane (by simp)
      have f1' := f1.2
      rw [← List.length_drop] at f1'
      have j1 := h1.join hI1 f1' ⟨g1, g2⟩ he hne hsane1 hc
      refine pair_item.2 ⟨n0, j0, (tryDecode_at (by simp; omega)).2 ⟨by omega, ?_⟩, g2⟩
      rw [List.drop_append_of_le_length hb]
      have e2 : a.length + m - n0 = (a.drop n0).length + m := by simp; omega
      rw [e2]
      exact j1.1
  · rintro hk s a e s1 m t x s' ⟨hI0, hI1⟩ hr hd hi
    obtain ⟨m0, g0, g1, g2⟩ := pair_item.1 hi
    rcases pair_ret.1 hd with ⟨f0, f1⟩ | ⟨n0, f0, f1⟩
    · exact h0.closed hk (hI0.ret f0) hr f0 g0
    · have hb := tryDecode_ret_le f1
      have hq := tryDecode_next_isIdle f0
      rw [item_quiet hq] at g0
      obtain ⟨rfl, g00, g01⟩ := g0
      rw [tryDecode_at_ret hb, ← List.length_drop] at f1
      exact h1.closed hk hI1 hr f1.2 ⟨g1, g2⟩
  · rintro hq s b e n s1 ⟨hI0, hI1⟩ hr hd
    rcases pair_ret.1 hd with ⟨f0, f1⟩ | ⟨n0, f0, f1⟩
    · exact h0.strict hq (hI0.ret f0) hr f0
    · have hb := tryDecode_ret_le f1
      rw [tryDecode_at_ret hb] at f1
      exact h1.strict hq hI1 hr f1.2

/-! ## `AndThen` -/

theorem andThen_none_ret {σ0 α0 σ1 α1 : Type} {D0 : Decoder σ0 α0} {D1 : Decoder σ1 α1} {f : α0 → σ1}
    {s0 : σ0} {b : Bytes} {e : Eos} {n : Nat} {t : σ0 × Option σ1}
    (h : (andThenDecoder D0 D1 f).decode (s0, none) b e = (.ok n, t))
    (hi : (andThenDecoder D0 D1 f).isIdle t = false) :
    (∃ u0, tryDecode D0 s0 0 b e = .ret (.ok n) u0 ∧ t = (u0, none)) ∨
    ∃ n0 t0 y s0' t1, Item D0 s0 b e n0 t0 y s0' ∧ tryDecode D1 (f y) n0 b e = .ret (.ok n) t1 ∧
      t = (s0', some t1) := by
  rcases h0 : tryDecode D0 s0 0 b e with ⟨n0, t0⟩ | ⟨r, t0⟩
  · right
    have h' := h
    simp only [andThenDecoder] at h'
    rw [h0] at h'
    simp only at h'
    obtain ⟨y, s0', h1, h2⟩ := step_ok h'
    have hit : Item D0 s0 b e n0 t0 y s0' := ⟨h0, h1⟩
    rw [andThen_none_next hit] at h
    rcases h3 : tryDecode D1 (f y) n0 b e with ⟨o, u⟩ | ⟨r, u⟩ <;> rw [h3] at h
    · cases h
      have := tryDecode_next_isIdle h3
      simp [andThenDecoder, this] at hi
    · simp only [Flow.bind, Flow.done] at h
      cases h
      exact ⟨n0, t0, y, s0', u, hit, h3, rfl⟩
  · rw [andThen_none_part h0] at h
    cases h
    exact .inl ⟨t0, rfl, rfl⟩

theorem joins_andThen {c k q : Bool} {σ0 α0 σ1 α1 : Type} {D0 : Decoder σ0 α0} {D1 : Decoder σ1 α1}
    {f : α0 → σ1} {I0 : σ0 → Prop} {I1 : σ1 → Prop} (h0 : Joins c k q D0 I0) (h1 : Joins c k q D1 I1)
    (hf : ∀ x, I1 (f x)) :
    Joins c k q (andThenDecoder D0 D1 f) (fun s => I0 s.1 ∧ ∀ u, s.2 = some u → I1 u) := by
  have item1 : ∀ {s1 b e n t1 x}, tryDecode D1 s1 0 b e = .next n t1 → (D1.finish t1).1 = .ok x →
      Item D1 s1 b e n t1 x (D1.finish t1).2 := fun h1 h2 => ⟨h1, Prod.ext h2 rfl⟩
  have next_of : ∀ {s0 s1 b e n} {t : σ0 × Option σ1},
      (andThenDecoder D0 D1 f).decode (s0, some s1) b e = (.ok n, t) →
      (andThenDecoder D0 D1 f).isIdle t = true →
      ∃ t1, t = (s0, some t1) ∧ tryDecode D1 s1 0 b e = .next n t1 := by
    intro s0 s1 b e n t hd ht
    obtain ⟨t1, rfl, h | h⟩ := andThen_some.1 hd
    · exact ⟨t1, rfl, h⟩
    · have := tryDecode_ret_ok h
      simp [andThenDecoder, this] at ht
  have ret_of : ∀ {s0 s1 b e n} {t : σ0 × Option σ1},
      (andThenDecoder D0 D1 f).decode (s0, some s1) b e = (.ok n, t) →
      (andThenDecoder D0 D1 f).isIdle t = false →
      ∃ t1, t = (s0, some t1) ∧ tryDecode D1 s1 0 b e = .ret (.ok n) t1 := by
    intro s0 s1 b e n t hd ht
    obtain ⟨t1, rfl, h | h⟩ := andThen_some.1 hd
    · have := tryDecode_next_isIdle h
      simp [andThenDecoder, this] at ht
    · exact ⟨t1, rfl, h⟩
  have quiet : ∀ {s : σ0 × Option σ1} (b e), (andThenDecoder D0 D1 f).isIdle s = true →
      (andThenDecoder D0 D1 f).decode s b e = (.ok 0, s) := by
    rintro ⟨s0, s1⟩ b e hs
    cases s1 with
    | some s1 =>
      have hs' : D1.isIdle s1 = true := hs
      exact andThen_some.2 ⟨s1, rfl, .inl (tryDecode_quiet hs' _ _ _)⟩
    | none => simp [andThenDecoder] at hs
  apply Joins.of_busy
  · rintro ⟨s0, s1⟩ b e n t x s' ⟨hI0, hI1⟩ hs hd ht hfin
    cases s1 with
    | some s1 =>
      obtain ⟨t1, rfl, g⟩ := next_of hd ht
      exact h1.bound (hI1 s1 rfl) (item1 g (andThen_fin.1 hfin).1)
    | none =>
      obtain ⟨n0, t0, y, s0', t1, g0, g1, rfl⟩ := andThen_none_idle hd ht
      have hb := h0.bound hI0 g0
      rw [tryDecode_at hb] at g1
      have := h1.bound (hf y) (item1 g1.2 (andThen_fin.1 hfin).1)
      simp at this
      omega
  · rintro ⟨s0, s1⟩ b e n t x s' ⟨hI0, hI1⟩ hs hd ht hfin
    cases s1 with
    | some s1 =>
      obtain ⟨t1, rfl, g⟩ := next_of hd ht
      obtain ⟨_, rfl⟩ := andThen_fin.1 hfin
      exact ⟨hI0, fun u hu => by cases hu⟩
    | none =>
      obtain ⟨n0, t0, y, s0', t1, g0, g1, rfl⟩ := andThen_none_idle hd ht
      obtain ⟨_, rfl⟩ := andThen_fin.1 hfin
      exact ⟨h0.again hI0 g0, fun u hu => by cases hu⟩
  · rintro ⟨s0, s1⟩ x s' ⟨hI0, hI1⟩ hs hfin
    cases s1 with
    | some s1 =>
      obtain ⟨_, rfl⟩ := andThen_fin.1 hfin
      exact ⟨hI0, fun u hu => by cases hu⟩
    | none => simp [andThenDecoder] at hs
  · rintro ⟨s0, s1⟩ b e n t ⟨hI0, hI1⟩ hs hd ht
    cases s1 with
    | some s1 =>
      obtain ⟨t1, rfl, g⟩ := ret_of hd ht
      exact ⟨hI0, fun u hu => by cases hu; exact h1.part (hI1 s1 rfl) g⟩
    | none =>
      rcases andThen_none_ret hd ht with ⟨u0, g, rfl⟩ | ⟨n0, t0, y, s0', t1, g0, g1, rfl⟩
      · exact ⟨h0.part hI0 g, fun u hu => by cases hu⟩
      · have hb := tryDecode_ret_le g1
        rw [tryDecode_at_ret hb] at g1
        exact ⟨h0.again hI0 g0, fun u hu => by cases hu; exact h1.part (hf y) g1.2⟩
  · rintro s b e n t ⟨hI0, hI1⟩ hs hd
    rw [quiet _ _ hs] at hd
    cases hd
    exact ⟨rfl, rfl⟩
  · rintro s a b e e1 n t x s' ⟨hI0, hI1⟩ hs hd hf he hne hsane
    exact quiet _ _ hs
  · rintro ⟨s0, s1⟩ a b e e1 n t x s' ⟨hI0, hI1⟩ hs hd ht hfin he hne hsane
    cases s1 with
    | some s1 =>
      obtain ⟨t1, rfl, g⟩ := next_of hd ht
      have := h1.extend (hI1 s1 rfl) (item1 g (andThen_fin.1 hfin).1) he hne hsane
      exact andThen_some.2 ⟨t1, rfl, .inl this.1⟩
    | none =>
      obtain ⟨n0, t0, y, s0', t1, g0, g1, rfl⟩ := andThen_none_idle hd ht
      have hb := h0.bound hI0 g0
      rw [tryDecode_at hb] at g1
      have hsane1 : EosSane e (a.drop n0 ++ b).length := sane_drop (c := a ++ b) hsane (by simp)
      have m0 := h0.extend hI0 g0 he hne hsane
      have m1 := h1.extend (hf y) (item1 g1.2 (andThen_fin.1 hfin).1) he hne hsane1
      rw [andThen_none_next m0, (tryDecode_at (o := n) (t := t1) (by simp; omega)).2 ⟨g1.1, ?_⟩]
      · rfl
      · rw [List.drop_append_of_le_length hb]
        exact m1.1
  · rintro ⟨s0, s1⟩ a b e e1 u m t x s' ⟨hI0, hI1⟩ hs hd hu hd1 ht hfin he hne hsane hc
    cases s1 with
    | some s1 =>
      obtain ⟨u1, rfl, g⟩ := ret_of hd hu
      obtain ⟨t1, rfl, g1⟩ := next_of hd1 ht
      have := h1.join (hI1 s1 rfl) g (item1 g1 (andThen_fin.1 hfin).1) he hne hsane hc
      exact andThen_some.2 ⟨t1, rfl, .inl this.1⟩
    | none =>
      rcases andThen_none_ret hd hu with ⟨u0, g, rfl⟩ | ⟨n0, t0, y, s0', u1, g0, g1, rfl⟩
      · obtain ⟨m0, t0, y, s0', t1, f0, f1, rfl⟩ := andThen_none_idle hd1 ht
        have hb := h0.bound (h0.part hI0 g) f0
        rw [tryDecode_at hb] at f1
        have j0 := h0.join hI0 g f0 he hne hsane hc
        rw [andThen_none_next j0,
          (tryDecode_at (o := a.length + m) (t := t1) (by simp; omega)).2 ⟨by omega, ?_⟩]
        · rfl
        · have e1 : (a ++ b).drop (a.length + m0) = b.drop m0 := by
            rw [List.drop_append, List.drop_eq_nil_of_le (by omega), List.nil_append]
            congr 1; omega
          have e2 : a.length + m - (a.length + m0) = m - m0 := by omega
          rw [e1, e2]
          exact f1.2
      · obtain ⟨t1, rfl, f1⟩ := next_of hd1 ht
        have hb := tryDecode_ret_le g1
        rw [tryDecode_at_ret hb, ← List.length_drop] at g1
        have hsane1 : EosSane e (a.drop n0 ++ b).length := sane_drop (c := a ++ b) hsane (by simp)
        have j0 := h0.extend hI0 g0 he hne hsane
        have j1 := h1.join (hf y) g1.2 (item1 f1 (andThen_fin.1 hfin).1) he hne hsane1 hc
        rw [andThen_none_next j0,
          (tryDecode_at (o := a.length + m) (t := t1) (by simp; omega)).2 ⟨by omega, ?_⟩]
        · rfl
        · rw [List.drop_append_of_le_length hb]
          have e2 : a.length + m - n0 = (a.drop n0).length + m := by simp; omega
          rw [e2]
          exact j1.1
  · rintro hk ⟨s0, s1⟩ a e u m t x s' ⟨hI0, hI1⟩ hs hr hd hu hd1 ht hfin
    cases s1 with
    | some s1 =>
      obtain ⟨u1, rfl, g⟩ := ret_of hd hu
      obtain ⟨t1, rfl, g1⟩ := next_of hd1 ht
      exact h1.closed hk (hI1 s1 rfl) hr g (item1 g1 (andThen_fin.1 hfin).1)
    | none =>
      rcases andThen_none_ret hd hu with ⟨u0, g, rfl⟩ | ⟨n0, t0, y, s0', u1, g0, g1, rfl⟩
      · obtain ⟨m0, t0, y, s0', t1, f0, f1, rfl⟩ := andThen_none_idle hd1 ht
        exact h0.closed hk hI0 hr g f0
      · obtain ⟨t1, rfl, f1⟩ := next_of hd1 ht
        have hb := tryDecode_ret_le g1
        rw [tryDecode_at_ret hb, ← List.length_drop] at g1
        exact h1.closed hk (hf y) hr g1.2 (item1 f1 (andThen_fin.1 hfin).1)
  · rintro hq ⟨s0, s1⟩ b e n t ⟨hI0, hI1⟩ hs hr hd ht
    cases s1 with
    | some s1 =>
      obtain ⟨u1, rfl, g⟩ := ret_of hd ht
      exact h1.strict hq (hI1 s1 rfl) hr g
    | none =>
      rcases andThen_none_ret hd ht with ⟨u0, g, rfl⟩ | ⟨n0, t0, y, s0', u1, g0, g1, rfl⟩
      · exact h0.strict hq hI0 hr g
      · have hb := tryDecode_ret_le g1
        rw [tryDecode_at_ret hb] at g1
        exact h1.strict hq (hf y) hr g1.2

/-! ## Repetition -/

theorem Stops.runs {c k q : Bool} {D : Decoder σ α} {I : σ → Prop} (hI : Joins c k q D I)
    {e e1 : Eos} {a b : Bytes} {s s1 : σ} {ys : List α} (h : Stops D e1 a s ys s1)
    (hne : e1.isReached = false) (he : Earlier e1 e b.length) {zs : List α} {m : Nat} {s' : σ}
    (hr : Runs D e b s1 zs m s') (hz : zs ≠ []) : I s → EosSane e (a ++ b).length →
      Runs D e (a ++ b) s (ys ++ zs) (a.length + m) s' := by
  induction h with
  | stop s => intro _ _; simpa using hr
  | @part a s s1 ha hp =>
    intro hs hsane
    cases hr with
    | stop => exact absurd rfl hz
    | @step b s1 t s2 s3 z zs n m hb hit hn hr =>
      have := hI.join hs hp hit he hne hsane (.inr (.inl hb))
      rw [List.nil_append, ← Nat.add_assoc]
      refine .step (by simp [ha]) this (by simp; omega) ?_
      have e1 : (a ++ b).drop (a.length + n) = b.drop n := by
        rw [List.drop_append, List.drop_eq_nil_of_le (by omega), List.nil_append]
        congr 1; omega
      rw [e1]
      exact hr
  | @step a s t s1 s2 x xs n ha hit hn hst ih =>
    intro hs hsane
    have h1 := hI.extend hs hit he hne hsane
    have hsane1 : EosSane e (a.drop n ++ b).length := sane_drop (c := a ++ b) hsane (by simp)
    have h2 := ih hr (hI.again hs hit) hsane1
    have e1 : a.length + m = n + ((a.drop n).length + m) := by simp; omega
    rw [e1, List.cons_append]
    refine .step (by simp [ha]) h1 (by simp; omega) ?_
    rw [List.drop_append_of_le_length hn]
    exact h2

theorem Runs.extend {c k q : Bool} {D : Decoder σ α} {I : σ → Prop} (hI : Joins c k q D I)
    {e e1 : Eos} {a b : Bytes} {s s' : σ} {xs : List α} {n : Nat} (h : Runs D e1 a s xs n s')
    (hne : e1.isReached = false) (he : Earlier e1 e b.length) : I s → EosSane e (a ++ b).length →
      Runs D e (a ++ b) s xs n s' := by
  induction h with
  | stop a s => intro _ _; exact .stop _ _
  | @step a s t s1 s2 x xs n m ha hit hn hst ih =>
    intro hs hsane
    have h1 := hI.extend hs hit he hne hsane
    have hsane1 : EosSane e (a.drop n ++ b).length := sane_drop (c := a ++ b) hsane (by simp)
    refine .step (by simp [ha]) h1 (by simp; omega) ?_
    rw [List.drop_append_of_le_length hn]
    exact ih (hI.again hs hit) hsane1

theorem Stops.inv {c k q : Bool} {D : Decoder σ α} {I : σ → Prop} (hI : Joins c k q D I)
    {e : Eos} {b : Bytes} {s s' : σ} {xs : List α} (h : Stops D e b s xs s') (hs : I s) : I s' := by
  induction h with
  | stop => exact hs
  | part _ h2 => exact hI.part hs h2
  | step _ h2 _ _ ih => exact ih (hI.again hs h2)

/-! ### `CollectN` -/

/-- How the loop of `CollectN` ends when items are still missing. -/
theorem loopN_wait {c k q : Bool} {D : Decoder σ α} {I : σ → Prop} (hI : Joins c k q D I) {buf : Bytes}
    {e : Eos} : ∀ {r off s items n s' items' r'}, I s → off ≤ buf.length →
      (collectNLoop D buf e r off s items = .ret (.ok n) s' items' r' ∨
        (collectNLoop D buf e r off s items = .done n s' items' r' ∧ r' ≠ 0)) →
      I s' ∧ (n = buf.length → ∃ xs, xs.length + r' = r ∧ items' = items ++ xs ∧
        Stops D e (buf.drop off) s xs s') ∧
      (collectNLoop D buf e r off s items = .ret (.ok n) s' items' r' → q = true →
        e.isReached = false) := by
  intro r
  induction r with
  | zero =>
    intro off s items n s' items' r' hs ho h
    rcases h with h | ⟨h, h0⟩
    · cases h
    · cases h; exact absurd rfl h0
  | succ r ih =>
    intro off s items n s' items' r' hs ho h
    rw [collectNLoop] at h ⊢
    split at h
    · next hlt =>
      rw [if_pos hlt]
      have hne : buf.drop off ≠ [] := by
        intro hc
        have := congrArg List.length hc
        simp at this
        omega
      rcases hn : tryDecode D s off buf e with ⟨o, t⟩ | ⟨x, t⟩ <;> rw [hn] at h <;> simp only at h ⊢
      · rw [tryDecode_at ho] at hn
        rcases hx : D.finish t with ⟨x, s1⟩
        rw [hx] at h
        cases x with
        | ok x =>
          simp only at h ⊢
          have hit : Item D s (buf.drop off) e (o - off) t x s1 := ⟨hn.2, hx⟩
          have hb := hI.bound hs hit
          simp only [List.length_drop] at hb
          obtain ⟨h1, h2, h3⟩ := ih (hI.again hs hit) (by omega) h
          refine ⟨h1, ?_, h3⟩
          intro hnb
          obtain ⟨xs, h4, h5, h6⟩ := h2 hnb
          clear h2 h3
          have hle : o - off ≤ (buf.drop off).length := by rw [List.length_drop]; exact hb
          refine ⟨x :: xs, by simp; omega, by simp [h5], .step hne hit hle ?_⟩
          rw [List.drop_drop]
          have : off + (o - off) = o := by omega
          rw [this]
          exact h6
        | _ => simp at h
      · rcases h with h | ⟨h, _⟩
        · cases h
          rw [tryDecode_at_ret ho] at hn
          refine ⟨hI.part hs hn.2, ?_, ?_⟩
          · intro hnb
            subst hnb
            refine ⟨[], by simp, by simp, .part hne ?_⟩
            rw [List.length_drop]
            exact hn.2
          · intro _ hq
            cases he : e.isReached with
            | false => rfl
            | true => exact (hI.strict hq hs he hn.2).elim
        · cases h
    · next hlt =>
      rw [if_neg hlt]
      rcases h with h | ⟨h, h0⟩
      · cases h
      · cases h
        refine ⟨hs, ?_, fun h => by cases h⟩
        intro _
        refine ⟨[], by simp, by simp, ?_⟩
        rw [List.drop_eq_nil_of_le (by omega)]
        exact .stop _

theorem collectN_wait {D : Decoder σ α} {s t : CollectNState σ α} {b : Bytes} {e : Eos} {n : Nat}
    (h : (collectNDecoder D).decode s b e = (.ok n, t)) (hi : (collectNDecoder D).isIdle t = false) :
    t.remaining ≠ 0 ∧
    (collectNLoop D b e s.remaining 0 s.inner s.items = .ret (.ok n) t.inner t.items t.remaining ∨
      (collectNLoop D b e s.remaining 0 s.inner s.items = .done n t.inner t.items t.remaining ∧
        e.isReached = false)) := by
  have h0 : t.remaining ≠ 0 := by
    intro hc
    have := (collectN_idle (D := D)).2 hc
    rw [this] at hi
    cases hi
  refine ⟨h0, ?_⟩
  simp only [collectNDecoder] at h
  rcases hl : collectNLoop D b e s.remaining 0 s.inner s.items with ⟨o, u, l, r⟩ | ⟨r, u, l, k⟩
  · rw [hl] at h
    simp only at h
    split at h
    · cases h
    · next hc =>
      cases h
      right
      simp only at h0
      refine ⟨rfl, ?_⟩
      simpa [h0] using hc
  · rw [hl] at h
    cases h
    exact .inl rfl

theorem joins_collectN (c k : Bool) {c' k' q : Bool} {D : Decoder σ α} {I : σ → Prop}
    (hI : Joins c' k' q D I) : Joins c k q (collectNDecoder D) (fun s => I s.inner) := by
  have fin : ∀ {s s' : CollectNState σ α} {x}, (collectNDecoder D).finish s = (.ok x, s') →
      s' = { s with items := [] } := by
    intro s s' x h
    simp only [collectNDecoder] at h
    split at h <;> cases h
    rfl
  have quiet : ∀ {s : CollectNState σ α} (b e), (collectNDecoder D).isIdle s = true →
      (collectNDecoder D).decode s b e = (.ok 0, s) := by
    intro s b e hs
    rw [collectN_idle] at hs
    obtain ⟨i, r, l⟩ := s
    simp only at hs
    subst hs
    simp [collectNDecoder, collectNLoop]
  have done : ∀ {s t : CollectNState σ α} {b e n}, I s.inner →
      (collectNDecoder D).decode s b e = (.ok n, t) → (collectNDecoder D).isIdle t = true →
      ∃ xs, xs.length = s.remaining ∧ t = ⟨t.inner, 0, s.items ++ xs⟩ ∧ Runs D e b s.inner xs n t.inner := by
    intro s t b e n hs hd ht
    obtain ⟨h1, h0⟩ := collectN_done hd ht
    obtain ⟨xs, hx, hit, _, h2⟩ := loopN_runs hI.steps hs (by omega) h1
    refine ⟨xs, hx, ?_, by simpa using h2⟩
    obtain ⟨ti, tr, tl⟩ := t
    simp only at h0 hit ⊢
    rw [h0, hit]
  apply Joins.of_busy
  · intro s b e n t x s' hs hb hd ht hf
    obtain ⟨xs, _, _, h2⟩ := done hs hd ht
    exact h2.le
  · intro s b e n t x s' hs hb hd ht hf
    obtain ⟨xs, _, _, h2⟩ := done hs hd ht
    rw [fin hf]
    exact h2.inv hI.steps hs
  · intro s x s' hs hb hf
    rw [fin hf]
    exact hs
  · intro s b e n t hs hb hd ht
    obtain ⟨h0, h1⟩ := collectN_wait hd ht
    replace h1 := h1.imp_right (fun h => And.intro h.1 h0)
    exact (loopN_wait hI hs (by omega) h1).1
  · intro s b e n t hs hi hd
    rw [quiet _ _ hi] at hd
    cases hd
    exact ⟨rfl, rfl⟩
  · intro s a b e e1 n t x s' hs hi hd hf he hne hsane
    exact quiet _ _ hi
  · intro s a b e e1 n t x s' hs hi hd ht hf he hne hsane
    obtain ⟨xs, hx, ht', h2⟩ := done hs hd ht
    rw [runs_collectN (h2.extend hI hne he hs hsane) hx, ← ht']
  · intro s a b e e1 u m t x s' hs hi hd hu hd1 ht hf he hne hsane _
    obtain ⟨h0, h1⟩ := collectN_wait hd hu
    replace h1 := h1.imp_right (fun h => And.intro h.1 h0)
    obtain ⟨hu', h2, _⟩ := loopN_wait hI hs (by omega) h1
    obtain ⟨ys, h3, h4, h5⟩ := h2 rfl
    obtain ⟨zs, hx, ht', h6⟩ := done hu' hd1 ht
    have hz : zs ≠ [] := by
      intro hc
      rw [hc] at hx
      exact h0 hx.symm
    have := h5.runs hI hne he h6 hz hs hsane
    rw [List.drop_zero] at this
    rw [runs_collectN this (by simp; omega), ht', h4]
    simp
  · intro _ s a e u m t x s' hs hi hr hd hu hd1 ht hf
    obtain ⟨h0, h1⟩ := collectN_wait hd hu
    replace h1 := h1.imp_right (fun h => And.intro h.1 h0)
    obtain ⟨hu', _, _⟩ := loopN_wait hI hs (by omega) h1
    obtain ⟨zs, hx, ht', h6⟩ := done hu' hd1 ht
    generalize hbn : ([] : Bytes) = b0 at h6
    generalize t.inner = ti at h6
    cases h6 with
    | stop => exact h0 hx.symm
    | step hb => exact hb hbn.symm
  · intro hq s b e n t hs hi hr hd ht
    obtain ⟨h0, h1⟩ := collectN_wait hd ht
    rcases h1 with h1 | ⟨_, h1⟩
    · have := (loopN_wait hI hs (by omega) (.inl h1)).2.2 h1 hq
      rw [this] at hr
      cases hr
    · rw [hr] at h1; cases h1

/-! ### `Collect` -/

/-- How the loop of `Collect` ends without an error. -/
theorem loop_wait {c k q : Bool} {D : Decoder σ α} {I : σ → Prop} (hI : Joins c k q D I) {buf : Bytes}
    {e : Eos} : ∀ off s items r, collectLoop D buf e off s items = some r →
      I s → off ≤ buf.length → ∀ n s' items',
      (r = .ret (.ok n) s' items' ∨ r = .done n s' items') →
      I s' ∧ (n = buf.length → ∃ xs, items' = items ++ xs ∧ Stops D e (buf.drop off) s xs s') ∧
      (r = .ret (.ok n) s' items' → q = true → e.isReached = false) := by
  apply collectLoop.partial_correctness D buf e
  intro loop ih off s items r h hs ho n s' items' hr
  split at h
  · next hlt =>
    have hne : buf.drop off ≠ [] := by
      intro hc
      have := congrArg List.length hc
      simp at this
      omega
    rcases hn : tryDecode D s off buf e with ⟨o, t⟩ | ⟨x, t⟩ <;> rw [hn] at h <;> simp only at h
    · rw [tryDecode_at ho] at hn
      rcases hx : D.finish t with ⟨x, s1⟩
      rw [hx] at h
      cases x with
      | ok x =>
        simp only at h
        have hit : Item D s (buf.drop off) e (o - off) t x s1 := ⟨hn.2, hx⟩
        have hb := hI.bound hs hit
        simp only [List.length_drop] at hb
        obtain ⟨h1, h2, h3⟩ := ih _ _ _ _ h (hI.again hs hit) (by omega) n s' items' hr
        refine ⟨h1, ?_, h3⟩
        intro hnb
        obtain ⟨xs, h5, h6⟩ := h2 hnb
        refine ⟨x :: xs, by simp [h5], .step hne hit (by simp; omega) ?_⟩
        rw [List.drop_drop]
        have : off + (o - off) = o := by omega
        rw [this]
        exact h6
      | _ =>
        cases h
        rcases hr with hr | hr <;> cases hr
    · cases h
      rcases hr with hr | hr
      · cases hr
        rw [tryDecode_at_ret ho] at hn
        refine ⟨hI.part hs hn.2, ?_, ?_⟩
        · intro hnb
          subst hnb
          refine ⟨[], by simp, .part hne ?_⟩
          rw [List.length_drop]
          exact hn.2
        · intro _ hq
          cases he : e.isReached with
          | false => rfl
          | true => exact (hI.strict hq hs he hn.2).elim
      · cases hr
  · cases h
    rcases hr with hr | hr
    · cases hr
    · cases hr
      refine ⟨hs, ?_, fun h => by cases h⟩
      intro _
      refine ⟨[], by simp, ?_⟩
      rw [List.drop_eq_nil_of_le (by omega)]
      exact .stop _

theorem collect_wait {D : Decoder σ α} {s t : CollectState σ α} {b : Bytes} {e : Eos} {n : Nat}
    (hs : (collectDecoder D).isIdle s = false)
    (h : (collectDecoder D).decode s b e = (.ok n, t)) (hi : (collectDecoder D).isIdle t = false) :
    s.eos = false ∧ t.eos = false ∧
    (collectLoop D b e 0 s.inner s.items = some (.ret (.ok n) t.inner t.items) ∨
      (collectLoop D b e 0 s.inner s.items = some (.done n t.inner t.items) ∧ e.isReached = false)) := by
  have hs' : s.eos = false := hs
  have hi' : t.eos = false := hi
  refine ⟨hs', hi', ?_⟩
  simp only [collectDecoder] at h
  rw [if_neg (by simp [hs'])] at h
  split at h
  · cases h
  · next heq =>
    cases h
    exact .inl heq
  · next heq =>
    cases h
    right
    refine ⟨heq, ?_⟩
    cases he : e.isReached <;> simp_all

theorem joins_collect {c' k' q : Bool} (k : Bool) {D : Decoder σ α} {I : σ → Prop}
    (hI : Joins c' k' q D I) (hk : k = true → q = true) :
    Joins false k q (collectDecoder D) (fun s => I s.inner) := by
  have fin : ∀ {s s' : CollectState σ α} {x}, (collectDecoder D).finish s = (.ok x, s') →
      s' = ⟨s.inner, [], false⟩ := by
    intro s s' x h
    simp only [collectDecoder] at h
    split at h <;> cases h
    rfl
  have quiet : ∀ {s : CollectState σ α} (b e), (collectDecoder D).isIdle s = true →
      (collectDecoder D).decode s b e = (.ok 0, s) := by
    intro s b e hs
    have hs' : s.eos = true := hs
    simp [collectDecoder, hs']
  have strict : q = true → ∀ {s : CollectState σ α} {b e n t}, I s.inner →
      (collectDecoder D).isIdle s = false → e.isReached = true →
      (collectDecoder D).decode s b e = (.ok n, t) → (collectDecoder D).isIdle t = false → False := by
    intro hq s b e n t hs hi hr hd ht
    obtain ⟨_, _, h1⟩ := collect_wait hi hd ht
    rcases h1 with h1 | ⟨_, h1⟩
    · have := (loop_wait hI _ _ _ _ h1 hs (by omega) _ _ _ (.inl rfl)).2.2 rfl hq
      rw [this] at hr
      cases hr
    · rw [hr] at h1; cases h1
  apply Joins.of_busy
  · intro s b e n t x s' hs hb hd ht hf
    obtain ⟨h1, _⟩ := collect_done hb hd ht
    have := (loop_runs hI.steps _ _ _ _ h1 hs (by omega) _ _ _ rfl).1
    omega
  · intro s b e n t x s' hs hb hd ht hf
    obtain ⟨h1, _⟩ := collect_done hb hd ht
    obtain ⟨_, xs, _, h2⟩ := loop_runs hI.steps _ _ _ _ h1 hs (by omega) _ _ _ rfl
    rw [fin hf]
    exact h2.inv hI.steps hs
  · intro s x s' hs hb hf
    rw [fin hf]
    exact hs
  · intro s b e n t hs hb hd ht
    obtain ⟨_, _, h1⟩ := collect_wait hb hd ht
    rcases h1 with h1 | ⟨h1, _⟩
    · exact (loop_wait hI _ _ _ _ h1 hs (by omega) _ _ _ (.inl rfl)).1
    · exact (loop_wait hI _ _ _ _ h1 hs (by omega) _ _ _ (.inr rfl)).1
  · intro s b e n t hs hi hd
    rw [quiet _ _ hi] at hd
    cases hd
    exact ⟨rfl, rfl⟩
  · intro s a b e e1 n t x s' hs hi hd hf he hne hsane
    exact quiet _ _ hi
  · intro s a b e e1 n t x s' hs hi hd ht hf he hne hsane
    obtain ⟨_, h1, _⟩ := collect_done hi hd ht
    rw [hne] at h1
    cases h1
  · intro s a b e e1 u m t x s' hs hi hd hu hd1 ht hf he hne hsane hc
    obtain ⟨hs0, hu0, h1⟩ := collect_wait hi hd hu
    have h2 : I u.inner ∧ ∃ xs, u.items = s.items ++ xs ∧ Stops D e1 a s.inner xs u.inner := by
      rcases h1 with h1 | ⟨h1, _⟩
      · have := loop_wait hI _ _ _ _ h1 hs (by omega) _ _ _ (.inl rfl)
        exact ⟨this.1, this.2.1 rfl⟩
      · have := loop_wait hI _ _ _ _ h1 hs (by omega) _ _ _ (.inr rfl)
        exact ⟨this.1, this.2.1 rfl⟩
    obtain ⟨hu', ys, h4, h5⟩ := h2
    obtain ⟨h6, hreach, _, ht'⟩ := collect_done hu hd1 ht
    obtain ⟨hn, zs, hx, h7⟩ := loop_runs hI.steps _ _ _ _ h6 hu' (by omega) _ _ _ rfl
    simp only [List.drop_zero, Nat.sub_zero] at h7
    have hb : b ≠ [] := by
      rcases hc with h | h | h
      · cases h
      · exact h
      · rw [hreach] at h; cases h
    have hz : zs ≠ [] := by
      intro hc
      rw [hc] at h7
      generalize hl : b.length = l at h7
      generalize t.inner = ti at h7
      cases h7
      exact hb (List.eq_nil_of_length_eq_zero hl)
    have := h5.runs hI hne he h7 hz hs hsane
    rw [← List.length_append] at this
    rw [runs_collect this hs0 hreach, ht', hn, hx, h4]
    simp
  · intro hkk s a e u m t x s' hs hi hr hd hu hd1 ht hf
    exact strict (hk hkk) hs hi hr hd hu
  · intro hq s b e n t hs hi hr hd ht
    exact strict hq hs hi hr hd ht

/-! ## Every streamable decoder -/

theorem joins_captured {ε : Type} {F : ε → Decoder σ α} {v : ε} {c k q : Bool} {I : σ → Prop}
    (h : Joins c k q (F v) I) : Joins c k q (capturedDecoder F) fun s => s.1 = v ∧ I s.2 := by
  constructor
  · rintro ⟨_, s⟩ b e n t x s' ⟨rfl, hs⟩ hi
    exact h.bound hs (item_captured.1 hi).1
  · rintro ⟨_, s⟩ b e n t x s' ⟨rfl, hs⟩ hi
    obtain ⟨h1, _, h2⟩ := item_captured.1 hi
    exact ⟨h2, h.again hs h1⟩
  · rintro ⟨_, s⟩ b e n t ⟨rfl, hs⟩ hi
    obtain ⟨h1, h2⟩ := tryDecode_captured_ret.1 hi
    exact ⟨h2, h.part hs h1⟩
  · rintro ⟨_, s⟩ b e n ⟨w, t⟩ ⟨rfl, hs⟩ hi hd
    obtain ⟨hd, hw⟩ := captured_decode.1 hd
    cases hw
    obtain ⟨h1, h2⟩ := h.quiet hs hi hd
    exact ⟨h1, congrArg _ h2⟩
  · rintro ⟨_, s⟩ a b e e1 n t x s' ⟨rfl, hs⟩ hi hd hf he hne hsane
    obtain ⟨hd, _⟩ := captured_decode.1 hd
    obtain ⟨hf, _⟩ := captured_finish.1 hf
    exact captured_decode.2 ⟨h.still hs hi hd hf he hne hsane, rfl⟩
  · rintro ⟨_, s⟩ a b e e1 n t x s' ⟨rfl, hs⟩ hi he hne hsane
    obtain ⟨h1, h2, h3⟩ := item_captured.1 hi
    exact item_captured.2 ⟨h.extend hs h1 he hne hsane, h2, h3⟩
  · rintro ⟨_, s⟩ a b e e1 ⟨w, s1⟩ m t x s' ⟨rfl, hs⟩ ht hi he hne hsane hc
    obtain ⟨ht, hw⟩ := tryDecode_captured_ret.1 ht
    cases hw
    obtain ⟨h1, h2, h3⟩ := item_captured.1 hi
    exact item_captured.2 ⟨h.join hs ht h1 he hne hsane hc, h2, h3⟩
  · rintro hk ⟨_, s⟩ a e ⟨w, s1⟩ m t x s' ⟨rfl, hs⟩ he ht hi
    obtain ⟨ht, hw⟩ := tryDecode_captured_ret.1 ht
    cases hw
    exact h.closed hk hs he ht (item_captured.1 hi).1
  · rintro hq ⟨_, s⟩ b e n s1 ⟨rfl, hs⟩ he ht
    exact h.strict hq hs he (tryDecode_captured_ret.1 ht).1

/-- The states from which the joining law holds. -/
def Whole (c k q : Bool) (D : Decoder σ α) (s : σ) : Prop := ∃ I, Joins c k q D I ∧ I s

theorem whole_joins (c k q : Bool) (D : Decoder σ α) : Joins c k q D (Whole c k q D) := by
  constructor
  · rintro s b e n t x s' ⟨I, hI, hs⟩ h
    exact hI.bound hs h
  · rintro s b e n t x s' ⟨I, hI, hs⟩ h
    exact ⟨I, hI, hI.again hs h⟩
  · rintro s b e n t ⟨I, hI, hs⟩ h
    exact ⟨I, hI, hI.part hs h⟩
  · rintro s b e n t ⟨I, hI, hs⟩ h
    exact hI.quiet hs h
  · rintro s a b e e1 n t x s' ⟨I, hI, hs⟩ h
    exact hI.still hs h
  · rintro s a b e e1 n t x s' ⟨I, hI, hs⟩ h
    exact hI.extend hs h
  · rintro s a b e e1 s1 m t x s' ⟨I, hI, hs⟩ h
    exact hI.join hs h
  · rintro hk s a e s1 m t x s' ⟨I, hI, hs⟩ h
    exact hI.closed hk hs h
  · rintro hq s b e n s1 ⟨I, hI, hs⟩ h
    exact hI.strict hq hs h

theorem streamable_joins {ok : Shape → Prop} {p q c : Bool} {D : Decoder σ α} {s : σ}
    (hm : ¬ ok .maxBytes) (hl : ¬ ok .collectLax) (hc : c = true → ¬ ok .collect)
    (h : Streamable ok p q D s) : Whole c true q D s := by
  induction h with
  | own q hb hI => exact ⟨_, hb.joins _ _ q, hI⟩
  | copyable p q b => exact ⟨_, joins_copyable _ _ q, by simp [CopyableState.new]⟩
  | bytes p q b => exact ⟨_, joins_bytes _ _ q, by simp [BytesDecoderState.new]⟩
  | remaining q => exact ⟨_, joins_remaining _ _ q, by simp⟩
  | null p q => exact ⟨_, joins_null _ _ q, by simp⟩
  | padding q b => exact ⟨_, joins_padding _ _ q, by simp⟩
  | number p q f k => exact ⟨_, joins_fix _ _ q f, by simp [fixInit]⟩
  | monolithic q parse hw => exact ⟨_, joins_monolithic _ _ q hw, rfl⟩
  | utf8 _ ih => obtain ⟨I, h1, h2⟩ := ih; exact ⟨_, joins_utf8 h1, h2⟩
  | map f _ ih => obtain ⟨I, h1, h2⟩ := ih; exact ⟨_, joins_map f h1, h2⟩
  | tryMap f _ ih => obtain ⟨I, h1, h2⟩ := ih; exact ⟨_, joins_tryMap f h1, h2⟩
  | mapErr f _ ih => obtain ⟨I, h1, h2⟩ := ih; exact ⟨_, joins_mapErr f h1, h2⟩
  | omittable d _ ih => obtain ⟨I, h1, h2⟩ := ih; exact ⟨_, joins_omit h1, h2⟩
  | length p n hn _ ih =>
    obtain ⟨I, h1, h2⟩ := ih
    exact ⟨_, joins_length _ _ h1, h2, Nat.le_refl _, hn⟩
  | maxBytes n hb _ ih => exact absurd hb hm
  | peekable _ ih => obtain ⟨I, h1, h2⟩ := ih; exact ⟨_, joins_peekable h1, h2⟩
  | maybeEos _ ih => obtain ⟨I, h1, h2⟩ := ih; exact ⟨_, joins_maybeEos h1, h2⟩
  | collect ho hq _ ih =>
    obtain ⟨I, h1, h2⟩ := ih
    have hq := hq.resolve_right hl
    cases c with
    | true => exact absurd ho (hc rfl)
    | false => exact ⟨_, joins_collect true h1 (fun _ => hq), h2⟩
  | collectN p n _ ih => obtain ⟨I, h1, h2⟩ := ih; exact ⟨_, joins_collectN _ _ h1, h2⟩
  | pair _ _ ih0 ih1 =>
    obtain ⟨I0, h1, h2⟩ := ih0
    obtain ⟨I1, h3, h4⟩ := ih1
    exact ⟨_, joins_pair h1 h3, .inl h2, h4⟩
  | @andThen p q σ0 α0 σ1 α1 D0 D1 s0 f _ hx ih0 ih1 =>
    exact ⟨_, joins_andThen (whole_joins c true q D0) (whole_joins c true q D1) ih1, ih0,
      fun u hu => by cases hu⟩
  | captured F v _ ih => obtain ⟨I, h1, h2⟩ := ih; exact ⟨_, joins_captured h1, rfl, h2⟩

/-! ## The caller's loop -/

/-- If the loop succeeds on the chunks then the whole is decoded in one call. -/
theorem joins_feed {c k q : Bool} {D : Decoder σ α} {I : σ → Prop} (hI : Joins c k q D I)
    {cs : List (Bytes × Eos)} {b : Bytes} {e : Eos} (hc : Schedule cs b e)
    (hlast : (c = true ∧ k = true) ∨ ∀ x, cs.getLast? = some x → x.1 ≠ []) :
    ∀ {s n x s'}, I s → EosSane e b.length → feed D s cs = some (n, x, s') →
      ∃ t, Item D s b e n t x s' := by
  induction hc with
  | last b e => intro s n x s' _ _ h; exact feed_one.1 h
  | @cons cs rest e c0 ec he hsch ih =>
    intro s n x s' hs hsane h
    have hrest : (c = true ∧ k = true) ∨ rest ≠ [] := by
      rcases hlast with h | h
      · exact .inl h
      · right
        clear ih
        have : ∀ {cs : List (Bytes × Eos)} {b e}, Schedule cs b e → cs ≠ [] ∧
            ((∀ x, cs.getLast? = some x → x.1 ≠ []) → b ≠ []) := by
          intro cs b e hsc
          induction hsc with
          | last b e => exact ⟨by simp, fun h => h (b, e) rfl⟩
          | @cons cs rest e c ec _ _ ih =>
            refine ⟨by simp, fun h => ?_⟩
            have := ih.2 (fun x hx => h x (by rw [List.getLast?_cons, hx]; rfl))
            simp [this]
        have hcs := this hsch
        exact hcs.2 (fun x hx => h x (by rw [List.getLast?_cons, hx]; rfl))
    have hlast' : (c = true ∧ k = true) ∨ ∀ x, cs.getLast? = some x → x.1 ≠ [] :=
      hlast.imp_right fun h x hx => h x (by rw [List.getLast?_cons, hx]; rfl)
    have hsane' : EosSane e rest.length := sane_drop (c := c0 ++ rest) hsane (by simp)
    cases hi : D.isIdle s with
    | true =>
      rw [feed_idle hi] at h
      split at h
      · next hf => cases h; exact ⟨s, (item_quiet hi).2 ⟨rfl, rfl, hf⟩⟩
      · cases h
    | false =>
      rw [feed, if_neg (by simp [hi])] at h
      simp only at h
      split at h
      · next m t hd =>
        split at h
        · next hor =>
          cases ht : D.isIdle t with
          | true =>
            rw [feed_idle ht] at h
            split at h
            · next x' u hf =>
              obtain ⟨rfl, rfl, rfl⟩ : m = n ∧ x' = x ∧ u = s' := by simpa using h
              have hit : Item D s c0 ec m t x' u := (item_busy hi).2 ⟨hd, ht, hf⟩
              cases hr : ec.isReached with
              | false => exact ⟨t, hI.extend hs hit he hr hsane⟩
              | true =>
                have he' : ec = eosShift e rest.length := by
                  rcases he with h | h
                  · rw [h] at hr; simp [Eos.new, Eos.isReached] at hr
                  · exact h
                rw [he'] at hr
                obtain ⟨h0, h1⟩ := eosShift_reached hr
                have h0 : rest = [] := List.eq_nil_of_length_eq_zero h0
                subst h0
                rw [he', h1] at hit
                exact ⟨t, by simpa using hit⟩
            · cases h
          | false =>
            have hm : m = c0.length := by simpa [ht] using hor
            subst hm
            have hp : tryDecode D s 0 c0 ec = .ret (.ok c0.length) t := (tryDecode_ret_iff hi).2 ⟨hd, ht⟩
            rcases hf : feed D t cs with _ | ⟨m', x', u⟩ <;> rw [hf] at h
            · cases h
            · cases h
              obtain ⟨v, hv⟩ := ih hlast' (hI.part hs hp) hsane' hf
              cases hr : ec.isReached with
              | false =>
                refine ⟨v, hI.join hs hp hv he hr hsane ?_⟩
                rcases hrest with h | h
                · exact .inl h.1
                · exact .inr (.inl h)
              | true =>
                have he' : ec = eosShift e rest.length := by
                  rcases he with h | h
                  · rw [h] at hr; simp [Eos.new, Eos.isReached] at hr
                  · exact h
                rw [he'] at hr
                obtain ⟨h0, h1⟩ := eosShift_reached hr
                have h0 : rest = [] := List.eq_nil_of_length_eq_zero h0
                subst h0
                rw [h1] at hr
                rw [he', h1] at hp
                rcases hrest with h | h
                · exact (hI.closed h.2 hs hr hp hv).elim
                · exact absurd rfl h
        · cases h
      · cases h

end Bytecodec
