import Verif.Lemmas.Receive
import Verif.Props.Chunking
import Verif.Props.Decoding
/-!
# C87: receivers agree on what a byte stream means

The stream is arbitrary: it need not come from an encoder. `Means` is what it stands for when each item is
decoded from all that is left in one piece. `Streamable Plain` is every way of assembling decoders but those
with `max_bytes` and `collect` (they deviate, see `C87_maxBytes_fails` and `C87_collect_fails`) and `SafeFrom` is C05.
-/
namespace Bytecodec.Props

open Bytecodec Bytecodec.Spec

variable {σ α : Type} {p q : Bool} {D : Decoder σ α} {s₀ : σ} {stream : Bytes} {e : Eos}

/-! ## Any way of offering the bytes -/

/-- C87 (the items are those the stream means): whatever pieces of the stream are offered, and whatever is
said about its end, as long as it is true. -/
theorem C87_meaning_partial (hp : Streamable Plain p q D s₀) (he : EosSane e stream.length)
    {s : σ} {pos : Nat} {items : List α} (h : DecRun D stream e s₀ s pos items) :
    ∃ s1 rest, Means D e s₀ stream items s1 rest := by
  obtain ⟨s1, p1, hT⟩ := decRun_tracks (streamable_stalls (fun h => h.1 rfl) (fun h => h.2.1 rfl) hp) (streamable_splits hp) he h
  exact ⟨_, _, hT.means⟩

/-- C87 (no false alarm): if, by its meaning, the stream goes on with the item `x`, then no call fails,
every call takes all it is offered or completes the item, and the whole rest completes it; an idle decoder
hands out `x`. -/
theorem C87_no_false_alarm_partial (hp : Streamable Plain p q D s₀) (he : EosSane e stream.length)
    {s : σ} {pos : Nat} {items : List α} (h : DecRun D stream e s₀ s pos items) {x : α} {u : σ} {rest : Bytes}
    (hm : Means D e s₀ stream (items ++ [x]) u rest) :
    (D.isIdle s = true → D.finish s = (.ok x, u)) ∧
    (D.isIdle s = false → ∀ c ec, Offer stream e pos c ec → ∃ n s', D.decode s c ec = (.ok n, s') ∧
      n ≤ c.length ∧ (D.isIdle s' = false → n = c.length)) ∧
    (D.isIdle s = false → D.isIdle (D.decode s (stream.drop pos) e).2 = true) := by
  obtain ⟨s1, p1, hT⟩ := decRun_tracks (streamable_stalls (fun h => h.1 rfl) (fun h => h.2.1 rfl) hp) (streamable_splits hp) he h
  obtain ⟨n, t, hit, hgd⟩ := hT.next hm
  refine ⟨fun hi => ((item_quiet hi).1 hit).2.2, fun hi c ec ho => ?_, fun hi => ?_⟩
  · rcases item_going (hgd hi) hi ho hit with ⟨k, kn⟩ | ⟨_, s', k1, k2, _⟩
    · obtain ⟨g1, g2, _⟩ := (item_busy hi).1 k
      exact ⟨_, _, g1, kn, fun h => by rw [g2] at h; cases h⟩
    · exact ⟨_, _, k1, Nat.le_refl _, fun _ => rfl⟩
  · obtain ⟨g1, g2, _⟩ := (item_busy hi).1 hit
    rw [g1]
    exact g2

/-- C87 (two ways of offering the same stream): the items are the same, as far as they go. -/
theorem C87_agree_partial (hp : Streamable Plain p q D s₀) (he : EosSane e stream.length)
    {s s' : σ} {pos pos' : Nat} {items items' : List α} (h : DecRun D stream e s₀ s pos items)
    (h' : DecRun D stream e s₀ s' pos' items') : items <+: items' ∨ items' <+: items := by
  obtain ⟨_, _, h1⟩ := C87_meaning_partial hp he h
  obtain ⟨_, _, h2⟩ := C87_meaning_partial hp he h'
  rcases Nat.le_total items.length items'.length with hl | hl
  · exact .inl (Means.prefix h1 h2 hl)
  · exact .inr (Means.prefix h2 h1 hl)

/-- A length-prefixed UTF-8 string; the stream holds the strings "a" and "bc", and then garbage. One run takes
single bytes, and has the first string and a part of the second. -/
example :
    let D := andThenDecoder u8Decoder (lengthDecoder (utf8Decoder remainingBytesDecoder)) (fun n => .new .new n.toNat)
    Streamable Plain true false D (fixInit 1, none) ∧
    (∃ s, DecRun D [1, 97, 2, 98, 99, 1, 255] (Eos.new true) (fixInit 1, none) s 4 ["a"]) ∧
    (∃ s rest, Means D (Eos.new true) (fixInit 1, none) [1, 97, 2, 98, 99, 1, 255] ["a", "bc"] s rest) := by
  refine ⟨.andThen _ (.number true false _ 1) fun n =>
      .length true _ (by have := n.toNat_lt; omega) (.utf8 (.remaining true)), ?_, ?_⟩
  · have h0 : DecRun (andThenDecoder u8Decoder (lengthDecoder (utf8Decoder remainingBytesDecoder))
        (fun n => .new .new n.toNat)) [1, 97, 2, 98, 99, 1, 255] (Eos.new true) (fixInit 1, none) (fixInit 1, none) 0 [] :=
      .new
    have h1 := DecRun.decode h0 (c := [1]) (ec := Eos.new false) rfl ⟨_, rfl, .inl rfl⟩ rfl
    have h2 := DecRun.decode h1 (c := [97]) (ec := Eos.new false) rfl ⟨_, rfl, .inl rfl⟩ rfl
    have h3 := DecRun.finish h2 rfl rfl
    have h4 := DecRun.decode h3 (c := [2, 98]) (ec := Eos.new false) rfl ⟨_, rfl, .inl rfl⟩ rfl
    exact ⟨_, h4⟩
  · exact ⟨_, _, .item (.item .new (feed_one.2 ⟨_, rfl, rfl⟩)) (feed_one.2 ⟨_, rfl, rfl⟩)⟩

/-! ## Receivers with read buffers -/

variable {store store' : Bytes} {t t' : Receiver σ α}

/-- C87 (with a read buffer): the items are those the stream means, whatever the size of the buffer, however
the reads are cut, and whenever the receiver decodes. -/
theorem C87_buffer_meaning_partial (hp : Streamable Plain p q D s₀) (hS : SafeFrom D s₀)
    (hl : stream.length < 2 ^ 64) (hc : store.length < 2 ^ 64) (h : ReceiveSteps D (.new s₀ store stream) t) :
    ∃ s1 rest, Means D (Eos.new true) s₀ stream t.got s1 rest := by
  obtain ⟨pos, hI⟩ := receiver_inv hS hc h
  exact C87_meaning_partial hp (sane_new true hl) hI.run

/-- C87 (two receivers of the same stream): with buffers of any sizes, one has got what the other has got, and
perhaps more. -/
theorem C87_buffers_agree_partial (hp : Streamable Plain p q D s₀) (hS : SafeFrom D s₀)
    (hl : stream.length < 2 ^ 64) (hc : store.length < 2 ^ 64) (hc' : store'.length < 2 ^ 64)
    (h : ReceiveSteps D (.new s₀ store stream) t) (h' : ReceiveSteps D (.new s₀ store' stream) t') :
    t.got <+: t'.got ∨ t'.got <+: t.got := by
  obtain ⟨pos, hI⟩ := receiver_inv hS hc h
  obtain ⟨pos', hI'⟩ := receiver_inv hS hc' h'
  exact C87_agree_partial hp (sane_new true hl) hI.run hI'.run

/-- C87 (what one rejects, none accepts): when a call of one receiver fails, no receiver ever gets more than
that one has got. -/
theorem C87_reject_partial (hp : Streamable Plain p q D s₀) (hS : SafeFrom D s₀)
    (hl : stream.length < 2 ^ 64) (hc : store.length < 2 ^ 64) (hc' : store'.length < 2 ^ 64)
    (h : ReceiveSteps D (.new s₀ store stream) t) (hr : Rejects D t)
    (h' : ReceiveSteps D (.new s₀ store' stream) t') : t'.got <+: t.got := by
  obtain ⟨pos, hI⟩ := receiver_inv hS hc h
  obtain ⟨_, _, h1⟩ := C87_buffer_meaning_partial hp hS hl hc h
  obtain ⟨_, _, h2⟩ := C87_buffer_meaning_partial hp hS hl hc' h'
  rcases Nat.lt_or_ge t.got.length t'.got.length with hlt | hge
  · exfalso
    obtain ⟨more, hmore⟩ := Means.prefix h1 h2 (Nat.le_of_lt hlt)
    obtain ⟨x, xs, rfl⟩ : ∃ x xs, more = x :: xs := by
      cases more with
      | nil => rw [← hmore] at hlt; simp at hlt
      | cons x xs => exact ⟨x, xs, rfl⟩
    obtain ⟨u, rest, h3⟩ := Means.begin h2 (t.got.length + 1) hlt
    have : t'.got.take (t.got.length + 1) = t.got ++ [x] := by
      rw [← hmore, List.take_append, List.take_of_length_le (by omega), Nat.add_sub_cancel_left]
      rfl
    rw [this] at h3
    obtain ⟨g1, g2, _⟩ := C87_no_false_alarm_partial hp (sane_new true hl) hI.run h3
    rcases hr with ⟨hi, hr⟩ | ⟨hi, hr⟩
    · obtain ⟨n, s', hd, _⟩ := g2 hi _ _ hI.offer
      exact hr (by rw [(hI.decode hS hc hi hd).1])
    · exact hr x (by rw [g1 hi])
  · exact Means.prefix h2 h1 hge

/-- C87 (what is there can be received): if, by its meaning, the stream goes on with the item `x`, the receiver
can go on to `x`, whatever it has done so far, with any buffer of at least one byte. -/
theorem C87_delivers_partial (hp : Streamable Plain p q D s₀) (hS : SafeFrom D s₀)
    (hl : stream.length < 2 ^ 64) (hc : store.length < 2 ^ 64) (hne : store ≠ [])
    (h : ReceiveSteps D (.new s₀ store stream) t) {x : α} {u : σ} {rest : Bytes}
    (hm : Means D (Eos.new true) s₀ stream (t.got ++ [x]) u rest) :
    ∃ t', ReceiveSteps D t t' ∧ t'.got = t.got ++ [x] := by
  obtain ⟨pos, hI⟩ := receiver_inv hS hc h
  exact receiver_delivers (streamable_stalls (fun h => h.1 rfl) (fun h => h.2.1 rfl) hp) (streamable_splits hp) hS hc (List.length_pos_iff.mpr hne) hl hm _ hI rfl
    (Nat.le_refl _)

/-- Sixteen-bit numbers from the stream `[1, 0, 2, 0, 3]`, with a buffer of one byte: any receiver can get 1 and 2
(in little-endian order); the odd byte at the end is rejected by every one of them. -/
example : ∃ t t' : Receiver CopyableState UInt16,
    ReceiveSteps u16leDecoder (.new (fixInit 2) [0] [1, 0, 2, 0, 3]) t ∧ t.got = [1, 2] ∧
    ReceiveSteps u16leDecoder (.new (fixInit 2) [0, 0, 0, 0, 0] [1, 0, 2, 0, 3]) t' ∧ t'.got = [1, 2] ∧
    Rejects u16leDecoder t' := by
  have hp : Streamable Plain true false u16leDecoder (fixInit 2) := .number true false _ 2
  have hS : SafeFrom u16leDecoder (fixInit 2) := C05_safe (.number _ 2 trivial)
  have m0 : Means u16leDecoder (Eos.new true) (fixInit 2) [1, 0, 2, 0, 3] [] (fixInit 2) [1, 0, 2, 0, 3] := .new
  have m1 := Means.item m0 (n := 2) (x := 1) (feed_one.2 ⟨_, rfl, rfl⟩)
  have m2 := Means.item m1 (n := 2) (x := 2) (feed_one.2 ⟨_, rfl, rfl⟩)
  obtain ⟨t1, h1, g1⟩ := C87_delivers_partial (store := [0]) hp hS (by decide) (by decide) (by decide) .refl m1
  obtain ⟨t2, h2, g2⟩ := C87_delivers_partial (store := [0]) hp hS (by decide) (by decide) (by decide) h1
    (by rw [g1]; exact m2)
  have k1 := ReceiveSteps.step (.refl (D := u16leDecoder)
    (t := .new (fixInit 2) [0, 0, 0, 0, 0] [1, 0, 2, 0, 3]))
    (.fill (R := scriptReader) (r := [[1, 0, 2, 0, 3]]) (unread' := []) scriptReader_honest
      (fill_full (by decide) (by decide)) rfl (fun _ => rfl))
  have k2 := ReceiveSteps.step k1 (.decode rfl rfl)
  have k3 := ReceiveSteps.step k2 (.finish rfl rfl)
  have k4 := ReceiveSteps.step k3 (.decode rfl rfl)
  have k5 := ReceiveSteps.step k4 (.finish rfl rfl)
  have k6 := ReceiveSteps.step k5 (.decode rfl rfl)
  have k7 := ReceiveSteps.step k6 (.fill (unread' := []) scriptReader_honest (fill_eos (by decide)) rfl (fun _ => rfl))
  refine ⟨t2, _, receive_trans h1 h2, by rw [g2, g1]; rfl, k7, rfl, .inl ⟨rfl, ?_⟩⟩
  decide

/-- C87 (with limits and checks): receivers may have limits and checks of their own, at any depth of the decoder
(`Stripped` is C86), and buffers of any sizes: they need not accept the same streams, but what two of them accept is the
same, as far as it goes. -/
theorem C87_limits_agree {σ₁ σ₂ τ : Type} {D₁ : Decoder σ₁ α} {D₂ : Decoder σ₂ α} {s₁ : σ₁} {s₂ : σ₂}
    {D' : Decoder τ α} {s' : τ} (h₁ : Stripped D₁ s₁ D' s') (h₂ : Stripped D₂ s₂ D' s')
    (hp : Streamable Plain p q D' s') (hS₁ : SafeFrom D₁ s₁) (hS₂ : SafeFrom D₂ s₂)
    (hl : stream.length < 2 ^ 64) (hc : store.length < 2 ^ 64) (hc' : store'.length < 2 ^ 64)
    {t₁ : Receiver σ₁ α} {t₂ : Receiver σ₂ α}
    (h : ReceiveSteps D₁ (.new s₁ store stream) t₁) (h' : ReceiveSteps D₂ (.new s₂ store' stream) t₂) :
    t₁.got <+: t₂.got ∨ t₂.got <+: t₁.got := by
  obtain ⟨_, hI⟩ := receiver_inv hS₁ hc h
  obtain ⟨_, hI'⟩ := receiver_inv hS₂ hc' h'
  obtain ⟨R₁, hk₁, hr₁⟩ := stripped_kept h₁
  obtain ⟨R₂, hk₂, hr₂⟩ := stripped_kept h₂
  obtain ⟨_, g₁, _⟩ := decRun_retained hk₁ hr₁ hI.run
  obtain ⟨_, g₂, _⟩ := decRun_retained hk₂ hr₂ hI'.run
  exact C87_agree_partial hp (sane_new true hl) g₁ g₂

/-- A receiver that allows two bytes, and one that allows only even numbers. -/
example : Stripped (maxBytesDecoder u16beDecoder) (.new (fixInit 2) 2) u16beDecoder (fixInit 2) ∧
    Stripped (tryMapDecoder u16beDecoder fun x => if x % 2 = 0 then .ok x else .error .other) (fixInit 2)
      u16beDecoder (fixInit 2) ∧
    Streamable Plain true false u16beDecoder (fixInit 2) ∧
    SafeFrom (maxBytesDecoder u16beDecoder) (.new (fixInit 2) 2) :=
  ⟨.maxBytes _ .same, .check _ (by intro x y h; simp only at h; split at h <;> cases h; rfl) .same, .number true false _ 2,
    C05_safe (.maxBytes _ trivial (.number _ 2 trivial))⟩

/-- C87 (the code deviates): two receivers of the same stream through `max_bytes(1)` of a one-byte number
disagree when one of them has a buffer of one byte, and the other of two: the one gets the number, and the
other gets an error. -/
theorem C87_maxBytes_fails :
    ∃ t t' : Receiver (MaxBytesState CopyableState) UInt8,
      ReceiveSteps (maxBytesDecoder u8Decoder) (.new (.new (fixInit 1) 1) [0] [7, 8]) t ∧ t.got = [7] ∧
      ReceiveSteps (maxBytesDecoder u8Decoder) (.new (.new (fixInit 1) 1) [0, 0] [7, 8]) t' ∧ t'.got = [] ∧
      Rejects (maxBytesDecoder u8Decoder) t' := by
  have k1 := ReceiveSteps.step (.refl (D := maxBytesDecoder u8Decoder) (t := .new (.new (fixInit 1) 1) [0] [7, 8]))
    (.fill (R := scriptReader) (r := [[7]]) (unread' := [8]) scriptReader_honest
      (fill_full (by decide) (by decide)) rfl (by simp))
  have k2 := ReceiveSteps.step k1 (.decode rfl rfl)
  have k3 := ReceiveSteps.step k2 (.finish rfl rfl)
  have j1 := ReceiveSteps.step (.refl (D := maxBytesDecoder u8Decoder) (t := .new (.new (fixInit 1) 1) [0, 0] [7, 8]))
    (.fill (R := scriptReader) (r := [[7, 8]]) (unread' := []) scriptReader_honest
      (fill_full (by decide) (by decide)) rfl (by simp))
  exact ⟨_, _, k3, rfl, j1, rfl, .inl ⟨rfl, by decide⟩⟩

/-- C87 (the code deviates): so do two receivers through `collect` of 16-bit numbers when the stream ends in the
middle of a number, and one of them has decoded its first half before it learns of the end: it gets the empty list,
and the other gets an error. -/
theorem C87_collect_fails :
    ∃ t t' : Receiver (CollectState CopyableState UInt16) (List UInt16),
      ReceiveSteps (collectDecoder u16beDecoder) (.new ⟨fixInit 2, [], false⟩ [0, 0] [1]) t ∧ t.got = [[]] ∧
      ReceiveSteps (collectDecoder u16beDecoder) (.new ⟨fixInit 2, [], false⟩ [0, 0] [1]) t' ∧ t'.got = [] ∧
      Rejects (collectDecoder u16beDecoder) t' := by
  have h1 : (collectDecoder u16beDecoder).decode ⟨fixInit 2, [], false⟩ [1] (Eos.new false)
      = (.ok 1, ⟨⟨[1, 0], 1⟩, [], false⟩) := by
    simp only [collectDecoder]; unfold collectLoop; rfl
  have h2 : (collectDecoder u16beDecoder).decode ⟨⟨[1, 0], 1⟩, [], false⟩ [] (Eos.new true)
      = (.ok 0, ⟨⟨[1, 0], 1⟩, [], true⟩) := by
    simp only [collectDecoder]; unfold collectLoop; rfl
  have h3 : (collectDecoder u16beDecoder).decode ⟨fixInit 2, [], false⟩ [1] (Eos.new true)
      = (.err .unexpectedEos, ⟨⟨[1, 0], 1⟩, [], false⟩) := by
    simp only [collectDecoder]; unfold collectLoop; rfl
  have k1 := ReceiveSteps.step (.refl (D := collectDecoder u16beDecoder)
    (t := .new ⟨fixInit 2, [], false⟩ [0, 0] [1]))
    (.fill (R := scriptReader) (r := [[1]]) (unread' := []) scriptReader_honest
      (fill_short (by decide) (by decide)) rfl (by simp))
  have hk : decodeFromReadBuf (collectDecoder u16beDecoder) ⟨fixInit 2, [], false⟩ ⟨[1, 0], 0, 1, .wouldBlock⟩
      = (.ok (), ⟨⟨[1, 0], 1⟩, [], false⟩, ⟨[1, 0], 0, 0, .wouldBlock⟩) := by
    rw [decodeFromReadBuf, if_neg (by decide)]
    change Res.step ((collectDecoder u16beDecoder).decode ⟨fixInit 2, [], false⟩ [1] (Eos.new false)) _ _ = _
    rw [h1]
    rfl
  have k2 := ReceiveSteps.step k1 (.decode rfl hk)
  have k3 := ReceiveSteps.step k2 (.fill (unread' := []) scriptReader_honest (fill_eos (by decide)) rfl (fun _ => rfl))
  have hk : decodeFromReadBuf (collectDecoder u16beDecoder) ⟨⟨[1, 0], 1⟩, [], false⟩ ⟨[1, 0], 0, 0, .eos⟩
      = (.ok (), ⟨⟨[1, 0], 1⟩, [], true⟩, ⟨[1, 0], 0, 0, .eos⟩) := by
    rw [decodeFromReadBuf, if_neg (by decide)]
    change Res.step ((collectDecoder u16beDecoder).decode ⟨⟨[1, 0], 1⟩, [], false⟩ [] (Eos.new true)) _ _ = _
    rw [h2]
    rfl
  have k4 := ReceiveSteps.step k3 (.decode rfl hk)
  have k5 := ReceiveSteps.step k4 (.finish rfl rfl)
  have j2 := ReceiveSteps.step k1 (.fill (unread' := []) scriptReader_honest (fill_eos (by decide)) rfl (fun _ => rfl))
  refine ⟨_, _, k5, rfl, j2, rfl, .inl ⟨rfl, ?_⟩⟩
  have hk : decodeFromReadBuf (collectDecoder u16beDecoder) ⟨fixInit 2, [], false⟩ ⟨[1, 0], 0, 1, .eos⟩
      = (.err .unexpectedEos, ⟨⟨[1, 0], 1⟩, [], false⟩, ⟨[1, 0], 0, 1, .eos⟩) := by
    rw [decodeFromReadBuf, if_neg (by decide)]
    change Res.step ((collectDecoder u16beDecoder).decode ⟨fixInit 2, [], false⟩ [1] (Eos.new true)) _ _ = _
    rw [h3]
    rfl
  change (decodeFromReadBuf (collectDecoder u16beDecoder) ⟨fixInit 2, [], false⟩ ⟨[1, 0], 0, 1, .eos⟩).1 ≠ _
  rw [hk]
  simp

end Bytecodec.Props
