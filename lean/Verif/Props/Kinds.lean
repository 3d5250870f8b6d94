import Verif.Lemmas.Kinds
import Verif.Lemmas.Full
/-!
# C57, C58: what the error kinds mean
-/
namespace Bytecodec.Props

open Spec

variable {σ α : Type}

/-- C57: whatever the user's functions do not raise, a decoder without `length` fails with `UnexpectedEos`
only if it was told that the stream ends with the given bytes, with `IncompleteDecoding` only from
`finish_decoding` on a decoder that is not idle, and otherwise with `InvalidInput` or `DecoderTerminated`;
never with `EncoderFull`, `InconsistentState` or `Other`. -/
theorem C57_kinds_partial {K : ErrorKind → Prop} {D : Decoder σ α} (h : Raising false K D) {k : ErrorKind} (hk : ¬ K k) :
    (∀ s b e s', D.decode s b e = (.err k, s') →
      k = .invalidInput ∨ k = .decoderTerminated ∨ (k = .unexpectedEos ∧ e.isReached = true)) ∧
    (∀ s s', D.finish s = (.err k, s') →
      k = .invalidInput ∨ k = .decoderTerminated ∨ (k = .incompleteDecoding ∧ D.isIdle s = false)) := by
  constructor
  · intro s b e s' hd
    rcases h.kinded.decode s b e k s' hd with h | h | h | ⟨h, h' | h'⟩ | ⟨_, h⟩
    · exact absurd h hk
    · exact .inl h
    · exact .inr (.inl h)
    · exact .inr (.inr ⟨h, h'⟩)
    · cases h'
    · cases h
  · intro s s' hf
    rcases h.kinded.finish s k s' hf with h | h | h | ⟨h, h' | h'⟩
    · exact absurd h hk
    · exact .inl h
    · exact .inr (.inl h)
    · exact .inr (.inr ⟨h, h'⟩)
    · cases h'

/-- C57 with `length` (a slice of the stream counts as a stream, and ends early): the kinds of encoders and
the generic ones still cannot occur, nor can `UnexpectedEos` from `finish_decoding`. -/
theorem C57_length {K : ErrorKind → Prop} {D : Decoder σ α} (h : Raising true K D) {k : ErrorKind} (hk : ¬ K k) :
    (∀ s b e s', D.decode s b e = (.err k, s') →
      k = .invalidInput ∨ k = .decoderTerminated ∨ k = .unexpectedEos ∨ k = .incompleteDecoding) ∧
    (∀ s s', D.finish s = (.err k, s') →
      k = .invalidInput ∨ k = .decoderTerminated ∨ k = .incompleteDecoding) := by
  constructor
  · intro s b e s' hd
    rcases h.kinded.decode s b e k s' hd with h | h | h | ⟨h, _⟩ | ⟨h, _⟩
    · exact absurd h hk
    · exact .inl h
    · exact .inr (.inl h)
    · exact .inr (.inr (.inl h))
    · exact .inr (.inr (.inr h))
  · intro s s' hf
    rcases h.kinded.finish s k s' hf with h | h | h | ⟨h, _⟩
    · exact absurd h hk
    · exact .inl h
    · exact .inr (.inl h)
    · exact .inr (.inr h)

/-- A checked byte before a string of at most 100 bytes; the check raises `Other`. -/
example : Raising false (· = .other) (tupleDecoder2
    (tryMapDecoder u8Decoder fun b => if b = 0 then .error .other else .ok b)
    (maxBytesDecoder (utf8Decoder remainingBytesDecoder))) :=
  .pair (.tryMap _ (by intro x k h; split at h <;> cases h; rfl) (.number _)) (.maxBytes (.utf8 .remaining))

/-- Each of the kinds does occur. -/
example : (u16beDecoder.decode (fixInit 2) [1] (Eos.new true)).1 = .err .unexpectedEos ∧
    (u16beDecoder.finish ⟨[1, 0], 1⟩).1 = .err .incompleteDecoding ∧
    ((maxBytesDecoder u8Decoder).decode (.new (fixInit 1) 0) [1] (Eos.new false)).1 = .err .invalidInput ∧
    (bytesDecoder.finish ⟨some [1], 1⟩).1 = .ok [1] ∧
    (bytesDecoder.decode (bytesDecoder.finish ⟨some [1], 1⟩).2 [1] (Eos.new false)).1 = .err .decoderTerminated := by
  decide +kernel

/-- C57 (the code deviates): `decode` fails with `IncompleteDecoding`, and on a valid buffer, when `length`
promises more bytes to a decoder than it takes and `peekable` collects the item. -/
theorem C57_peekable_fails :
    ((peekableDecoder (lengthDecoder u8Decoder)).decode ⟨.new (fixInit 1) 5, none⟩ [1, 2, 3, 4, 5]
      (Eos.new false)).1 = .err .incompleteDecoding := by
  decide +kernel

/-! ## C58: `EncoderFull` means that the encoder is busy -/

/-- C58: an idle encoder never answers `EncoderFull` to `start_encoding`, and `encode` never fails with
`EncoderFull` at all: whatever calls came before, also failed ones; with `pre_encode` in it
(`errs = false`), as long as no call has failed. -/
theorem C58_idle_partial {errs : Bool} {E : Encoder σ α} {s₀ s : σ} (h : Accepting errs E s₀) (hs : Used errs E s₀ s) :
    (E.isIdle s = true → ∀ x, (E.start s x).1 ≠ .err .encoderFull) ∧
    (∀ cap e, (E.encode s cap e).1 ≠ .err .encoderFull) := by
  obtain ⟨I, hI, h0⟩ := h.neverFull
  have := hI.used h0 hs
  exact ⟨fun hi x => (hI.start x this).1 hi, fun cap e => (hI.encode cap e this).1 rfl⟩

/-- C58: an encoder that holds one item at a time rejects a second one, and neither the item in progress nor
anything else is affected. -/
theorem C58_busy {E : Encoder σ α} (h : Single false E) {s : σ} (hi : E.isIdle s = false) (x : α) :
    ∃ k, E.start s x = (.err k, s) := by
  obtain ⟨h1, ⟨k, h2⟩ | ⟨h2, _⟩⟩ := h.holds.start s x hi
  · exact ⟨k, Prod.ext h2 h1⟩
  · cases h2

/-- C58 with `optional`: `None` may be accepted instead, without any effect. -/
theorem C58_busy_optional {E : Encoder σ α} (h : Single true E) {s : σ} (hi : E.isIdle s = false) (x : α) :
    (E.start s x).2 = s ∧ ((∃ k, (E.start s x).1 = .err k) ∨ (E.start s x).1 = .ok ()) := by
  obtain ⟨h1, h2 | ⟨_, h2⟩⟩ := h.holds.start s x hi
  · exact ⟨h1, .inl h2⟩
  · exact ⟨h1, .inr h2⟩

/-- Many pairs of a checked number and an optional string, at most 100 bytes. -/
example : Accepting true (maxBytesEncoder (repeatEncoder (tupleEncoder2
      (tryMapFromEncoder u16beEncoder.toEncoder fun n : UInt16 => if n = 0 then .error .invalidInput else .ok n)
      (optionalEncoder utf8Encoder.toEncoder)))) (.new (.new (.new, .new)) 100) :=
  .maxBytes 100 (.repeated (.pair (.tryMapFrom _ (by intro x h; split at h <;> cases h)
    (.number _ (by intro x h; cases h))) (.optional .utf8)))

/-- The same computed ahead. -/
example : Accepting false (preEncodeEncoder (repeatEncoder (tupleEncoder2 u16beEncoder.toEncoder
      utf8Encoder.toEncoder))).toEncoder (.new (.new (.new, .new))) :=
  .preEncode rfl rfl (.repeated (.pair (.number _ (by intro x h; cases h)) .utf8))

example : Single false (maxBytesEncoder (mapFromEncoder utf8Encoder.toEncoder (fun n : Nat => toString n))) :=
  .maxBytes (.mapFrom _ .utf8)

/-- C58 (the code deviates): a failed `start_encoding` leaves the encoder inside `pre_encode` busy. The
`pre_encode` encoder is idle, but will never accept an item again. -/
theorem C58_preEncode_fails :
    let E := (preEncodeEncoder paddingEncoder).toEncoder
    ∃ s, E.start (.new none) 1 = (.err .invalidInput, s) ∧ E.isIdle s = true ∧
      ∀ x, E.start s x = (.err .encoderFull, s) :=
  ⟨⟨some 1, .new⟩, rfl, rfl, fun _ => rfl⟩

end Bytecodec.Props
