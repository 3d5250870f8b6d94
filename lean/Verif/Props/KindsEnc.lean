import Verif.Lemmas.KindsEnc
import Verif.Model.Buf
import Verif.Props.Kinds
/-!
# C77: what the error kinds of encoders mean
-/
namespace Bytecodec.Props

open Spec

variable {σ α : Type} {K : ErrorKind → Prop} {k : ErrorKind}

private theorem kindedLib {lim len pre : Bool} {E : Encoder σ α} (h : RaisingEnc lim len pre K E) :
    KindedEnc lim len pre K E := raisingEnc_kinded (fun h => h.elim) h

/-- C77: whatever the user's functions do not raise, an encoder without `length` and `pre_encode` fails in `encode` with
`UnexpectedEos` only if it was told that the stream ends with the given room, and with `InvalidInput` only if
`max_bytes` is part of it (`EncoderFull`: see `C77_full_partial`); in `start_encoding` with `EncoderFull` only. Never with
`InconsistentState`, `Other` or the kinds of decoders. -/
theorem C77_kinds_partial {lim : Bool} {E : Encoder σ α} (h : RaisingEnc lim false false K E) (hk : ¬ K k) :
    (∀ s cap e s', E.encode s cap e = (.err k, s') →
      (k = .unexpectedEos ∧ e.isReached = true) ∨ (k = .invalidInput ∧ lim = true) ∨ k = .encoderFull) ∧
    (∀ s x s', E.start s x = (.err k, s') → k = .encoderFull) := by
  constructor
  · intro s cap e s' he
    have := ((kindedLib h).encode _ _ _ _ _ he).resolve_left hk
    cases k <;> simp_all [EncodeKind]
  · intro s x s' he
    have := ((kindedLib h).start _ _ _ _ he).resolve_left hk
    cases k <;> simp_all [StartKind]

/-- C77 with `length` (the declared bytes count as a stream, and end early). -/
theorem C77_length {lim : Bool} {E : Encoder σ α} (h : RaisingEnc lim true false K E) (hk : ¬ K k) :
    (∀ s cap e s', E.encode s cap e = (.err k, s') → k = .unexpectedEos ∨ k = .invalidInput ∨ k = .encoderFull) ∧
    (∀ s x s', E.start s x = (.err k, s') → k = .encoderFull) := by
  constructor
  · intro s cap e s' he
    have := ((kindedLib h).encode _ _ _ _ _ he).resolve_left hk
    cases k <;> simp_all [EncodeKind]
  · intro s x s' he
    have := ((kindedLib h).start _ _ _ _ he).resolve_left hk
    cases k <;> simp_all [StartKind]

/-- C77 with everything: the kinds of decoders do not occur. -/
theorem C77_any {lim len pre : Bool} {E : Encoder σ α} (h : RaisingEnc lim len pre K E) (hk : ¬ K k) :
    (∀ s cap e s', E.encode s cap e = (.err k, s') → k ≠ .decoderTerminated ∧ k ≠ .incompleteDecoding) ∧
    (∀ s x s', E.start s x = (.err k, s') → k ≠ .decoderTerminated ∧ k ≠ .incompleteDecoding) := by
  constructor
  · intro s cap e s' he
    have := ((kindedLib h).encode _ _ _ _ _ he).resolve_left hk
    cases k <;> simp_all [EncodeKind]
  · intro s x s' he
    have := ((kindedLib h).start _ _ _ _ he).resolve_left hk
    cases k <;> simp_all [StartKind]

/-- C77 together with C58: used from the start in any way (failed calls included if `errs = true`), `encode` fails with
`UnexpectedEos` at the announced end or with `InvalidInput` at the limit, and nothing else; while the encoder is
idle, `start_encoding` fails only if a function of the user's does. -/
theorem C77_full_partial {errs lim : Bool} {E : Encoder σ α} {s₀ s s' : σ} (h : RaisingEnc lim false false K E) (ha : Accepting errs E s₀)
    (hs : Used errs E s₀ s) (hk : ¬ K k) :
    (∀ cap e, E.encode s cap e = (.err k, s') →
      (k = .unexpectedEos ∧ e.isReached = true) ∨ (k = .invalidInput ∧ lim = true)) ∧
    (E.isIdle s = true → ∀ x, E.start s x ≠ (.err k, s')) := by
  obtain ⟨f1, f2⟩ := C58_idle_partial ha hs
  obtain ⟨g1, g2⟩ := C77_kinds_partial h hk
  constructor
  · intro cap e he
    rcases g1 _ _ _ _ he with z | z | rfl
    · exact .inl z
    · exact .inr z
    · exact absurd (congrArg Prod.fst he) (f2 cap e)
  · intro hi x he
    have := g2 _ _ _ he
    subst this
    exact f1 hi x (congrArg Prod.fst he)

/-- C77 for encoders of the user's own as parts: if each fails with the expected kinds only, so does the whole. -/
theorem C77_own {lim len pre : Bool} {own : (σ α : Type) → Encoder σ α → Prop}
    (ho : ∀ {σ α : Type} {E : Encoder σ α}, own σ α E →
      (∀ s cap e k s', E.encode s cap e = (.err k, s') → K k ∨ EncodeKind lim len pre e k) ∧
      (∀ s x k s', E.start s x = (.err k, s') → K k ∨ StartKind pre k))
    {E : Encoder σ α} (h : RaisingEncWith own lim len pre K E) :
    (∀ s cap e k s', E.encode s cap e = (.err k, s') → K k ∨ EncodeKind lim len pre e k) ∧
    (∀ s x k s', E.start s x = (.err k, s') → K k ∨ StartKind pre k) := by
  have := raisingEnc_kinded (fun h => ⟨(ho h).1, (ho h).2⟩) h
  exact ⟨this.encode, this.start⟩

/-- C77: `encode_all` fails with `UnexpectedEos` only if the writer does (there is no end of the stream), with
`InvalidInput` only at a limit, and with `Other` if the writer fails or takes nothing or the encoder makes no progress. -/
theorem C77_encode_all_partial {lim : Bool} {ω : Type} {E : Encoder σ α} (h : RaisingEnc lim false false K E) (hk : ¬ K k)
    (W : Writer ω) {s s' : σ} {w w' : ω} (he : encodeAll E W s w = some (.err k, s', w')) :
    WriterRaises W k ∨ k = .other ∨ (k = .invalidInput ∧ lim = true) ∨ k = .encoderFull := by
  rcases encodeAll_kind (kindedLib h) W s w _ he k rfl with z | z | z | z
  · exact absurd z hk
  · cases k <;> simp_all [EncodeKind, Eos.new, Eos.isReached]
  · exact .inr (.inl z)
  · exact .inl z

/-- C77: `encode_to_write_buf` fails with `UnexpectedEos` only if the stream behind the buffer has reached its end. -/
theorem C77_write_buf_partial {lim : Bool} {E : Encoder σ α} (h : RaisingEnc lim false false K E) (hk : ¬ K k)
    {s s' : σ} {b b' : WriteBuf} (he : encodeToWriteBuf E s b = (.err k, s', b')) :
    b' = b ∧ ((k = .unexpectedEos ∧ b.state = .eos) ∨ (k = .invalidInput ∧ lim = true) ∨ k = .encoderFull) := by
  unfold encodeToWriteBuf at he
  split at he
  · cases congrArg Prod.fst he
  · rcases hp : E.encode s (b.inner.length - b.tail) (Eos.new b.state.isEos) with ⟨r, t⟩
    rw [hp] at he
    cases r with
    | err k' =>
      cases he
      refine ⟨rfl, ?_⟩
      rcases (C77_kinds_partial h hk).1 _ _ _ _ hp with ⟨z, z'⟩ | z | z
      · exact .inl ⟨z, by cases hb : b.state <;> simp_all [StreamState.isEos, Eos.new, Eos.isReached]⟩
      · exact .inr (.inl z)
      · exact .inr (.inr z)
    | _ => cases congrArg Prod.fst he

/-- C77: `encode_into_bytes` raises no kinds of decoders. -/
theorem C77_into_bytes {lim len pre : Bool} {E : Encoder σ α} (h : RaisingEnc lim len pre K E) (hk : ¬ K k)
    {s s' : σ} {x : α} (he : encodeIntoBytes E s x = (.err k, s')) : k ≠ .decoderTerminated ∧ k ≠ .incompleteDecoding := by
  have := (encodeIntoBytes_kind (kindedLib h) he).resolve_left hk
  cases k <;> simp_all [StartKind]

/-- Many pairs of a checked number and an optional string, at most 100 bytes; the check raises `Other`. -/
example : RaisingEnc true false false (· = .other) (maxBytesEncoder (repeatEncoder (tupleEncoder2
      (tryMapFromEncoder u16beEncoder.toEncoder fun n : UInt16 => if n = 0 then .error .other else .ok n)
      (optionalEncoder utf8Encoder.toEncoder)))) :=
  .maxBytes rfl (.repeated (.pair (.tryMapFrom _ (by intro x k h; split at h <;> cases h; rfl)
    (.number _ (by intro x k h; cases h))) (.optional .utf8)))

/-- The kinds do occur. -/
example : (utf8Encoder.encode ⟨some "abc", 0⟩ 2 (Eos.new true)).1 = .err .unexpectedEos ∧
    (utf8Encoder.start ⟨some "abc", 0⟩ "d").1 = .err .encoderFull ∧
    ((maxBytesEncoder utf8Encoder.toEncoder).encode (.new ⟨some "abc", 0⟩ 2) 5 (Eos.new false)).1 = .err .invalidInput := by
  decide +kernel

/-- C77 (the code deviates): an item that is longer than the declared `length` is reported as `UnexpectedEos`, with any
room left and no end of the stream in sight; one that is too short as `InvalidInput`. -/
theorem C77_length_fails :
    let E := (lengthEncoder utf8Encoder.toEncoder).toEncoder
    (E.encode (E.start (.new .new 3) "hello").2 100 (Eos.new false)).1 = .err .unexpectedEos ∧
    (E.encode (E.start (.new .new 3) "hi").2 100 (Eos.new false)).1 = .err .invalidInput := by
  decide +kernel

/-- C77 (the code deviates): `start_encoding` of `pre_encode` fails with `UnexpectedEos`, although nothing has been written
yet, and with `InconsistentState`, which is documented as a bug in the encoder, when the inner encoder pauses. -/
theorem C77_preEncode_fails :
    ((preEncodeEncoder (lengthEncoder utf8Encoder.toEncoder).toEncoder).start (.new (.new .new 3)) "hello").1
      = .err .unexpectedEos ∧
    ((preEncodeEncoder (sliceEncoder utf8Encoder.toEncoder)).start (.new ⟨.new, 2⟩) "hello").1
      = .err .inconsistentState := by
  decide +kernel

end Bytecodec.Props
