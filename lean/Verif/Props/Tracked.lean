import Verif.Lemmas.TrackedEraseEnc
import Verif.Lemmas.TrackedOriginEnc
/-!
# C100: errors arrive as they were raised

`/repo` `src/error.rs` 5-21 and every `track!` of `src/combinator.rs`, `src/tuple.rs`, `src/bytes.rs`, `src/io.rs`,
`src/encode.rs` and `src/decode.rs` that lies on the way.
-/
namespace Bytecodec.Props
open Bytecodec

variable {κ σ α : Type} {O : TError κ → Prop} {Q : κ → Bool}

/-- C100: seen through kinds only, a decoder with whole errors does in every call what the rest of the model says. -/
theorem C100_same {D : TDecoder κ σ α} {M : Decoder σ α} (h : TracedDec O D M) : D.erase = M :=
  tracedDec_erase h

/-- C100: the same for encoders. -/
theorem C100_same_encoder {E : TEncoder κ σ α} {M : Encoder σ α} (h : TracedEnc O E M) : E.erase = M :=
  tracedEnc_erase h

/-- C100: every error of a decoder, however deep it was raised, has the kind and the cause of an error of a part or of a closure
(or is one of the library's own), and its history begins with that error's history. -/
theorem C100_decoder {D : TDecoder κ σ α} {M : Decoder σ α} (h : TracedDec O D M) (x : TError κ) :
    (∀ s b e, (D.decode s b e).1 = .err x → Arrives O x) ∧ (∀ s, (D.finish s).1 = .err x → Arrives O x) :=
  ⟨fun s b e hx => (tracedDec_only h).decode s b e x hx, fun s hx => (tracedDec_only h).finish s x hx⟩

/-- C100: the same for encoders. -/
theorem C100_encoder {E : TEncoder κ σ α} {M : Encoder σ α} (h : TracedEnc O E M) (x : TError κ) :
    (∀ s n e, (E.encode s n e).1 = .err x → Arrives O x) ∧ (∀ s a, (E.start s a).1 = .err x → Arrives O x) :=
  ⟨fun s n e hx => (tracedEnc_only h).encode s n e x hx, fun s a hx => (tracedEnc_only h).start s a x hx⟩

/-- C100: and no error of a part is swallowed or replaced. With parts that stop dead where they would return an error with
a cause in `Q`, the whole decoder stops dead exactly where it would return such an error; everything else is the same, states
included. -/
theorem C100_not_swallowed {D D' : TDecoder κ σ α} (h : StoppedDec Q D D') :
    (∀ s b e, D'.decode s b e = stopAt Q (D.decode s b e)) ∧ (∀ s, D'.finish s = stopAt Q (D.finish s)) ∧
      D'.requiring = D.requiring ∧ D'.isIdle = D.isIdle := by
  rw [stoppedDec_eq h]
  exact ⟨fun _ _ _ => rfl, fun _ => rfl, rfl, rfl⟩

/-- C100: the same for encoders. -/
theorem C100_not_swallowed_encoder {E E' : TEncoder κ σ α} (h : StoppedEnc Q E E') :
    (∀ s n e, E'.encode s n e = stopAt Q (E.encode s n e)) ∧ (∀ s a, E'.start s a = stopAt Q (E.start s a)) ∧
      E'.requiring = E.requiring ∧ E'.isIdle = E.isIdle := by
  rw [stoppedEnc_eq h]
  exact ⟨fun _ _ _ => rfl, fun _ _ => rfl, rfl, rfl⟩

/-- C100: `decode_from_bytes`. -/
theorem C100_from_bytes {D : TDecoder κ σ α} {M : Decoder σ α} (h : TracedDec O D M) (s : σ) (b : Bytes) :
    eraseP (tDecodeFromBytes D s b) = decodeFromBytes M s b ∧
      ∀ x, (tDecodeFromBytes D s b).1 = .err x → Arrives O x := by
  constructor
  · rw [tDecodeFromBytes_erase, tracedDec_erase h]
  · exact only_decodeFromBytes (arrives_open _) (tracedDec_only h) s b

/-- C100: `encode_into_bytes`. -/
theorem C100_into_bytes {E : TEncoder κ σ α} {M : Encoder σ α} (h : TracedEnc O E M) (zero : κ) (s : σ) (a : α) :
    eraseP (tEncodeIntoBytes zero E s a) = encodeIntoBytes M s a ∧
      ∀ x, (tEncodeIntoBytes zero E s a).1 = .err x → Arrives O x := by
  constructor
  · rw [tEncodeIntoBytes_erase, tracedEnc_erase h]
  · exact only_intoBytes (arrives_open _) (tracedEnc_only h) zero s a

/-- C100: `decode_exact`: an error may also be one of the reader, which is then the cause (`UnexpectedEof` has the kind
`UnexpectedEos`, all others `Other`). -/
theorem C100_decode_exact {ρ : Type} {D : TDecoder κ σ α} {M : Decoder σ α} (h : TracedDec O D M) (R : TReader κ ρ)
    (s : σ) (r : ρ) :
    (tDecodeExact D R s r).map eraseP = decodeExact M R.erase s r ∧
      ∀ x t, tDecodeExact D R s r = some (.err x, t) →
        Arrives (fun o => O o ∨ ∃ r n k c, (R.read r n).1 = .error k c ∧ o = becauseOf k c) x := by
  constructor
  · rw [← tDecodeExact_erase, tracedDec_erase h]
  · intro x t hx
    refine only_decodeExact (arrives_open _) ((tracedDec_only h).mono fun x => Arrives.mono fun _ => .inl) R ?_ s r _ hx x rfl
    intro r n k c hr
    exact ⟨_, .inl (.inr ⟨r, n, k, c, hr, rfl⟩), .refl _⟩

/-- C100: `encode_all`: an error may also be one of the writer, or the `WriteZero` error of `write_all`. -/
theorem C100_encode_all {ω : Type} {E : TEncoder κ σ α} {M : Encoder σ α} (h : TracedEnc O E M) (zero : κ)
    (W : TWriter κ ω) (s : σ) (w : ω) :
    (tEncodeAll zero E W s w).map eraseP = encodeAll M W.erase s w ∧
      ∀ x t, tEncodeAll zero E W s w = some (.err x, t) →
        Arrives (fun o => O o ∨ (∃ w b k c, (W.write w b).1 = .error k c ∧ o = becauseOf k c) ∨
          o = becauseOf .other zero) x := by
  constructor
  · rw [← tEncodeAll_erase, tracedEnc_erase h]
  · intro x t hx
    refine only_encodeAll (arrives_open _) ((tracedEnc_only h).mono fun x => Arrives.mono fun _ => .inl) zero W
      (only_writeAll zero W ⟨_, .inl (.inr (.inr rfl)), .refl _⟩ ?_) s w _ hx x rfl
    intro w b k c hw
    exact ⟨_, .inl (.inr (.inl ⟨w, b, k, c, hw, rfl⟩)), .refl _⟩

/-- C100: nor do `decode_exact` and `decode_from_bytes` swallow an error of the decoder. -/
theorem C100_not_swallowed_io {ρ : Type} {D D' : TDecoder κ σ α} (h : StoppedDec Q D D') (R : TReader κ ρ)
    (hR : ∀ r n k c, (R.read r n).1 = .error k c → Q c = false) (s : σ) (r : ρ) (b : Bytes) :
    tDecodeExact D' R s r = (tDecodeExact D R s r).map (stopAt Q) ∧
      tDecodeFromBytes D' s b = stopAt Q (tDecodeFromBytes D s b) := by
  rw [stoppedDec_eq h]
  exact ⟨tDecodeExact_stop D R hR s r, (tDecodeFromBytes_stop D s b).symm⟩

/-- C100: nor do `encode_all` and `encode_into_bytes` swallow one of the encoder. -/
theorem C100_not_swallowed_io_encoder {ω : Type} {E E' : TEncoder κ σ α} (h : StoppedEnc Q E E') (zero : κ)
    (hz : Q zero = false) (W : TWriter κ ω) (hW : ∀ w b k c, (W.write w b).1 = .error k c → Q c = false) (s : σ) (w : ω)
    (a : α) :
    tEncodeAll zero E' W s w = (tEncodeAll zero E W s w).map (stopAt Q) ∧
      tEncodeIntoBytes zero E' s a = stopAt Q (tEncodeIntoBytes zero E s a) := by
  rw [stoppedEnc_eq h]
  exact ⟨tEncodeAll_stop zero E W (tWriteAll_stop zero W hz hW) s w, (tEncodeIntoBytes_stop zero E s a).symm⟩

/-- A part for the examples: takes one byte and, if that is 255, fails with a cause of its own. -/
private def oneByte : TDecoder String (Option UInt8) UInt8 where
  decode s b _ :=
    match s, b with
    | none, x :: _ => if x = 255 then (.err ⟨.other, some (.given "255"), some []⟩, s) else (.ok 1, some x)
    | _, _ => (.ok 0, s)
  finish s :=
    match s with
    | some x => (.ok x, none)
    | none => (.err (.raised .incompleteDecoding ⟨"app.rs", 1⟩), none)
  requiring s := if s.isSome then .finite 0 else .finite 1
  isIdle s := s.isSome

/-- An odd number is refused. -/
private def even (x : UInt8) : Except (TError String) UInt8 :=
  if x % 2 = 0 then .ok x else .error ⟨.invalidInput, some (.given "odd"), some []⟩

/-- Two bytes, the second one even, in a frame of two bytes. -/
private def framed : TDecoder String (LengthState (Option UInt8 × Option UInt8)) (UInt8 × UInt8) :=
  tLengthDecoder (tPairDecoder oneByte (tTryMapDecoder oneByte even))

example : ∃ O M, TracedDec O framed M := ⟨_, _, .length (.pair (.part oneByte) (.tryMap even (.part oneByte)))⟩

example : ∃ D', StoppedDec (fun c => c == "255") framed D' :=
  ⟨_, .length (.pair (.part oneByte) (.tryMap even (fun a x h => by
    unfold even at h
    split at h
    · cases h
    · cases h; rfl) (.part oneByte)))⟩

/-- The error of the closure arrives with its cause, and one finds the way it took. -/
example : (tDecodeFromBytes framed (.new (none, none) 2) [4, 7]).1 =
    .err ⟨.invalidInput, some (.given "odd"),
      some [⟨"combinator.rs", 933⟩, ⟨"tuple.rs", 61⟩, ⟨"combinator.rs", 741⟩, ⟨"decode.rs", 450⟩]⟩ := by decide +kernel

/-- The error of the part as well. -/
example : (tDecodeFromBytes framed (.new (none, none) 2) [4, 255]).1 =
    .err ⟨.other, some (.given "255"),
      some [⟨"combinator.rs", 928⟩, ⟨"tuple.rs", 61⟩, ⟨"combinator.rs", 732⟩, ⟨"decode.rs", 448⟩]⟩ := by decide +kernel

/-- In a tuple of three parts each error passes the tuple once. -/
example : ∃ O M, TracedDec O (tTuple3Decoder oneByte (tTryMapDecoder oneByte even) oneByte) M ∧
    (tDecodeFromBytes (tTuple3Decoder oneByte (tTryMapDecoder oneByte even) oneByte) (none, none, none) [4, 7, 1]).1 =
      .err ⟨.invalidInput, some (.given "odd"), some [⟨"combinator.rs", 933⟩, ⟨"tuple.rs", 62⟩, ⟨"decode.rs", 450⟩]⟩ :=
  ⟨_, _, .tuple3 (.part oneByte) (.tryMap even (.part oneByte)) (.part oneByte), by decide +kernel⟩

/-- An encoder whose items may be refused, behind `pre_encode`. -/
example : ∃ O E M, TracedEnc (κ := String) (σ := PreEncodeState (BytesEncoderState Bytes)) (α := Bytes) O E M ∧
    ∃ x, (E.start ⟨.new, .new⟩ []).1 = .err x ∧ x.cause = some (.given "empty") :=
  ⟨_, _, _, .preEncode "" (.tryMapFrom (fun b => if b.isEmpty then .error ⟨.invalidInput, some (.given "empty"), some []⟩
    else .ok b) .bytes), _, rfl, rfl⟩

end Bytecodec.Props
