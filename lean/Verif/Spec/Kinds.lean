import Verif.Spec.Assembled
import Verif.Spec.AssembledEnc
/-!
# Specification: what error kinds mean
-/
namespace Bytecodec.Spec

variable {σ α : Type}

/-! ## Decoders -/

/-- Decoders assembled from the library and from decoders of the user's own (in any state) whose user-supplied functions raise kinds in `K`
only; with `len = false`, without `length`. -/
inductive RaisingWith (own : (σ α : Type) → Decoder σ α → Prop) (len : Bool) (K : ErrorKind → Prop) : {σ α : Type} → Decoder σ α → Prop
  /-- a decoder of the user's own -/
  | own {σ α : Type} {D : Decoder σ α} : own σ α D → RaisingWith own len K D
  | copyable : RaisingWith own len K copyableBytesDecoder
  | bytes : RaisingWith own len K bytesDecoder
  | remaining : RaisingWith own len K remainingBytesDecoder
  | null : RaisingWith own len K nullDecoder
  | padding : RaisingWith own len K paddingDecoder
  | number {α : Type} (f : Bytes → α) : RaisingWith own len K (fixDecoder f)
  | utf8 {σ : Type} {D : Decoder σ Bytes} : RaisingWith own len K D → RaisingWith own len K (utf8Decoder D)
  | monolithic {α : Type} (parse : MonolithicParser α) : (∀ a b k, (parse a b).1 = .err k → K k) →
      RaisingWith own len K (monolithicDecoder parse)
  | map {σ α β : Type} {D : Decoder σ α} (f : α → β) : RaisingWith own len K D → RaisingWith own len K (mapDecoder D f)
  | tryMap {σ α β : Type} {D : Decoder σ α} (f : α → Except ErrorKind β) : (∀ x k, f x = .error k → K k) →
      RaisingWith own len K D → RaisingWith own len K (tryMapDecoder D f)
  | mapErr {σ α : Type} {D : Decoder σ α} (f : ErrorKind → ErrorKind) : (∀ k, K (f k)) →
      RaisingWith own len K (mapErrDecoder D f)
  | omittable {σ α : Type} {D : Decoder σ α} : RaisingWith own len K D → RaisingWith own len K (omittableDecoder D)
  | length {σ α : Type} {D : Decoder σ α} : len = true → RaisingWith own len K D → RaisingWith own len K (lengthDecoder D)
  | maxBytes {σ α : Type} {D : Decoder σ α} : RaisingWith own len K D → RaisingWith own len K (maxBytesDecoder D)
  | slice {σ α : Type} {D : Decoder σ α} : RaisingWith own len K D → RaisingWith own len K (sliceDecoder D)
  | peekable {σ α : Type} {D : Decoder σ α} : RaisingWith own len K D → RaisingWith own len K (peekableDecoder D)
  | maybeEos {σ α : Type} {D : Decoder σ α} : RaisingWith own len K D → RaisingWith own len K (maybeEosDecoder D)
  | collect {σ α : Type} {D : Decoder σ α} : RaisingWith own len K D → RaisingWith own len K (collectDecoder D)
  | collectN {σ α : Type} {D : Decoder σ α} : RaisingWith own len K D → RaisingWith own len K (collectNDecoder D)
  | pair {σ0 α0 σ1 α1 : Type} {D0 : Decoder σ0 α0} {D1 : Decoder σ1 α1} :
      RaisingWith own len K D0 → RaisingWith own len K D1 → RaisingWith own len K (tupleDecoder2 D0 D1)
  | andThen {σ0 α0 σ1 α1 : Type} {D0 : Decoder σ0 α0} {D1 : Decoder σ1 α1} (f : α0 → σ1) :
      RaisingWith own len K D0 → RaisingWith own len K D1 → RaisingWith own len K (andThenDecoder D0 D1 f)
  | captured {ε σ α : Type} (F : ε → Decoder σ α) : (∀ x, RaisingWith own len K (F x)) →
      RaisingWith own len K (capturedDecoder F)

/-- Those assembled from the library alone. -/
abbrev Raising (len : Bool) (K : ErrorKind → Prop) (D : Decoder σ α) : Prop :=
  RaisingWith (fun _ _ _ => False) len K D

/-- The kinds `decode` may fail with, when it is told `e` about the end of the stream. -/
def DecodeKind (len : Bool) (K : ErrorKind → Prop) (e : Eos) (k : ErrorKind) : Prop :=
  K k ∨ k = .invalidInput ∨ k = .decoderTerminated ∨
  (k = .unexpectedEos ∧ (e.isReached = true ∨ len = true)) ∨ (k = .incompleteDecoding ∧ len = true)

/-- The kinds `finish_decoding` may fail with. -/
def FinishKind (len : Bool) (K : ErrorKind → Prop) (idle : Bool) (k : ErrorKind) : Prop :=
  K k ∨ k = .invalidInput ∨ k = .decoderTerminated ∨
  (k = .incompleteDecoding ∧ (idle = false ∨ len = true))

/-! ## Encoders -/

/-- The states a caller can reach by any calls of `start_encoding` and `encode`; with `errs = false`, as
long as none has failed. -/
inductive Used (errs : Bool) (E : Encoder σ α) (s₀ : σ) : σ → Prop
  | new : Used errs E s₀ s₀
  | start {s : σ} (x : α) : Used errs E s₀ s → (errs = true ∨ (E.start s x).1 = .ok ()) →
      Used errs E s₀ (E.start s x).2
  | encode {s : σ} (cap : Nat) (e : Eos) : Used errs E s₀ s → (errs = true ∨ ∃ bs, (E.encode s cap e).1 = .ok bs) →
      Used errs E s₀ (E.encode s cap e).2

/-- Encoders assembled from the library and from encoders of the user's own, in their initial states, whose user-supplied functions do not
raise `EncoderFull` themselves. Without `length` (see `C26_reuse_fails`), and with `errs = true` without
`pre_encode` (see `C58_preEncode_fails`). -/
inductive AcceptingWith (own : OwnEncoder) (errs : Bool) : {σ α : Type} → Encoder σ α → σ → Prop
  /-- an encoder of the user's own -/
  | own {σ α : Type} {E : Encoder σ α} {s : σ} : own σ α E s → AcceptingWith own errs E s
  | bytes {β : Type} (asRef : β → Bytes) : AcceptingWith own errs (bytesEncoder asRef).toEncoder .new
  | utf8 : AcceptingWith own errs utf8Encoder.toEncoder .new
  | number {α : Type} (f : α → Except ErrorKind Bytes) : (∀ x, f x ≠ .error .encoderFull) →
      AcceptingWith own errs (fixEncoder f).toEncoder .new
  | null : AcceptingWith own errs nullEncoder.toEncoder ()
  | padding : AcceptingWith own errs paddingEncoder none
  | monolithic {α : Type} (ser : MonolithicSerializer α) : (∀ x, (ser x).2 ≠ .err .encoderFull) →
      AcceptingWith own errs (monolithicEncoder ser) .new
  | mapErr {σ α : Type} {E : Encoder σ α} {s : σ} (f : ErrorKind → ErrorKind) :
      (∀ k, f k = .encoderFull → k = .encoderFull) → AcceptingWith own errs E s → AcceptingWith own errs (mapErrEncoder E f) s
  | mapFrom {σ α β : Type} {E : Encoder σ α} {s : σ} (f : β → α) : AcceptingWith own errs E s →
      AcceptingWith own errs (mapFromEncoder E f) s
  | tryMapFrom {σ α β : Type} {E : Encoder σ α} {s : σ} (f : β → Except ErrorKind α) :
      (∀ x, f x ≠ .error .encoderFull) → AcceptingWith own errs E s → AcceptingWith own errs (tryMapFromEncoder E f) s
  | repeated {σ α : Type} {E : Encoder σ α} {s : σ} : AcceptingWith own errs E s →
      AcceptingWith own errs (repeatEncoder E) (.new s)
  | optional {σ α : Type} {E : Encoder σ α} {s : σ} : AcceptingWith own errs E s →
      AcceptingWith own errs (optionalEncoder E) s
  | maxBytes {σ α : Type} {E : Encoder σ α} {s : σ} (n : Nat) : AcceptingWith own errs E s →
      AcceptingWith own errs (maxBytesEncoder E) (.new s n)
  | preEncode {σ α : Type} {E : Encoder σ α} {s : σ} : errs = false → E.isIdle s = true → AcceptingWith own errs E s →
      AcceptingWith own errs (preEncodeEncoder E).toEncoder (.new s)
  | slice {σ α : Type} {E : Encoder σ α} {s : σ} (n : Nat) : AcceptingWith own errs E s →
      AcceptingWith own errs (sliceEncoder E) ⟨s, n⟩
  | last {σ α : Type} {E : Encoder σ α} {s : σ} (x : α) : AcceptingWith own errs E s →
      AcceptingWith own errs (lastEncoder E) (.new s x)
  | pair {σ0 α0 σ1 α1 : Type} {E0 : Encoder σ0 α0} {E1 : Encoder σ1 α1} {s0 : σ0} {s1 : σ1} :
      AcceptingWith own errs E0 s0 → AcceptingWith own errs E1 s1 → AcceptingWith own errs (tupleEncoder2 E0 E1) (s0, s1)

/-- Those assembled from the library alone. -/
abbrev Accepting (errs : Bool) (E : Encoder σ α) (s : σ) : Prop := AcceptingWith (fun _ _ _ _ => False) errs E s

/-- After any use: idle, it does not answer `EncoderFull` to `start_encoding`; and `encode` never fails with
`EncoderFull`. -/
def FullMeansBusy (errs : Bool) (E : Encoder σ α) (s₀ : σ) : Prop :=
  ∀ s, Used errs E s₀ s → (E.isIdle s = true → ∀ x, (E.start s x).1 ≠ .err .encoderFull) ∧
    (∀ cap e, (E.encode s cap e).1 ≠ .err .encoderFull)

/-- Encoders assembled from the library and from encoders of the user's own (in any state) whose user-supplied functions raise
kinds in `K` only; with `lim = false` without `max_bytes`, with `len = false` without `length`, with `pre = false`
without `pre_encode`. -/
inductive RaisingEncWith (own : (σ α : Type) → Encoder σ α → Prop) (lim len pre : Bool) (K : ErrorKind → Prop) :
    {σ α : Type} → Encoder σ α → Prop
  /-- an encoder of the user's own -/
  | own {σ α : Type} {E : Encoder σ α} : own σ α E → RaisingEncWith own lim len pre K E
  | bytes {β : Type} (asRef : β → Bytes) : RaisingEncWith own lim len pre K (bytesEncoder asRef).toEncoder
  | utf8 : RaisingEncWith own lim len pre K utf8Encoder.toEncoder
  | number {α : Type} (f : α → Except ErrorKind Bytes) : (∀ x k, f x = .error k → K k) →
      RaisingEncWith own lim len pre K (fixEncoder f).toEncoder
  | null : RaisingEncWith own lim len pre K nullEncoder.toEncoder
  | padding : RaisingEncWith own lim len pre K paddingEncoder
  | monolithic {α : Type} (ser : MonolithicSerializer α) : (∀ x k, (ser x).2 = .err k → K k) →
      RaisingEncWith own lim len pre K (monolithicEncoder ser)
  | mapErr {σ α : Type} {E : Encoder σ α} (f : ErrorKind → ErrorKind) : (∀ k, K (f k)) →
      RaisingEncWith own lim len pre K (mapErrEncoder E f)
  | mapFrom {σ α β : Type} {E : Encoder σ α} (f : β → α) : RaisingEncWith own lim len pre K E →
      RaisingEncWith own lim len pre K (mapFromEncoder E f)
  | tryMapFrom {σ α β : Type} {E : Encoder σ α} (f : β → Except ErrorKind α) : (∀ x k, f x = .error k → K k) →
      RaisingEncWith own lim len pre K E → RaisingEncWith own lim len pre K (tryMapFromEncoder E f)
  | repeated {σ α : Type} {E : Encoder σ α} : RaisingEncWith own lim len pre K E →
      RaisingEncWith own lim len pre K (repeatEncoder E)
  | optional {σ α : Type} {E : Encoder σ α} : RaisingEncWith own lim len pre K E →
      RaisingEncWith own lim len pre K (optionalEncoder E)
  | length {σ α : Type} {E : Encoder σ α} : len = true → RaisingEncWith own lim len pre K E →
      RaisingEncWith own lim len pre K (lengthEncoder E).toEncoder
  | maxBytes {σ α : Type} {E : Encoder σ α} : lim = true → RaisingEncWith own lim len pre K E →
      RaisingEncWith own lim len pre K (maxBytesEncoder E)
  | preEncode {σ α : Type} {E : Encoder σ α} : pre = true → RaisingEncWith own lim len pre K E →
      RaisingEncWith own lim len pre K (preEncodeEncoder E).toEncoder
  | slice {σ α : Type} {E : Encoder σ α} : RaisingEncWith own lim len pre K E →
      RaisingEncWith own lim len pre K (sliceEncoder E)
  | last {σ α : Type} {E : Encoder σ α} : RaisingEncWith own lim len pre K E →
      RaisingEncWith own lim len pre K (lastEncoder E)
  | pair {σ0 α0 σ1 α1 : Type} {E0 : Encoder σ0 α0} {E1 : Encoder σ1 α1} :
      RaisingEncWith own lim len pre K E0 → RaisingEncWith own lim len pre K E1 →
      RaisingEncWith own lim len pre K (tupleEncoder2 E0 E1)

/-- Those assembled from the library alone. -/
abbrev RaisingEnc (lim len pre : Bool) (K : ErrorKind → Prop) (E : Encoder σ α) : Prop :=
  RaisingEncWith (fun _ _ _ => False) lim len pre K E

/-- The kinds `encode` may fail with of itself, when it is told `e` about the end of the stream. -/
def EncodeKind (lim len pre : Bool) (e : Eos) : ErrorKind → Prop
  | .invalidInput => lim = true ∨ len = true ∨ pre = true
  | .unexpectedEos => e.isReached = true ∨ len = true ∨ pre = true
  | .encoderFull => True
  | .inconsistentState => pre = true
  | .other => pre = true
  | .decoderTerminated => False
  | .incompleteDecoding => False

/-- The kinds `start_encoding` may fail with of itself. -/
def StartKind (pre : Bool) : ErrorKind → Prop
  | .encoderFull => True
  | .invalidInput => pre = true
  | .unexpectedEos => pre = true
  | .inconsistentState => pre = true
  | .other => pre = true
  | .decoderTerminated => False
  | .incompleteDecoding => False

/-- Some call of the writer fails with an I/O error that becomes this kind. -/
def WriterRaises {ω : Type} (W : Writer ω) (k : ErrorKind) : Prop :=
  ∃ w b io w', W.write w b = (.error io, w') ∧ ErrorKind.ofIo io = k

/-- Encoders that hold one item at a time: no tuple, no `pre_encode`, no `length`. With `opt = false`,
without `optional`. -/
inductive Single (opt : Bool) : {σ α : Type} → Encoder σ α → Prop
  | bytes {β : Type} (asRef : β → Bytes) : Single opt (bytesEncoder asRef).toEncoder
  | utf8 : Single opt utf8Encoder.toEncoder
  | number {α : Type} (f : α → Except ErrorKind Bytes) : Single opt (fixEncoder f).toEncoder
  | null : Single opt nullEncoder.toEncoder
  | padding : Single opt paddingEncoder
  | monolithic {α : Type} (ser : MonolithicSerializer α) : Single opt (monolithicEncoder ser)
  | mapErr {σ α : Type} {E : Encoder σ α} (f : ErrorKind → ErrorKind) : Single opt E → Single opt (mapErrEncoder E f)
  | mapFrom {σ α β : Type} {E : Encoder σ α} (f : β → α) : Single opt E → Single opt (mapFromEncoder E f)
  | tryMapFrom {σ α β : Type} {E : Encoder σ α} (f : β → Except ErrorKind α) : Single opt E →
      Single opt (tryMapFromEncoder E f)
  | repeated {σ α : Type} {E : Encoder σ α} : Single opt (repeatEncoder E)
  | optional {σ α : Type} {E : Encoder σ α} : opt = true → Single opt E → Single opt (optionalEncoder E)
  | maxBytes {σ α : Type} {E : Encoder σ α} : Single opt E → Single opt (maxBytesEncoder E)
  | slice {σ α : Type} {E : Encoder σ α} : Single opt E → Single opt (sliceEncoder E)

end Bytecodec.Spec
