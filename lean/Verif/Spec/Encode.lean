import Verif.Model.NullPadding
import Verif.Model.Tuple
import Verif.Model.EncCombinator
import Verif.Model.Fixnum
import Verif.Model.Monolithic
/-!
# Specification: encoders in use, and encoders assembled from the library
-/
namespace Bytecodec.Spec

variable {σ α β : Type}

/-! ## Encoders in use -/

/-- Any use of the encoder `E` from its initial state `s₀`: items are handed over whenever the encoder
is idle, `encode` is called with output buffers of any sizes, in any order. The end of the stream may be
announced with any buffer that has room for what is left.
`dom` are the items in question and `enc` their encodings.
`EncRun … s accepted emitted`: the encoder is now in state `s`; `accepted` is the concatenation of the
encodings of the items it accepted, `emitted` the concatenation of what its `encode` calls returned. -/
inductive EncRun (E : Encoder σ α) (dom : α → Prop) (enc : α → Except ErrorKind Bytes) (s₀ : σ) :
    σ → Bytes → Bytes → Prop
  | new : EncRun E dom enc s₀ s₀ [] []
  | start {s s' : σ} {accepted emitted b : Bytes} {x : α} : EncRun E dom enc s₀ s accepted emitted →
      E.isIdle s = true → dom x → enc x = .ok b → E.start s x = (.ok (), s') →
      EncRun E dom enc s₀ s' (accepted ++ b) emitted
  | encode {s s' : σ} {accepted emitted out : Bytes} {cap : Nat} {e : Eos} :
      EncRun E dom enc s₀ s accepted emitted →
      (e.isReached = true → accepted.length - emitted.length ≤ cap) →
      E.encode s cap e = (.ok out, s') → EncRun E dom enc s₀ s' accepted (emitted ++ out)

/-- Any sequence of successful `encode` calls from the state `s₀`, with output buffers of any sizes.
The end of the stream may be announced with any buffer that has room for what is left of `total` bytes.
`Drain … s out`: the encoder is now in state `s` and has emitted `out`. -/
inductive Drain (E : Encoder σ α) (total : Nat) (s₀ : σ) : σ → Bytes → Prop
  | new : Drain E total s₀ s₀ []
  | encode {s s' : σ} {out bs : Bytes} {cap : Nat} {e : Eos} : Drain E total s₀ s out →
      (e.isReached = true → total - out.length ≤ cap) → E.encode s cap e = (.ok bs, s') →
      Drain E total s₀ s' (out ++ bs)

/-- As `Drain`, with the number of calls that had a non-empty buffer. -/
inductive DrainIn (E : Encoder σ α) (total : Nat) (s₀ : σ) : Nat → σ → Bytes → Prop
  | new : DrainIn E total s₀ 0 s₀ []
  | encode {n : Nat} {s s' : σ} {out bs : Bytes} {cap : Nat} {e : Eos} : DrainIn E total s₀ n s out →
      (e.isReached = true → total - out.length ≤ cap) → E.encode s cap e = (.ok bs, s') →
      DrainIn E total s₀ (if cap = 0 then n else n + 1) s' (out ++ bs)

/-- The bytes written by a successful encoding. -/
def bytesOf : Except ErrorKind Bytes → Bytes
  | .ok b => b
  | .error _ => []

/-! ## The contract of an encoder -/

/-- What a user relies on when handing items to an encoder and draining it.
The encoder `E`, starting in state `s₀`, writes the item `x` as the bytes `b` when `enc x = .ok b` and
rejects it with error kind `k` when `enc x = .error k`, for the items in `dom`.
`strict`: an announced end of the stream that leaves too little room is reported as `UnexpectedEos`.

In every situation `EncRun … s accepted emitted`, `accepted.drop emitted.length` is what is still owed. -/
structure Emits (strict : Bool) (E : Encoder σ α) (s₀ : σ) (dom : α → Prop)
    (enc : α → Except ErrorKind Bytes) : Prop where
  /-- a new encoder is idle -/
  new : E.isIdle s₀ = true
  /-- what has been emitted is a prefix of the accepted encodings -/
  inOrder : ∀ {s accepted emitted}, EncRun E dom enc s₀ s accepted emitted → emitted <+: accepted
  /-- an idle encoder has emitted everything -/
  complete : ∀ {s accepted emitted}, EncRun E dom enc s₀ s accepted emitted →
    E.isIdle s = true → emitted = accepted
  /-- `encode` writes what is owed, as far as the buffer has room, and is idle afterwards iff
  everything fitted -/
  encode : ∀ {s accepted emitted cap e}, EncRun E dom enc s₀ s accepted emitted →
    (e.isReached = true → accepted.length - emitted.length ≤ cap) →
    ∃ s', E.encode s cap e = (.ok ((accepted.drop emitted.length).take cap), s') ∧
      (E.isIdle s' = true ↔ accepted.length - emitted.length ≤ cap)
  /-- the end of the stream comes too early -/
  tooShort : strict = true → ∀ {s accepted emitted cap e}, EncRun E dom enc s₀ s accepted emitted →
    e.isReached = true → cap < accepted.length - emitted.length →
    (E.encode s cap e).1 = .err .unexpectedEos
  /-- an idle encoder takes every item that has an encoding -/
  accepts : ∀ {s accepted emitted x b}, EncRun E dom enc s₀ s accepted emitted → E.isIdle s = true →
    dom x → enc x = .ok b → (E.start s x).1 = .ok ()
  /-- and rejects the others -/
  rejects : ∀ {s accepted emitted x k}, EncRun E dom enc s₀ s accepted emitted → E.isIdle s = true →
    dom x → enc x = .error k → (E.start s x).1 = .err k
  /-- `requiring_bytes` is the number of bytes owed, or unknown, and never unknown when idle -/
  requiring : ∀ {s accepted emitted}, EncRun E dom enc s₀ s accepted emitted →
    E.requiring s = .finite (accepted.length - emitted.length) ∨
    E.requiring s = .unknown ∧ E.isIdle s = false

/-- The contract of a `SizedEncode` implementor: also, both size queries always return the number of
bytes still owed. -/
structure EmitsSized (strict : Bool) (E : SizedEncoder σ α) (s₀ : σ) (dom : α → Prop)
    (enc : α → Except ErrorKind Bytes) : Prop extends Emits strict E.toEncoder s₀ dom enc where
  sizes : ∀ {s accepted emitted}, EncRun E.toEncoder dom enc s₀ s accepted emitted →
    E.exact s = accepted.length - emitted.length ∧
    E.requiring s = .finite (accepted.length - emitted.length)

/-! ## Encoders assembled from the library -/

/-- Which encoders of the user's own, in which initial states, may be parts, and what is said about
their items and encodings. -/
abbrev OwnEncoding := (strict : Bool) → (σ α : Type) → Encoder σ α → σ → (α → Prop) →
  (α → Except ErrorKind Bytes) → Prop

/-- The same for implementors of `SizedEncode`. -/
abbrev OwnSizedEncoding := (strict : Bool) → (σ α : Type) → SizedEncoder σ α → σ → (α → Prop) →
  (α → Except ErrorKind Bytes) → Prop

/-- `WritesWith own strict E s dom enc`: `E` is an encoder a user can write with the leaf encoders and
combinators of the crate and encoders of their own (see `own`), `s` is the state its constructors return, and `enc` says which bytes
(or which rejection) an item stands for; the claims are about the items in `dom`.
`strict` encoders report an announced end of the stream that comes too early as `UnexpectedEos`.

`Length`, `Slice`, `Last` and `PaddingEncoder` have theorems of their own. -/
inductive WritesWith (own : OwnEncoding) : (strict : Bool) → {σ α : Type} → Encoder σ α → σ → (α → Prop) →
    (α → Except ErrorKind Bytes) → Prop
  /-- an encoder of the user's own -/
  | own {strict : Bool} {σ α : Type} {E : Encoder σ α} {s : σ} {dom enc} : own strict σ α E s dom enc →
      WritesWith own strict E s dom enc
  | bytes {β : Type} (asRef : β → Bytes) (strict : Bool) :
      WritesWith own strict (bytesEncoder asRef).toEncoder .new (fun _ => True) (fun x => .ok (asRef x))
  | number {α : Type} (f : α → Except ErrorKind Bytes) (strict : Bool) :
      WritesWith own strict (fixEncoder f).toEncoder .new (fun _ => True) f
  | utf8 (strict : Bool) :
      WritesWith own strict utf8Encoder.toEncoder .new (fun _ => True) (fun x => .ok (utf8Bytes x))
  | null (strict : Bool) : WritesWith own strict nullEncoder.toEncoder () (fun _ => True) (fun _ => .ok [])
  /-- the serializer does not fail on the item -/
  | monolithic {α : Type} (ser : MonolithicSerializer α) :
      WritesWith own false (monolithicEncoder ser) .new (fun x => (ser x).2 = .ok ())
        (fun x => .ok (ser x).1.flatten)
  | mapErr {strict : Bool} {σ α : Type} {E : Encoder σ α} {s : σ} {dom enc} (f : ErrorKind → ErrorKind) :
      (strict = true → f .unexpectedEos = .unexpectedEos) → WritesWith own strict E s dom enc →
      WritesWith own strict (mapErrEncoder E f) s dom (fun x => (enc x).mapError f)
  | mapFrom {strict : Bool} {σ α β : Type} {E : Encoder σ α} {s : σ} {dom enc} (f : β → α) :
      WritesWith own strict E s dom enc →
      WritesWith own strict (mapFromEncoder E f) s (fun x => dom (f x)) (fun x => enc (f x))
  | tryMapFrom {strict : Bool} {σ α β : Type} {E : Encoder σ α} {s : σ} {dom enc}
      (f : β → Except ErrorKind α) : WritesWith own strict E s dom enc →
      WritesWith own strict (tryMapFromEncoder E f) s (fun x => ∀ y, f x = .ok y → dom y)
        (fun x => (f x).bind enc)
  | optional {strict : Bool} {σ α : Type} {E : Encoder σ α} {s : σ} {dom enc} : WritesWith own strict E s dom enc →
      WritesWith own strict (optionalEncoder E) s (fun o => ∀ x, o = some x → dom x)
        (fun o => match o with | some x => enc x | none => .ok [])
  /-- items of at most `n` bytes -/
  | maxBytes {strict : Bool} {σ α : Type} {E : Encoder σ α} {s : σ} {dom enc} (n : Nat) :
      WritesWith own strict E s dom enc →
      WritesWith own strict (maxBytesEncoder E) (.new s n)
        (fun x => dom x ∧ (bytesOf (enc x)).length ≤ n) enc
  /-- items of a size that fits into memory -/
  | preEncode {strict : Bool} {σ α : Type} {E : Encoder σ α} {s : σ} {dom enc} : WritesWith own strict E s dom enc →
      WritesWith own true (preEncodeEncoder E).toEncoder (.new s)
        (fun x => dom x ∧ (bytesOf (enc x)).length < 2 ^ 63) enc
  /-- sequences of items that are accepted and have at least one byte -/
  | repeated {strict : Bool} {σ α : Type} {E : Encoder σ α} {s : σ} {dom enc} : WritesWith own strict E s dom enc →
      WritesWith own strict (repeatEncoder E) (.new s)
        (fun xs => ∀ x ∈ xs, dom x ∧ ∃ b, enc x = .ok b ∧ b ≠ [])
        (fun xs => .ok (xs.flatMap fun x => bytesOf (enc x)))
  | pair {strict : Bool} {σ0 α0 σ1 α1 : Type} {E0 : Encoder σ0 α0} {E1 : Encoder σ1 α1} {s0 : σ0} {s1 : σ1}
      {dom0 enc0 dom1 enc1} : WritesWith own strict E0 s0 dom0 enc0 → WritesWith own strict E1 s1 dom1 enc1 →
      WritesWith own strict (tupleEncoder2 E0 E1) (s0, s1) (fun x => dom0 x.1 ∧ dom1 x.2)
        (fun x => (enc0 x.1).bind fun b0 => (enc1 x.2).bind fun b1 => .ok (b0 ++ b1))
  /-- fewer items, fewer claims -/
  | weaken {strict strict' : Bool} {σ α : Type} {E : Encoder σ α} {s : σ} {dom enc} {dom' : α → Prop}
      {enc' : α → Except ErrorKind Bytes} : WritesWith own strict E s dom enc →
      (∀ x, dom' x → dom x ∧ enc' x = enc x) → (strict' = true → strict = true) →
      WritesWith own strict' E s dom' enc'

/-- The encoders assembled from the library alone. -/
abbrev Writes (strict : Bool) (E : Encoder σ α) (s : σ) (dom : α → Prop)
    (enc : α → Except ErrorKind Bytes) : Prop := WritesWith (fun _ _ _ _ _ _ _ => False) strict E s dom enc

/-- The encoders of `WritesWith` that implement `SizedEncode`. -/
inductive SizedWritesWith (own : OwnEncoding) (ownSized : OwnSizedEncoding) : (strict : Bool) →
    {σ α : Type} → SizedEncoder σ α → σ → (α → Prop) → (α → Except ErrorKind Bytes) → Prop
  /-- an encoder of the user's own -/
  | own {strict : Bool} {σ α : Type} {E : SizedEncoder σ α} {s : σ} {dom enc} :
      ownSized strict σ α E s dom enc → SizedWritesWith own ownSized strict E s dom enc
  | bytes {β : Type} (asRef : β → Bytes) (strict : Bool) :
      SizedWritesWith own ownSized strict (bytesEncoder asRef) .new (fun _ => True) (fun x => .ok (asRef x))
  | number {α : Type} (f : α → Except ErrorKind Bytes) (strict : Bool) :
      SizedWritesWith own ownSized strict (fixEncoder f) .new (fun _ => True) f
  | utf8 (strict : Bool) :
      SizedWritesWith own ownSized strict utf8Encoder .new (fun _ => True) (fun x => .ok (utf8Bytes x))
  | null (strict : Bool) : SizedWritesWith own ownSized strict nullEncoder () (fun _ => True) (fun _ => .ok [])
  | mapErr {strict : Bool} {σ α : Type} {E : SizedEncoder σ α} {s : σ} {dom enc} (f : ErrorKind → ErrorKind) :
      (strict = true → f .unexpectedEos = .unexpectedEos) → SizedWritesWith own ownSized strict E s dom enc →
      SizedWritesWith own ownSized strict (sizedMapErrEncoder E f) s dom (fun x => (enc x).mapError f)
  | mapFrom {strict : Bool} {σ α β : Type} {E : SizedEncoder σ α} {s : σ} {dom enc} (f : β → α) :
      SizedWritesWith own ownSized strict E s dom enc →
      SizedWritesWith own ownSized strict (sizedMapFromEncoder E f) s (fun x => dom (f x)) (fun x => enc (f x))
  | tryMapFrom {strict : Bool} {σ α β : Type} {E : SizedEncoder σ α} {s : σ} {dom enc}
      (f : β → Except ErrorKind α) : SizedWritesWith own ownSized strict E s dom enc →
      SizedWritesWith own ownSized strict (sizedTryMapFromEncoder E f) s (fun x => ∀ y, f x = .ok y → dom y)
        (fun x => (f x).bind enc)
  | optional {strict : Bool} {σ α : Type} {E : SizedEncoder σ α} {s : σ} {dom enc} :
      SizedWritesWith own ownSized strict E s dom enc →
      SizedWritesWith own ownSized strict (sizedOptionalEncoder E) s (fun o => ∀ x, o = some x → dom x)
        (fun o => match o with | some x => enc x | none => .ok [])
  | maxBytes {strict : Bool} {σ α : Type} {E : SizedEncoder σ α} {s : σ} {dom enc} (n : Nat) :
      SizedWritesWith own ownSized strict E s dom enc →
      SizedWritesWith own ownSized strict (sizedMaxBytesEncoder E) (.new s n)
        (fun x => dom x ∧ (bytesOf (enc x)).length ≤ n) enc
  | preEncode {strict : Bool} {σ α : Type} {E : Encoder σ α} {s : σ} {dom enc} : WritesWith own strict E s dom enc →
      SizedWritesWith own ownSized true (preEncodeEncoder E) (.new s)
        (fun x => dom x ∧ (bytesOf (enc x)).length < 2 ^ 63) enc
  | pair {strict : Bool} {σ0 α0 σ1 α1 : Type} {E0 : SizedEncoder σ0 α0} {E1 : SizedEncoder σ1 α1}
      {s0 : σ0} {s1 : σ1} {dom0 enc0 dom1 enc1} : SizedWritesWith own ownSized strict E0 s0 dom0 enc0 →
      SizedWritesWith own ownSized strict E1 s1 dom1 enc1 →
      SizedWritesWith own ownSized strict (sizedTupleEncoder2 E0 E1) (s0, s1) (fun x => dom0 x.1 ∧ dom1 x.2)
        (fun x => (enc0 x.1).bind fun b0 => (enc1 x.2).bind fun b1 => .ok (b0 ++ b1))

/-- The encoders of `Writes` that implement `SizedEncode`. -/
abbrev SizedWrites (strict : Bool) (E : SizedEncoder σ α) (s : σ) (dom : α → Prop)
    (enc : α → Except ErrorKind Bytes) : Prop :=
  SizedWritesWith (fun _ _ _ _ _ _ _ => False) (fun _ _ _ _ _ _ _ => False) strict E s dom enc

end Bytecodec.Spec
