import Verif.Spec.Trace
import Verif.Spec.Encode
import Verif.Spec.AssembledEnc
import Verif.Spec.Assembled
/-!
# Specification: codecs that are as new after each item
-/
namespace Bytecodec.Spec

variable {σ α : Type}

/-! ## Decoders -/

/-- A caller cannot tell the two states apart, now or by any calls. -/
def Same (D : Decoder σ α) (s t : σ) : Prop :=
  D.isIdle s = D.isIdle t ∧ D.requiring s = D.requiring t ∧ ∀ calls, observe D s calls = observe D t calls

/-- The decoder has been given any bytes in any number of successful `decode` calls, none of them made
while it was holding an item (but a new decoder may be idle: `null` is). -/
inductive Fed (D : Decoder σ α) (s₀ : σ) : σ → Prop
  | new : Fed D s₀ s₀
  | decode {s s' : σ} {b : Bytes} {e : Eos} {n : Nat} : Fed D s₀ s →
      (D.isIdle s = true → s = s₀) → D.decode s b e = (.ok n, s') → Fed D s₀ s'

/-- As `Fed`, with every call as `P` demands. -/
inductive FedWith (P : Bytes → Eos → Prop) (D : Decoder σ α) (s₀ : σ) : σ → Prop
  | new : FedWith P D s₀ s₀
  | decode {s s' : σ} {b : Bytes} {e : Eos} {n : Nat} : FedWith P D s₀ s → P b e →
      (D.isIdle s = true → s = s₀) → D.decode s b e = (.ok n, s') → FedWith P D s₀ s'

/-- The call that announces the end of the stream brings bytes. -/
def EndsWithBytes (b : Bytes) (e : Eos) : Prop := e.isReached = true → b ≠ []

/-- As `Fed`, for a `slice` decoder: between any two calls the caller may set a new allowance. -/
inductive FedSlice (D : Decoder σ α) (s₀ : σ) : SliceState σ → Prop
  | new : FedSlice D s₀ (.new s₀)
  | allow {s : SliceState σ} (n : Nat) : FedSlice D s₀ s → FedSlice D s₀ (s.setConsumableBytes n)
  | decode {s s' : SliceState σ} {b : Bytes} {e : Eos} {n : Nat} : FedSlice D s₀ s →
      ((sliceDecoder D).isIdle s = true → s.inner = s₀) → (sliceDecoder D).decode s b e = (.ok n, s') →
      FedSlice D s₀ s'

/-- Decoders that are meant to be used for one item after the other, in their initial state, assembled
from the library and from decoders of the user's own (`own`). Left out: `bytes` and `collectn`
(one-shot, C16 and C24), `slice` (its allowance is not part of an item), and `collect` (see `C23_leaks_fails`); except as the second part of `and_then`,
which may be anything, for it is made anew for each item. -/
inductive ReusableWith (own : OwnDecoder) : {σ α : Type} → Decoder σ α → σ → Prop
  /-- a decoder of the user's own -/
  | own {σ α : Type} {D : Decoder σ α} {s : σ} : own σ α D s → ReusableWith own D s
  | copyable (b : Bytes) : ReusableWith own copyableBytesDecoder (.new b)
  | remaining : ReusableWith own remainingBytesDecoder .new
  | null : ReusableWith own nullDecoder ()
  | padding (b : Option UInt8) : ReusableWith own paddingDecoder (.new b)
  | number {α : Type} (f : Bytes → α) (k : Nat) : ReusableWith own (fixDecoder f) (fixInit k)
  | monolithic {α : Type} (parse : MonolithicParser α) : ReusableWith own (monolithicDecoder parse) .new
  | utf8 {σ : Type} {D : Decoder σ Bytes} {s : σ} : ReusableWith own D s → ReusableWith own (utf8Decoder D) s
  | map {σ α β : Type} {D : Decoder σ α} {s : σ} (f : α → β) : ReusableWith own D s → ReusableWith own (mapDecoder D f) s
  | tryMap {σ α β : Type} {D : Decoder σ α} {s : σ} (f : α → Except ErrorKind β) :
      ReusableWith own D s → ReusableWith own (tryMapDecoder D f) s
  | mapErr {σ α : Type} {D : Decoder σ α} {s : σ} (f : ErrorKind → ErrorKind) :
      ReusableWith own D s → ReusableWith own (mapErrDecoder D f) s
  | omittable {σ α : Type} {D : Decoder σ α} {s : σ} (doOmit : Bool) :
      ReusableWith own D s → ReusableWith own (omittableDecoder D) ⟨s, doOmit⟩
  | length {σ α : Type} {D : Decoder σ α} {s : σ} (n : Nat) : ReusableWith own D s →
      ReusableWith own (lengthDecoder D) (.new s n)
  | maxBytes {σ α : Type} {D : Decoder σ α} {s : σ} (n : Nat) : ReusableWith own D s →
      ReusableWith own (maxBytesDecoder D) (.new s n)
  | peekable {σ α : Type} {D : Decoder σ α} {s : σ} : ReusableWith own D s →
      ReusableWith own (peekableDecoder D) ⟨s, none⟩
  | maybeEos {σ α : Type} {D : Decoder σ α} {s : σ} : ReusableWith own D s →
      ReusableWith own (maybeEosDecoder D) (.new s)
  | pair {σ0 α0 σ1 α1 : Type} {D0 : Decoder σ0 α0} {D1 : Decoder σ1 α1} {s0 : σ0} {s1 : σ1} :
      ReusableWith own D0 s0 → ReusableWith own D1 s1 → ReusableWith own (tupleDecoder2 D0 D1) (s0, s1)
  | andThen {σ0 α0 σ1 α1 : Type} {D0 : Decoder σ0 α0} (D1 : Decoder σ1 α1) {s0 : σ0} (f : α0 → σ1) :
      ReusableWith own D0 s0 → ReusableWith own (andThenDecoder D0 D1 f) (s0, none)
  | captured {ε σ α : Type} (F : ε → Decoder σ α) (x : ε) {s : σ} : ReusableWith own (F x) s →
      ReusableWith own (capturedDecoder F) (x, s)

/-- Those assembled from the library alone. -/
abbrev Reusable (D : Decoder σ α) (s : σ) : Prop := ReusableWith (fun _ _ _ _ => False) D s

/-- After each item, a caller cannot tell the decoder from a new one. -/
def AsNew (D : Decoder σ α) (s₀ : σ) : Prop :=
  ∀ s x s', Fed D s₀ s → D.finish s = (.ok x, s') → Same D s' s₀

/-! ## Encoders -/

/-- A caller cannot tell the two states apart, now or by any calls. -/
def SameE (E : Encoder σ α) (s t : σ) : Prop :=
  E.isIdle s = E.isIdle t ∧ E.requiring s = E.requiring t ∧ ∀ calls, observeE E s calls = observeE E t calls

/-- The encoder has been used in any way, without an error. -/
inductive Ran (E : Encoder σ α) (s₀ : σ) : σ → Prop
  | new : Ran E s₀ s₀
  | start {s s' : σ} {x : α} : Ran E s₀ s → E.start s x = (.ok (), s') → Ran E s₀ s'
  | encode {s s' : σ} {cap : Nat} {e : Eos} {bs : Bytes} : Ran E s₀ s → E.encode s cap e = (.ok bs, s') →
      Ran E s₀ s'

/-- Encoders that are meant to be used for one item after the other, in their initial state, assembled
from the library and from encoders of the user's own (`own`). Left out: `length` (see
`C26_reuse_fails`), `last` (by design), and `slice` (its allowance is not part of an item). -/
inductive ReusableEncWith (own : OwnEncoder) : {σ α : Type} → Encoder σ α → σ → Prop
  /-- an encoder of the user's own -/
  | own {σ α : Type} {E : Encoder σ α} {s : σ} : own σ α E s → ReusableEncWith own E s
  | bytes {β : Type} (asRef : β → Bytes) : ReusableEncWith own (bytesEncoder asRef).toEncoder .new
  | utf8 : ReusableEncWith own utf8Encoder.toEncoder .new
  | number {α : Type} (f : α → Except ErrorKind Bytes) : ReusableEncWith own (fixEncoder f).toEncoder .new
  | null : ReusableEncWith own nullEncoder.toEncoder ()
  | padding : ReusableEncWith own paddingEncoder none
  | monolithic {α : Type} (ser : MonolithicSerializer α) : ReusableEncWith own (monolithicEncoder ser) .new
  | mapErr {σ α : Type} {E : Encoder σ α} {s : σ} (f : ErrorKind → ErrorKind) : ReusableEncWith own E s →
      ReusableEncWith own (mapErrEncoder E f) s
  | mapFrom {σ α β : Type} {E : Encoder σ α} {s : σ} (f : β → α) : ReusableEncWith own E s →
      ReusableEncWith own (mapFromEncoder E f) s
  | tryMapFrom {σ α β : Type} {E : Encoder σ α} {s : σ} (f : β → Except ErrorKind α) : ReusableEncWith own E s →
      ReusableEncWith own (tryMapFromEncoder E f) s
  | repeat {σ α : Type} {E : Encoder σ α} {s : σ} : ReusableEncWith own E s →
      ReusableEncWith own (repeatEncoder E) (.new s)
  | optional {σ α : Type} {E : Encoder σ α} {s : σ} : ReusableEncWith own E s →
      ReusableEncWith own (optionalEncoder E) s
  | maxBytes {σ α : Type} {E : Encoder σ α} {s : σ} (n : Nat) : ReusableEncWith own E s →
      ReusableEncWith own (maxBytesEncoder E) (.new s n)
  | preEncode {σ α : Type} {E : Encoder σ α} {s : σ} : ReusableEncWith own E s →
      ReusableEncWith own (preEncodeEncoder E).toEncoder (.new s)
  | pair {σ0 α0 σ1 α1 : Type} {E0 : Encoder σ0 α0} {E1 : Encoder σ1 α1} {s0 : σ0} {s1 : σ1} :
      ReusableEncWith own E0 s0 → ReusableEncWith own E1 s1 → ReusableEncWith own (tupleEncoder2 E0 E1) (s0, s1)

/-- Those assembled from the library alone. -/
abbrev ReusableEnc (E : Encoder σ α) (s : σ) : Prop := ReusableEncWith (fun _ _ _ _ => False) E s

/-- Whenever all is written, a caller cannot tell the encoder from a new one. -/
structure AsNewEnc (E : Encoder σ α) (s₀ : σ) : Prop where
  idle : E.isIdle s₀ = true
  asNew : ∀ s, Ran E s₀ s → E.isIdle s = true → SameE E s s₀
  /-- a further item does not make a busy encoder idle -/
  busy : ∀ s x s', Ran E s₀ s → E.isIdle s = false → E.start s x = (.ok (), s') → E.isIdle s' = false

end Bytecodec.Spec
