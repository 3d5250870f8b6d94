import Verif.Spec.Trace
import Verif.Model.Bytes
import Verif.Model.Tuple
import Verif.Model.EncCombinator
import Verif.Model.Captured
/-!
# Specification: codecs that can be exchanged for one another

`Alike` is what a caller can see; `Exchanged` replaces parts of a composition by parts that are alike.
-/
namespace Bytecodec.Spec

/-! ## Decoders -/

/-- Whatever calls a caller makes (also after errors), the two decoders give the same answers, and agree on
`is_idle` and `requiring_bytes`, now and after every call. -/
def Alike {σ τ α : Type} (D : Decoder σ α) (s : σ) (D' : Decoder τ α) (s' : τ) : Prop :=
  D.isIdle s = D'.isIdle s' ∧ D.requiring s = D'.requiring s' ∧
    ∀ calls, observe D s calls = observe D' s' calls

/-- The second decoder arises from the first by exchanging any number of parts for parts that are alike. -/
inductive Exchanged : {σ τ α : Type} → Decoder σ α → σ → Decoder τ α → τ → Prop
  | part {σ τ α : Type} {D : Decoder σ α} {s : σ} {D' : Decoder τ α} {s' : τ} : Alike D s D' s' →
      Exchanged D s D' s'
  | utf8 {σ τ : Type} {D : Decoder σ Bytes} {s : σ} {D' : Decoder τ Bytes} {s' : τ} : Exchanged D s D' s' →
      Exchanged (utf8Decoder D) s (utf8Decoder D') s'
  | map {σ τ α β : Type} {D : Decoder σ α} {s : σ} {D' : Decoder τ α} {s' : τ} (f : α → β) :
      Exchanged D s D' s' → Exchanged (mapDecoder D f) s (mapDecoder D' f) s'
  | tryMap {σ τ α β : Type} {D : Decoder σ α} {s : σ} {D' : Decoder τ α} {s' : τ}
      (f : α → Except ErrorKind β) :
      Exchanged D s D' s' → Exchanged (tryMapDecoder D f) s (tryMapDecoder D' f) s'
  | mapErr {σ τ α : Type} {D : Decoder σ α} {s : σ} {D' : Decoder τ α} {s' : τ}
      (f : ErrorKind → ErrorKind) :
      Exchanged D s D' s' → Exchanged (mapErrDecoder D f) s (mapErrDecoder D' f) s'
  | omittable {σ τ α : Type} {D : Decoder σ α} {s : σ} {D' : Decoder τ α} {s' : τ} (doOmit : Bool) :
      Exchanged D s D' s' → Exchanged (omittableDecoder D) ⟨s, doOmit⟩ (omittableDecoder D') ⟨s', doOmit⟩
  | length {σ τ α : Type} {D : Decoder σ α} {s : σ} {D' : Decoder τ α} {s' : τ} (n : Nat) :
      Exchanged D s D' s' → Exchanged (lengthDecoder D) (.new s n) (lengthDecoder D') (.new s' n)
  | maxBytes {σ τ α : Type} {D : Decoder σ α} {s : σ} {D' : Decoder τ α} {s' : τ} (n : Nat) :
      Exchanged D s D' s' → Exchanged (maxBytesDecoder D) (.new s n) (maxBytesDecoder D') (.new s' n)
  | slice {σ τ α : Type} {D : Decoder σ α} {s : σ} {D' : Decoder τ α} {s' : τ} (n : Nat) :
      Exchanged D s D' s' → Exchanged (sliceDecoder D) ⟨s, n⟩ (sliceDecoder D') ⟨s', n⟩
  | peekable {σ τ α : Type} {D : Decoder σ α} {s : σ} {D' : Decoder τ α} {s' : τ} :
      Exchanged D s D' s' → Exchanged (peekableDecoder D) ⟨s, none⟩ (peekableDecoder D') ⟨s', none⟩
  | maybeEos {σ τ α : Type} {D : Decoder σ α} {s : σ} {D' : Decoder τ α} {s' : τ} :
      Exchanged D s D' s' → Exchanged (maybeEosDecoder D) (.new s) (maybeEosDecoder D') (.new s')
  | collect {σ τ α : Type} {D : Decoder σ α} {s : σ} {D' : Decoder τ α} {s' : τ} :
      Exchanged D s D' s' → Exchanged (collectDecoder D) ⟨s, [], false⟩ (collectDecoder D') ⟨s', [], false⟩
  | collectN {σ τ α : Type} {D : Decoder σ α} {s : σ} {D' : Decoder τ α} {s' : τ} (n : Nat) :
      Exchanged D s D' s' → Exchanged (collectNDecoder D) (.new s n) (collectNDecoder D') (.new s' n)
  | pair {σ0 τ0 α0 σ1 τ1 α1 : Type} {D0 : Decoder σ0 α0} {s0 : σ0} {D0' : Decoder τ0 α0} {s0' : τ0}
      {D1 : Decoder σ1 α1} {s1 : σ1} {D1' : Decoder τ1 α1} {s1' : τ1} :
      Exchanged D0 s0 D0' s0' → Exchanged D1 s1 D1' s1' →
      Exchanged (tupleDecoder2 D0 D1) (s0, s1) (tupleDecoder2 D0' D1') (s0', s1')
  | andThen {σ0 τ0 α0 σ1 τ1 α1 : Type} {D0 : Decoder σ0 α0} {s0 : σ0} {D0' : Decoder τ0 α0} {s0' : τ0}
      {D1 : Decoder σ1 α1} {D1' : Decoder τ1 α1} (f : α0 → σ1) (f' : α0 → τ1) :
      Exchanged D0 s0 D0' s0' → (∀ x, Exchanged D1 (f x) D1' (f' x)) →
      Exchanged (andThenDecoder D0 D1 f) (s0, none) (andThenDecoder D0' D1' f') (s0', none)
  | captured {ε σ τ α : Type} (F : ε → Decoder σ α) (F' : ε → Decoder τ α) (x : ε) {s : σ} {s' : τ} :
      Exchanged (F x) s (F' x) s' → Exchanged (capturedDecoder F) (x, s) (capturedDecoder F') (x, s')

/-! ## Encoders -/

/-- The same for encoders. -/
def AlikeE {σ τ α : Type} (E : Encoder σ α) (s : σ) (E' : Encoder τ α) (s' : τ) : Prop :=
  E.isIdle s = E'.isIdle s' ∧ E.requiring s = E'.requiring s' ∧
    ∀ calls, observeE E s calls = observeE E' s' calls

/-- The second encoder arises from the first by exchanging any number of parts for parts that are alike. -/
inductive ExchangedE : {σ τ α : Type} → Encoder σ α → σ → Encoder τ α → τ → Prop
  | part {σ τ α : Type} {E : Encoder σ α} {s : σ} {E' : Encoder τ α} {s' : τ} : AlikeE E s E' s' →
      ExchangedE E s E' s'
  | mapErr {σ τ α : Type} {E : Encoder σ α} {s : σ} {E' : Encoder τ α} {s' : τ}
      (f : ErrorKind → ErrorKind) :
      ExchangedE E s E' s' → ExchangedE (mapErrEncoder E f) s (mapErrEncoder E' f) s'
  | mapFrom {σ τ α β : Type} {E : Encoder σ α} {s : σ} {E' : Encoder τ α} {s' : τ} (f : β → α) :
      ExchangedE E s E' s' → ExchangedE (mapFromEncoder E f) s (mapFromEncoder E' f) s'
  | tryMapFrom {σ τ α β : Type} {E : Encoder σ α} {s : σ} {E' : Encoder τ α} {s' : τ}
      (f : β → Except ErrorKind α) :
      ExchangedE E s E' s' → ExchangedE (tryMapFromEncoder E f) s (tryMapFromEncoder E' f) s'
  | repeat {σ τ α : Type} {E : Encoder σ α} {s : σ} {E' : Encoder τ α} {s' : τ} :
      ExchangedE E s E' s' → ExchangedE (repeatEncoder E) (.new s) (repeatEncoder E') (.new s')
  | optional {σ τ α : Type} {E : Encoder σ α} {s : σ} {E' : Encoder τ α} {s' : τ} :
      ExchangedE E s E' s' → ExchangedE (optionalEncoder E) s (optionalEncoder E') s'
  | length {σ τ α : Type} {E : Encoder σ α} {s : σ} {E' : Encoder τ α} {s' : τ} (n : Nat) :
      ExchangedE E s E' s' →
      ExchangedE (lengthEncoder E).toEncoder (.new s n) (lengthEncoder E').toEncoder (.new s' n)
  | maxBytes {σ τ α : Type} {E : Encoder σ α} {s : σ} {E' : Encoder τ α} {s' : τ} (n : Nat) :
      ExchangedE E s E' s' → ExchangedE (maxBytesEncoder E) (.new s n) (maxBytesEncoder E') (.new s' n)
  | preEncode {σ τ α : Type} {E : Encoder σ α} {s : σ} {E' : Encoder τ α} {s' : τ} :
      ExchangedE E s E' s' →
      ExchangedE (preEncodeEncoder E).toEncoder (.new s) (preEncodeEncoder E').toEncoder (.new s')
  | slice {σ τ α : Type} {E : Encoder σ α} {s : σ} {E' : Encoder τ α} {s' : τ} (n : Nat) :
      ExchangedE E s E' s' → ExchangedE (sliceEncoder E) ⟨s, n⟩ (sliceEncoder E') ⟨s', n⟩
  | last {σ τ α : Type} {E : Encoder σ α} {s : σ} {E' : Encoder τ α} {s' : τ} (x : α) :
      ExchangedE E s E' s' → ExchangedE (lastEncoder E) (.new s x) (lastEncoder E') (.new s' x)
  | pair {σ0 τ0 α0 σ1 τ1 α1 : Type} {E0 : Encoder σ0 α0} {s0 : σ0} {E0' : Encoder τ0 α0} {s0' : τ0}
      {E1 : Encoder σ1 α1} {s1 : σ1} {E1' : Encoder τ1 α1} {s1' : τ1} :
      ExchangedE E0 s0 E0' s0' → ExchangedE E1 s1 E1' s1' →
      ExchangedE (tupleEncoder2 E0 E1) (s0, s1) (tupleEncoder2 E0' E1') (s0', s1')

end Bytecodec.Spec
