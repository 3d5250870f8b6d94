import Verif.Spec.Trace
import Verif.Model.Bytes
import Verif.Model.Tuple
import Verif.Model.EncCombinator
import Verif.Model.Captured
/-!
# Specification: codecs without their limits and checks

`Stripped D s D' s'`: the second decoder is the first one after taking out any number of `max_bytes`, `map_err` and
checks, at any depth. A check is a `try_map` that gives back the item or an error.
-/
namespace Bytecodec.Spec

/-- The answer is no error (nor a panic). -/
def Answer.isOk {α : Type} : Answer α → Bool
  | .decode (.ok _) => true
  | .finish (.ok _) => true
  | _ => false

/-- The same for encoders. -/
def EAnswer.isOk : EAnswer → Bool
  | .start (.ok _) => true
  | .encode (.ok _) => true
  | _ => false

/-- A conversion that gives back the item or an error. -/
def Checks {α : Type} (f : α → Except ErrorKind α) : Prop := ∀ x y, f x = .ok y → y = x

/-- The second decoder arises from the first by taking out limits, checks and conversions of errors. -/
inductive Stripped : {σ τ α : Type} → Decoder σ α → σ → Decoder τ α → τ → Prop
  /-- nothing is taken out -/
  | same {σ α : Type} {D : Decoder σ α} {s : σ} : Stripped D s D s
  /-- a limit is taken out -/
  | maxBytes {σ τ α : Type} {D : Decoder σ α} {s : σ} {D' : Decoder τ α} {s' : τ} (n : Nat) :
      Stripped D s D' s' → Stripped (maxBytesDecoder D) (.new s n) D' s'
  /-- a check is taken out -/
  | check {σ τ α : Type} {D : Decoder σ α} {s : σ} {D' : Decoder τ α} {s' : τ}
      (f : α → Except ErrorKind α) : Checks f →
      Stripped D s D' s' → Stripped (tryMapDecoder D f) s D' s'
  /-- a conversion of errors is taken out -/
  | mapErr {σ τ α : Type} {D : Decoder σ α} {s : σ} {D' : Decoder τ α} {s' : τ}
      (f : ErrorKind → ErrorKind) :
      Stripped D s D' s' → Stripped (mapErrDecoder D f) s D' s'
  | keepMaxBytes {σ τ α : Type} {D : Decoder σ α} {s : σ} {D' : Decoder τ α} {s' : τ} (n : Nat) :
      Stripped D s D' s' → Stripped (maxBytesDecoder D) (.new s n) (maxBytesDecoder D') (.new s' n)
  | keepMapErr {σ τ α : Type} {D : Decoder σ α} {s : σ} {D' : Decoder τ α} {s' : τ}
      (f : ErrorKind → ErrorKind) :
      Stripped D s D' s' → Stripped (mapErrDecoder D f) s (mapErrDecoder D' f) s'
  | utf8 {σ τ : Type} {D : Decoder σ Bytes} {s : σ} {D' : Decoder τ Bytes} {s' : τ} : Stripped D s D' s' →
      Stripped (utf8Decoder D) s (utf8Decoder D') s'
  | map {σ τ α β : Type} {D : Decoder σ α} {s : σ} {D' : Decoder τ α} {s' : τ} (f : α → β) :
      Stripped D s D' s' → Stripped (mapDecoder D f) s (mapDecoder D' f) s'
  | tryMap {σ τ α β : Type} {D : Decoder σ α} {s : σ} {D' : Decoder τ α} {s' : τ}
      (f : α → Except ErrorKind β) :
      Stripped D s D' s' → Stripped (tryMapDecoder D f) s (tryMapDecoder D' f) s'
  | omittable {σ τ α : Type} {D : Decoder σ α} {s : σ} {D' : Decoder τ α} {s' : τ} (doOmit : Bool) :
      Stripped D s D' s' → Stripped (omittableDecoder D) ⟨s, doOmit⟩ (omittableDecoder D') ⟨s', doOmit⟩
  | length {σ τ α : Type} {D : Decoder σ α} {s : σ} {D' : Decoder τ α} {s' : τ} (n : Nat) :
      Stripped D s D' s' → Stripped (lengthDecoder D) (.new s n) (lengthDecoder D') (.new s' n)
  | slice {σ τ α : Type} {D : Decoder σ α} {s : σ} {D' : Decoder τ α} {s' : τ} (n : Nat) :
      Stripped D s D' s' → Stripped (sliceDecoder D) ⟨s, n⟩ (sliceDecoder D') ⟨s', n⟩
  | peekable {σ τ α : Type} {D : Decoder σ α} {s : σ} {D' : Decoder τ α} {s' : τ} :
      Stripped D s D' s' → Stripped (peekableDecoder D) ⟨s, none⟩ (peekableDecoder D') ⟨s', none⟩
  | maybeEos {σ τ α : Type} {D : Decoder σ α} {s : σ} {D' : Decoder τ α} {s' : τ} :
      Stripped D s D' s' → Stripped (maybeEosDecoder D) (.new s) (maybeEosDecoder D') (.new s')
  | collect {σ τ α : Type} {D : Decoder σ α} {s : σ} {D' : Decoder τ α} {s' : τ} :
      Stripped D s D' s' → Stripped (collectDecoder D) ⟨s, [], false⟩ (collectDecoder D') ⟨s', [], false⟩
  | collectN {σ τ α : Type} {D : Decoder σ α} {s : σ} {D' : Decoder τ α} {s' : τ} (n : Nat) :
      Stripped D s D' s' → Stripped (collectNDecoder D) (.new s n) (collectNDecoder D') (.new s' n)
  | pair {σ0 τ0 α0 σ1 τ1 α1 : Type} {D0 : Decoder σ0 α0} {s0 : σ0} {D0' : Decoder τ0 α0} {s0' : τ0}
      {D1 : Decoder σ1 α1} {s1 : σ1} {D1' : Decoder τ1 α1} {s1' : τ1} :
      Stripped D0 s0 D0' s0' → Stripped D1 s1 D1' s1' →
      Stripped (tupleDecoder2 D0 D1) (s0, s1) (tupleDecoder2 D0' D1') (s0', s1')
  | andThen {σ0 τ0 α0 σ1 τ1 α1 : Type} {D0 : Decoder σ0 α0} {s0 : σ0} {D0' : Decoder τ0 α0} {s0' : τ0}
      {D1 : Decoder σ1 α1} {D1' : Decoder τ1 α1} (f : α0 → σ1) (f' : α0 → τ1) :
      Stripped D0 s0 D0' s0' → (∀ x, Stripped D1 (f x) D1' (f' x)) →
      Stripped (andThenDecoder D0 D1 f) (s0, none) (andThenDecoder D0' D1' f') (s0', none)
  | captured {ε σ τ α : Type} (F : ε → Decoder σ α) (F' : ε → Decoder τ α) (x : ε) {s : σ} {s' : τ} :
      Stripped (F x) s (F' x) s' → Stripped (capturedDecoder F) (x, s) (capturedDecoder F') (x, s')

/-- The same for encoders; a check is a `try_map_from`. -/
inductive StrippedE : {σ τ α : Type} → Encoder σ α → σ → Encoder τ α → τ → Prop
  | same {σ α : Type} {E : Encoder σ α} {s : σ} : StrippedE E s E s
  | maxBytes {σ τ α : Type} {E : Encoder σ α} {s : σ} {E' : Encoder τ α} {s' : τ} (n : Nat) :
      StrippedE E s E' s' → StrippedE (maxBytesEncoder E) (.new s n) E' s'
  | check {σ τ α : Type} {E : Encoder σ α} {s : σ} {E' : Encoder τ α} {s' : τ}
      (f : α → Except ErrorKind α) : Checks f →
      StrippedE E s E' s' → StrippedE (tryMapFromEncoder E f) s E' s'
  | mapErr {σ τ α : Type} {E : Encoder σ α} {s : σ} {E' : Encoder τ α} {s' : τ}
      (f : ErrorKind → ErrorKind) :
      StrippedE E s E' s' → StrippedE (mapErrEncoder E f) s E' s'
  | keepMaxBytes {σ τ α : Type} {E : Encoder σ α} {s : σ} {E' : Encoder τ α} {s' : τ} (n : Nat) :
      StrippedE E s E' s' → StrippedE (maxBytesEncoder E) (.new s n) (maxBytesEncoder E') (.new s' n)
  | keepMapErr {σ τ α : Type} {E : Encoder σ α} {s : σ} {E' : Encoder τ α} {s' : τ}
      (f : ErrorKind → ErrorKind) :
      StrippedE E s E' s' → StrippedE (mapErrEncoder E f) s (mapErrEncoder E' f) s'
  | mapFrom {σ τ α β : Type} {E : Encoder σ α} {s : σ} {E' : Encoder τ α} {s' : τ} (f : β → α) :
      StrippedE E s E' s' → StrippedE (mapFromEncoder E f) s (mapFromEncoder E' f) s'
  | tryMapFrom {σ τ α β : Type} {E : Encoder σ α} {s : σ} {E' : Encoder τ α} {s' : τ}
      (f : β → Except ErrorKind α) :
      StrippedE E s E' s' → StrippedE (tryMapFromEncoder E f) s (tryMapFromEncoder E' f) s'
  | repeat {σ τ α : Type} {E : Encoder σ α} {s : σ} {E' : Encoder τ α} {s' : τ} :
      StrippedE E s E' s' → StrippedE (repeatEncoder E) (.new s) (repeatEncoder E') (.new s')
  | optional {σ τ α : Type} {E : Encoder σ α} {s : σ} {E' : Encoder τ α} {s' : τ} :
      StrippedE E s E' s' → StrippedE (optionalEncoder E) s (optionalEncoder E') s'
  | length {σ τ α : Type} {E : Encoder σ α} {s : σ} {E' : Encoder τ α} {s' : τ} (n : Nat) :
      StrippedE E s E' s' →
      StrippedE (lengthEncoder E).toEncoder (.new s n) (lengthEncoder E').toEncoder (.new s' n)
  | preEncode {σ τ α : Type} {E : Encoder σ α} {s : σ} {E' : Encoder τ α} {s' : τ} :
      StrippedE E s E' s' →
      StrippedE (preEncodeEncoder E).toEncoder (.new s) (preEncodeEncoder E').toEncoder (.new s')
  | slice {σ τ α : Type} {E : Encoder σ α} {s : σ} {E' : Encoder τ α} {s' : τ} (n : Nat) :
      StrippedE E s E' s' → StrippedE (sliceEncoder E) ⟨s, n⟩ (sliceEncoder E') ⟨s', n⟩
  | last {σ τ α : Type} {E : Encoder σ α} {s : σ} {E' : Encoder τ α} {s' : τ} (x : α) :
      StrippedE E s E' s' → StrippedE (lastEncoder E) (.new s x) (lastEncoder E') (.new s' x)
  | pair {σ0 τ0 α0 σ1 τ1 α1 : Type} {E0 : Encoder σ0 α0} {s0 : σ0} {E0' : Encoder τ0 α0} {s0' : τ0}
      {E1 : Encoder σ1 α1} {s1 : σ1} {E1' : Encoder τ1 α1} {s1' : τ1} :
      StrippedE E0 s0 E0' s0' → StrippedE E1 s1 E1' s1' →
      StrippedE (tupleEncoder2 E0 E1) (s0, s1) (tupleEncoder2 E0' E1') (s0', s1')

end Bytecodec.Spec
