import Verif.Spec.Encode
import Verif.Spec.Streamable
/-!
# Specification: matching encoder/decoder pairs

`Matched` lists the encoder/decoder pairs a user can write for the same format.
-/
namespace Bytecodec.Spec

/-- `Matched strict delim again E sE D sD dom enc`: `E` and `D`, in the states `sE` and `sD` returned by
their constructors, are for the same format; the claims are about the items in `dom`, which are
encoded as `enc` says. `strict` as in `Writes`. `delim`: the end of an item is recognised from the
bytes alone. `again`: the decoder can be used for more than one item. -/
inductive Matched : (strict delim again : Bool) → {σ τ α : Type} → Encoder σ α → σ → Decoder τ α → τ →
    (α → Prop) → (α → Except ErrorKind Bytes) → Prop
  /-- byte arrays of a fixed size -/
  | copyable (strict : Bool) (b : Bytes) : Matched strict true true (bytesEncoder (id : Bytes → Bytes)).toEncoder
      .new copyableBytesDecoder (.new b) (fun x => x.length = b.length) .ok
  | bytes (strict : Bool) (b : Bytes) : Matched strict true false (bytesEncoder (id : Bytes → Bytes)).toEncoder
      .new bytesDecoder (.new b) (fun x => x.length = b.length) .ok
  /-- everything up to the end of the stream, if it fits into memory -/
  | remaining (strict : Bool) : Matched strict false true (bytesEncoder (id : Bytes → Bytes)).toEncoder
      .new remainingBytesDecoder .new (fun x => x.length < 2 ^ 63) .ok
  /-- numbers: `g` reads what `f` writes -/
  | number (strict : Bool) {α : Type} (f : α → Except ErrorKind Bytes) (g : Bytes → α) (k : Nat) :
      (∀ x bs, f x = .ok bs → bs.length = k ∧ g bs = x) →
      Matched strict true true (fixEncoder f).toEncoder .new (fixDecoder g) (fixInit k) (fun _ => True) f
  | null (strict : Bool) : Matched strict true true nullEncoder.toEncoder () nullDecoder () (fun _ => True)
      (fun _ => .ok [])
  /-- the parser reads what the serializer writes -/
  | monolithic {α : Type} (ser : MonolithicSerializer α) (parse : MonolithicParser α) : WholeParser parse →
      (∀ x, (ser x).2 = .ok () → (parse [] (ser x).1.flatten).1 = .ok x) →
      Matched false false true (monolithicEncoder ser) .new (monolithicDecoder parse) .new
        (fun x => (ser x).2 = .ok ()) (fun x => .ok (ser x).1.flatten)
  /-- strings, over any decoder of byte strings that are sent as they are -/
  | utf8 {strict delim again : Bool} {σ τ : Type} {E : Encoder σ Bytes} {sE : σ} {D : Decoder τ Bytes}
      {sD : τ} {dom enc} (strict' : Bool) : (∀ b, dom b → enc b = .ok b) →
      Matched strict delim again E sE D sD dom enc →
      Matched strict' delim again utf8Encoder.toEncoder .new (utf8Decoder D) sD
        (fun x => dom (utf8Bytes x)) (fun x => .ok (utf8Bytes x))
  | mapErrEncoder {strict delim again : Bool} {σ τ α : Type} {E : Encoder σ α} {sE : σ} {D : Decoder τ α}
      {sD : τ} {dom enc} (f : ErrorKind → ErrorKind) : (strict = true → f .unexpectedEos = .unexpectedEos) →
      Matched strict delim again E sE D sD dom enc →
      Matched strict delim again (mapErrEncoder E f) sE D sD dom (fun x => (enc x).mapError f)
  | mapErrDecoder {strict delim again : Bool} {σ τ α : Type} {E : Encoder σ α} {sE : σ} {D : Decoder τ α}
      {sD : τ} {dom enc} (f : ErrorKind → ErrorKind) : Matched strict delim again E sE D sD dom enc →
      Matched strict delim again E sE (mapErrDecoder D f) sD dom enc
  | map {strict delim again : Bool} {σ τ α β : Type} {E : Encoder σ α} {sE : σ} {D : Decoder τ α}
      {sD : τ} {dom enc} (f : β → α) (g : α → β) : (∀ y, dom (f y) → g (f y) = y) →
      Matched strict delim again E sE D sD dom enc →
      Matched strict delim again (mapFromEncoder E f) sE (mapDecoder D g) sD (fun y => dom (f y))
        (fun y => enc (f y))
  | mapTry {strict delim again : Bool} {σ τ α β : Type} {E : Encoder σ α} {sE : σ} {D : Decoder τ α}
      {sD : τ} {dom enc} (f : β → α) (g : α → Except ErrorKind β) : (∀ y, dom (f y) → g (f y) = .ok y) →
      Matched strict delim again E sE D sD dom enc →
      Matched strict delim again (mapFromEncoder E f) sE (tryMapDecoder D g) sD (fun y => dom (f y))
        (fun y => enc (f y))
  | tryMap {strict delim again : Bool} {σ τ α β : Type} {E : Encoder σ α} {sE : σ} {D : Decoder τ α}
      {sD : τ} {dom enc} (f : β → Except ErrorKind α) (g : α → β) : (∀ y x, f y = .ok x → dom x → g x = y) →
      Matched strict delim again E sE D sD dom enc →
      Matched strict delim again (tryMapFromEncoder E f) sE (mapDecoder D g) sD
        (fun y => ∀ x, f y = .ok x → dom x) (fun y => (f y).bind enc)
  | tryMapTry {strict delim again : Bool} {σ τ α β : Type} {E : Encoder σ α} {sE : σ} {D : Decoder τ α}
      {sD : τ} {dom enc} (f : β → Except ErrorKind α) (g : α → Except ErrorKind β) :
      (∀ y x, f y = .ok x → dom x → g x = .ok y) →
      Matched strict delim again E sE D sD dom enc →
      Matched strict delim again (tryMapFromEncoder E f) sE (tryMapDecoder D g) sD
        (fun y => ∀ x, f y = .ok x → dom x) (fun y => (f y).bind enc)
  /-- the receiver knows that there is an item -/
  | present {strict delim again : Bool} {σ τ α : Type} {E : Encoder σ α} {sE : σ} {D : Decoder τ α}
      {sD : τ} {dom enc} : Matched strict delim again E sE D sD dom enc →
      Matched strict delim again (optionalEncoder E) sE (omittableDecoder D) ⟨sD, false⟩
        (fun o => ∃ x, o = some x ∧ dom x) (fun o => match o with | some x => enc x | none => .ok [])
  /-- the receiver knows that there is no item -/
  | absent {strict delim q : Bool} {σ τ α : Type} {E : Encoder σ α} {sE : σ} {dom enc} {D : Decoder τ α}
      {sD : τ} : Writes strict E sE dom enc → Streamable (fun _ => True) delim q D sD →
      Matched strict delim true (optionalEncoder E) sE (omittableDecoder D) ⟨sD, true⟩
        (fun o => o = none) (fun o => match o with | some x => enc x | none => .ok [])
  | maxBytesEncoder {strict delim again : Bool} {σ τ α : Type} {E : Encoder σ α} {sE : σ} {D : Decoder τ α}
      {sD : τ} {dom enc} (n : Nat) : Matched strict delim again E sE D sD dom enc →
      Matched strict delim again (maxBytesEncoder E) (.new sE n) D sD
        (fun x => dom x ∧ (bytesOf (enc x)).length ≤ n) enc
  | maxBytesDecoder {strict delim again : Bool} {σ τ α : Type} {E : Encoder σ α} {sE : σ} {D : Decoder τ α}
      {sD : τ} {dom enc} (n : Nat) : Matched strict delim again E sE D sD dom enc →
      Matched strict false again E sE (maxBytesDecoder D) (.new sD n)
        (fun x => dom x ∧ (bytesOf (enc x)).length ≤ n) enc
  /-- the receiver knows the length; any item-end convention becomes self-delimiting -/
  | length {strict delim again : Bool} {σ τ α : Type} {E : Encoder σ α} {sE : σ} {D : Decoder τ α}
      {sD : τ} {dom enc} (n : Nat) : n < 2 ^ 64 → Matched strict delim again E sE D sD dom enc →
      Matched strict true again E sE (lengthDecoder D) (.new sD n)
        (fun x => dom x ∧ (bytesOf (enc x)).length = n) enc
  | preEncode {strict delim again : Bool} {σ τ α : Type} {E : Encoder σ α} {sE : σ} {D : Decoder τ α}
      {sD : τ} {dom enc} : Matched strict delim again E sE D sD dom enc →
      Matched true delim again (preEncodeEncoder E).toEncoder (.new sE) D sD
        (fun x => dom x ∧ (bytesOf (enc x)).length < 2 ^ 63) enc
  | peekable {strict delim again : Bool} {σ τ α : Type} {E : Encoder σ α} {sE : σ} {D : Decoder τ α}
      {sD : τ} {dom enc} : Matched strict delim again E sE D sD dom enc →
      Matched strict delim again E sE (peekableDecoder D) ⟨sD, none⟩ dom enc
  | maybeEos {strict delim again : Bool} {σ τ α : Type} {E : Encoder σ α} {sE : σ} {D : Decoder τ α}
      {sD : τ} {dom enc} : Matched strict delim again E sE D sD dom enc →
      Matched strict delim again E sE (maybeEosDecoder D) (.new sD)
        (fun x => dom x ∧ (delim = true ∨ bytesOf (enc x) ≠ [])) enc
  /-- all items up to the end of the stream; each takes at least one byte -/
  | collect {strict : Bool} {σ τ α : Type} {E : Encoder σ α} {sE : σ} {D : Decoder τ α}
      {sD : τ} {dom enc} : Matched strict true true E sE D sD dom enc →
      Matched strict false true (repeatEncoder E) (.new sE) (collectDecoder D) ⟨sD, [], false⟩
        (fun xs => ∀ x ∈ xs, dom x ∧ ∃ b, enc x = .ok b ∧ b ≠ [])
        (fun xs => .ok (xs.flatMap fun x => bytesOf (enc x)))
  /-- `n` items; each takes at least one byte -/
  | collectN {strict : Bool} {σ τ α : Type} {E : Encoder σ α} {sE : σ} {D : Decoder τ α}
      {sD : τ} {dom enc} (n : Nat) : Matched strict true true E sE D sD dom enc →
      Matched strict true false (repeatEncoder E) (.new sE) (collectNDecoder D) (.new sD n)
        (fun xs => (∀ x ∈ xs, dom x ∧ ∃ b, enc x = .ok b ∧ b ≠ []) ∧ xs.length = n)
        (fun xs => .ok (xs.flatMap fun x => bytesOf (enc x)))
  | pair {strict delim again : Bool} {σ0 τ0 α0 σ1 τ1 α1 : Type} {E0 : Encoder σ0 α0} {sE0 : σ0}
      {D0 : Decoder τ0 α0} {sD0 : τ0} {dom0 enc0} {E1 : Encoder σ1 α1} {sE1 : σ1}
      {D1 : Decoder τ1 α1} {sD1 : τ1} {dom1 enc1} :
      Matched strict true again E0 sE0 D0 sD0 dom0 enc0 →
      Matched strict delim again E1 sE1 D1 sD1 dom1 enc1 →
      Matched strict delim again (tupleEncoder2 E0 E1) (sE0, sE1) (tupleDecoder2 D0 D1) (sD0, sD1)
        (fun x => dom0 x.1 ∧ dom1 x.2)
        (fun x => (enc0 x.1).bind fun b0 => (enc1 x.2).bind fun b1 => .ok (b0 ++ b1))
  /-- a header `key x` (a length, a tag, …) computed by the sender, from which the receiver chooses
  the decoder of the rest -/
  | header {strict delim again again1 : Bool} {σ0 τ0 α0 σ1 τ1 α1 : Type} {E0 : Encoder σ0 α0} {sE0 : σ0}
      {D0 : Decoder τ0 α0} {sD0 : τ0} {dom0 enc0} {E1 : Encoder σ1 α1} {sE1 : σ1}
      {D1 : Decoder τ1 α1} {dom1 enc1} (key : α1 → α0) (choose : α0 → τ1) :
      Matched strict true again E0 sE0 D0 sD0 dom0 enc0 →
      Writes strict E1 sE1 dom1 enc1 →
      (∀ k, Matched strict delim again1 E1 sE1 D1 (choose k) (fun x => dom1 x ∧ dom0 (key x) ∧ key x = k) enc1) →
      Matched strict delim again (mapFromEncoder (tupleEncoder2 E0 E1) fun x => (key x, x)) (sE0, sE1)
        (andThenDecoder D0 D1 choose) (sD0, none)
        (fun x => dom0 (key x) ∧ dom1 x)
        (fun x => (enc0 (key x)).bind fun b0 => (enc1 x).bind fun b1 => .ok (b0 ++ b1))
  /-- functions that undo each other on some items only -/
  | mapOn {strict delim again : Bool} {σ τ α β : Type} {E : Encoder σ α} {sE : σ} {D : Decoder τ α}
      {sD : τ} {dom enc} {dom' : β → Prop} (f : β → α) (g : α → β) : (∀ y, dom' y → dom (f y) ∧ g (f y) = y) →
      Matched strict delim again E sE D sD dom enc →
      Matched strict delim again (mapFromEncoder E f) sE (mapDecoder D g) sD dom' (fun y => enc (f y))
  /-- the functions of the decoder have captured a value -/
  | captured {strict delim again : Bool} {ε σ τ α : Type} {E : Encoder σ α} {sE : σ} (F : ε → Decoder τ α) (v : ε)
      {sD : τ} {dom enc} : Matched strict delim again E sE (F v) sD dom enc →
      Matched strict delim again E sE (capturedDecoder F) (v, sD) dom enc
  /-- fewer items, fewer claims -/
  | weaken {strict delim again strict' delim' again' : Bool} {σ τ α : Type} {E : Encoder σ α} {sE : σ}
      {D : Decoder τ α} {sD : τ} {dom enc} {dom' : α → Prop} {enc' : α → Except ErrorKind Bytes} :
      Matched strict delim again E sE D sD dom enc → (∀ x, dom' x → dom x ∧ enc' x = enc x) →
      (strict' = true → strict = true) → (delim' = true → delim = true) → (again' = true → again = true) →
      Matched strict' delim' again' E sE D sD dom' enc'

end Bytecodec.Spec
