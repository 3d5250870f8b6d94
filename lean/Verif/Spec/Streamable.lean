import Verif.Spec.Assembled
import Verif.Spec.Bytewise
/-!
# Specification: decoders that can be fed piecewise

`Streamable ok p q D s` is `Assembled` with the side conditions under which the chunking properties
C07/C08 are claimed, all of them syntactic. `p = true`: self-delimiting, i.e. the end of an item is
recognised from the bytes alone and not by the end of the stream. `q = true`: built without `length`
and `maybe_eos`, the two combinators that can return `Ok` at the end of the stream while still waiting
for bytes (C09).
-/
namespace Bytecodec.Spec

/-- A parser that reads its whole input, and whose answer does not depend on how the input is split
between the two halves of the reader it is given (`json_codec`: trailing data is an error). -/
structure WholeParser {α : Type} (parse : MonolithicParser α) : Prop where
  chain : ∀ a b c, parse (a ++ b) c = parse a (b ++ c)
  whole : ∀ a b x, (parse a b).1 = .ok x → (parse a b).2 = a.length + b.length

/-- Decoders that can be fed piecewise, in their initial state, assembled from the library and from
decoders of the user's own that work byte by byte (`own`). Left out: `slice` (its allowance makes it
stop early by design, see C32). The length of `length` is a `u64`. -/
inductive Streamable (ok : Shape → Prop) : {σ α : Type} → Bool → Bool → Decoder σ α → σ → Prop
  | own {p : Bool} (q : Bool) {σ α : Type} {D : Decoder σ α} {I : σ → Prop} {s : σ} : Bytewise p D I → I s →
      Streamable ok p q D s
  | copyable (p q : Bool) (b : Bytes) : Streamable ok p q copyableBytesDecoder (.new b)
  | bytes (p q : Bool) (b : Bytes) : Streamable ok p q bytesDecoder (.new b)
  | remaining (q : Bool) : Streamable ok false q remainingBytesDecoder .new
  | null (p q : Bool) : Streamable ok p q nullDecoder ()
  | padding (q : Bool) (b : Option UInt8) : Streamable ok false q paddingDecoder (.new b)
  | number {α : Type} (p q : Bool) (f : Bytes → α) (k : Nat) : Streamable ok p q (fixDecoder f) (fixInit k)
  | monolithic {α : Type} (q : Bool) (parse : MonolithicParser α) : WholeParser parse →
      Streamable ok false q (monolithicDecoder parse) .new
  | utf8 {p q : Bool} {σ : Type} {D : Decoder σ Bytes} {s : σ} : Streamable ok p q D s →
      Streamable ok p q (utf8Decoder D) s
  | map {p q : Bool} {σ α β : Type} {D : Decoder σ α} {s : σ} (f : α → β) : Streamable ok p q D s →
      Streamable ok p q (mapDecoder D f) s
  | tryMap {p q : Bool} {σ α β : Type} {D : Decoder σ α} {s : σ} (f : α → Except ErrorKind β) :
      Streamable ok p q D s → Streamable ok p q (tryMapDecoder D f) s
  | mapErr {p q : Bool} {σ α : Type} {D : Decoder σ α} {s : σ} (f : ErrorKind → ErrorKind) :
      Streamable ok p q D s → Streamable ok p q (mapErrDecoder D f) s
  | omittable {p q : Bool} {σ α : Type} {D : Decoder σ α} {s : σ} (doOmit : Bool) :
      Streamable ok p q D s → Streamable ok p q (omittableDecoder D) ⟨s, doOmit⟩
  | length (p : Bool) {q r : Bool} {σ α : Type} {D : Decoder σ α} {s : σ} (n : Nat) : n < 2 ^ 64 →
      Streamable ok r q D s → Streamable ok p false (lengthDecoder D) (.new s n)
  | maxBytes {p q : Bool} {σ α : Type} {D : Decoder σ α} {s : σ} (n : Nat) : ok .maxBytes →
      Streamable ok p q D s → Streamable ok p q (maxBytesDecoder D) (.new s n)
  | peekable {p q : Bool} {σ α : Type} {D : Decoder σ α} {s : σ} :
      Streamable ok p q D s → Streamable ok p q (peekableDecoder D) ⟨s, none⟩
  | maybeEos {p q : Bool} {σ α : Type} {D : Decoder σ α} {s : σ} :
      Streamable ok p q D s → Streamable ok p false (maybeEosDecoder D) (.new s)
  | collect {q : Bool} {σ α : Type} {D : Decoder σ α} {s : σ} : ok .collect →
      (q = true ∨ ok .collectLax) →
      Streamable ok true q D s → Streamable ok false q (collectDecoder D) ⟨s, [], false⟩
  | collectN (p : Bool) {q : Bool} {σ α : Type} {D : Decoder σ α} {s : σ} (n : Nat) :
      Streamable ok true q D s → Streamable ok p q (collectNDecoder D) (.new s n)
  | pair {p q : Bool} {σ0 α0 σ1 α1 : Type} {D0 : Decoder σ0 α0} {D1 : Decoder σ1 α1} {s0 : σ0} {s1 : σ1} :
      Streamable ok p q D0 s0 → Streamable ok p q D1 s1 → Streamable ok p q (tupleDecoder2 D0 D1) (s0, s1)
  | andThen {p q : Bool} {σ0 α0 σ1 α1 : Type} {D0 : Decoder σ0 α0} {D1 : Decoder σ1 α1} {s0 : σ0}
      (f : α0 → σ1) : Streamable ok p q D0 s0 → (∀ x, Streamable ok p q D1 (f x)) →
      Streamable ok p q (andThenDecoder D0 D1 f) (s0, none)
  | captured {p q : Bool} {ε σ α : Type} (F : ε → Decoder σ α) (x : ε) {s : σ} : Streamable ok p q (F x) s →
      Streamable ok p q (capturedDecoder F) (x, s)

end Bytecodec.Spec
