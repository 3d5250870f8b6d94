import Verif.Model.Bytes
import Verif.Model.NullPadding
import Verif.Model.Tuple
import Verif.Model.DecCombinator
import Verif.Model.Captured
import Verif.Model.Fixnum
import Verif.Model.Monolithic
import Verif.Spec.Decode
/-!
# Specification: decoders assembled from the library

`Assembled ok D s`: `D` is a decoder a user can write with the leaf decoders and combinators of the
crate, and `s` is the state its constructors return. `ok` restricts the building blocks, so that a
theorem can say which of them it covers.
-/
namespace Bytecodec.Spec

/-- The building blocks. (`collectLax` is not one of its own: see `Streamable.collect`.) -/
inductive Shape where
  | copyable | bytes | remaining | null | padding | number | utf8 | monolithic
  | map | tryMap | mapErr | omittable | length | maxBytes | slice | peekable | maybeEos
  | collect | collectLax | collectN | pair | andThen
deriving DecidableEq, Repr

/-- A class of decoders (given with their initial state) that are not part of the library. -/
abbrev OwnDecoder := (σ α : Type) → Decoder σ α → σ → Prop

/-- Decoders assembled from the library and from decoders of the user's own (any implementation of
`Decode` in the class `own`), in their initial state. Tuples of arity 3 to 8 are nested pairs
(`C19_tuple_nested`). Fixed-width numbers are `fixDecoder f` for the respective conversion. -/
inductive AssembledWith (own : OwnDecoder) (ok : Shape → Prop) : {σ α : Type} → Decoder σ α → σ → Prop
  | own {σ α : Type} {D : Decoder σ α} {s : σ} : own σ α D s → AssembledWith own ok D s
  | copyable (b : Bytes) : ok .copyable → AssembledWith own ok copyableBytesDecoder (.new b)
  | bytes (b : Bytes) : ok .bytes → AssembledWith own ok bytesDecoder (.new b)
  | remaining : ok .remaining → AssembledWith own ok remainingBytesDecoder .new
  | null : ok .null → AssembledWith own ok nullDecoder ()
  | padding (b : Option UInt8) : ok .padding → AssembledWith own ok paddingDecoder (.new b)
  | number {α : Type} (f : Bytes → α) (k : Nat) : ok .number → AssembledWith own ok (fixDecoder f) (fixInit k)
  | utf8 {σ : Type} {D : Decoder σ Bytes} {s : σ} : ok .utf8 → AssembledWith own ok D s →
      AssembledWith own ok (utf8Decoder D) s
  | monolithic {α : Type} (parse : MonolithicParser α) : ok .monolithic →
      (∀ a b, NoCrash (parse a b).1) → AssembledWith own ok (monolithicDecoder parse) .new
  | map {σ α β : Type} {D : Decoder σ α} {s : σ} (f : α → β) : ok .map → AssembledWith own ok D s →
      AssembledWith own ok (mapDecoder D f) s
  | tryMap {σ α β : Type} {D : Decoder σ α} {s : σ} (f : α → Except ErrorKind β) : ok .tryMap →
      AssembledWith own ok D s → AssembledWith own ok (tryMapDecoder D f) s
  | mapErr {σ α : Type} {D : Decoder σ α} {s : σ} (f : ErrorKind → ErrorKind) : ok .mapErr →
      AssembledWith own ok D s → AssembledWith own ok (mapErrDecoder D f) s
  | omittable {σ α : Type} {D : Decoder σ α} {s : σ} (doOmit : Bool) : ok .omittable →
      AssembledWith own ok D s → AssembledWith own ok (omittableDecoder D) ⟨s, doOmit⟩
  | length {σ α : Type} {D : Decoder σ α} {s : σ} (n : Nat) : ok .length → n < 2 ^ 64 →
      AssembledWith own ok D s → AssembledWith own ok (lengthDecoder D) (.new s n)
  | maxBytes {σ α : Type} {D : Decoder σ α} {s : σ} (n : Nat) : ok .maxBytes →
      AssembledWith own ok D s → AssembledWith own ok (maxBytesDecoder D) (.new s n)
  | slice {σ α : Type} {D : Decoder σ α} {s : σ} (n : Nat) : ok .slice →
      AssembledWith own ok D s → AssembledWith own ok (sliceDecoder D) ⟨s, n⟩
  | peekable {σ α : Type} {D : Decoder σ α} {s : σ} : ok .peekable →
      AssembledWith own ok D s → AssembledWith own ok (peekableDecoder D) ⟨s, none⟩
  | maybeEos {σ α : Type} {D : Decoder σ α} {s : σ} : ok .maybeEos →
      AssembledWith own ok D s → AssembledWith own ok (maybeEosDecoder D) (.new s)
  | collect {σ α : Type} {D : Decoder σ α} {s : σ} : ok .collect → Productive D s →
      AssembledWith own ok D s → AssembledWith own ok (collectDecoder D) ⟨s, [], false⟩
  | collectN {σ α : Type} {D : Decoder σ α} {s : σ} (n : Nat) : ok .collectN →
      AssembledWith own ok D s → AssembledWith own ok (collectNDecoder D) (.new s n)
  | pair {σ0 α0 σ1 α1 : Type} {D0 : Decoder σ0 α0} {D1 : Decoder σ1 α1} {s0 : σ0} {s1 : σ1} :
      ok .pair → AssembledWith own ok D0 s0 → AssembledWith own ok D1 s1 → AssembledWith own ok (tupleDecoder2 D0 D1) (s0, s1)
  | andThen {σ0 α0 σ1 α1 : Type} {D0 : Decoder σ0 α0} {D1 : Decoder σ1 α1} {s0 : σ0} (f : α0 → σ1) :
      ok .andThen → AssembledWith own ok D0 s0 → (∀ x, AssembledWith own ok D1 (f x)) →
      AssembledWith own ok (andThenDecoder D0 D1 f) (s0, none)
  /-- a decoder whose functions have captured `x` -/
  | captured {ε σ α : Type} (F : ε → Decoder σ α) (x : ε) {s : σ} : AssembledWith own ok (F x) s →
      AssembledWith own ok (capturedDecoder F) (x, s)

/-- Decoders assembled from the library alone. -/
abbrev Assembled (ok : Shape → Prop) {σ α : Type} (D : Decoder σ α) (s : σ) : Prop :=
  AssembledWith (fun _ _ _ _ => False) ok D s

/-- The building blocks whose items have a fixed size if those of their parts have. -/
def Shape.fixedSize : Shape → Prop
  | .copyable | .bytes | .null | .number | .utf8 | .map | .tryMap | .mapErr | .omittable | .length
  | .maxBytes | .slice | .peekable | .maybeEos | .pair => True
  | _ => False

/-- The building blocks that take everything up to the end of the stream, and what can be put around
them without changing that. -/
def Shape.toTheEnd : Shape → Prop
  | .remaining | .padding | .utf8 | .map | .tryMap | .mapErr | .omittable | .maxBytes | .slice
  | .maybeEos => True
  | _ => False

end Bytecodec.Spec
