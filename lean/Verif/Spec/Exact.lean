import Verif.Spec.Streamable
import Verif.Spec.Io
/-!
# Specification: reading one item with `decode_exact`

`Exactable w p D s` is `Streamable` with what `decode_exact` additionally needs in order to terminate:
a decoder must not be waiting for a byte it does not ask for. `p` is as in `Streamable` (the end of an
item is recognised from the bytes alone); `w = true`: at the start of every item the decoder asks for
at least one byte. The repeating combinators `collect` and `collectn` look at a new item only when
there are bytes, so their item decoder must be of the second kind.
-/
namespace Bytecodec.Spec

/-- Decoders assembled from the library, in their initial state, that `decode_exact` can drive. -/
inductive Exactable : {σ α : Type} → Bool → Bool → Decoder σ α → σ → Prop
  | own (w p : Bool) {σ α : Type} {D : Decoder σ α} {I : σ → Prop} {s : σ} : Bytewise true D I → Asks w D I →
      I s → (w = true → D.isIdle s = false) → Exactable w p D s
  | copyable (w p : Bool) (b : Bytes) : (w = true → b ≠ []) → Exactable w p copyableBytesDecoder (.new b)
  | bytes (p : Bool) (b : Bytes) : Exactable false p bytesDecoder (.new b)
  | remaining (w : Bool) : Exactable w false remainingBytesDecoder .new
  | null (p : Bool) : Exactable false p nullDecoder ()
  | padding (w : Bool) (b : Option UInt8) : Exactable w false paddingDecoder (.new b)
  | number {α : Type} (w p : Bool) (f : Bytes → α) (k : Nat) : (w = true → k ≠ 0) →
      Exactable w p (fixDecoder f) (fixInit k)
  | monolithic {α : Type} (w : Bool) (parse : MonolithicParser α) : WholeParser parse →
      Exactable w false (monolithicDecoder parse) .new
  | utf8 {w p : Bool} {σ : Type} {D : Decoder σ Bytes} {s : σ} : Exactable w p D s →
      Exactable w p (utf8Decoder D) s
  | map {w p : Bool} {σ α β : Type} {D : Decoder σ α} {s : σ} (f : α → β) : Exactable w p D s →
      Exactable w p (mapDecoder D f) s
  | tryMap {w p : Bool} {σ α β : Type} {D : Decoder σ α} {s : σ} (f : α → Except ErrorKind β) :
      Exactable w p D s → Exactable w p (tryMapDecoder D f) s
  | mapErr {w p : Bool} {σ α : Type} {D : Decoder σ α} {s : σ} (f : ErrorKind → ErrorKind) :
      Exactable w p D s → Exactable w p (mapErrDecoder D f) s
  | omittable {w p : Bool} {σ α : Type} {D : Decoder σ α} {s : σ} (doOmit : Bool) :
      (w = true → doOmit = false) → Exactable w p D s → Exactable w p (omittableDecoder D) ⟨s, doOmit⟩
  | length (w p : Bool) {w' r : Bool} {σ α : Type} {D : Decoder σ α} {s : σ} (n : Nat) :
      (w = true → n ≠ 0) → Exactable w' r D s → Exactable w p (lengthDecoder D) (.new s n)
  | maxBytes {w p : Bool} {σ α : Type} {D : Decoder σ α} {s : σ} (n : Nat) :
      Exactable w p D s → Exactable w p (maxBytesDecoder D) (.new s n)
  | peekable {w p : Bool} {σ α : Type} {D : Decoder σ α} {s : σ} :
      Exactable w p D s → Exactable w p (peekableDecoder D) ⟨s, none⟩
  | maybeEos {w p : Bool} {σ α : Type} {D : Decoder σ α} {s : σ} :
      Exactable w p D s → Exactable w p (maybeEosDecoder D) (.new s)
  | collect (w : Bool) {σ α : Type} {D : Decoder σ α} {s : σ} :
      Exactable true true D s → Exactable w false (collectDecoder D) ⟨s, [], false⟩
  | collectN (p : Bool) {σ α : Type} {D : Decoder σ α} {s : σ} (n : Nat) :
      Exactable true true D s → Exactable false p (collectNDecoder D) (.new s n)
  | pair {w0 w1 p : Bool} {σ0 α0 σ1 α1 : Type} {D0 : Decoder σ0 α0} {D1 : Decoder σ1 α1} {s0 : σ0}
      {s1 : σ1} : Exactable w0 p D0 s0 → Exactable w1 p D1 s1 →
      Exactable (w0 || w1) p (tupleDecoder2 D0 D1) (s0, s1)
  | andThen {w w1 p : Bool} {σ0 α0 σ1 α1 : Type} {D0 : Decoder σ0 α0} {D1 : Decoder σ1 α1} {s0 : σ0}
      (f : α0 → σ1) : Exactable w p D0 s0 → (∀ x, Exactable w1 p D1 (f x)) →
      Exactable w p (andThenDecoder D0 D1 f) (s0, none)
  | captured {w p : Bool} {ε σ α : Type} (F : ε → Decoder σ α) (x : ε) {s : σ} : Exactable w p (F x) s →
      Exactable w p (capturedDecoder F) (x, s)

/-- A source that delivers the bytes `rest r` in order, in pieces of its own choosing (at least one
byte per non-empty request as long as there are any, at most what was asked for), and then signals the
end: `std::io::Read` without errors. -/
structure Delivers {ρ : Type} (R : Reader ρ) (rest : ρ → Bytes) : Prop where
  read : ∀ r n, 0 < n → ∃ bs, (R.read r n).1 = .data bs ∧ bs.length ≤ n ∧
    rest r = bs ++ rest (R.read r n).2 ∧ (bs = [] → rest r = [])

/-- `k` calls of `decode_exact`, one after the other, all of which return an item: the items, and the
decoder and the reader afterwards. -/
def readItems {σ α ρ : Type} (D : Decoder σ α) (R : Reader ρ) : Nat → σ → ρ → Option (List α × σ × ρ)
  | 0, s, r => some ([], s, r)
  | k + 1, s, r =>
    match decodeExact D R s r with
    | some (.ok x, s', r') => (readItems D R k s' r').map fun y => (x :: y.1, y.2)
    | _ => none

/-- A source that hands out a byte string in pieces of at most `m` bytes. -/
def pieces (m : Nat) : Reader Bytes where
  read r n := (.data (r.take (min n m)), r.drop (min n m))

end Bytecodec.Spec
