import Verif.Model.InPlaceTuple
/-!
# Specification: what a call of `encode` does to the output buffer
-/
namespace Bytecodec.Spec

/-- Two calls fail in the same way. -/
inductive SameFailure {α β : Type} : Res α → Res β → Prop
  | err (k : ErrorKind) : SameFailure (.err k) (.err k)
  | panic : SameFailure .panic .panic
  | capacity : SameFailure .capacity .capacity
  | diverge : SameFailure .diverge .diverge

/-- `Written buf p q`: the call `p` on the buffer `buf` does what `q` says: if `q` yields the bytes `out`, then
they are put at the front of the buffer, their number is returned and the rest of the buffer is as before. -/
inductive Written {σ : Type} (buf : Bytes) : Res Nat × σ × Bytes → Res Bytes × σ → Prop
  | ok {s : σ} {out : Bytes} : out.length ≤ buf.length →
      Written buf (.ok out.length, s, out ++ buf.drop out.length) (.ok out, s)
  | fail {s : σ} {r : Res Nat} {r' : Res Bytes} {buf' : Bytes} : SameFailure r r' → buf'.length = buf.length →
      Written buf (r, s, buf') (r', s)

/-- The encoder `B`, which writes into buffers, behaves as `E`, which returns the bytes. -/
structure InPlace {σ α : Type} (B : BufEncoder σ α) (E : Encoder σ α) : Prop where
  idle : ∀ s, B.isIdle s = E.isIdle s
  requiring : ∀ s, B.requiring s = E.requiring s
  start : ∀ s x, B.start s x = E.start s x
  encode : ∀ s buf e, Written buf (B.encode s buf e) (E.encode s buf.length e)

/-- Only the bytes reported are touched, and what was in the buffer before makes no difference. -/
structure Tidy {σ α : Type} (B : BufEncoder σ α) : Prop where
  /-- the buffer keeps its length (in Rust by the type of the argument) -/
  length : ∀ s buf e, (B.encode s buf e).2.2.length = buf.length
  /-- `Ok(n)`: the first `n` bytes are new, the rest is as before -/
  rest : ∀ s buf e n, (B.encode s buf e).1 = .ok n → n ≤ buf.length ∧ (B.encode s buf e).2.2.drop n = buf.drop n
  /-- two buffers of the same length: same answer, same state, same bytes -/
  same : ∀ s (buf₁ buf₂ : Bytes) e, buf₁.length = buf₂.length →
    (B.encode s buf₁ e).1 = (B.encode s buf₂ e).1 ∧ (B.encode s buf₁ e).2.1 = (B.encode s buf₂ e).2.1 ∧
    ∀ n, (B.encode s buf₁ e).1 = .ok n → (B.encode s buf₁ e).2.2.take n = (B.encode s buf₂ e).2.2.take n

/-- An encoder that writes into buffers, seen as one that returns the bytes: it is given a buffer of zeros. -/
def outline {σ α : Type} (B : BufEncoder σ α) : Encoder σ α where
  encode s n e :=
    match B.encode s (List.replicate n 0) e with
    | (.ok k, s', b) => (.ok (b.take k), s')
    | (.err k, s', _) => (.err k, s')
    | (.panic, s', _) => (.panic, s')
    | (.capacity, s', _) => (.capacity, s')
    | (.diverge, s', _) => (.diverge, s')
  start := B.start
  requiring := B.requiring
  isIdle := B.isIdle

/-- `SameProgram own B E`: `B` and `E` are the same encoder, in the two models. -/
inductive SameProgram (own : (σ α : Type) → BufEncoder σ α → Encoder σ α → Prop) :
    {σ α : Type} → BufEncoder σ α → Encoder σ α → Prop
  /-- an encoder of the user's own -/
  | own {σ α : Type} {B : BufEncoder σ α} {E : Encoder σ α} : own σ α B E → SameProgram own B E
  | bytes {β : Type} (asRef : β → Bytes) : SameProgram own (bytesBufEncoder asRef) (bytesEncoder asRef).toEncoder
  | number {α : Type} (f : α → Except ErrorKind Bytes) : SameProgram own (fixBufEncoder f) (fixEncoder f).toEncoder
  | utf8 : SameProgram own utf8BufEncoder utf8Encoder.toEncoder
  | null : SameProgram own nullBufEncoder nullEncoder.toEncoder
  | padding : SameProgram own paddingBufEncoder paddingEncoder
  | monolithic {α : Type} (ser : MonolithicSerializer α) :
      SameProgram own (monolithicBufEncoder ser) (monolithicEncoder ser)
  | mapErr {σ α : Type} {B : BufEncoder σ α} {E : Encoder σ α} (f : ErrorKind → ErrorKind) : SameProgram own B E →
      SameProgram own (mapErrBufEncoder B f) (mapErrEncoder E f)
  | mapFrom {σ α β : Type} {B : BufEncoder σ α} {E : Encoder σ α} (f : β → α) : SameProgram own B E →
      SameProgram own (mapFromBufEncoder B f) (mapFromEncoder E f)
  | tryMapFrom {σ α β : Type} {B : BufEncoder σ α} {E : Encoder σ α} (f : β → Except ErrorKind α) :
      SameProgram own B E → SameProgram own (tryMapFromBufEncoder B f) (tryMapFromEncoder E f)
  | repeated {σ α : Type} {B : BufEncoder σ α} {E : Encoder σ α} : SameProgram own B E →
      SameProgram own (repeatBufEncoder B) (repeatEncoder E)
  | optional {σ α : Type} {B : BufEncoder σ α} {E : Encoder σ α} : SameProgram own B E →
      SameProgram own (optionalBufEncoder B) (optionalEncoder E)
  | length {σ α : Type} {B : BufEncoder σ α} {E : Encoder σ α} : SameProgram own B E →
      SameProgram own (lengthBufEncoder B) (lengthEncoder E).toEncoder
  | maxBytes {σ α : Type} {B : BufEncoder σ α} {E : Encoder σ α} : SameProgram own B E →
      SameProgram own (maxBytesBufEncoder B) (maxBytesEncoder E)
  | preEncode {σ α : Type} {B : BufEncoder σ α} {E : Encoder σ α} : SameProgram own B E →
      SameProgram own (preEncodeBufEncoder B) (preEncodeEncoder E).toEncoder
  | slice {σ α : Type} {B : BufEncoder σ α} {E : Encoder σ α} : SameProgram own B E →
      SameProgram own (sliceBufEncoder B) (sliceEncoder E)
  | last {σ α : Type} {B : BufEncoder σ α} {E : Encoder σ α} : SameProgram own B E →
      SameProgram own (lastBufEncoder B) (lastEncoder E)
  | pointer {σ α : Type} {B : BufEncoder σ α} {E : Encoder σ α} : SameProgram own B E →
      SameProgram own (pointerBufEncoder B) (pointerEncoder E)
  | tuple2 {σ0 α0 σ1 α1 : Type} {B0 : BufEncoder σ0 α0} {E0 : Encoder σ0 α0} {B1 : BufEncoder σ1 α1} {E1 : Encoder σ1 α1} :
      SameProgram own B0 E0 → SameProgram own B1 E1 →
      SameProgram own (tupleBufEncoder2 B0 B1) (tupleEncoder2 E0 E1)
  | tuple3 {σ0 α0 σ1 α1 σ2 α2 : Type} {B0 : BufEncoder σ0 α0} {E0 : Encoder σ0 α0} {B1 : BufEncoder σ1 α1} {E1 : Encoder σ1 α1} {B2 : BufEncoder σ2 α2} {E2 : Encoder σ2 α2} :
      SameProgram own B0 E0 → SameProgram own B1 E1 → SameProgram own B2 E2 →
      SameProgram own (tupleBufEncoder3 B0 B1 B2) (tupleEncoder3 E0 E1 E2)
  | tuple4 {σ0 α0 σ1 α1 σ2 α2 σ3 α3 : Type} {B0 : BufEncoder σ0 α0} {E0 : Encoder σ0 α0} {B1 : BufEncoder σ1 α1} {E1 : Encoder σ1 α1} {B2 : BufEncoder σ2 α2} {E2 : Encoder σ2 α2} {B3 : BufEncoder σ3 α3} {E3 : Encoder σ3 α3} :
      SameProgram own B0 E0 → SameProgram own B1 E1 → SameProgram own B2 E2 → SameProgram own B3 E3 →
      SameProgram own (tupleBufEncoder4 B0 B1 B2 B3) (tupleEncoder4 E0 E1 E2 E3)
  | tuple5 {σ0 α0 σ1 α1 σ2 α2 σ3 α3 σ4 α4 : Type} {B0 : BufEncoder σ0 α0} {E0 : Encoder σ0 α0} {B1 : BufEncoder σ1 α1} {E1 : Encoder σ1 α1} {B2 : BufEncoder σ2 α2} {E2 : Encoder σ2 α2} {B3 : BufEncoder σ3 α3} {E3 : Encoder σ3 α3} {B4 : BufEncoder σ4 α4} {E4 : Encoder σ4 α4} :
      SameProgram own B0 E0 → SameProgram own B1 E1 → SameProgram own B2 E2 → SameProgram own B3 E3 → SameProgram own B4 E4 →
      SameProgram own (tupleBufEncoder5 B0 B1 B2 B3 B4) (tupleEncoder5 E0 E1 E2 E3 E4)
  | tuple6 {σ0 α0 σ1 α1 σ2 α2 σ3 α3 σ4 α4 σ5 α5 : Type} {B0 : BufEncoder σ0 α0} {E0 : Encoder σ0 α0} {B1 : BufEncoder σ1 α1} {E1 : Encoder σ1 α1} {B2 : BufEncoder σ2 α2} {E2 : Encoder σ2 α2} {B3 : BufEncoder σ3 α3} {E3 : Encoder σ3 α3} {B4 : BufEncoder σ4 α4} {E4 : Encoder σ4 α4} {B5 : BufEncoder σ5 α5} {E5 : Encoder σ5 α5} :
      SameProgram own B0 E0 → SameProgram own B1 E1 → SameProgram own B2 E2 → SameProgram own B3 E3 → SameProgram own B4 E4 → SameProgram own B5 E5 →
      SameProgram own (tupleBufEncoder6 B0 B1 B2 B3 B4 B5) (tupleEncoder6 E0 E1 E2 E3 E4 E5)
  | tuple7 {σ0 α0 σ1 α1 σ2 α2 σ3 α3 σ4 α4 σ5 α5 σ6 α6 : Type} {B0 : BufEncoder σ0 α0} {E0 : Encoder σ0 α0} {B1 : BufEncoder σ1 α1} {E1 : Encoder σ1 α1} {B2 : BufEncoder σ2 α2} {E2 : Encoder σ2 α2} {B3 : BufEncoder σ3 α3} {E3 : Encoder σ3 α3} {B4 : BufEncoder σ4 α4} {E4 : Encoder σ4 α4} {B5 : BufEncoder σ5 α5} {E5 : Encoder σ5 α5} {B6 : BufEncoder σ6 α6} {E6 : Encoder σ6 α6} :
      SameProgram own B0 E0 → SameProgram own B1 E1 → SameProgram own B2 E2 → SameProgram own B3 E3 → SameProgram own B4 E4 → SameProgram own B5 E5 → SameProgram own B6 E6 →
      SameProgram own (tupleBufEncoder7 B0 B1 B2 B3 B4 B5 B6) (tupleEncoder7 E0 E1 E2 E3 E4 E5 E6)
  | tuple8 {σ0 α0 σ1 α1 σ2 α2 σ3 α3 σ4 α4 σ5 α5 σ6 α6 σ7 α7 : Type} {B0 : BufEncoder σ0 α0} {E0 : Encoder σ0 α0} {B1 : BufEncoder σ1 α1} {E1 : Encoder σ1 α1} {B2 : BufEncoder σ2 α2} {E2 : Encoder σ2 α2} {B3 : BufEncoder σ3 α3} {E3 : Encoder σ3 α3} {B4 : BufEncoder σ4 α4} {E4 : Encoder σ4 α4} {B5 : BufEncoder σ5 α5} {E5 : Encoder σ5 α5} {B6 : BufEncoder σ6 α6} {E6 : Encoder σ6 α6} {B7 : BufEncoder σ7 α7} {E7 : Encoder σ7 α7} :
      SameProgram own B0 E0 → SameProgram own B1 E1 → SameProgram own B2 E2 → SameProgram own B3 E3 → SameProgram own B4 E4 → SameProgram own B5 E5 → SameProgram own B6 E6 → SameProgram own B7 E7 →
      SameProgram own (tupleBufEncoder8 B0 B1 B2 B3 B4 B5 B6 B7) (tupleEncoder8 E0 E1 E2 E3 E4 E5 E6 E7)

end Bytecodec.Spec
