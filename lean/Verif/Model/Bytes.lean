import Verif.Model.Core
/-!
# Byte-string codecs

Models `src/bytes.rs`.
-/
namespace Bytecodec

/-- `buf[offset..][..src.len()].copy_from_slice(src)`: overwrite part of a buffer. -/
def splice (buf : Bytes) (offset : Nat) (src : Bytes) : Bytes :=
  buf.take offset ++ src ++ buf.drop (offset + src.length)

/-! ## `BytesEncoder` -/

/-- `src/bytes.rs` 23-26: `struct BytesEncoder<B>`. `β` is the item type, e.g. `Vec<u8>`. -/
structure BytesEncoderState (β : Type) where
  bytes : Option β
  offset : Nat

/-- `src/bytes.rs` 27-40: `new`/`default`. -/
def BytesEncoderState.new {β : Type} : BytesEncoderState β := ⟨none, 0⟩

/-- `src/bytes.rs` 81-87: `exact_requiring_bytes`.
Simplification: `len - offset` is truncated subtraction (never negative in reachable states). -/
def BytesEncoderState.exact {β : Type} (asRef : β → Bytes) (s : BytesEncoderState β) : Nat :=
  match s.bytes with
  | some b => (asRef b).length - s.offset
  | none => 0

/-- `src/bytes.rs` 41-87: `impl Encode/SizedEncode for BytesEncoder<B>`; `asRef` is `B::as_ref`.
`encode` is 44-64, `start` 66-71, `requiring` 73-75, `isIdle` 77-79. -/
def bytesEncoder {β : Type} (asRef : β → Bytes) : SizedEncoder (BytesEncoderState β) β where
  encode s cap e :=
    match s.bytes with
    | some b =>
      if (asRef b).length < s.offset then (.panic, s)
      else
        let size := min cap ((asRef b).length - s.offset)
        let out := ((asRef b).drop s.offset).take size
        let offset := s.offset + size
        if offset = (asRef b).length then (.ok out, ⟨none, offset⟩)
        else if e.isReached then (.err .unexpectedEos, ⟨some b, offset⟩)
        else (.ok out, ⟨some b, offset⟩)
    | none => (.ok [], s)
  start s item :=
    if s.bytes.isNone then (.ok (), ⟨some item, 0⟩) else (.err .encoderFull, s)
  requiring s := .finite (s.exact asRef)
  isIdle s := s.bytes.isNone
  exact s := s.exact asRef

/-! ## `CopyableBytesDecoder` -/

/-- `src/bytes.rs` 119-122: `struct CopyableBytesDecoder<B>`. `B` is a byte array of fixed size;
its contents are modelled by a list whose length no operation changes. -/
structure CopyableState where
  bytes : Bytes
  offset : Nat
deriving DecidableEq, Repr

/-- `src/bytes.rs` 125-127: `new`. -/
def CopyableState.new (bytes : Bytes) : CopyableState := ⟨bytes, 0⟩

/-- `src/bytes.rs` 144-175: `impl Decode for CopyableBytesDecoder<B>`.
`decode` 147-156, `finish` 158-166, `requiring` 168-170, `isIdle` 172-174. -/
def copyableBytesDecoder : Decoder CopyableState Bytes where
  decode s buf e :=
    if s.bytes.length < s.offset then (.panic, s)
    else
      let size := min buf.length (s.bytes.length - s.offset)
      let s' : CopyableState := ⟨splice s.bytes s.offset (buf.take size), s.offset + size⟩
      if s'.offset ≠ s'.bytes.length ∧ e.isReached then (.err .unexpectedEos, s')
      else (.ok size, s')
  finish s :=
    if s.offset = s.bytes.length then (.ok s.bytes, { s with offset := 0 })
    else (.err .incompleteDecoding, s)
  requiring s := .finite (s.bytes.length - s.offset)
  isIdle s := s.offset == s.bytes.length

/-! ## `BytesDecoder` -/

/-- `src/bytes.rs` 196-199: `struct BytesDecoder<B>`. -/
structure BytesDecoderState where
  bytes : Option Bytes
  offset : Nat
deriving DecidableEq, Repr

namespace BytesDecoderState

/-- `src/bytes.rs` 202-207: `new`. -/
def new (bytes : Bytes) : BytesDecoderState := ⟨some bytes, 0⟩

/-- `src/bytes.rs` 225-232: `default`. -/
def default : BytesDecoderState := ⟨none, 0⟩

/-- `src/bytes.rs` 210-213: `set_bytes`. -/
def setBytes (_ : BytesDecoderState) (bytes : Bytes) : BytesDecoderState := ⟨some bytes, 0⟩

/-- `src/bytes.rs` 215-219: `exact_requiring_bytes` (truncated subtraction as above). -/
def exact (s : BytesDecoderState) : Nat :=
  match s.bytes with
  | some b => b.length - s.offset
  | none => 0

end BytesDecoderState

/-- `src/bytes.rs` 233-267: `impl Decode for BytesDecoder<B>`.
`decode` 236-248, `finish` 250-258, `requiring` 260-262, `isIdle` 264-266. -/
def bytesDecoder : Decoder BytesDecoderState Bytes where
  decode s buf e :=
    match s.bytes with
    | none => (.err .decoderTerminated, s)
    | some b =>
      if b.length < s.offset then (.panic, s)
      else
        let size := min buf.length (b.length - s.offset)
        let s' : BytesDecoderState := ⟨some (splice b s.offset (buf.take size)), s.offset + size⟩
        if s'.exact ≠ 0 ∧ e.isReached then (.err .unexpectedEos, s')
        else (.ok size, s')
  finish s :=
    if s.exact ≠ 0 then (.err .incompleteDecoding, s)
    else
      match s.bytes with
      | none => (.err .decoderTerminated, s)
      | some b => (.ok b, { s with bytes := none })
  requiring s := .finite s.exact
  isIdle s := s.exact == 0

/-! ## `RemainingBytesDecoder` -/

/-- `src/bytes.rs` 290-293: `struct RemainingBytesDecoder`. -/
structure RemainingState where
  buf : Bytes
  eos : Bool
deriving DecidableEq, Repr

/-- `src/bytes.rs` 289-299: `new`/`default`. -/
def RemainingState.new : RemainingState := ⟨[], false⟩

/-- `src/bytes.rs` 300-334: `impl Decode for RemainingBytesDecoder`.
`decode` 303-314, `finish` 316-321, `requiring` 323-329, `isIdle` 331-333.
Line 309, `self.buf.reserve_exact(buf.len() + remaining as usize)`: the addition panics on overflow
of `usize` (64 bits); `reserve_exact` panics with "capacity overflow" iff the resulting length
would exceed `isize::MAX` (`Vec` documentation). -/
def remainingBytesDecoder : Decoder RemainingState Bytes where
  decode s buf e :=
    if s.eos then (.ok 0, s)
    else
      let go : Res Nat × RemainingState := (.ok buf.length, ⟨s.buf ++ buf, e.isReached⟩)
      match e.remainingBytes.toU64 with
      | some remaining =>
        if 2 ^ 64 ≤ buf.length + remaining then (.panic, s)
        else if 2 ^ 63 ≤ s.buf.length + (buf.length + remaining) then (.capacity, s)
        else go
      | none => go
  finish s :=
    if s.eos then (.ok s.buf, ⟨[], false⟩) else (.err .incompleteDecoding, s)
  requiring s := if s.eos then .finite 0 else .infinite
  isIdle s := s.eos

/-! ## `Utf8Encoder` and `Utf8Decoder` -/

/-- `src/bytes.rs` 336-342: `Utf8Bytes::as_ref`, i.e. `str::as_bytes`. -/
def utf8Bytes (s : String) : Bytes := s.toByteArray.data.toList

/-- `src/bytes.rs` 360-395: `Utf8Encoder<String>` forwards everything to a `BytesEncoder`. -/
def utf8Encoder : SizedEncoder (BytesEncoderState String) String where
  encode s cap e := (bytesEncoder utf8Bytes).encode s cap e
  start s item := (bytesEncoder utf8Bytes).start s item
  requiring s := (bytesEncoder utf8Bytes).requiring s
  isIdle s := (bytesEncoder utf8Bytes).isIdle s
  exact s := (bytesEncoder utf8Bytes).exact s

/-- std's `String::from_utf8`: succeeds exactly on valid UTF-8. Both Rust and Lean define validity
by the Unicode standard (no surrogates, no overlong forms, at most U+10FFFF). -/
def fromUtf8 (b : Bytes) : Option String := String.fromUTF8? ⟨b.toArray⟩

/-- `src/bytes.rs` 411-465: `Utf8Decoder<D>`. `decode` 448-450, `finish` 452-456,
`requiring` 458-460, `isIdle` 462-464. -/
def utf8Decoder {σ : Type} (D : Decoder σ Bytes) : Decoder σ String where
  decode s buf e := D.decode s buf e
  finish s :=
    Res.step (D.finish s) id fun b s' =>
      match fromUtf8 b with
      | some str => (.ok str, s')
      | none => (.err .invalidInput, s')
  requiring s := D.requiring s
  isIdle s := D.isIdle s

end Bytecodec
