import Verif.Validation.Run
import Verif.Model.BufStreams
import Verif.Model.EncCombinator
import Verif.Model.Fixnum
import Verif.Model.NullPadding
import Verif.Model.Serde
import Verif.Model.Tuple
/-!
# The tests of the repository, replayed on the model

Every unit test in `/repo/src` and the examples of the documentation that can be stated, each as an
`example` about the model. They hold of the code (they are its tests), so they have to hold of the model:
they check the model, not the code, and prove no property. The comment names the test.

Readers are `impl Read for &[u8]` (`sliceReader`), writers `impl Write for Vec<u8>` (`vecWriter`).
Not replayed: the two examples of `map_err` that compare the text of an error, and what serde_json and
bincode themselves do (in their tests the model gets the bytes those libraries produce).
-/
namespace Bytecodec.Validation
open Bytecodec

/-- std's `impl Read for &[u8]`: copies what fits and advances. -/
def sliceReader : Reader Bytes where
  read r n := (.data (r.take n), r.drop n)

/-- `Utf8Decoder::new()`. -/
def utf8 : Decoder RemainingState String := utf8Decoder remainingBytesDecoder

/-- `Utf8Encoder::new()`. -/
def utf8E : Encoder (BytesEncoderState String) String := utf8Encoder.toEncoder

/-- A script: the result of `decode_exact` on a slice, and the decoder and the rest of the slice. -/
def Reads {σ α : Type} (D : Decoder σ α) (s : σ) (input : Bytes) (r : Res α) (s' : σ) (rest : Bytes) : Prop :=
  decodeExact D sliceReader s input = some (r, s', rest)

/-- A script: `start_encoding(item)` succeeds, and `encode_all` onto `out` gives `r` and `out'`. -/
def Writes {σ α : Type} (E : Encoder σ α) (s : σ) (item : α) (out : Bytes) (r : Res Unit) (s' : σ) (out' : Bytes) : Prop :=
  (E.start s item).1 = .ok () ∧ encodeAll E vecWriter (E.start s item).2 out = some (r, s', out')

/-! ## `src/byte_count.rs`, `src/eos.rs` -/

-- `byte_count::test::it_works`
example : ByteCount.default = .unknown ∧ (ByteCount.finite 0).isFinite ∧ ByteCount.infinite.isInfinite ∧
    ByteCount.unknown.isUnknown ∧ (ByteCount.finite 3).toU64 = some 3 ∧ ByteCount.infinite.toU64 = none ∧
    ByteCount.unknown.toU64 = none ∧ (ByteCount.finite 1).partialCmp (.finite 2) = some .lt ∧
    (ByteCount.finite 9).partialCmp .infinite = some .lt ∧ ByteCount.infinite.partialCmp .unknown ≠ some .lt ∧
    ByteCount.unknown.partialCmp .infinite ≠ some .lt ∧ ByteCount.unknown.partialCmp .unknown ≠ some .lt := by
  decide

-- `Eos::back` (eos.rs 37)
example : (Eos.new true).isReached = true ∧ (Eos.new true).remainingBytes = .finite 0 ∧
    (Eos.new true).back 5 = .ok ⟨.finite 5⟩ ∧ (⟨.finite 5⟩ : Eos).isReached = false := by decide

/-! ## `src/bytes.rs` -/

-- `bytes::test::bytes_decoder_works`, and the example of `BytesDecoder`
example : bytesDecoder.requiring (.new [0, 0, 0]) = .finite 3 ∧
    ∃ s1 r1 s2 r2, Reads bytesDecoder (.new [0, 0, 0]) (utf8Bytes "foobar") (.ok (utf8Bytes "foo")) s1 r1 ∧
      bytesDecoder.requiring s1 = .finite 0 ∧ Reads bytesDecoder s1 r1 (.err .decoderTerminated) s2 r2 :=
  ⟨rfl, _, _, _, _, decodeExact_of _ _ 3 rfl, rfl, decodeExact_of _ _ 3 rfl⟩

-- `bytes::test::utf8_encoder_works`, and the example of `Utf8Encoder`
example : ∃ s1, Writes utf8E .new "foo" [] (.ok ()) s1 (utf8Bytes "foo") ∧ utf8E.isIdle s1 = true :=
  ⟨_, ⟨rfl, encodeAll_of _ 3 rfl⟩, rfl⟩

-- example of `BytesEncoder` (bytes.rs 12)
example : ∃ s1, Writes (bytesEncoder id).toEncoder .new (utf8Bytes "foo") [] (.ok ()) s1 (utf8Bytes "foo") ∧
    (bytesEncoder id).isIdle s1 = true := ⟨_, ⟨rfl, encodeAll_of _ 3 rfl⟩, rfl⟩

-- example of `CopyableBytesDecoder` (bytes.rs 97)
example : let D := copyableBytesDecoder
    let s0 := CopyableState.new [0, 0, 0]
    let s1 := (D.decode s0 (utf8Bytes "foobar") (Eos.new false)).2
    let s2 := (D.finish s1).2
    let s3 := (D.decode s2 (utf8Bytes "ba") (Eos.new false)).2
    let s4 := (D.decode s3 (utf8Bytes "r") (Eos.new true)).2
    D.requiring s0 = .finite 3 ∧ (D.decode s0 (utf8Bytes "foobar") (Eos.new false)).1 = .ok 3 ∧
    D.requiring s1 = .finite 0 ∧ D.isIdle s1 = true ∧ (D.finish s1).1 = .ok (utf8Bytes "foo") ∧
    D.requiring s2 = .finite 3 ∧ D.isIdle s3 = false ∧ D.requiring s3 = .finite 1 ∧ D.isIdle s4 = true ∧
    (D.finish s4).1 = .ok (utf8Bytes "bar") := ⟨rfl, rfl, rfl, rfl, rfl, rfl, rfl, rfl, rfl, rfl⟩

-- example of `RemainingBytesDecoder` (bytes.rs 273)
example : let D := remainingBytesDecoder
    let s1 := (D.decode .new (utf8Bytes "foo") (Eos.new false)).2
    let s2 := (D.decode s1 (utf8Bytes "bar") (Eos.new true)).2
    (D.requiring .new).toU64 = none ∧ (D.decode .new (utf8Bytes "foo") (Eos.new false)).1 = .ok 3 ∧
    D.isIdle s1 = false ∧ (D.decode s1 (utf8Bytes "bar") (Eos.new true)).1 = .ok 3 ∧ D.isIdle s2 = true ∧
    (D.finish s2).1 = .ok (utf8Bytes "foobar") := ⟨rfl, rfl, rfl, rfl, rfl, rfl⟩

-- example of `Utf8Decoder` (bytes.rs 401)
example : (utf8.finish (utf8.decode .new (utf8Bytes "foo") (Eos.new true)).2).1 = .ok "foo" := rfl

/-! ## `src/combinator.rs`, `src/decode.rs`, `src/encode.rs` -/

-- `combinator::test::collect_works`
example : ∃ s1 r1, Reads (collectDecoder u8Decoder) ⟨fixInit 1, [], false⟩ (utf8Bytes "foo") (.ok [102, 111, 111]) s1 r1 := by
  have step (b : UInt8) (items : List UInt8) :
      (collectDecoder u8Decoder).decode ⟨⟨[items.getLastD 0], 0⟩, items, false⟩ [b] (Eos.new false) =
        (.ok 1, ⟨⟨[b], 0⟩, items ++ [b], false⟩) := by
    have : collectLoop u8Decoder [b] (Eos.new false) 0 ⟨[items.getLastD 0], 0⟩ items =
        some (.done 1 ⟨[b], 0⟩ (items ++ [b])) := collectLoop_of _ _ _ 2 rfl
    simp only [collectDecoder, Bool.false_eq_true, if_false, this]
    rfl
  have stop : (collectDecoder u8Decoder).decode ⟨⟨[111], 0⟩, [102, 111, 111], false⟩ [] (Eos.new true) =
      (.ok 0, ⟨⟨[111], 0⟩, [102, 111, 111], true⟩) := by
    have : collectLoop u8Decoder [] (Eos.new true) 0 ⟨[111], 0⟩ [102, 111, 111] =
        some (.done 0 ⟨[111], 0⟩ [102, 111, 111]) := collectLoop_of _ _ _ 1 rfl
    simp only [collectDecoder, Bool.false_eq_true, if_false, this]
    rfl
  have r1 := decodeExact_read (D := collectDecoder u8Decoder) (R := sliceReader) (s := ⟨⟨[0], 0⟩, [], false⟩)
    (r := [102, 111, 111]) (bs := [102]) (r' := [111, 111]) (by decide) rfl (by decide) (step 102 [])
  have r2 := decodeExact_read (D := collectDecoder u8Decoder) (R := sliceReader) (s := ⟨⟨[102], 0⟩, [102], false⟩)
    (r := [111, 111]) (bs := [111]) (r' := [111]) (by decide) rfl (by decide) (step 111 [102])
  have r3 := decodeExact_read (D := collectDecoder u8Decoder) (R := sliceReader) (s := ⟨⟨[111], 0⟩, [102, 111], false⟩)
    (r := [111]) (bs := [111]) (r' := []) (by decide) rfl (by decide) (step 111 [102, 111])
  have r4 := decodeExact_read (D := collectDecoder u8Decoder) (R := sliceReader)
    (s := ⟨⟨[111], 0⟩, [102, 111, 111], false⟩) (r := []) (bs := []) (r' := []) (by decide) rfl (by decide) stop
  exact ⟨_, _, r1.trans (r2.trans (r3.trans r4))⟩

-- `combinator::test::collectn_works`
example : (∃ s1 r1, Reads (collectNDecoder u8Decoder) (.new (fixInit 1) 2) (utf8Bytes "foo") (.ok [102, 111]) s1 r1) ∧
    ∃ s1 r1, Reads (collectNDecoder u8Decoder) (.new (fixInit 1) 4) (utf8Bytes "foo") (.err .unexpectedEos) s1 r1 :=
  ⟨⟨_, _, decodeExact_of _ _ 9 rfl⟩, _, _, decodeExact_of _ _ 9 rfl⟩

-- `combinator::test::decoder_length_works`
example : ∃ s1 r1 s2 r2 s3 r3, Reads (lengthDecoder utf8) (.new .new 3) (utf8Bytes "foobarba") (.ok "foo") s1 r1 ∧
    Reads (lengthDecoder utf8) s1 r1 (.ok "bar") s2 r2 ∧
    Reads (lengthDecoder utf8) s2 r2 (.err .unexpectedEos) s3 r3 :=
  ⟨_, _, _, _, _, _, decodeExact_of _ _ 5 rfl, decodeExact_of _ _ 5 rfl, decodeExact_of _ _ 5 rfl⟩

example : let D := lengthDecoder utf8
    let s0 := LengthState.new .new 0
    let s1 := (D.finish s0).2
    let s2 := (D.decode s1 (utf8Bytes "foobarba") (Eos.new false)).2
    D.isIdle s0 = false ∧ (D.finish s0).1.isOk = false ∧
    (D.decode s1 (utf8Bytes "foobarba") (Eos.new false)).1 = .ok 0 ∧ D.isIdle s2 = true ∧
    (D.finish s2).1.isOk = true := ⟨rfl, rfl, rfl, rfl, rfl⟩

-- `combinator::test::encoder_length_works`
example : (∃ s1, Writes (lengthEncoder utf8E).toEncoder (.new .new 3) "hey" [] (.ok ()) s1 (utf8Bytes "hey")) ∧
    (∃ s1 out, Writes (lengthEncoder utf8E).toEncoder (.new .new 3) "hello" [] (.err .unexpectedEos) s1 out) ∧
    ∃ s1 out, Writes (lengthEncoder utf8E).toEncoder (.new .new 3) "hi" [] (.err .invalidInput) s1 out :=
  ⟨⟨_, rfl, encodeAll_of _ 3 rfl⟩, ⟨_, _, rfl, encodeAll_of _ 3 rfl⟩, _, _, rfl, encodeAll_of _ 3 rfl⟩

-- `combinator::test::repeat_works`
example : ∃ s1, Writes (repeatEncoder u8Encoder.toEncoder) (.new .new) [0, 1, 2, 3] [] (.ok ()) s1 [0, 1, 2, 3] := by
  have h : repeatLoop u8Encoder.toEncoder 1024 (Eos.new false) [] .new (some [0, 1, 2, 3]) =
      (.ok [0, 1, 2, 3], ⟨⟨none, 1⟩, none⟩) := repeatLoop_of _ _ _ 6 rfl
  refine ⟨⟨⟨none, 1⟩, none⟩, rfl, encodeAll_of _ 2 ?_⟩
  have h' : (repeatEncoder u8Encoder.toEncoder).encode ⟨.new, some [0, 1, 2, 3]⟩ 1024 (Eos.new false) =
      (.ok [0, 1, 2, 3], ⟨⟨none, 1⟩, none⟩) := h
  show encodeAllN (repeatEncoder u8Encoder.toEncoder) 2 ⟨.new, some [0, 1, 2, 3]⟩ [] = _
  rw [encodeAllN, h']
  rfl

-- `combinator::test::decoder_max_bytes_works`
example : let D := maxBytesDecoder utf8
    let p1 := decodeFromBytes D (.new .new 3) (utf8Bytes "12")
    let p2 := decodeFromBytes D p1.2 (utf8Bytes "123")
    p1.1.isOk = true ∧ p2.1.isOk = true ∧ (decodeFromBytes D p2.2 (utf8Bytes "1234")).1.isOk = false :=
  ⟨rfl, rfl, rfl⟩

-- example of `DecodeExt::max_bytes` (decode.rs 331)
example : ∃ s1 r1 s2 r2, Reads (maxBytesDecoder utf8) (.new .new 3) (utf8Bytes "foo") (.ok "foo") s1 r1 ∧
    Reads (maxBytesDecoder utf8) s1 (utf8Bytes "hello") (.err .invalidInput) s2 r2 :=
  ⟨_, _, _, _, decodeExact_of _ _ 9 rfl, decodeExact_of _ _ 9 rfl⟩

-- `combinator::test::encoder_max_bytes_works`
example : ∃ s1 s2 out, Writes (maxBytesEncoder utf8E) (.new .new 3) "foo" [] (.ok ()) s1 (utf8Bytes "foo") ∧
    Writes (maxBytesEncoder utf8E) s1 "hello" [] (.err .invalidInput) s2 out :=
  ⟨_, _, _, ⟨rfl, encodeAll_of _ 3 rfl⟩, rfl, encodeAll_of _ 3 rfl⟩

-- `combinator::test::decoder_slice_works`
example : let D := sliceDecoder (lengthDecoder utf8)
    let eos := Eos.new true
    let turn (s : SliceState (LengthState RemainingState)) (input : Bytes) := D.decode (s.setConsumableBytes 1) input eos
    let s0 : SliceState (LengthState RemainingState) := .new (.new .new 3)
    let a1 := turn s0 (utf8Bytes "fboaor")
    let b1 := turn s0 (utf8Bytes "boaor")
    let a2 := turn a1.2 (utf8Bytes "oaor")
    let b2 := turn b1.2 (utf8Bytes "aor")
    let a3 := turn a2.2 (utf8Bytes "or")
    let b3 := turn b2.2 (utf8Bytes "r")
    a1.1 = .ok 1 ∧ b1.1 = .ok 1 ∧ a2.1 = .ok 1 ∧ b2.1 = .ok 1 ∧ a3.1 = .ok 1 ∧ b3.1 = .ok 1 ∧
    (D.finish a3.2).1 = .ok "foo" ∧ (D.finish b3.2).1 = .ok "bar" := ⟨rfl, rfl, rfl, rfl, rfl, rfl, rfl, rfl⟩

-- `combinator::test::encoder_slice_works`
example : let E := sliceEncoder utf8E
    let eos := Eos.new true
    let s0 := (E.start (.new .new) "foobarbazqux").2
    let p1 := E.encode (s0.setConsumableBytes 3) 12 eos
    let p2 := E.encode p1.2 9 eos
    let p3 := E.encode (p2.2.setConsumableBytes 3) 9 eos
    let p4 := E.encode (p3.2.setConsumableBytes 6) 6 eos
    p1.1 = .ok (utf8Bytes "foo") ∧ E.isIdle p1.2 = false ∧ p2.1 = .ok [] ∧ p2.2.isSuspended = true ∧
    p3.1 = .ok (utf8Bytes "bar") ∧ p4.1 = .ok (utf8Bytes "bazqux") ∧ E.isIdle p4.2 = true :=
  ⟨rfl, rfl, rfl, rfl, rfl, rfl, rfl⟩

-- `combinator::test::and_then_works`
example : let D := andThenDecoder u8Decoder (lengthDecoder utf8) fun len => .new .new len.toNat
    (D.finish (D.decode (fixInit 1, none) (3 :: utf8Bytes "foo") (Eos.new false)).2).1 = .ok "foo" := rfl

-- example of `DecodeExt::and_then` (decode.rs 221)
example : ∃ s1 r1, Reads (andThenDecoder u8Decoder (lengthDecoder utf8) fun len => .new .new len.toNat) (fixInit 1, none)
    (3 :: utf8Bytes "foobar") (.ok "foo") s1 r1 := ⟨_, _, decodeExact_of _ _ 9 rfl⟩

-- `combinator::test::maybe_eos_works`
example : (u16beDecoder.decode (fixInit 2) [] (Eos.new true)).1.isOk = false ∧
    let D := maybeEosDecoder u16beDecoder
    (D.decode (.new (fixInit 2)) [] (Eos.new true)).1.isOk = true ∧
    (D.decode (.new (fixInit 2)) [1] (Eos.new false)).1.isOk = true ∧
    (D.decode (D.decode (.new (fixInit 2)) [1] (Eos.new false)).2 [] (Eos.new true)).1.isOk = false ∧
    (D.decode (.new (fixInit 2)) [1] (Eos.new true)).1.isOk = false := ⟨rfl, rfl, rfl, rfl, rfl⟩

-- `combinator::test::peekable_works`
example : let D := peekableDecoder (tupleDecoder3 u8Decoder u8Decoder u8Decoder)
    let p1 := D.decode ⟨(fixInit 1, fixInit 1, fixInit 1), none⟩ (utf8Bytes "foo") (Eos.new false)
    p1.1 = .ok 3 ∧ p1.2.peek = some (102, 111, 111) ∧ (D.finish p1.2).1 = .ok (102, 111, 111) ∧
    (D.finish p1.2).2.peek = none := ⟨rfl, rfl, rfl, rfl⟩

-- `decode::test::decode_from_bytes_works`
example : (decodeFromBytes u16beDecoder (fixInit 2) [0x12, 0x34]).1 = .ok 0x1234 := rfl

-- `encode::test::encode_into_bytes_works`
example : (encodeIntoBytes u16beEncoder.toEncoder .new 0x1234).1 = .ok [0x12, 0x34] := rfl

-- example of `DecodeExt::map` (decode.rs 130)
example : ∃ s1 r1, Reads (mapDecoder u8Decoder fun b => b * 2) (fixInit 1) [10] (.ok 20) s1 r1 :=
  ⟨_, _, decodeExact_of _ _ 3 rfl⟩

-- example of `DecodeExt::try_map` (decode.rs 150): the decoder is used again after the error
example : ∃ s1 r1 s2 r2,
    Reads (tryMapDecoder u8Decoder fun b => if b = 0 then .error .invalidInput else .ok (b * 2)) (fixInit 1) [0]
      (.err .invalidInput) s1 r1 ∧
    Reads (tryMapDecoder u8Decoder fun b => if b = 0 then .error .invalidInput else .ok (b * 2)) s1 [4] (.ok 8) s2 r2 :=
  ⟨_, _, _, _, decodeExact_of _ _ 3 rfl, decodeExact_of _ _ 3 rfl⟩

-- example of `DecodeExt::map_err` (decode.rs 181): the kind of the error
example : ∃ s1 r1, Reads (mapErrDecoder u16beDecoder id) (fixInit 2) [0] (.err .unexpectedEos) s1 r1 :=
  ⟨_, _, decodeExact_of _ _ 3 rfl⟩

-- example of `DecodeExt::omit` (decode.rs 308)
example : ∃ s1 r1 s2 r2, Reads (omittableDecoder u8Decoder) ⟨fixInit 1, true⟩ (utf8Bytes "foo") (.ok none) s1 r1 ∧
    Reads (omittableDecoder u8Decoder) ⟨fixInit 1, false⟩ r1 (.ok (some 102)) s2 r2 :=
  ⟨_, _, _, _, decodeExact_of _ _ 3 rfl, decodeExact_of _ _ 3 rfl⟩

-- example of `EncodeExt::map_err` (encode.rs 160): the kind of the error
example : ((mapErrEncoder u8Encoder.toEncoder id).encode (u8Encoder.start .new 7).2 0 (Eos.new true)).1 =
    .err .unexpectedEos := rfl

-- examples of `EncodeExt::with_item` (encode.rs 134), `map_from` (191) and `try_map_from` (215)
example : (∃ s1, Writes u8Encoder.toEncoder .new 7 [] (.ok ()) s1 [7] ∧ u8Encoder.isIdle s1 = true) ∧
    (∃ s1, Writes (mapFromEncoder u8Encoder.toEncoder fun s : String => UInt8.ofNat s.utf8ByteSize) .new "Hello World!" []
      (.ok ()) s1 [12]) ∧
    ∃ s1, Writes (tryMapFromEncoder u8Encoder.toEncoder fun s : String =>
      if s.utf8ByteSize ≤ 0xFF then .ok (UInt8.ofNat s.utf8ByteSize) else .error .invalidInput) .new "Hello World!" []
      (.ok ()) s1 [12] :=
  ⟨⟨_, ⟨rfl, encodeAll_of _ 3 rfl⟩, rfl⟩, ⟨_, rfl, encodeAll_of _ 3 rfl⟩, _, rfl, encodeAll_of _ 3 rfl⟩

-- example of `EncodeExt::optional` (encode.rs 247)
example : ∃ s1 s2, Writes (optionalEncoder u8Encoder.toEncoder) .new none [] (.ok ()) s1 [] ∧
    Writes (optionalEncoder u8Encoder.toEncoder) s1 (some 9) [] (.ok ()) s2 [9] :=
  ⟨_, _, ⟨rfl, encodeAll_of _ 3 rfl⟩, rfl, encodeAll_of _ 3 rfl⟩

-- example of `EncodeExt::slice` (encode.rs 382)
example : let E := sliceEncoder utf8E
    let eos := Eos.new true
    let s0 := (E.start (.new .new) "foobarbaz").2
    let p1 := E.encode (s0.setConsumableBytes 3) 9 eos
    let p2 := E.encode p1.2 6 eos
    let p3 := E.encode (p2.2.setConsumableBytes 6) 6 eos
    p1.1 = .ok (utf8Bytes "foo") ∧ E.isIdle p1.2 = false ∧ p1.2.consumable = 0 ∧ p2.1 = .ok [] ∧
    p3.1 = .ok (utf8Bytes "barbaz") ∧ E.isIdle p3.2 = true := ⟨rfl, rfl, rfl, rfl, rfl, rfl⟩

/-! ## `src/fixnum.rs`: `fixnum_works`, and the example of every codec -/

-- `U8`: `7`
example : (∃ s1, Writes u8Encoder.toEncoder .new (7) [] (.ok ()) s1 [7]) ∧
    ∃ s1 r1, Reads u8Decoder (fixInit 1) [7] (.ok (7)) s1 r1 :=
  ⟨⟨_, rfl, encodeAll_of _ 3 rfl⟩, _, _, decodeExact_of _ _ 3 rfl⟩

-- `I8`: `-1`
example : (∃ s1, Writes i8Encoder.toEncoder .new (-1) [] (.ok ()) s1 [255]) ∧
    ∃ s1 r1, Reads i8Decoder (fixInit 1) [255] (.ok (-1)) s1 r1 :=
  ⟨⟨_, rfl, encodeAll_of _ 3 rfl⟩, _, _, decodeExact_of _ _ 3 rfl⟩

-- `U16be`: `0x0102`
example : (∃ s1, Writes u16beEncoder.toEncoder .new (0x0102) [] (.ok ()) s1 [0x01, 0x02]) ∧
    ∃ s1 r1, Reads u16beDecoder (fixInit 2) [0x01, 0x02] (.ok (0x0102)) s1 r1 :=
  ⟨⟨_, rfl, encodeAll_of _ 3 rfl⟩, _, _, decodeExact_of _ _ 3 rfl⟩

-- `U16le`: `0x0102`
example : (∃ s1, Writes u16leEncoder.toEncoder .new (0x0102) [] (.ok ()) s1 [0x02, 0x01]) ∧
    ∃ s1 r1, Reads u16leDecoder (fixInit 2) [0x02, 0x01] (.ok (0x0102)) s1 r1 :=
  ⟨⟨_, rfl, encodeAll_of _ 3 rfl⟩, _, _, decodeExact_of _ _ 3 rfl⟩

-- `U16le`: `0x0201`
example : (∃ s1, Writes u16leEncoder.toEncoder .new (0x0201) [] (.ok ()) s1 [0x01, 0x02]) ∧
    ∃ s1 r1, Reads u16leDecoder (fixInit 2) [0x01, 0x02] (.ok (0x0201)) s1 r1 :=
  ⟨⟨_, rfl, encodeAll_of _ 3 rfl⟩, _, _, decodeExact_of _ _ 3 rfl⟩

-- `I16be`: `-2`
example : (∃ s1, Writes i16beEncoder.toEncoder .new (-2) [] (.ok ()) s1 [0xFF, 0xFE]) ∧
    ∃ s1 r1, Reads i16beDecoder (fixInit 2) [0xFF, 0xFE] (.ok (-2)) s1 r1 :=
  ⟨⟨_, rfl, encodeAll_of _ 3 rfl⟩, _, _, decodeExact_of _ _ 3 rfl⟩

-- `I16le`: `-2`
example : (∃ s1, Writes i16leEncoder.toEncoder .new (-2) [] (.ok ()) s1 [0xFE, 0xFF]) ∧
    ∃ s1 r1, Reads i16leDecoder (fixInit 2) [0xFE, 0xFF] (.ok (-2)) s1 r1 :=
  ⟨⟨_, rfl, encodeAll_of _ 3 rfl⟩, _, _, decodeExact_of _ _ 3 rfl⟩

-- `I16be`: `0x0102`
example : (∃ s1, Writes i16beEncoder.toEncoder .new (0x0102) [] (.ok ()) s1 [0x01, 0x02]) ∧
    ∃ s1 r1, Reads i16beDecoder (fixInit 2) [0x01, 0x02] (.ok (0x0102)) s1 r1 :=
  ⟨⟨_, rfl, encodeAll_of _ 3 rfl⟩, _, _, decodeExact_of _ _ 3 rfl⟩

-- `I16le`: `0x0201`
example : (∃ s1, Writes i16leEncoder.toEncoder .new (0x0201) [] (.ok ()) s1 [0x01, 0x02]) ∧
    ∃ s1 r1, Reads i16leDecoder (fixInit 2) [0x01, 0x02] (.ok (0x0201)) s1 r1 :=
  ⟨⟨_, rfl, encodeAll_of _ 3 rfl⟩, _, _, decodeExact_of _ _ 3 rfl⟩

-- `U24be`: `0x010203`
example : (∃ s1, Writes u24beEncoder.toEncoder .new (0x010203) [] (.ok ()) s1 [0x01, 0x02, 0x03]) ∧
    ∃ s1 r1, Reads u24beDecoder (fixInit 3) [0x01, 0x02, 0x03] (.ok (0x010203)) s1 r1 :=
  ⟨⟨_, rfl, encodeAll_of _ 3 rfl⟩, _, _, decodeExact_of _ _ 3 rfl⟩

-- `U24le`: `0x010203`
example : (∃ s1, Writes u24leEncoder.toEncoder .new (0x010203) [] (.ok ()) s1 [0x03, 0x02, 0x01]) ∧
    ∃ s1 r1, Reads u24leDecoder (fixInit 3) [0x03, 0x02, 0x01] (.ok (0x010203)) s1 r1 :=
  ⟨⟨_, rfl, encodeAll_of _ 3 rfl⟩, _, _, decodeExact_of _ _ 3 rfl⟩

-- `U24le`: `0x030201`
example : (∃ s1, Writes u24leEncoder.toEncoder .new (0x030201) [] (.ok ()) s1 [0x01, 0x02, 0x03]) ∧
    ∃ s1 r1, Reads u24leDecoder (fixInit 3) [0x01, 0x02, 0x03] (.ok (0x030201)) s1 r1 :=
  ⟨⟨_, rfl, encodeAll_of _ 3 rfl⟩, _, _, decodeExact_of _ _ 3 rfl⟩

-- `U32be`: `0x01020304`
example : (∃ s1, Writes u32beEncoder.toEncoder .new (0x01020304) [] (.ok ()) s1 [0x01, 0x02, 0x03, 0x04]) ∧
    ∃ s1 r1, Reads u32beDecoder (fixInit 4) [0x01, 0x02, 0x03, 0x04] (.ok (0x01020304)) s1 r1 :=
  ⟨⟨_, rfl, encodeAll_of _ 3 rfl⟩, _, _, decodeExact_of _ _ 3 rfl⟩

-- `U32le`: `0x01020304`
example : (∃ s1, Writes u32leEncoder.toEncoder .new (0x01020304) [] (.ok ()) s1 [0x04, 0x03, 0x02, 0x01]) ∧
    ∃ s1 r1, Reads u32leDecoder (fixInit 4) [0x04, 0x03, 0x02, 0x01] (.ok (0x01020304)) s1 r1 :=
  ⟨⟨_, rfl, encodeAll_of _ 3 rfl⟩, _, _, decodeExact_of _ _ 3 rfl⟩

-- `U32le`: `0x04030201`
example : (∃ s1, Writes u32leEncoder.toEncoder .new (0x04030201) [] (.ok ()) s1 [0x01, 0x02, 0x03, 0x04]) ∧
    ∃ s1 r1, Reads u32leDecoder (fixInit 4) [0x01, 0x02, 0x03, 0x04] (.ok (0x04030201)) s1 r1 :=
  ⟨⟨_, rfl, encodeAll_of _ 3 rfl⟩, _, _, decodeExact_of _ _ 3 rfl⟩

-- `I32be`: `-2`
example : (∃ s1, Writes i32beEncoder.toEncoder .new (-2) [] (.ok ()) s1 [0xFF, 0xFF, 0xFF, 0xFE]) ∧
    ∃ s1 r1, Reads i32beDecoder (fixInit 4) [0xFF, 0xFF, 0xFF, 0xFE] (.ok (-2)) s1 r1 :=
  ⟨⟨_, rfl, encodeAll_of _ 3 rfl⟩, _, _, decodeExact_of _ _ 3 rfl⟩

-- `I32le`: `-2`
example : (∃ s1, Writes i32leEncoder.toEncoder .new (-2) [] (.ok ()) s1 [0xFE, 0xFF, 0xFF, 0xFF]) ∧
    ∃ s1 r1, Reads i32leDecoder (fixInit 4) [0xFE, 0xFF, 0xFF, 0xFF] (.ok (-2)) s1 r1 :=
  ⟨⟨_, rfl, encodeAll_of _ 3 rfl⟩, _, _, decodeExact_of _ _ 3 rfl⟩

-- `I32be`: `0x01020304`
example : (∃ s1, Writes i32beEncoder.toEncoder .new (0x01020304) [] (.ok ()) s1 [0x01, 0x02, 0x03, 0x04]) ∧
    ∃ s1 r1, Reads i32beDecoder (fixInit 4) [0x01, 0x02, 0x03, 0x04] (.ok (0x01020304)) s1 r1 :=
  ⟨⟨_, rfl, encodeAll_of _ 3 rfl⟩, _, _, decodeExact_of _ _ 3 rfl⟩

-- `I32le`: `0x04030201`
example : (∃ s1, Writes i32leEncoder.toEncoder .new (0x04030201) [] (.ok ()) s1 [0x01, 0x02, 0x03, 0x04]) ∧
    ∃ s1 r1, Reads i32leDecoder (fixInit 4) [0x01, 0x02, 0x03, 0x04] (.ok (0x04030201)) s1 r1 :=
  ⟨⟨_, rfl, encodeAll_of _ 3 rfl⟩, _, _, decodeExact_of _ _ 3 rfl⟩

-- `U40be`: `0x0102030405`
example : (∃ s1, Writes u40beEncoder.toEncoder .new (0x0102030405) [] (.ok ()) s1 [0x01, 0x02, 0x03, 0x04, 0x05]) ∧
    ∃ s1 r1, Reads u40beDecoder (fixInit 5) [0x01, 0x02, 0x03, 0x04, 0x05] (.ok (0x0102030405)) s1 r1 :=
  ⟨⟨_, rfl, encodeAll_of _ 3 rfl⟩, _, _, decodeExact_of _ _ 3 rfl⟩

-- `U40le`: `0x0102030405`
example : (∃ s1, Writes u40leEncoder.toEncoder .new (0x0102030405) [] (.ok ()) s1 [0x05, 0x04, 0x03, 0x02, 0x01]) ∧
    ∃ s1 r1, Reads u40leDecoder (fixInit 5) [0x05, 0x04, 0x03, 0x02, 0x01] (.ok (0x0102030405)) s1 r1 :=
  ⟨⟨_, rfl, encodeAll_of _ 3 rfl⟩, _, _, decodeExact_of _ _ 3 rfl⟩

-- `U40le`: `0x0504030201`
example : (∃ s1, Writes u40leEncoder.toEncoder .new (0x0504030201) [] (.ok ()) s1 [0x01, 0x02, 0x03, 0x04, 0x05]) ∧
    ∃ s1 r1, Reads u40leDecoder (fixInit 5) [0x01, 0x02, 0x03, 0x04, 0x05] (.ok (0x0504030201)) s1 r1 :=
  ⟨⟨_, rfl, encodeAll_of _ 3 rfl⟩, _, _, decodeExact_of _ _ 3 rfl⟩

-- `U48be`: `0x010203040506`
example : (∃ s1, Writes u48beEncoder.toEncoder .new (0x010203040506) [] (.ok ()) s1 [0x01, 0x02, 0x03, 0x04, 0x05, 0x06]) ∧
    ∃ s1 r1, Reads u48beDecoder (fixInit 6) [0x01, 0x02, 0x03, 0x04, 0x05, 0x06] (.ok (0x010203040506)) s1 r1 :=
  ⟨⟨_, rfl, encodeAll_of _ 3 rfl⟩, _, _, decodeExact_of _ _ 3 rfl⟩

-- `U48le`: `0x010203040506`
example : (∃ s1, Writes u48leEncoder.toEncoder .new (0x010203040506) [] (.ok ()) s1 [0x06, 0x05, 0x04, 0x03, 0x02, 0x01]) ∧
    ∃ s1 r1, Reads u48leDecoder (fixInit 6) [0x06, 0x05, 0x04, 0x03, 0x02, 0x01] (.ok (0x010203040506)) s1 r1 :=
  ⟨⟨_, rfl, encodeAll_of _ 3 rfl⟩, _, _, decodeExact_of _ _ 3 rfl⟩

-- `U48le`: `0x060504030201`
example : (∃ s1, Writes u48leEncoder.toEncoder .new (0x060504030201) [] (.ok ()) s1 [0x01, 0x02, 0x03, 0x04, 0x05, 0x06]) ∧
    ∃ s1 r1, Reads u48leDecoder (fixInit 6) [0x01, 0x02, 0x03, 0x04, 0x05, 0x06] (.ok (0x060504030201)) s1 r1 :=
  ⟨⟨_, rfl, encodeAll_of _ 3 rfl⟩, _, _, decodeExact_of _ _ 3 rfl⟩

-- `U56be`: `0x01020304050607`
example : (∃ s1, Writes u56beEncoder.toEncoder .new (0x01020304050607) [] (.ok ()) s1 [0x01, 0x02, 0x03, 0x04, 0x05, 0x06, 0x07]) ∧
    ∃ s1 r1, Reads u56beDecoder (fixInit 7) [0x01, 0x02, 0x03, 0x04, 0x05, 0x06, 0x07] (.ok (0x01020304050607)) s1 r1 :=
  ⟨⟨_, rfl, encodeAll_of _ 3 rfl⟩, _, _, decodeExact_of _ _ 3 rfl⟩

-- `U56le`: `0x01020304050607`
example : (∃ s1, Writes u56leEncoder.toEncoder .new (0x01020304050607) [] (.ok ()) s1 [0x07, 0x06, 0x05, 0x04, 0x03, 0x02, 0x01]) ∧
    ∃ s1 r1, Reads u56leDecoder (fixInit 7) [0x07, 0x06, 0x05, 0x04, 0x03, 0x02, 0x01] (.ok (0x01020304050607)) s1 r1 :=
  ⟨⟨_, rfl, encodeAll_of _ 3 rfl⟩, _, _, decodeExact_of _ _ 3 rfl⟩

-- `U56le`: `0x07060504030201`
example : (∃ s1, Writes u56leEncoder.toEncoder .new (0x07060504030201) [] (.ok ()) s1 [0x01, 0x02, 0x03, 0x04, 0x05, 0x06, 0x07]) ∧
    ∃ s1 r1, Reads u56leDecoder (fixInit 7) [0x01, 0x02, 0x03, 0x04, 0x05, 0x06, 0x07] (.ok (0x07060504030201)) s1 r1 :=
  ⟨⟨_, rfl, encodeAll_of _ 3 rfl⟩, _, _, decodeExact_of _ _ 3 rfl⟩

-- `U64be`: `0x0102030405060708`
example : (∃ s1, Writes u64beEncoder.toEncoder .new (0x0102030405060708) [] (.ok ()) s1 [0x01, 0x02, 0x03, 0x04, 0x05, 0x06, 0x07, 0x08]) ∧
    ∃ s1 r1, Reads u64beDecoder (fixInit 8) [0x01, 0x02, 0x03, 0x04, 0x05, 0x06, 0x07, 0x08] (.ok (0x0102030405060708)) s1 r1 :=
  ⟨⟨_, rfl, encodeAll_of _ 3 rfl⟩, _, _, decodeExact_of _ _ 3 rfl⟩

-- `U64le`: `0x0102030405060708`
example : (∃ s1, Writes u64leEncoder.toEncoder .new (0x0102030405060708) [] (.ok ()) s1 [0x08, 0x07, 0x06, 0x05, 0x04, 0x03, 0x02, 0x01]) ∧
    ∃ s1 r1, Reads u64leDecoder (fixInit 8) [0x08, 0x07, 0x06, 0x05, 0x04, 0x03, 0x02, 0x01] (.ok (0x0102030405060708)) s1 r1 :=
  ⟨⟨_, rfl, encodeAll_of _ 3 rfl⟩, _, _, decodeExact_of _ _ 3 rfl⟩

-- `U64le`: `0x0807060504030201`
example : (∃ s1, Writes u64leEncoder.toEncoder .new (0x0807060504030201) [] (.ok ()) s1 [0x01, 0x02, 0x03, 0x04, 0x05, 0x06, 0x07, 0x08]) ∧
    ∃ s1 r1, Reads u64leDecoder (fixInit 8) [0x01, 0x02, 0x03, 0x04, 0x05, 0x06, 0x07, 0x08] (.ok (0x0807060504030201)) s1 r1 :=
  ⟨⟨_, rfl, encodeAll_of _ 3 rfl⟩, _, _, decodeExact_of _ _ 3 rfl⟩

-- `I64be`: `-2`
example : (∃ s1, Writes i64beEncoder.toEncoder .new (-2) [] (.ok ()) s1 [0xFF, 0xFF, 0xFF, 0xFF, 0xFF, 0xFF, 0xFF, 0xFE]) ∧
    ∃ s1 r1, Reads i64beDecoder (fixInit 8) [0xFF, 0xFF, 0xFF, 0xFF, 0xFF, 0xFF, 0xFF, 0xFE] (.ok (-2)) s1 r1 :=
  ⟨⟨_, rfl, encodeAll_of _ 3 rfl⟩, _, _, decodeExact_of _ _ 3 rfl⟩

-- `I64le`: `-2`
example : (∃ s1, Writes i64leEncoder.toEncoder .new (-2) [] (.ok ()) s1 [0xFE, 0xFF, 0xFF, 0xFF, 0xFF, 0xFF, 0xFF, 0xFF]) ∧
    ∃ s1 r1, Reads i64leDecoder (fixInit 8) [0xFE, 0xFF, 0xFF, 0xFF, 0xFF, 0xFF, 0xFF, 0xFF] (.ok (-2)) s1 r1 :=
  ⟨⟨_, rfl, encodeAll_of _ 3 rfl⟩, _, _, decodeExact_of _ _ 3 rfl⟩

-- `I64be`: `0x0102030405060708`
example : (∃ s1, Writes i64beEncoder.toEncoder .new (0x0102030405060708) [] (.ok ()) s1 [0x01, 0x02, 0x03, 0x04, 0x05, 0x06, 0x07, 0x08]) ∧
    ∃ s1 r1, Reads i64beDecoder (fixInit 8) [0x01, 0x02, 0x03, 0x04, 0x05, 0x06, 0x07, 0x08] (.ok (0x0102030405060708)) s1 r1 :=
  ⟨⟨_, rfl, encodeAll_of _ 3 rfl⟩, _, _, decodeExact_of _ _ 3 rfl⟩

-- `I64le`: `0x0807060504030201`
example : (∃ s1, Writes i64leEncoder.toEncoder .new (0x0807060504030201) [] (.ok ()) s1 [0x01, 0x02, 0x03, 0x04, 0x05, 0x06, 0x07, 0x08]) ∧
    ∃ s1 r1, Reads i64leDecoder (fixInit 8) [0x01, 0x02, 0x03, 0x04, 0x05, 0x06, 0x07, 0x08] (.ok (0x0807060504030201)) s1 r1 :=
  ⟨⟨_, rfl, encodeAll_of _ 3 rfl⟩, _, _, decodeExact_of _ _ 3 rfl⟩

-- `F32be`: `0xc2f6cccd` (the bits of `-123.4`)
example : (∃ s1, Writes f32beEncoder.toEncoder .new (0xc2f6cccd) [] (.ok ()) s1 [194, 246, 204, 205]) ∧
    ∃ s1 r1, Reads f32beDecoder (fixInit 4) [194, 246, 204, 205] (.ok (0xc2f6cccd)) s1 r1 :=
  ⟨⟨_, rfl, encodeAll_of _ 3 rfl⟩, _, _, decodeExact_of _ _ 3 rfl⟩

-- `F32le`: `0xc2f6cccd` (the bits of `-123.4`)
example : (∃ s1, Writes f32leEncoder.toEncoder .new (0xc2f6cccd) [] (.ok ()) s1 [205, 204, 246, 194]) ∧
    ∃ s1 r1, Reads f32leDecoder (fixInit 4) [205, 204, 246, 194] (.ok (0xc2f6cccd)) s1 r1 :=
  ⟨⟨_, rfl, encodeAll_of _ 3 rfl⟩, _, _, decodeExact_of _ _ 3 rfl⟩

-- `F32be`: `0x42f6cccd` (the bits of `123.4`)
example : (∃ s1, Writes f32beEncoder.toEncoder .new (0x42f6cccd) [] (.ok ()) s1 [66, 246, 204, 205]) ∧
    ∃ s1 r1, Reads f32beDecoder (fixInit 4) [66, 246, 204, 205] (.ok (0x42f6cccd)) s1 r1 :=
  ⟨⟨_, rfl, encodeAll_of _ 3 rfl⟩, _, _, decodeExact_of _ _ 3 rfl⟩

-- `F32le`: `0x42f6cccd` (the bits of `123.4`)
example : (∃ s1, Writes f32leEncoder.toEncoder .new (0x42f6cccd) [] (.ok ()) s1 [205, 204, 246, 66]) ∧
    ∃ s1 r1, Reads f32leDecoder (fixInit 4) [205, 204, 246, 66] (.ok (0x42f6cccd)) s1 r1 :=
  ⟨⟨_, rfl, encodeAll_of _ 3 rfl⟩, _, _, decodeExact_of _ _ 3 rfl⟩

-- `F64be`: `0xc05edd2f1a9fbe77` (the bits of `-123.456`)
example : (∃ s1, Writes f64beEncoder.toEncoder .new (0xc05edd2f1a9fbe77) [] (.ok ()) s1 [192, 94, 221, 47, 26, 159, 190, 119]) ∧
    ∃ s1 r1, Reads f64beDecoder (fixInit 8) [192, 94, 221, 47, 26, 159, 190, 119] (.ok (0xc05edd2f1a9fbe77)) s1 r1 :=
  ⟨⟨_, rfl, encodeAll_of _ 3 rfl⟩, _, _, decodeExact_of _ _ 3 rfl⟩

-- `F64le`: `0xc05edd2f1a9fbe77` (the bits of `-123.456`)
example : (∃ s1, Writes f64leEncoder.toEncoder .new (0xc05edd2f1a9fbe77) [] (.ok ()) s1 [119, 190, 159, 26, 47, 221, 94, 192]) ∧
    ∃ s1 r1, Reads f64leDecoder (fixInit 8) [119, 190, 159, 26, 47, 221, 94, 192] (.ok (0xc05edd2f1a9fbe77)) s1 r1 :=
  ⟨⟨_, rfl, encodeAll_of _ 3 rfl⟩, _, _, decodeExact_of _ _ 3 rfl⟩

-- `F64be`: `0x405edd2f1a9fbe77` (the bits of `123.456`)
example : (∃ s1, Writes f64beEncoder.toEncoder .new (0x405edd2f1a9fbe77) [] (.ok ()) s1 [64, 94, 221, 47, 26, 159, 190, 119]) ∧
    ∃ s1 r1, Reads f64beDecoder (fixInit 8) [64, 94, 221, 47, 26, 159, 190, 119] (.ok (0x405edd2f1a9fbe77)) s1 r1 :=
  ⟨⟨_, rfl, encodeAll_of _ 3 rfl⟩, _, _, decodeExact_of _ _ 3 rfl⟩

-- `F64le`: `0x405edd2f1a9fbe77` (the bits of `123.456`)
example : (∃ s1, Writes f64leEncoder.toEncoder .new (0x405edd2f1a9fbe77) [] (.ok ()) s1 [119, 190, 159, 26, 47, 221, 94, 64]) ∧
    ∃ s1 r1, Reads f64leDecoder (fixInit 8) [119, 190, 159, 26, 47, 221, 94, 64] (.ok (0x405edd2f1a9fbe77)) s1 r1 :=
  ⟨⟨_, rfl, encodeAll_of _ 3 rfl⟩, _, _, decodeExact_of _ _ 3 rfl⟩

/-! ## `src/null.rs`, `src/padding.rs`, `src/slice.rs`, `src/tuple.rs` -/

-- `null::test::null_decoder_works`
example : (nullDecoder.decode () [1] (Eos.new true)).1 = .ok 0 ∧ (nullDecoder.finish ()).1 = .ok () ∧
    (nullDecoder.finish (nullDecoder.finish ()).2).1 = .ok () := ⟨rfl, rfl, rfl⟩

-- `null::test::null_encoder_works`
example : (nullEncoder.start () ()).1 = .ok () ∧ nullEncoder.isIdle (nullEncoder.start () ()).2 = true ∧
    (nullEncoder.encode () 10 (Eos.new true)).1 = .ok [] := ⟨rfl, rfl, rfl⟩

-- `padding::test::padding_encoder_works`
example : let p := paddingEncoder.encode (paddingEncoder.start none 3).2 8 (Eos.new true)
    p.1 = .ok [3, 3, 3, 3, 3, 3, 3, 3] ∧ paddingEncoder.isIdle p.2 = true := ⟨rfl, rfl⟩

-- `padding::test::padding_decoder_works`
example : (∃ s1 r1, Reads paddingDecoder (.new none) (List.replicate 8 0) (.ok ()) s1 r1) ∧
    ∃ s1 r1 s2 r2 k, Reads paddingDecoder (.new (some 1)) (List.replicate 8 1) (.ok ()) s1 r1 ∧
      Reads paddingDecoder s1 (List.replicate 8 0) (.err k) s2 r2 :=
  ⟨⟨_, _, decodeExact_of _ _ 3 rfl⟩, _, _, _, _, _, decodeExact_of _ _ 3 rfl, decodeExact_of _ _ 3 rfl⟩

-- `slice::tests::owned_slice_works`
example : let s : OwnedSlice Nat := ⟨[1, 2, 3, 4], 1, 3⟩
    s.asRef = .ok [2, 3] ∧ s.write [9, 3] = .ok ⟨[1, 9, 3, 4], 1, 3⟩ := ⟨rfl, rfl⟩

-- `tuple::test::tuple_decoder_works`
example : ∃ s1 r1, Reads (tupleDecoder2 u8Decoder u8Decoder) (fixInit 1, fixInit 1) (utf8Bytes "foo") (.ok (102, 111)) s1 r1 :=
  ⟨_, _, decodeExact_of _ _ 3 rfl⟩

-- `tuple::test::tuple_encoder_works`
example : ∃ s1, Writes (tupleEncoder2 u8Encoder.toEncoder u8Encoder.toEncoder) (.new, .new) (0, 1) [] (.ok ()) s1 [0, 1] :=
  ⟨_, rfl, encodeAll_of _ 3 rfl⟩

/-! ## `src/io.rs` -/

/-- `fill(b"foo".as_ref())` of a buffer of 1024 zeros. -/
theorem fill_foo : (ReadBuf.new (List.replicate 1024 0)).fill sliceReader (utf8Bytes "foo") =
    (.ok (), ⟨utf8Bytes "foo" ++ List.replicate 1021 0, 0, 3, .eos⟩, []) := by
  rw [ReadBuf.fill, dif_neg (by decide +kernel), dif_neg (by decide +kernel)]
  have h1 : sliceReader.read (utf8Bytes "foo") ((ReadBuf.new (List.replicate 1024 0)).inner.length -
      (ReadBuf.new (List.replicate 1024 0)).tail) = (.data [102, 111, 111], []) := by decide +kernel
  rw [h1]
  have h2 : ({ ReadBuf.new (List.replicate 1024 0) with
      inner := splice (ReadBuf.new (List.replicate 1024 0)).inner (ReadBuf.new (List.replicate 1024 0)).tail
        (([102, 111, 111] : Bytes).take ((ReadBuf.new (List.replicate 1024 0)).inner.length -
          (ReadBuf.new (List.replicate 1024 0)).tail))
      state := .normal
      tail := (ReadBuf.new (List.replicate 1024 0)).tail + ([102, 111, 111] : Bytes).length } : ReadBuf) =
      ⟨utf8Bytes "foo" ++ List.replicate 1021 0, 0, 3, .normal⟩ := by decide +kernel
  simp only [h2]
  rw [ReadBuf.fill, dif_neg (by decide +kernel), dif_neg (by decide +kernel)]
  have h3 : sliceReader.read [] ((⟨utf8Bytes "foo" ++ List.replicate 1021 0, 0, 3, .normal⟩ : ReadBuf).inner.length -
      (⟨utf8Bytes "foo" ++ List.replicate 1021 0, 0, 3, .normal⟩ : ReadBuf).tail) = (.data [], []) := by decide +kernel
  rw [h3]

-- `io::test::decode_from_read_buf_works`
example : let b := ((ReadBuf.new (List.replicate 1024 0)).fill sliceReader (utf8Bytes "foo")).2.1
    b.len = 3 ∧ b.state = .eos ∧ (decodeFromReadBuf utf8 .new b).1 = .ok () ∧
    (utf8.finish (decodeFromReadBuf utf8 .new b).2.1).1 = .ok "foo" := by
  rw [fill_foo]
  exact ⟨rfl, rfl, by decide +kernel, by decide +kernel⟩

-- `io::test::read_from_read_buf_works`; `read_to_end` reads until a read of nothing
example : let b := ((ReadBuf.new (List.replicate 1024 0)).fill sliceReader (utf8Bytes "foo")).2.1
    let p := readBufReader.read b 32
    b.len = 3 ∧ b.state = .eos ∧ p.1 = .data (utf8Bytes "foo") ∧ (readBufReader.read p.2 29).1 = .data [] ∧
    (readBufReader.read p.2 29).2.len = 0 := by
  rw [fill_foo]
  exact ⟨rfl, rfl, by decide +kernel, by decide +kernel, by decide +kernel⟩

/-- Flushing a buffer that holds `foo` into a vector. -/
theorem flush_foo : (⟨utf8Bytes "foo" ++ List.replicate 1021 0, 0, 3, .normal, none, []⟩ : WriteBuf).flush vecWriter [] =
    (.ok (), ⟨utf8Bytes "foo" ++ List.replicate 1021 0, 0, 0, .normal, none, []⟩, utf8Bytes "foo") := by
  rw [WriteBuf.flush, WriteBuf.flushLoop, dif_neg (by decide +kernel), dif_neg (by decide +kernel)]
  have h1 : vecWriter.write [] (((⟨utf8Bytes "foo" ++ List.replicate 1021 0, 0, 3, .normal, none, []⟩ : WriteBuf).inner.take
      (⟨utf8Bytes "foo" ++ List.replicate 1021 0, 0, 3, .normal, none, []⟩ : WriteBuf).tail).drop
      (⟨utf8Bytes "foo" ++ List.replicate 1021 0, 0, 3, .normal, none, []⟩ : WriteBuf).head) =
      (.wrote 3, utf8Bytes "foo") := by decide +kernel
  rw [h1]
  have h2 : (({ (⟨utf8Bytes "foo" ++ List.replicate 1021 0, 0, 3, .normal, none, []⟩ : WriteBuf) with
      state := .normal } : WriteBuf)).consume 3 =
      ⟨utf8Bytes "foo" ++ List.replicate 1021 0, 0, 0, .normal, none, []⟩ := by decide +kernel
  simp only [h2]
  rw [WriteBuf.flushLoop, dif_pos (by decide +kernel)]
  decide +kernel

-- `io::test::encode_to_write_buf_works`
example : let p := encodeToWriteBuf utf8E (utf8E.start .new "foo").2 (.new (List.replicate 1024 0))
    let q := p.2.2.flush vecWriter []
    p.1 = .ok () ∧ p.2.2.len = 3 ∧ q.1 = .ok () ∧ q.2.1.len = 0 ∧ q.2.1.state = .normal ∧ q.2.2 = utf8Bytes "foo" := by
  have h1 : (encodeToWriteBuf utf8E (utf8E.start .new "foo").2 (.new (List.replicate 1024 0))).1 = .ok () := by
    decide +kernel
  have h2 : (encodeToWriteBuf utf8E (utf8E.start .new "foo").2 (.new (List.replicate 1024 0))).2.2 =
      ⟨utf8Bytes "foo" ++ List.replicate 1021 0, 0, 3, .normal, none, []⟩ := by decide +kernel
  simp only [h1, h2, flush_foo]
  exact ⟨trivial, rfl, trivial, rfl, trivial, trivial⟩

-- `io::test::write_to_write_buf_works`
example : let p := (WriteBuf.new (List.replicate 1024 0)).write (utf8Bytes "foo")
    let q := p.2.flush vecWriter []
    p.1 = 3 ∧ p.2.len = 3 ∧ q.1 = .ok () ∧ q.2.1.len = 0 ∧ q.2.1.state = .normal ∧ q.2.2 = utf8Bytes "foo" := by
  have h1 : ((WriteBuf.new (List.replicate 1024 0)).write (utf8Bytes "foo")).1 = 3 := by decide +kernel
  have h2 : ((WriteBuf.new (List.replicate 1024 0)).write (utf8Bytes "foo")).2 =
      ⟨utf8Bytes "foo" ++ List.replicate 1021 0, 0, 3, .normal, none, []⟩ := by decide +kernel
  simp only [h1, h2, flush_foo]
  exact ⟨trivial, rfl, trivial, rfl, trivial, trivial⟩

/-! ## `src/json_codec.rs`, `src/bincode_codec.rs`

What serde_json and bincode read and write is given. -/

/-- `serde_json::from_reader` on the text of the test. -/
def readJson (b : Bytes) : Option (List Nat) := if b = utf8Bytes "[1, 2, 3]" then some [1, 2, 3] else none

-- `json_codec::test::json_decoder_works`, and the example of `JsonDecoder`
example : let D := jsonDecoder readJson
    let p := D.decode .new (utf8Bytes "[1, 2") (Eos.new false)
    let q := D.decode p.2 (utf8Bytes ", 3]") (Eos.new true)
    p.1 = .ok 5 ∧ q.1 = .ok 4 ∧ (D.finish q.2).1 = .ok [1, 2, 3] :=
  ⟨rfl, by decide +kernel, by decide +kernel⟩

/-- The pieces in which `serde_json::to_writer` writes `(1, 2, 3)`. -/
def writeJson : SerdeWrite Unit := fun _ =>
  (["[", "1", ",", "2", ",", "3", "]"].map utf8Bytes, true)

-- `json_codec::test::json_encoder_works`
example : let E := jsonEncoder writeJson
    let p := E.encode (E.start .new ()).2 2 (Eos.new false)
    let q := E.encode p.2 5 (Eos.new true)
    p.1 = .ok (utf8Bytes "[1") ∧ q.1 = .ok (utf8Bytes ",2,3]") := by
  decide +kernel

/-- An encoder of `serde` items that fit into the first buffer. -/
theorem serde_encode {ser : SerdeWrite Unit} {c : ChainState} (h1 : (ser ()).2 = true) (h2 : c.b = [])
    (h3 : serialize chainWriter ⟨[], 1024, []⟩ (ser ()).1 = (.ok (), c)) (hc : c.a.length ≤ 1024) (out : Bytes) :
    encodeAll (jsonEncoder ser) vecWriter ((jsonEncoder ser).start .new ()).2 out = some (.ok (), .new, out ++ c.a) := by
  have h : (jsonEncoder ser).encode ⟨some (), .new⟩ 1024 (Eos.new false) = (.ok c.a, .new) := by
    simp only [jsonEncoder, monolithicEncoder, serdeSerializer, h3, h1, Res.step, h2, if_true, List.isEmpty_nil]
    rfl
  refine encodeAll_of _ 2 ?_
  show encodeAllN (jsonEncoder ser) 2 ⟨some (), .new⟩ out = _
  have hi : (jsonEncoder ser).isIdle ⟨some (), .new⟩ = false := rfl
  rw [encodeAllN, h, hi, if_neg Bool.false_ne_true]
  simp only
  rw [if_neg (by omega)]
  rfl

/-- The pieces in which `serde_json::to_writer` writes the struct of the test. -/
def writeItem : SerdeWrite Unit := fun _ =>
  (["{", "\"id\"", ":", "4", ",", "\"name\"", ":", "\"", "item4", "\"", "}"].map utf8Bytes, true)

-- `json_codec::test::encode_to_json_string_using_serde_works`
example : (encodeIntoBytes (jsonEncoder writeItem) .new ()).1 = .ok (utf8Bytes "{\"id\":4,\"name\":\"item4\"}") := by
  have h := serde_encode (ser := writeItem) (c := ⟨utf8Bytes "{\"id\":4,\"name\":\"item4\"}", 1001, []⟩) rfl rfl
    (by decide +kernel) (by decide +kernel) []
  have h' : encodeAll (jsonEncoder writeItem) vecWriter ⟨some (), .new⟩ [] = _ := h
  have h1 : (jsonEncoder writeItem).start .new () = (.ok (), ⟨some (), .new⟩) := rfl
  have h2 : (jsonEncoder writeItem).requiring ⟨some (), .new⟩ = .unknown := rfl
  simp only [encodeIntoBytes, h1, h2, Res.step, h']
  rfl

/-- What bincode writes for `(1u8, Some(2u16), 3u32)`. -/
def bincodeBytes : Bytes := [1, 1, 2, 0, 3, 0, 0, 0]

-- `bincode_codec::test::bincode_works`
example : (∃ s1, Writes (bincodeEncoder fun _ : Unit => ([[1], [1], [2, 0], [3, 0, 0, 0]], true)) .new () [] (.ok ()) s1
      bincodeBytes) ∧
    ∃ s1 r1, Reads (bincodeDecoder fun b => if b = bincodeBytes then some ((1, some 2, 3), 8) else none) .new bincodeBytes
      (.ok ((1 : Nat), some (2 : Nat), (3 : Nat))) s1 r1 :=
  ⟨⟨_, rfl, serde_encode (c := ⟨bincodeBytes, 1016, []⟩) rfl rfl (by decide +kernel) (by decide +kernel) []⟩,
    _, _, decodeExact_of _ _ 10 rfl⟩

end Bytecodec.Validation
