import Verif.Model.Bytes
/-!
# Fixed-width numbers

Models `src/fixnum.rs`. The reading/writing of multi-byte numbers is done by the `byteorder` crate
(not part of the repository); `readBE`/`readLE`/`writeBE`/`writeLE` are its documented behaviour.
Floating point numbers are represented by their bit patterns (`f32::to_bits`, `f64::to_bits`).
(Generated text; one definition per codec.)
-/
namespace Bytecodec

/-- `byteorder::BigEndian::read_*`: most significant byte first. -/
def readBE (b : Bytes) : Nat := b.foldl (fun acc x => acc * 256 + x.toNat) 0

/-- `byteorder::LittleEndian::read_*`: least significant byte first. -/
def readLE (b : Bytes) : Nat := b.foldr (fun x acc => x.toNat + 256 * acc) 0

/-- `byteorder::BigEndian::write_*` into a `k`-byte array. -/
def writeBE (k n : Nat) : Bytes := (List.range k).map fun i => UInt8.ofNat (n / 256 ^ (k - 1 - i))

/-- `byteorder::LittleEndian::write_*` into a `k`-byte array. -/
def writeLE (k n : Nat) : Bytes := (List.range k).map fun i => UInt8.ofNat (n / 256 ^ i)

/-- `src/fixnum.rs` 6-28: `impl_decode!`; `f` is `decode_item`. -/
def fixDecoder {α : Type} (f : Bytes → α) : Decoder CopyableState α where
  decode s buf e := copyableBytesDecoder.decode s buf e
  finish s := Res.step (copyableBytesDecoder.finish s) id fun b s' => (.ok (f b), s')
  requiring s := copyableBytesDecoder.requiring s
  isIdle s := copyableBytesDecoder.isIdle s

/-- `src/fixnum.rs` 30-59: `impl_encode!`; `f` is `encode_item`. -/
def fixEncoder {α : Type} (f : α → Except ErrorKind Bytes) : SizedEncoder (BytesEncoderState Bytes) α where
  encode s cap e := (bytesEncoder id).encode s cap e
  start s item :=
    match f item with
    | .ok b => (bytesEncoder id).start s b
    | .error k => (.err k, s)
  requiring s := (bytesEncoder id).requiring s
  isIdle s := (bytesEncoder id).isIdle s
  exact s := (bytesEncoder id).exact s

/-- The default state of a decoder for `k`-byte numbers: `CopyableBytesDecoder<[u8; k]>::default()`. -/
def fixInit (k : Nat) : CopyableState := ⟨List.replicate k 0, 0⟩

/-- `src/fixnum.rs` 75-86: `U8Decoder`. -/
def u8Decoder : Decoder CopyableState UInt8 := fixDecoder fun b => b.headD 0

/-- `src/fixnum.rs` 103-116: `U8Encoder`. -/
def u8Encoder : SizedEncoder (BytesEncoderState Bytes) UInt8 := fixEncoder fun n => .ok [n]

/-- `src/fixnum.rs` 132-143: `I8Decoder`. -/
def i8Decoder : Decoder CopyableState Int8 := fixDecoder fun b => (b.headD 0).toInt8

/-- `src/fixnum.rs` 160-173: `I8Encoder`. -/
def i8Encoder : SizedEncoder (BytesEncoderState Bytes) Int8 := fixEncoder fun n => .ok [n.toUInt8]

/-- `src/fixnum.rs` 189-200: `U16beDecoder`. -/
def u16beDecoder : Decoder CopyableState UInt16 := fixDecoder fun b => UInt16.ofNat (readBE b)

/-- `src/fixnum.rs` 244-257: `U16beEncoder`. -/
def u16beEncoder : SizedEncoder (BytesEncoderState Bytes) UInt16 := fixEncoder fun n => .ok (writeBE 2 (n.toNat))

/-- `src/fixnum.rs` 216-227: `U16leDecoder`. -/
def u16leDecoder : Decoder CopyableState UInt16 := fixDecoder fun b => UInt16.ofNat (readLE b)

/-- `src/fixnum.rs` 274-287: `U16leEncoder`. -/
def u16leEncoder : SizedEncoder (BytesEncoderState Bytes) UInt16 := fixEncoder fun n => .ok (writeLE 2 (n.toNat))

/-- `src/fixnum.rs` 303-314: `I16beDecoder`. -/
def i16beDecoder : Decoder CopyableState Int16 := fixDecoder fun b => (UInt16.ofNat (readBE b)).toInt16

/-- `src/fixnum.rs` 358-371: `I16beEncoder`. -/
def i16beEncoder : SizedEncoder (BytesEncoderState Bytes) Int16 := fixEncoder fun n => .ok (writeBE 2 (n.toUInt16.toNat))

/-- `src/fixnum.rs` 330-341: `I16leDecoder`. -/
def i16leDecoder : Decoder CopyableState Int16 := fixDecoder fun b => (UInt16.ofNat (readLE b)).toInt16

/-- `src/fixnum.rs` 388-401: `I16leEncoder`. -/
def i16leEncoder : SizedEncoder (BytesEncoderState Bytes) Int16 := fixEncoder fun n => .ok (writeLE 2 (n.toUInt16.toNat))

/-- `src/fixnum.rs` 419-430: `U24beDecoder`. -/
def u24beDecoder : Decoder CopyableState UInt32 := fixDecoder fun b => UInt32.ofNat (readBE b)

/-- `src/fixnum.rs` 478-491: `U24beEncoder`. -/
def u24beEncoder : SizedEncoder (BytesEncoderState Bytes) UInt32 := fixEncoder fun n =>
  if n.toNat ≤ 0xFFFFFF then .ok (writeBE 3 (n.toNat)) else .error .invalidInput

/-- `src/fixnum.rs` 448-459: `U24leDecoder`. -/
def u24leDecoder : Decoder CopyableState UInt32 := fixDecoder fun b => UInt32.ofNat (readLE b)

/-- `src/fixnum.rs` 510-523: `U24leEncoder`. -/
def u24leEncoder : SizedEncoder (BytesEncoderState Bytes) UInt32 := fixEncoder fun n =>
  if n.toNat ≤ 0xFFFFFF then .ok (writeLE 3 (n.toNat)) else .error .invalidInput

/-- `src/fixnum.rs` 539-550: `U32beDecoder`. -/
def u32beDecoder : Decoder CopyableState UInt32 := fixDecoder fun b => UInt32.ofNat (readBE b)

/-- `src/fixnum.rs` 594-607: `U32beEncoder`. -/
def u32beEncoder : SizedEncoder (BytesEncoderState Bytes) UInt32 := fixEncoder fun n => .ok (writeBE 4 (n.toNat))

/-- `src/fixnum.rs` 566-577: `U32leDecoder`. -/
def u32leDecoder : Decoder CopyableState UInt32 := fixDecoder fun b => UInt32.ofNat (readLE b)

/-- `src/fixnum.rs` 624-637: `U32leEncoder`. -/
def u32leEncoder : SizedEncoder (BytesEncoderState Bytes) UInt32 := fixEncoder fun n => .ok (writeLE 4 (n.toNat))

/-- `src/fixnum.rs` 653-664: `I32beDecoder`. -/
def i32beDecoder : Decoder CopyableState Int32 := fixDecoder fun b => (UInt32.ofNat (readBE b)).toInt32

/-- `src/fixnum.rs` 708-721: `I32beEncoder`. -/
def i32beEncoder : SizedEncoder (BytesEncoderState Bytes) Int32 := fixEncoder fun n => .ok (writeBE 4 (n.toUInt32.toNat))

/-- `src/fixnum.rs` 680-691: `I32leDecoder`. -/
def i32leDecoder : Decoder CopyableState Int32 := fixDecoder fun b => (UInt32.ofNat (readLE b)).toInt32

/-- `src/fixnum.rs` 738-751: `I32leEncoder`. -/
def i32leEncoder : SizedEncoder (BytesEncoderState Bytes) Int32 := fixEncoder fun n => .ok (writeLE 4 (n.toUInt32.toNat))

/-- `src/fixnum.rs` 769-780: `U40beDecoder`. -/
def u40beDecoder : Decoder CopyableState UInt64 := fixDecoder fun b => UInt64.ofNat (readBE b)

/-- `src/fixnum.rs` 828-842: `U40beEncoder`. -/
def u40beEncoder : SizedEncoder (BytesEncoderState Bytes) UInt64 := fixEncoder fun n =>
  if n.toNat ≤ 0xFFFFFFFFFF then .ok (writeBE 5 (n.toNat)) else .error .invalidInput

/-- `src/fixnum.rs` 798-809: `U40leDecoder`. -/
def u40leDecoder : Decoder CopyableState UInt64 := fixDecoder fun b => UInt64.ofNat (readLE b)

/-- `src/fixnum.rs` 861-875: `U40leEncoder`. -/
def u40leEncoder : SizedEncoder (BytesEncoderState Bytes) UInt64 := fixEncoder fun n =>
  if n.toNat ≤ 0xFFFFFFFFFF then .ok (writeLE 5 (n.toNat)) else .error .invalidInput

/-- `src/fixnum.rs` 893-904: `U48beDecoder`. -/
def u48beDecoder : Decoder CopyableState UInt64 := fixDecoder fun b => UInt64.ofNat (readBE b)

/-- `src/fixnum.rs` 952-966: `U48beEncoder`. -/
def u48beEncoder : SizedEncoder (BytesEncoderState Bytes) UInt64 := fixEncoder fun n =>
  if n.toNat ≤ 0xFFFFFFFFFFFF then .ok (writeBE 6 (n.toNat)) else .error .invalidInput

/-- `src/fixnum.rs` 922-933: `U48leDecoder`. -/
def u48leDecoder : Decoder CopyableState UInt64 := fixDecoder fun b => UInt64.ofNat (readLE b)

/-- `src/fixnum.rs` 985-999: `U48leEncoder`. -/
def u48leEncoder : SizedEncoder (BytesEncoderState Bytes) UInt64 := fixEncoder fun n =>
  if n.toNat ≤ 0xFFFFFFFFFFFF then .ok (writeLE 6 (n.toNat)) else .error .invalidInput

/-- `src/fixnum.rs` 1017-1028: `U56beDecoder`. -/
def u56beDecoder : Decoder CopyableState UInt64 := fixDecoder fun b => UInt64.ofNat (readBE b)

/-- `src/fixnum.rs` 1076-1090: `U56beEncoder`. -/
def u56beEncoder : SizedEncoder (BytesEncoderState Bytes) UInt64 := fixEncoder fun n =>
  if n.toNat ≤ 0xFFFFFFFFFFFFFF then .ok (writeBE 7 (n.toNat)) else .error .invalidInput

/-- `src/fixnum.rs` 1046-1057: `U56leDecoder`. -/
def u56leDecoder : Decoder CopyableState UInt64 := fixDecoder fun b => UInt64.ofNat (readLE b)

/-- `src/fixnum.rs` 1109-1123: `U56leEncoder`. -/
def u56leEncoder : SizedEncoder (BytesEncoderState Bytes) UInt64 := fixEncoder fun n =>
  if n.toNat ≤ 0xFFFFFFFFFFFFFF then .ok (writeLE 7 (n.toNat)) else .error .invalidInput

/-- `src/fixnum.rs` 1139-1150: `U64beDecoder`. -/
def u64beDecoder : Decoder CopyableState UInt64 := fixDecoder fun b => UInt64.ofNat (readBE b)

/-- `src/fixnum.rs` 1194-1207: `U64beEncoder`. -/
def u64beEncoder : SizedEncoder (BytesEncoderState Bytes) UInt64 := fixEncoder fun n => .ok (writeBE 8 (n.toNat))

/-- `src/fixnum.rs` 1166-1177: `U64leDecoder`. -/
def u64leDecoder : Decoder CopyableState UInt64 := fixDecoder fun b => UInt64.ofNat (readLE b)

/-- `src/fixnum.rs` 1224-1237: `U64leEncoder`. -/
def u64leEncoder : SizedEncoder (BytesEncoderState Bytes) UInt64 := fixEncoder fun n => .ok (writeLE 8 (n.toNat))

/-- `src/fixnum.rs` 1253-1264: `I64beDecoder`. -/
def i64beDecoder : Decoder CopyableState Int64 := fixDecoder fun b => (UInt64.ofNat (readBE b)).toInt64

/-- `src/fixnum.rs` 1308-1321: `I64beEncoder`. -/
def i64beEncoder : SizedEncoder (BytesEncoderState Bytes) Int64 := fixEncoder fun n => .ok (writeBE 8 (n.toUInt64.toNat))

/-- `src/fixnum.rs` 1280-1291: `I64leDecoder`. -/
def i64leDecoder : Decoder CopyableState Int64 := fixDecoder fun b => (UInt64.ofNat (readLE b)).toInt64

/-- `src/fixnum.rs` 1338-1351: `I64leEncoder`. -/
def i64leEncoder : SizedEncoder (BytesEncoderState Bytes) Int64 := fixEncoder fun n => .ok (writeLE 8 (n.toUInt64.toNat))

/-- `src/fixnum.rs` 1367-1378: `F32beDecoder`. -/
def f32beDecoder : Decoder CopyableState UInt32 := fixDecoder fun b => UInt32.ofNat (readBE b)

/-- `src/fixnum.rs` 1422-1435: `F32beEncoder`. -/
def f32beEncoder : SizedEncoder (BytesEncoderState Bytes) UInt32 := fixEncoder fun n => .ok (writeBE 4 (n.toNat))

/-- `src/fixnum.rs` 1394-1405: `F32leDecoder`. -/
def f32leDecoder : Decoder CopyableState UInt32 := fixDecoder fun b => UInt32.ofNat (readLE b)

/-- `src/fixnum.rs` 1452-1465: `F32leEncoder`. -/
def f32leEncoder : SizedEncoder (BytesEncoderState Bytes) UInt32 := fixEncoder fun n => .ok (writeLE 4 (n.toNat))

/-- `src/fixnum.rs` 1481-1492: `F64beDecoder`. -/
def f64beDecoder : Decoder CopyableState UInt64 := fixDecoder fun b => UInt64.ofNat (readBE b)

/-- `src/fixnum.rs` 1536-1549: `F64beEncoder`. -/
def f64beEncoder : SizedEncoder (BytesEncoderState Bytes) UInt64 := fixEncoder fun n => .ok (writeBE 8 (n.toNat))

/-- `src/fixnum.rs` 1508-1519: `F64leDecoder`. -/
def f64leDecoder : Decoder CopyableState UInt64 := fixDecoder fun b => UInt64.ofNat (readLE b)

/-- `src/fixnum.rs` 1566-1579: `F64leEncoder`. -/
def f64leEncoder : SizedEncoder (BytesEncoderState Bytes) UInt64 := fixEncoder fun n => .ok (writeLE 8 (n.toNat))

end Bytecodec
