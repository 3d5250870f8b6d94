import Verif.Model.Fixnum
/-!
# Specification: fixed-width numbers
-/
namespace Bytecodec.Spec

/-- The `k` base-256 digits of `n`, least significant first. -/
def digits (k n : Nat) : Bytes := (List.range k).map fun i => UInt8.ofNat (n / 256 ^ i % 256)

/-- The `k`-byte form of `n` in the given byte order. -/
def layout (bigEndian : Bool) (k n : Nat) : Bytes :=
  if bigEndian then (digits k n).reverse else digits k n

/-- The number with the given digits, least significant first. -/
def ofDigits : Bytes → Nat
  | [] => 0
  | b :: bs => b.toNat + 256 * ofDigits bs

/-- The number stored in the bytes `bs` in the given byte order. -/
def stored (bigEndian : Bool) (bs : Bytes) : Nat :=
  if bigEndian then ofDigits bs.reverse else ofDigits bs

/-- The table of number codecs: encoder, decoder, width in bytes, byte order, and the unsigned number
an item stands for. Negative numbers stand for themselves plus `2 ^ bits` (two's complement);
floating point numbers are given by their bit patterns. -/
inductive NumberCodec : {α : Type} → SizedEncoder (BytesEncoderState Bytes) α → Decoder CopyableState α →
    Nat → Bool → (α → Nat) → Prop
  | u8 : NumberCodec u8Encoder u8Decoder 1 true (·.toNat)
  | i8 : NumberCodec i8Encoder i8Decoder 1 true (fun n => (n.toInt % 2 ^ 8).toNat)
  | u16be : NumberCodec u16beEncoder u16beDecoder 2 true (·.toNat)
  | u16le : NumberCodec u16leEncoder u16leDecoder 2 false (·.toNat)
  | i16be : NumberCodec i16beEncoder i16beDecoder 2 true (fun n => (n.toInt % 2 ^ 16).toNat)
  | i16le : NumberCodec i16leEncoder i16leDecoder 2 false (fun n => (n.toInt % 2 ^ 16).toNat)
  | u24be : NumberCodec u24beEncoder u24beDecoder 3 true (·.toNat)
  | u24le : NumberCodec u24leEncoder u24leDecoder 3 false (·.toNat)
  | u32be : NumberCodec u32beEncoder u32beDecoder 4 true (·.toNat)
  | u32le : NumberCodec u32leEncoder u32leDecoder 4 false (·.toNat)
  | i32be : NumberCodec i32beEncoder i32beDecoder 4 true (fun n => (n.toInt % 2 ^ 32).toNat)
  | i32le : NumberCodec i32leEncoder i32leDecoder 4 false (fun n => (n.toInt % 2 ^ 32).toNat)
  | u40be : NumberCodec u40beEncoder u40beDecoder 5 true (·.toNat)
  | u40le : NumberCodec u40leEncoder u40leDecoder 5 false (·.toNat)
  | u48be : NumberCodec u48beEncoder u48beDecoder 6 true (·.toNat)
  | u48le : NumberCodec u48leEncoder u48leDecoder 6 false (·.toNat)
  | u56be : NumberCodec u56beEncoder u56beDecoder 7 true (·.toNat)
  | u56le : NumberCodec u56leEncoder u56leDecoder 7 false (·.toNat)
  | u64be : NumberCodec u64beEncoder u64beDecoder 8 true (·.toNat)
  | u64le : NumberCodec u64leEncoder u64leDecoder 8 false (·.toNat)
  | i64be : NumberCodec i64beEncoder i64beDecoder 8 true (fun n => (n.toInt % 2 ^ 64).toNat)
  | i64le : NumberCodec i64leEncoder i64leDecoder 8 false (fun n => (n.toInt % 2 ^ 64).toNat)
  | f32be : NumberCodec f32beEncoder f32beDecoder 4 true (·.toNat)
  | f32le : NumberCodec f32leEncoder f32leDecoder 4 false (·.toNat)
  | f64be : NumberCodec f64beEncoder f64beDecoder 8 true (·.toNat)
  | f64le : NumberCodec f64leEncoder f64leDecoder 8 false (·.toNat)

end Bytecodec.Spec
