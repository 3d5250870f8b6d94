import Verif.Model.Monolithic
/-!
# JSON and Bincode codecs

Models `src/json_codec.rs` and `src/bincode_codec.rs`: what this crate adds to serde_json and bincode. The
two libraries themselves are parameters: `ser` says what they write for an item, `de` what they make of
the bytes they read.
-/
namespace Bytecodec

variable {α : Type}

/-- The pieces `serde_json::to_writer`/`bincode::serialize_into` write for an item, and whether they
succeed. Simplification: they write through `write_all`, and the writer never fails here. -/
abbrev SerdeWrite (α : Type) := α → List Bytes × Bool

/-- `src/json_codec.rs` 146-156 and `src/bincode_codec.rs` 137-147: `monolithic_encode`; every error becomes
`InvalidInput`. -/
def serdeSerializer (ser : SerdeWrite α) : MonolithicSerializer α := fun x =>
  ((ser x).1, if (ser x).2 then .ok () else .err .invalidInput)

/-- `src/json_codec.rs` 88-90: `monolithic_decode`. `de` is `serde_json::from_reader`, which reads its input to
the end (anything but white space after the value is an error). -/
def jsonParser (de : Bytes → Option α) : MonolithicParser α := fun a b =>
  match de (a ++ b) with
  | some x => (.ok x, a.length + b.length)
  | none => (.err .invalidInput, a.length + b.length)

/-- `src/bincode_codec.rs` 77-81: `monolithic_decode`. `de` is `bincode::deserialize_from`: the item, and how many
bytes it has read, which need not be all. -/
def bincodeParser (de : Bytes → Option (α × Nat)) : MonolithicParser α := fun a b =>
  match de (a ++ b) with
  | some (x, n) => (.ok x, n)
  | none => (.err .invalidInput, a.length + b.length)

/-- `src/json_codec.rs` 32-65: `JsonDecoder<T>`, all methods delegate. -/
def jsonDecoder (de : Bytes → Option α) : Decoder (MonoDecState α) α := monolithicDecoder (jsonParser de)

/-- `src/json_codec.rs` 98-129: `JsonEncoder<T>`, all methods delegate. -/
def jsonEncoder (ser : SerdeWrite α) : Encoder (MonoEncState α) α := monolithicEncoder (serdeSerializer ser)

/-- `src/bincode_codec.rs` 16-49: `BincodeDecoder<T>`, all methods delegate. -/
def bincodeDecoder (de : Bytes → Option (α × Nat)) : Decoder (MonoDecState α) α := monolithicDecoder (bincodeParser de)

/-- `src/bincode_codec.rs` 89-120: `BincodeEncoder<T>`, all methods delegate. -/
def bincodeEncoder (ser : SerdeWrite α) : Encoder (MonoEncState α) α := monolithicEncoder (serdeSerializer ser)

end Bytecodec
