import Verif.Model.Serde
import Verif.Model.NullPadding
import Verif.Model.EncCombinator
import Verif.Model.MonoInner
import Verif.Model.Containers
/-!
# Values made by `Default`

Models the `Default` implementations of the codecs, derived or written out. A derived `default()` takes the default of
every field: `0` for a number, `false` for a `bool`, `None` for an `Option`, `T::default()` for anything else. Here
`inner` is always `D::default()` of the wrapped codec.

The unit structs (`NullDecoder`, `NullEncoder`) have one value; a tuple codec's default is the tuple of the defaults,
which is how the model writes its state anyway (`src/tuple.rs` 5, 70). `Utf8Decoder` and `Optional` are wrappers with the
state of what they wrap. `BytesDecoderState.default` and `ByteCount.default` are with their types.
-/
namespace Bytecodec

variable {σ α κ π : Type}

/-- `src/bytes.rs` 33-40: `BytesEncoder`; 367-371: `Utf8Encoder`. -/
def BytesEncoderState.default {β : Type} : BytesEncoderState β := { bytes := none, offset := 0 }

/-- `src/bytes.rs` 118-122: `CopyableBytesDecoder<B>`; `bytes` is `B::default()`. -/
def CopyableState.default (bytes : Bytes) : CopyableState := { bytes := bytes, offset := 0 }

/-- `src/bytes.rs` 289-293: `RemainingBytesDecoder`. -/
def RemainingState.default : RemainingState := { buf := [], eos := false }

/-- `src/padding.rs` 7-11: `PaddingDecoder`. -/
def PaddingState.default : PaddingState := { expected := none, eos := false }

/-- `src/padding.rs` 74-77: `PaddingEncoder`. -/
def paddingEncoderDefault : Option UInt8 := none

/-- `src/combinator.rs` 451-455: `Repeat<E, I>`. -/
def RepeatState.default (inner : σ) : RepeatState σ α := .new inner

/-- `src/combinator.rs` 492-494: `Omittable::new`. -/
def OmitState.new (inner : σ) (doOmit : Bool) : OmitState σ := { inner := inner, doOmit := doOmit }

/-- `src/combinator.rs` 460-464: `Omittable<D>`. -/
def OmitState.default (inner : σ) : OmitState σ := { inner := inner, doOmit := false }

/-- `src/combinator.rs` 585-590: `Collect<D, T>`; `dflt` is `T::default()`. -/
def CollectIntoState.default (dflt : κ) (inner : σ) : CollectIntoState σ κ :=
  { inner := inner, items := dflt, eos := false }

/-- `src/combinator.rs` 663-668: `Length<C>`. -/
def LengthState.default (inner : σ) : LengthState σ := { inner := inner, expected := 0, remaining := 0 }

/-- `src/combinator.rs` 805-810: `CollectN<D, T>` with `T = Vec<D::Item>`. -/
def CollectNState.default (inner : σ) : CollectNState σ α := { inner := inner, remaining := 0, items := [] }

/-- `src/combinator.rs` 950-955: `MaxBytes<C>`. -/
def MaxBytesState.default (inner : σ) : MaxBytesState σ := { inner := inner, consumed := 0, max := 0 }

/-- `src/combinator.rs` 1083-1087: `PreEncode<E>`. -/
def PreEncodeState.default (inner : σ) : PreEncodeState σ := { inner := inner, preEncoded := .default }

/-- `src/combinator.rs` 1141-1145: `Slice<T>`. -/
def SliceState.default (inner : σ) : SliceState σ := { inner := inner, consumable := 0 }

/-- `src/combinator.rs` 1244-1248: `Last<E>`. -/
def LastState.default (inner : σ) : LastState σ α := { inner := inner, item := none }

/-- `src/combinator.rs` 1339-1341: `Peekable::new`. -/
def PeekState.new (inner : σ) : PeekState σ α := { inner := inner, item := none }

/-- `src/combinator.rs` 1353-1360: `Peekable<D>`. -/
def PeekState.default (inner : σ) : PeekState σ α := { inner := inner, item := none }

/-- `src/combinator.rs` 1397-1401: `MaybeEos<D>`. -/
def MaybeEosState.default (inner : σ) : MaybeEosState σ := { inner := inner, started := false }

/-- `src/monolithic.rs` 18-23: `MonolithicDecoder<D>`; with the unit inner decoders also `JsonDecoder`
(`src/json_codec.rs` 66-73) and `BincodeDecoder` (`src/bincode_codec.rs` 50-57). -/
def MonoDecState.default : MonoDecState α := { item := none, buf := [] }

/-- `src/monolithic.rs` 98-103: `MonolithicEncoder<E>`; with the unit inner encoders also `JsonEncoder`
(`src/json_codec.rs` 130-137) and `BincodeEncoder` (`src/bincode_codec.rs` 121-128). -/
def MonoEncState.default : MonoEncState α := { item := none, buf := .default }

end Bytecodec
