import Verif.Model.Tracked
import Verif.Model.NullPadding
import Verif.Model.Fixnum
import Verif.Model.Serde
/-!
# Model: the errors of byte strings, padding, numbers, JSON and bincode, with cause and history

As `Model/Tracked.lean`, for the codecs that are not combinators. Their control flow is that of `Model/Bytes.lean`,
`Model/NullPadding.lean`, `Model/Fixnum.lean`, `Model/Monolithic.lean` and `Model/Serde.lean`; C102 says so.
-/
namespace Bytecodec

variable {κ σ α β : Type}

/-- A line of `src/bytes.rs`. -/
abbrev inBytes (line : Nat) : Loc := ⟨"bytes.rs", line⟩

/-! ## Byte strings and padding -/

/-- `src/bytes.rs` 41-80: `impl Encode for BytesEncoder<B>`; `asRef` is `B::as_ref`. -/
def tBytesEncoderOf (asRef : β → Bytes) : TEncoder κ (BytesEncoderState β) β where
  encode s cap e :=
    match s.bytes with
    | some b =>
      if (asRef b).length < s.offset then (.panic, s)
      else
        let size := min cap ((asRef b).length - s.offset)
        let out := ((asRef b).drop s.offset).take size
        let offset := s.offset + size
        if offset = (asRef b).length then (.ok out, ⟨none, offset⟩)
        else if e.isReached then (.err (.raised .unexpectedEos (inBytes 53)), ⟨some b, offset⟩)
        else (.ok out, ⟨some b, offset⟩)
    | none => (.ok [], s)
  start s item :=
    if s.bytes.isNone then (.ok (), ⟨some item, 0⟩) else (.err (.raised .encoderFull (inBytes 67)), s)
  requiring s := .finite (s.exact asRef)
  isIdle s := s.bytes.isNone

/-- `src/bytes.rs` 144-175: `impl Decode for CopyableBytesDecoder<B>`. -/
def tCopyableBytesDecoder : TDecoder κ CopyableState Bytes where
  decode s buf e :=
    if s.bytes.length < s.offset then (.panic, s)
    else
      let size := min buf.length (s.bytes.length - s.offset)
      let s' : CopyableState := ⟨splice s.bytes s.offset (buf.take size), s.offset + size⟩
      if s'.offset ≠ s'.bytes.length ∧ e.isReached then (.err (.raised .unexpectedEos (inBytes 152)), s')
      else (.ok size, s')
  finish s :=
    if s.offset = s.bytes.length then (.ok s.bytes, { s with offset := 0 })
    else (.err (.raised .incompleteDecoding (inBytes 159)), s)
  requiring s := .finite (s.bytes.length - s.offset)
  isIdle s := s.offset == s.bytes.length

/-- `src/bytes.rs` 233-267: `impl Decode for BytesDecoder<B>`. -/
def tBytesDecoder : TDecoder κ BytesDecoderState Bytes where
  decode s buf e :=
    match s.bytes with
    | none => (.err (.raised .decoderTerminated (inBytes 238)), s)
    | some b =>
      if b.length < s.offset then (.panic, s)
      else
        let size := min buf.length (b.length - s.offset)
        let s' : BytesDecoderState := ⟨some (splice b s.offset (buf.take size)), s.offset + size⟩
        if s'.exact ≠ 0 ∧ e.isReached then (.err (.raised .unexpectedEos (inBytes 245)), s')
        else (.ok size, s')
  finish s :=
    if s.exact ≠ 0 then (.err (.raised .incompleteDecoding (inBytes 251)), s)
    else
      match s.bytes with
      | none => (.err (.raised .decoderTerminated (inBytes 256)), s)
      | some b => (.ok b, { s with bytes := none })
  requiring s := .finite s.exact
  isIdle s := s.exact == 0

/-- `src/bytes.rs` 300-334: `impl Decode for RemainingBytesDecoder`. -/
def tRemainingBytesDecoder : TDecoder κ RemainingState Bytes where
  decode s buf e :=
    if s.eos then (.ok 0, s)
    else
      let go : TRes κ Nat × RemainingState := (.ok buf.length, ⟨s.buf ++ buf, e.isReached⟩)
      match e.remainingBytes.toU64 with
      | some remaining =>
        if 2 ^ 64 ≤ buf.length + remaining then (.panic, s)
        else if 2 ^ 63 ≤ s.buf.length + (buf.length + remaining) then (.capacity, s)
        else go
      | none => go
  finish s :=
    if s.eos then (.ok s.buf, ⟨[], false⟩) else (.err (.raised .incompleteDecoding (inBytes 317)), s)
  requiring s := if s.eos then .finite 0 else .infinite
  isIdle s := s.eos

/-- `src/bytes.rs` 372-389: `impl Encode for Utf8Encoder<S>`. -/
def tUtf8Encoder : TEncoder κ (BytesEncoderState String) String where
  encode s cap e := tracked (inBytes 376) ((tBytesEncoderOf utf8Bytes).encode s cap e)
  start s item := tracked (inBytes 380) ((tBytesEncoderOf utf8Bytes).start s item)
  requiring s := (tBytesEncoderOf (κ := κ) utf8Bytes).requiring s
  isIdle s := (tBytesEncoderOf (κ := κ) utf8Bytes).isIdle s

/-- `src/padding.rs` 33-68: `impl Decode for PaddingDecoder`. -/
def tPaddingDecoder : TDecoder κ PaddingState Unit where
  decode s buf e :=
    if s.eos then (.ok 0, s)
    else
      match s.expected with
      | some expected =>
        if buf.all (fun b => b == expected) then (.ok buf.length, { s with eos := e.isReached })
        else (.err (.raised .invalidInput ⟨"padding.rs", 41⟩), s)
      | none => (.ok buf.length, { s with eos := e.isReached })
  finish s :=
    if s.eos then (.ok (), { s with eos := false })
    else (.err (.raised .incompleteDecoding ⟨"padding.rs", 52⟩), s)
  requiring s := if s.eos then .finite 0 else .infinite
  isIdle s := s.eos

/-- `src/padding.rs` 84-119: `impl Encode for PaddingEncoder`. -/
def tPaddingEncoder : TEncoder κ (Option UInt8) UInt8 where
  encode s cap e :=
    match s with
    | some b => (.ok (List.replicate cap b), if e.isReached then none else some b)
    | none => (.ok [], none)
  start s item := if s.isNone then (.ok (), some item) else (.err (.raised .encoderFull ⟨"padding.rs", 103⟩), s)
  requiring s := if s.isNone then .finite 0 else .infinite
  isIdle s := s.isNone

/-- `src/null.rs` 8-27: `NullDecoder`, which never fails. -/
def tNullDecoder : TDecoder κ Unit Unit where
  decode s _ _ := (.ok 0, s)
  finish s := (.ok (), s)
  requiring _ := .finite 0
  isIdle _ := true

/-- `src/null.rs` 33-50: `NullEncoder`, which never fails. -/
def tNullEncoder : TEncoder κ Unit Unit where
  encode s _ _ := (.ok [], s)
  start s _ := (.ok (), s)
  requiring _ := .finite 0
  isIdle _ := true

/-! ## Numbers -/

/-- `src/fixnum.rs` 6-28: `impl_decode!`, called at `line`; `f` is `decode_item`. -/
def tFixDecoder (line : Nat) (f : Bytes → α) : TDecoder κ CopyableState α where
  decode s buf e := tracked ⟨"fixnum.rs", line⟩ (tCopyableBytesDecoder.decode s buf e)
  finish s := TRes.step (tracked ⟨"fixnum.rs", line⟩ (tCopyableBytesDecoder.finish s)) id fun b s' => (.ok (f b), s')
  requiring s := (tCopyableBytesDecoder (κ := κ)).requiring s
  isIdle s := (tCopyableBytesDecoder (κ := κ)).isIdle s

/-- `src/fixnum.rs` 30-59: `impl_encode!`, called at `line`; `f` is `encode_item`. -/
def tFixEncoder (line : Nat) (f : α → Except (TError κ) Bytes) : TEncoder κ (BytesEncoderState Bytes) α where
  encode s cap e := tracked ⟨"fixnum.rs", line⟩ ((tBytesEncoderOf id).encode s cap e)
  start s item :=
    match f item with
    | .ok b => tracked ⟨"fixnum.rs", line⟩ ((tBytesEncoderOf id).start s b)
    | .error k => tracked ⟨"fixnum.rs", line⟩ (.err k, s)
  requiring s := (tBytesEncoderOf (κ := κ) id).requiring s
  isIdle s := (tBytesEncoderOf (κ := κ) id).isIdle s

/-- `src/fixnum.rs` 485-489, 517-521, 835-840, 868-873, 959-964, 992-997, 1083-1088, 1116-1121: `encode_item` of the numbers of
24, 40, 48 and 56 bits; the assertion is at `line`. -/
def tBounded (line max : Nat) (toNat : α → Nat) (write : Nat → Bytes) (n : α) : Except (TError κ) Bytes :=
  if toNat n ≤ max then .ok (write (toNat n)) else .error (.raised .invalidInput ⟨"fixnum.rs", line⟩)

/-! ## Monolithic codecs -/

/-- As `MonolithicParser`, with whole errors. -/
abbrev TMonolithicParser (κ α : Type) := Bytes → Bytes → TRes κ α × Nat

/-- `src/monolithic.rs` 49-84: `impl Decode for MonolithicDecoder<D>`. -/
def tMonolithicDecoder (parse : TMonolithicParser κ α) : TDecoder κ (MonoDecState α) α where
  decode s buf e :=
    if e.isReached then
      TRes.step (tracked ⟨"monolithic.rs", 55⟩ (parse s.buf buf)) (fun _ => s) fun item n =>
        (.ok (min (n - s.buf.length) buf.length), ⟨some item, []⟩)
    else (.ok buf.length, { s with buf := s.buf ++ buf })
  finish s :=
    match s.item with
    | some x => (.ok x, { s with item := none })
    | none => (.err (.raised .incompleteDecoding ⟨"monolithic.rs", 69⟩), s)
  requiring s := if s.item.isSome then .finite 0 else .unknown
  isIdle s := s.item.isSome

/-- As `MonolithicSerializer`, with whole errors. -/
abbrev TMonolithicSerializer (κ α : Type) := α → List Bytes × TRes κ Unit

/-- `src/monolithic.rs` 182-193: `impl Write for WriterChain<A, B>` (see `chainWriter`), which does not fail. -/
def tChainWriter : TWriter κ ChainState where
  write w buf :=
    let n := min buf.length w.room
    let w' : ChainState := { w with a := w.a ++ buf.take n, room := w.room - n }
    if n = 0 then (.wrote buf.length, { w' with b := w'.b ++ buf }) else (.wrote n, w')

/-- The serializer's calls of `write_all`, one after the other. -/
def tSerialize {ω : Type} (zero : κ) (W : TWriter κ ω) (w : ω) : List Bytes → TRes κ Unit × ω
  | [] => (.ok (), w)
  | c :: cs => TRes.step (tWriteAll zero W w c) id fun _ w' => tSerialize zero W w' cs

/-- `src/monolithic.rs` 129-170: `impl Encode for MonolithicEncoder<E>`. -/
def tMonolithicEncoder (zero : κ) (ser : TMonolithicSerializer κ α) : TEncoder κ (MonoEncState α) α where
  encode s cap e :=
    match s.item with
    | some x =>
      let run : TRes κ Unit × ChainState :=
        TRes.step (tSerialize zero tChainWriter ⟨[], cap, []⟩ (ser x).1) id fun _ w => ((ser x).2, w)
      TRes.step (tracked ⟨"monolithic.rs", 138⟩ run) (fun _ => { s with item := none }) fun _ w =>
        if w.b.isEmpty then (.ok w.a, { s with item := none })
        else
          TRes.step (tracked ⟨"monolithic.rs", 143⟩ ((tBytesEncoderOf id).start s.buf w.b)) (fun b => ⟨none, b⟩) fun _ b =>
            (.ok w.a, ⟨none, b⟩)
    | none =>
      TRes.step (tracked ⟨"monolithic.rs", 147⟩ ((tBytesEncoderOf id).encode s.buf cap e)) (fun b => { s with buf := b })
        fun bs b => (.ok bs, { s with buf := b })
  start s x :=
    if s.item.isNone && (tBytesEncoderOf (κ := κ) id).isIdle s.buf then (.ok (), { s with item := some x })
    else (.err (.raised .encoderFull ⟨"monolithic.rs", 152⟩), s)
  requiring s :=
    if s.item.isNone && (tBytesEncoderOf (κ := κ) id).isIdle s.buf then .finite 0
    else if s.item.isSome then .unknown
    else (tBytesEncoderOf (κ := κ) id).requiring s.buf
  isIdle s := s.item.isNone && (tBytesEncoderOf (κ := κ) id).isIdle s.buf

/-! ## JSON and bincode -/

/-- `ErrorKind::InvalidInput.cause(e).into()`. -/
def TError.invalid (c : κ) : TError κ := ⟨.invalidInput, some (.given c), some []⟩

/-- All of `JsonDecoder`, `BincodeDecoder`: a tracked call of the inner decoder. -/
def tDelegate (decode finish : Loc) (D : TDecoder κ σ α) : TDecoder κ σ α where
  decode s buf e := tracked decode (D.decode s buf e)
  finish s := tracked finish (D.finish s)
  requiring s := D.requiring s
  isIdle s := D.isIdle s

/-- All of `JsonEncoder`, `BincodeEncoder`: a tracked call of the inner encoder. -/
def tDelegateE (encode start : Loc) (E : TEncoder κ σ α) : TEncoder κ σ α where
  encode s cap e := tracked encode (E.encode s cap e)
  start s x := tracked start (E.start s x)
  requiring s := E.requiring s
  isIdle s := E.isIdle s

/-- `src/json_codec.rs` 88-90: `monolithic_decode`. `de` is `serde_json::from_reader`, with its error. -/
def tJsonParser (de : Bytes → Except κ α) : TMonolithicParser κ α := fun a b =>
  match de (a ++ b) with
  | .ok x => (.ok x, a.length + b.length)
  | .error c => tracked ⟨"json_codec.rs", 89⟩ (.err (.invalid c), a.length + b.length)

/-- `src/bincode_codec.rs` 77-81: `monolithic_decode`. `de` is `bincode::deserialize_from`, with its error. -/
def tBincodeParser (de : Bytes → Except κ (α × Nat)) : TMonolithicParser κ α := fun a b =>
  match de (a ++ b) with
  | .ok (x, n) => (.ok x, n)
  | .error c => tracked ⟨"bincode_codec.rs", 78⟩ (.err (.invalid c), a.length + b.length)

/-- What serde writes for an item, and its error, if any (see `SerdeWrite`). -/
abbrev TSerdeWrite (κ α : Type) := α → List Bytes × Option κ

/-- `src/json_codec.rs` 146-156 and `src/bincode_codec.rs` 137-147: `monolithic_encode`. -/
def tSerdeSerializer (l : Loc) (ser : TSerdeWrite κ α) : TMonolithicSerializer κ α := fun x =>
  ((ser x).1, match (ser x).2 with
    | none => .ok ()
    | some c => .err ((TError.invalid c).track l))

/-- `src/json_codec.rs` 32-65: `JsonDecoder<T>`. -/
def tJsonDecoder (de : Bytes → Except κ α) : TDecoder κ (MonoDecState α) α :=
  tDelegate ⟨"json_codec.rs", 51⟩ ⟨"json_codec.rs", 55⟩ (tMonolithicDecoder (tJsonParser de))

/-- `src/json_codec.rs` 98-129: `JsonEncoder<T>`. -/
def tJsonEncoder (zero : κ) (ser : TSerdeWrite κ α) : TEncoder κ (MonoEncState α) α :=
  tDelegateE ⟨"json_codec.rs", 115⟩ ⟨"json_codec.rs", 119⟩
    (tMonolithicEncoder zero (tSerdeSerializer ⟨"json_codec.rs", 153⟩ ser))

/-- `src/bincode_codec.rs` 16-49: `BincodeDecoder<T>`. -/
def tBincodeDecoder (de : Bytes → Except κ (α × Nat)) : TDecoder κ (MonoDecState α) α :=
  tDelegate ⟨"bincode_codec.rs", 35⟩ ⟨"bincode_codec.rs", 39⟩ (tMonolithicDecoder (tBincodeParser de))

/-- `src/bincode_codec.rs` 89-120: `BincodeEncoder<T>`. -/
def tBincodeEncoder (zero : κ) (ser : TSerdeWrite κ α) : TEncoder κ (MonoEncState α) α :=
  tDelegateE ⟨"bincode_codec.rs", 106⟩ ⟨"bincode_codec.rs", 110⟩
    (tMonolithicEncoder zero (tSerdeSerializer ⟨"bincode_codec.rs", 144⟩ ser))

end Bytecodec
