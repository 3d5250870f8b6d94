import Verif.Model.Io
/-!
# Monolithic codecs and `OwnedSlice`

Models `src/monolithic.rs`, and through the parameters `parse`/`ser` also `src/json_codec.rs` and
`src/bincode_codec.rs`, whose `monolithic_decode`/`monolithic_encode` call serde and map every
error to `InvalidInput`. Also models `src/slice.rs`.
-/
namespace Bytecodec

variable {α : Type}

/-- `src/monolithic.rs` 8-14: `trait MonolithicDecode`. `parse first second` is the behaviour of
`monolithic_decode` on the reader `first.chain(second)`: its result and the number of bytes it
read in total. Simplification: the parser is deterministic and stateless (`&self`). -/
abbrev MonolithicParser (α : Type) := Bytes → Bytes → Res α × Nat

/-- `src/monolithic.rs` 19-23: `struct MonolithicDecoder<D>`. -/
structure MonoDecState (α : Type) where
  item : Option α
  buf : Bytes

/-- `src/monolithic.rs` 26-32: `new`. -/
def MonoDecState.new : MonoDecState α := ⟨none, []⟩

/-- `src/monolithic.rs` 49-84: `impl Decode for MonolithicDecoder<D>`.
`decode` 52-66: on success the part of `buf` that was read is consumed; `finish` 68-71,
`requiring` 73-79, `isIdle` 81-83. -/
def monolithicDecoder (parse : MonolithicParser α) : Decoder (MonoDecState α) α where
  decode s buf e :=
    if e.isReached then
      match parse s.buf buf with
      | (.ok item, n) => (.ok (min (n - s.buf.length) buf.length), ⟨some item, []⟩)
      | (.err k, _) => (.err k, s)
      | (.panic, _) => (.panic, s)
      | (.capacity, _) => (.capacity, s)
      | (.diverge, _) => (.diverge, s)
    else (.ok buf.length, { s with buf := s.buf ++ buf })
  finish s :=
    match s.item with
    | some x => (.ok x, { s with item := none })
    | none => (.err .incompleteDecoding, s)
  requiring s := if s.item.isSome then .finite 0 else .unknown
  isIdle s := s.item.isSome

/-- `src/monolithic.rs` 89-95: `trait MonolithicEncode`. `ser item` is the sequence of byte strings
the serializer passes to `write_all`, and its final result.
Simplification: serializers write through `write_all` only, and the writer never fails here. -/
abbrev MonolithicSerializer (α : Type) := α → List Bytes × Res Unit

/-- The writer `WriterChain { a: &mut &mut [u8], b: &mut Vec<u8> }`: what was put into the slice,
the room left in the slice, and the vector. -/
structure ChainState where
  a : Bytes
  room : Nat
  b : Bytes
deriving DecidableEq, Repr

/-- `src/monolithic.rs` 182-193: `impl Write for WriterChain<A, B>`; `impl Write for &mut [u8]`
accepts what fits, `impl Write for Vec<u8>` accepts everything. -/
def chainWriter : Writer ChainState where
  write w buf :=
    let n := min buf.length w.room
    let w' : ChainState := { w with a := w.a ++ buf.take n, room := w.room - n }
    if n = 0 then (.wrote buf.length, { w' with b := w'.b ++ buf }) else (.wrote n, w')

/-- The serializer's calls of `write_all`, one after the other. -/
def serialize {ω : Type} (W : Writer ω) (w : ω) : List Bytes → Res Unit × ω
  | [] => (.ok (), w)
  | c :: cs => Res.step (writeAll W w c) id fun _ w' => serialize W w' cs

/-- `src/monolithic.rs` 99-103: `struct MonolithicEncoder<E>`. -/
structure MonoEncState (α : Type) where
  item : Option α
  buf : BytesEncoderState Bytes

/-- `src/monolithic.rs` 106-112: `new`. -/
def MonoEncState.new : MonoEncState α := ⟨none, .new⟩

/-- `src/monolithic.rs` 129-170: `impl Encode for MonolithicEncoder<E>`.
`encode` 132-149, `start` 151-155, `isIdle` 157-159, `requiring` 161-169. -/
def monolithicEncoder (ser : MonolithicSerializer α) : Encoder (MonoEncState α) α where
  encode s cap e :=
    match s.item with
    | some x =>
      let p := serialize chainWriter ⟨[], cap, []⟩ (ser x).1
      Res.step p (fun _ => { s with item := none }) fun _ w =>
        Res.step ((ser x).2, w) (fun _ => { s with item := none }) fun _ w =>
          if w.b.isEmpty then (.ok w.a, { s with item := none })
          else
            Res.step ((bytesEncoder id).start s.buf w.b) (fun b => ⟨none, b⟩) fun _ b =>
              (.ok w.a, ⟨none, b⟩)
    | none =>
      Res.step ((bytesEncoder id).encode s.buf cap e) (fun b => { s with buf := b }) fun bs b =>
        (.ok bs, { s with buf := b })
  start s x :=
    if s.item.isNone && (bytesEncoder id).isIdle s.buf then (.ok (), { s with item := some x })
    else (.err .encoderFull, s)
  requiring s :=
    if s.item.isNone && (bytesEncoder id).isIdle s.buf then .finite 0
    else if s.item.isSome then .unknown
    else (bytesEncoder id).requiring s.buf
  isIdle s := s.item.isNone && (bytesEncoder id).isIdle s.buf

/-! ## `OwnedSlice` -/

/-- `src/slice.rs` 14-18: `struct OwnedSlice<T>`; `T` is a sequence of `U`. -/
structure OwnedSlice (α : Type) where
  inner : List α
  start : Nat
  stop : Nat

/-- `src/slice.rs` 50-57: `as_ref`; slicing panics unless `start <= end <= len`. -/
def OwnedSlice.asRef (s : OwnedSlice α) : Res (List α) :=
  if s.start ≤ s.stop ∧ s.stop ≤ s.inner.length then
    .ok ((s.inner.take s.stop).drop s.start)
  else .panic

/-- `src/slice.rs` 58-65: storing `xs` through the slice returned by `as_mut`
(which has the length of `xs`). -/
def OwnedSlice.write (s : OwnedSlice α) (xs : List α) : Res (OwnedSlice α) :=
  if s.start ≤ s.stop ∧ s.stop ≤ s.inner.length ∧ xs.length = s.stop - s.start then
    .ok { s with inner := s.inner.take s.start ++ xs ++ s.inner.drop s.stop }
  else .panic

end Bytecodec
