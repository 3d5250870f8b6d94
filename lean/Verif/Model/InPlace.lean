import Verif.Model.EncCombinator
import Verif.Model.Fixnum
import Verif.Model.Monolithic
import Verif.Model.NullPadding
import Verif.Model.Forward
import Verif.Model.Buf
/-!
# Encoders that write into a buffer

`Encoder.encode` (`Model/Core.lean`) gets the length of the output buffer and returns the bytes. In Rust `encode`
gets the buffer itself, with whatever is in it, and returns a number. This is the same code once more, with
the buffer. `encode s buf e` returns the result, the state, and the contents of the buffer afterwards.
-/
namespace Bytecodec

variable {σ α β : Type}

/-- `src/encode.rs` 9-72: `trait Encode`. -/
structure BufEncoder (σ α : Type) where
  /-- `fn encode(&mut self, buf: &mut [u8], eos: Eos) -> Result<usize>` -/
  encode : σ → Bytes → Eos → Res Nat × σ × Bytes
  /-- `fn start_encoding(&mut self, item: Self::Item) -> Result<()>` -/
  start : σ → α → Res Unit × σ
  /-- `fn requiring_bytes(&self) -> ByteCount` -/
  requiring : σ → ByteCount
  /-- `fn is_idle(&self) -> bool` -/
  isIdle : σ → Bool

/-! ## Elementary encoders -/

/-- `src/bytes.rs` 41-80: `BytesEncoder<B>`. `encode` 44-64. -/
def bytesBufEncoder (asRef : β → Bytes) : BufEncoder (BytesEncoderState β) β where
  encode s buf e :=
    match s.bytes with
    | some b =>
      if (asRef b).length < s.offset then (.panic, s, buf)
      else
        let size := min buf.length ((asRef b).length - s.offset)
        let buf' := splice buf 0 (((asRef b).drop s.offset).take size)
        let offset := s.offset + size
        if offset = (asRef b).length then (.ok size, ⟨none, offset⟩, buf')
        else if e.isReached then (.err .unexpectedEos, ⟨some b, offset⟩, buf')
        else (.ok size, ⟨some b, offset⟩, buf')
    | none => (.ok 0, s, buf)
  start s item :=
    if s.bytes.isNone then (.ok (), ⟨some item, 0⟩) else (.err .encoderFull, s)
  requiring s := .finite (s.exact asRef)
  isIdle s := s.bytes.isNone

/-- `src/fixnum.rs` 30-59: `impl_encode!`; `f` is `encode_item`. -/
def fixBufEncoder (f : α → Except ErrorKind Bytes) : BufEncoder (BytesEncoderState Bytes) α where
  encode s buf e := (bytesBufEncoder id).encode s buf e
  start s item :=
    match f item with
    | .ok b => (bytesBufEncoder id).start s b
    | .error k => (.err k, s)
  requiring s := (bytesBufEncoder id).requiring s
  isIdle s := (bytesBufEncoder id).isIdle s

/-- `src/bytes.rs` 360-389: `Utf8Encoder<String>`. -/
def utf8BufEncoder : BufEncoder (BytesEncoderState String) String where
  encode s buf e := (bytesBufEncoder utf8Bytes).encode s buf e
  start s item := (bytesBufEncoder utf8Bytes).start s item
  requiring s := (bytesBufEncoder utf8Bytes).requiring s
  isIdle s := (bytesBufEncoder utf8Bytes).isIdle s

/-- `src/null.rs` 33-52: `NullEncoder`. -/
def nullBufEncoder : BufEncoder Unit Unit where
  encode s buf _ := (.ok 0, s, buf)
  start s _ := (.ok (), s)
  requiring _ := .finite 0
  isIdle _ := true

/-- `src/padding.rs` 84-119: `PaddingEncoder`. `encode` 87-100: the `for` loop overwrites every byte. -/
def paddingBufEncoder : BufEncoder (Option UInt8) UInt8 where
  encode s buf e :=
    match s with
    | some b => (.ok buf.length, if e.isReached then none else some b, buf.map fun _ => b)
    | none => (.ok 0, none, buf)
  start s item := if s.isNone then (.ok (), some item) else (.err .encoderFull, s)
  requiring s := if s.isNone then .finite 0 else .infinite
  isIdle s := s.isNone

/-- The writer `WriterChain { a: &mut buf, b: &mut extra }` of `src/monolithic.rs` 137: the buffer, how much of it
has been written (`impl Write for &mut [u8]` advances the slice), and `extra`. -/
structure ChainBuf where
  buf : Bytes
  pos : Nat
  extra : Bytes

/-- `src/monolithic.rs` 182-193: `impl Write for WriterChain<A, B>`. -/
def chainBufWriter : Writer ChainBuf where
  write w data :=
    let n := min data.length (w.buf.length - w.pos)
    let w' : ChainBuf := { w with buf := splice w.buf w.pos (data.take n), pos := w.pos + n }
    if n = 0 then (.wrote data.length, { w' with extra := w'.extra ++ data }) else (.wrote n, w')

/-- `src/monolithic.rs` 129-170: `MonolithicEncoder<E>`. `encode` 132-149. -/
def monolithicBufEncoder (ser : MonolithicSerializer α) : BufEncoder (MonoEncState α) α where
  encode s buf e :=
    match s.item with
    | some x =>
      match serialize chainBufWriter ⟨buf, 0, []⟩ (ser x).1 with
      | (.ok (), w) =>
        match (ser x).2 with
        | .ok () =>
          if w.extra.isEmpty then (.ok (buf.length - (w.buf.length - w.pos)), { s with item := none }, w.buf)
          else
            match (bytesBufEncoder id).start s.buf w.extra with
            | (.ok (), b) => (.ok buf.length, ⟨none, b⟩, w.buf)
            | (.err k, b) => (.err k, ⟨none, b⟩, w.buf)
            | (.panic, b) => (.panic, ⟨none, b⟩, w.buf)
            | (.capacity, b) => (.capacity, ⟨none, b⟩, w.buf)
            | (.diverge, b) => (.diverge, ⟨none, b⟩, w.buf)
        | r => (r.failAs, { s with item := none }, w.buf)
      | (r, w) => (r.failAs, { s with item := none }, w.buf)
    | none =>
      match (bytesBufEncoder id).encode s.buf buf e with
      | (r, b, buf') => (r, { s with buf := b }, buf')
  start s x :=
    if s.item.isNone && (bytesBufEncoder id).isIdle s.buf then (.ok (), { s with item := some x })
    else (.err .encoderFull, s)
  requiring s :=
    if s.item.isNone && (bytesBufEncoder id).isIdle s.buf then .finite 0
    else if s.item.isSome then .unknown
    else (bytesBufEncoder id).requiring s.buf
  isIdle s := s.item.isNone && (bytesBufEncoder id).isIdle s.buf

/-! ## Combinators -/

/-- `src/combinator.rs` 139-166: `MapErr`. -/
def mapErrBufEncoder (B : BufEncoder σ α) (f : ErrorKind → ErrorKind) : BufEncoder σ α where
  encode s buf e := ((B.encode s buf e).1.mapErr f, (B.encode s buf e).2)
  start s x := ((B.start s x).1.mapErr f, (B.start s x).2)
  requiring s := B.requiring s
  isIdle s := B.isIdle s

/-- `src/combinator.rs` 275-297: `MapFrom`. -/
def mapFromBufEncoder (B : BufEncoder σ α) (f : β → α) : BufEncoder σ β where
  encode s buf e := B.encode s buf e
  start s x := B.start s (f x)
  requiring s := B.requiring s
  isIdle s := B.isIdle s

/-- `src/combinator.rs` 342-366: `TryMapFrom`. -/
def tryMapFromBufEncoder (B : BufEncoder σ α) (f : β → Except ErrorKind α) : BufEncoder σ β where
  encode s buf e := B.encode s buf e
  start s x :=
    match f x with
    | .ok y => B.start s y
    | .error k => (.err k, s)
  requiring s := B.requiring s
  isIdle s := B.isIdle s

/-- `src/combinator.rs` 416-423: the inner loop of `Repeat::encode`. -/
def startNextBuf (B : BufEncoder σ α) (s : σ) : List α → Started σ α
  | [] => if B.isIdle s then .exhausted s else .busy s []
  | x :: xs =>
    if B.isIdle s then
      match B.start s x with
      | (.ok (), s') => startNextBuf B s' xs
      | (r, s') => .failed r s' xs
    else .busy s (x :: xs)

/-- `src/combinator.rs` 415-430: the outer loop of `Repeat::encode`; `len` is `buf.len()`, which does not
change. -/
def repeatLoopBuf (B : BufEncoder σ α) (len : Nat) (e : Eos) (offset : Nat) (buf : Bytes) (s : σ)
    (items : Option (List α)) : Res Nat × RepeatState σ α × Bytes :=
  match startNextBuf B s (items.getD []) with
  | .exhausted s' => (.ok offset, ⟨s', none⟩, buf)
  | .failed r s' rest => (r.failAs, ⟨s', items.map fun _ => rest⟩, buf)
  | .busy s' rest =>
    if len < offset then (.panic, ⟨s', items.map fun _ => rest⟩, buf)
    else
      match B.encode s' (buf.drop offset) e with
      | (.ok size, s'', b) =>
        if size = 0 then (.ok offset, ⟨s'', items.map fun _ => rest⟩, buf.take offset ++ b)
        else repeatLoopBuf B len e (offset + size) (buf.take offset ++ b) s'' (items.map fun _ => rest)
      | (.err k, s'', b) => (.err k, ⟨s'', items.map fun _ => rest⟩, buf.take offset ++ b)
      | (.panic, s'', b) => (.panic, ⟨s'', items.map fun _ => rest⟩, buf.take offset ++ b)
      | (.capacity, s'', b) => (.capacity, ⟨s'', items.map fun _ => rest⟩, buf.take offset ++ b)
      | (.diverge, s'', b) => (.diverge, ⟨s'', items.map fun _ => rest⟩, buf.take offset ++ b)
termination_by len + 1 - offset

/-- `src/combinator.rs` 406-450: `Repeat<E, I>`. -/
def repeatBufEncoder (B : BufEncoder σ α) : BufEncoder (RepeatState σ α) (List α) where
  encode s buf e := repeatLoopBuf B buf.length e 0 buf s.inner s.items
  start s xs := if s.items.isNone then (.ok (), { s with items := some xs }) else (.err .encoderFull, s)
  requiring s := if s.items.isNone then .finite 0 else .unknown
  isIdle s := s.items.isNone

/-- `src/combinator.rs` 530-572: `Optional<E>`. -/
def optionalBufEncoder (B : BufEncoder σ α) : BufEncoder σ (Option α) where
  encode s buf e := B.encode s buf e
  start s item :=
    match item with
    | some x => B.start s x
    | none => (.ok (), s)
  requiring s := B.requiring s
  isIdle s := B.isIdle s

/-- `src/combinator.rs` 752-795: `Length<E>`; the inner encoder gets `&mut buf[..limit]`. -/
def lengthBufEncoder (B : BufEncoder σ α) : BufEncoder (LengthState σ) α where
  encode s buf e :=
    if buf.length < s.remaining ∧ e.isReached then (.err .unexpectedEos, s, buf)
    else
      let limit := if buf.length < s.remaining then buf.length else s.remaining
      let e' := if buf.length < s.remaining then e else Eos.new true
      match B.encode s.inner (buf.take limit) e' with
      | (.ok size, i, b) =>
        if s.remaining < size then (.panic, { s with inner := i }, b ++ buf.drop limit)
        else
          let s' : LengthState σ := { s with inner := i, remaining := s.remaining - size }
          if B.isIdle i ∧ s'.remaining ≠ 0 then (.err .invalidInput, s', b ++ buf.drop limit)
          else (.ok size, s', b ++ buf.drop limit)
      | (.err k, i, b) => (.err k, { s with inner := i }, b ++ buf.drop limit)
      | (.panic, i, b) => (.panic, { s with inner := i }, b ++ buf.drop limit)
      | (.capacity, i, b) => (.capacity, { s with inner := i }, b ++ buf.drop limit)
      | (.diverge, i, b) => (.diverge, { s with inner := i }, b ++ buf.drop limit)
  start s item :=
    if s.remaining = s.expected then
      Res.step (B.start s.inner item) (fun i => ⟨i, s.expected, s.expected⟩) fun _ i =>
        (.ok (), ⟨i, s.expected, s.expected⟩)
    else (.err .encoderFull, s)
  requiring s := .finite s.remaining
  isIdle s := s.remaining == 0

/-- `src/combinator.rs` 1047-1073: `MaxBytes<E>`. -/
def maxBytesBufEncoder (B : BufEncoder σ α) : BufEncoder (MaxBytesState σ) α where
  encode s buf e :=
    match B.encode s.inner buf e with
    | (.ok size, i, b) =>
      let consumed := s.consumed + size
      if s.max < consumed then (.err .invalidInput, { s with inner := i, consumed := consumed }, b)
      else if B.isIdle i then (.ok size, { s with inner := i, consumed := 0 }, b)
      else (.ok size, { s with inner := i, consumed := consumed }, b)
    | (.err k, i, b) => (.err k, { s with inner := i }, b)
    | (.panic, i, b) => (.panic, { s with inner := i }, b)
    | (.capacity, i, b) => (.capacity, { s with inner := i }, b)
    | (.diverge, i, b) => (.diverge, { s with inner := i }, b)
  start s item :=
    Res.step (B.start s.inner item) (fun i => { s with inner := i }) fun _ i =>
      (.ok (), { s with inner := i })
  requiring s := B.requiring s.inner
  isIdle s := B.isIdle s.inner

/-- `src/io.rs` 95-105: `IoEncodeExt::encode_all`. The buffer of 1024 bytes is used again and again; `buf` is
what it holds at the beginning of a round. -/
def encodeAllBuf {ω : Type} (B : BufEncoder σ α) (W : Writer ω) (s : σ) (w : ω) (buf : Bytes) :
    Option (Res Unit × σ × ω) :=
  if B.isIdle s then some (.ok (), s, w)
  else
    match B.encode s buf (Eos.new false) with
    | (.ok size, s', buf') =>
      if buf'.length < size then some (.panic, s', w)
      else
        match writeAll W w (buf'.take size) with
        | (.ok (), w') =>
          if !B.isIdle s' && size == 0 then some (.err .other, s', w')
          else encodeAllBuf B W s' w' buf'
        | (.err k, w') => some (.err k, s', w')
        | (.panic, w') => some (.panic, s', w')
        | (.capacity, w') => some (.capacity, s', w')
        | (.diverge, w') => some (.diverge, s', w')
    | (.err k, s', _) => some (.err k, s', w)
    | (.panic, s', _) => some (.panic, s', w)
    | (.capacity, s', _) => some (.capacity, s', w)
    | (.diverge, s', _) => some (.diverge, s', w)
partial_fixpoint

/-- `src/encode.rs` 428-447: `EncodeExt::encode_into_bytes`: the whole zero-initialised buffer is returned. -/
def encodeIntoBytesBuf (B : BufEncoder σ α) (s : σ) (item : α) : Res Bytes × σ :=
  Res.step (B.start s item) id fun _ s' =>
    match B.requiring s' with
    | .finite size =>
      if 2 ^ 63 ≤ size then (.capacity, s')
      else
        match B.encode s' (List.replicate size 0) (Eos.new true) with
        | (.ok _, s'', buf) => if B.isIdle s'' then (.ok buf, s'') else (.err .inconsistentState, s'')
        | (.err k, s'', _) => (.err k, s'')
        | (.panic, s'', _) => (.panic, s'')
        | (.capacity, s'', _) => (.capacity, s'')
        | (.diverge, s'', _) => (.diverge, s'')
    | .unknown =>
      match encodeAllBuf B vecWriter s' [] (List.replicate 1024 0) with
      | none => (.diverge, s')
      | some (r, s'', out) => Res.step (r, s'') id fun _ t => (.ok out, t)
    | .infinite => (.err .invalidInput, s')

/-- `src/combinator.rs` 1111-1131: `PreEncode<E>`. -/
def preEncodeBufEncoder (B : BufEncoder σ α) : BufEncoder (PreEncodeState σ) α where
  encode s buf e :=
    match (bytesBufEncoder id).encode s.preEncoded buf e with
    | (r, p, b) => (r, { s with preEncoded := p }, b)
  start s item :=
    Res.step (encodeIntoBytesBuf B s.inner item) (fun i => { s with inner := i }) fun buf i =>
      Res.step ((bytesBufEncoder id).start s.preEncoded buf) (fun p => ⟨i, p⟩) fun _ p => (.ok (), ⟨i, p⟩)
  requiring s := (bytesBufEncoder id).requiring s.preEncoded
  isIdle s := (bytesBufEncoder id).isIdle s.preEncoded

/-- `src/combinator.rs` 1212-1234: `Slice<E>`; the inner encoder gets `&mut buf[..limit]`. -/
def sliceBufEncoder (B : BufEncoder σ α) : BufEncoder (SliceState σ) α where
  encode s buf e :=
    let limit := min buf.length s.consumable
    match e.back (buf.length - limit) with
    | .ok e' =>
      match B.encode s.inner (buf.take limit) e' with
      | (.ok size, i, b) =>
        if s.consumable < size then (.panic, { s with inner := i }, b ++ buf.drop limit)
        else (.ok size, ⟨i, s.consumable - size⟩, b ++ buf.drop limit)
      | (.err k, i, b) => (.err k, { s with inner := i }, b ++ buf.drop limit)
      | (.panic, i, b) => (.panic, { s with inner := i }, b ++ buf.drop limit)
      | (.capacity, i, b) => (.capacity, { s with inner := i }, b ++ buf.drop limit)
      | (.diverge, i, b) => (.diverge, { s with inner := i }, b ++ buf.drop limit)
    | _ => (.panic, s, buf)
  start s item :=
    Res.step (B.start s.inner item) (fun i => { s with inner := i }) fun _ i =>
      (.ok (), { s with inner := i })
  requiring s := B.requiring s.inner
  isIdle s := B.isIdle s.inner

/-- `src/combinator.rs` 1272-1299: `Last<E>`. -/
def lastBufEncoder (B : BufEncoder σ α) : BufEncoder (LastState σ α) Empty where
  encode s buf e :=
    let enc (s : LastState σ α) : Res Nat × LastState σ α × Bytes :=
      match B.encode s.inner buf e with
      | (r, i, b) => (r, { s with inner := i }, b)
    if B.isIdle s.inner then
      match s.item with
      | some x =>
        match B.start s.inner x with
        | (.ok (), i) => enc ⟨i, none⟩
        | (r, i) => (r.failAs, ⟨i, none⟩, buf)
      | none => enc s
    else enc s
  start _ item := item.elim
  requiring s := if s.item.isSome then .unknown else B.requiring s.inner
  isIdle s := s.item.isNone && B.isIdle s.inner

/-- `src/encode.rs` 73-110: `&mut E` and `Box<E>`. -/
def pointerBufEncoder (B : BufEncoder σ α) : BufEncoder (Pointer σ) α where
  encode s buf e :=
    match B.encode s.target buf e with
    | (r, t, b) => (r, ⟨t⟩, b)
  start s x := ((B.start s.target x).1, ⟨(B.start s.target x).2⟩)
  requiring s := B.requiring s.target
  isIdle s := B.isIdle s.target

/-- `src/macros.rs` 14-39: `bytecodec_try_encode!`; the encoder gets `&mut $buf[$offset..]`. -/
def tryEncodeBuf (B : BufEncoder σ α) (s : σ) (offset : Nat) (buf : Bytes) (e : Eos) : Flow Nat (σ × Bytes) :=
  if B.isIdle s then .next offset (s, buf)
  else if buf.length < offset then .ret .panic (s, buf)
  else
    match B.encode s (buf.drop offset) e with
    | (.ok n, s', b) =>
      if B.isIdle s' then .next (offset + n) (s', buf.take offset ++ b)
      else .ret (.ok (offset + n)) (s', buf.take offset ++ b)
    | (.err k, s', b) => .ret (.err k) (s', buf.take offset ++ b)
    | (.panic, s', b) => .ret .panic (s', buf.take offset ++ b)
    | (.capacity, s', b) => .ret .capacity (s', buf.take offset ++ b)
    | (.diverge, s', b) => .ret .diverge (s', buf.take offset ++ b)

/-- `src/io.rs` 60-68: `IoEncodeExt::encode_to_write_buf`. -/
def encodeToWriteBufBuf (B : BufEncoder σ α) (s : σ) (b : WriteBuf) : Res Unit × σ × WriteBuf :=
  if b.inner.length < b.tail then (.panic, s, b)
  else
    match B.encode s (b.inner.drop b.tail) (Eos.new b.state.isEos) with
    | (.ok size, s', rest) => (.ok (), s', { b with inner := b.inner.take b.tail ++ rest, tail := b.tail + size })
    | (.err k, s', rest) => (.err k, s', { b with inner := b.inner.take b.tail ++ rest })
    | (.panic, s', rest) => (.panic, s', { b with inner := b.inner.take b.tail ++ rest })
    | (.capacity, s', rest) => (.capacity, s', { b with inner := b.inner.take b.tail ++ rest })
    | (.diverge, s', rest) => (.diverge, s', { b with inner := b.inner.take b.tail ++ rest })

end Bytecodec
