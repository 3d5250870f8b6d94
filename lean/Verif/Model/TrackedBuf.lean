import Verif.Model.Tracked
import Verif.Model.Buf
/-!
# Model: buffered I/O with whole errors

As `Model/Buf.lean` for `src/io.rs` 11-89, 202-225, 323-356, 399-403 and `src/io_async.rs`, with errors as in
`Model/Tracked.lean`.
-/
namespace Bytecodec

variable {κ σ α ρ ω τ : Type}

/-- `src/io.rs` 202-225: `fill`. -/
def ReadBuf.tFill (R : TReader κ ρ) (b : ReadBuf) (r : ρ) : TRes κ Unit × ReadBuf × ρ :=
  if _h1 : b.isFull then (.ok (), b, r)
  else if _h2 : b.inner.length < b.tail then (.panic, b, r)
  else
    match R.read r (b.inner.length - b.tail) with
    | (.error k c, r') =>
      if k = .wouldBlock then (.ok (), { b with state := .wouldBlock }, r')
      else (.err ((TError.ofIo k c).track ⟨"io.rs", 211⟩), { b with state := .error }, r')
    | (.data [], r') => (.ok (), { b with state := .eos }, r')
    | (.data (x :: xs), r') =>
      tFill R { b with
        inner := splice b.inner b.tail ((x :: xs).take (b.inner.length - b.tail))
        state := .normal
        tail := b.tail + (x :: xs).length } r'
termination_by b.inner.length - b.tail
decreasing_by
  simp only [ReadBuf.isFull, beq_iff_eq] at _h1
  simp only [splice, List.length_append, List.length_take, List.length_drop, List.length_cons]
  omega

/-- `src/io.rs` 11-23: `decode_from_read_buf`. -/
def tDecodeFromReadBuf (D : TDecoder κ σ α) (s : σ) (b : ReadBuf) : TRes κ Unit × σ × ReadBuf :=
  if b.tail < b.head ∨ b.inner.length < b.tail then (.panic, s, b)
  else
    TRes.step (tracked ⟨"io.rs", 16⟩ (D.decode s ((b.inner.take b.tail).drop b.head) (Eos.new b.state.isEos)))
      (fun s' => (s', b)) fun size s' => (.ok (), s', b.consume size)

/-- `src/io.rs` 324-348: the loop of `flush`. -/
def WriteBuf.tFlushLoop (W : TWriter κ ω) (b : WriteBuf) (w : ω) : TRes κ Unit × WriteBuf × ω :=
  if _h1 : b.isEmpty then (.ok (), b, w)
  else if _h2 : b.tail < b.head ∨ b.inner.length < b.tail then (.panic, b, w)
  else
    match W.write w ((b.inner.take b.tail).drop b.head) with
    | (.error k c, w') =>
      if k = .wouldBlock then (.ok (), { b with state := .wouldBlock }, w')
      else (.err ((TError.ofIo k c).track ⟨"io.rs", 332⟩), { b with state := .error }, w')
    | (.wrote 0, w') => (.ok (), { b with state := .eos }, w')
    | (.wrote (n + 1), w') => tFlushLoop W ({ b with state := .normal }.consume (n + 1)) w'
termination_by b.tail + 1 - b.head
decreasing_by
  simp only [WriteBuf.isEmpty, beq_iff_eq] at _h1
  simp only [WriteBuf.consume]
  split <;> simp only <;> omega

/-- `src/io.rs` 323-356: `flush` (with the `tokio-async` feature). -/
def WriteBuf.tFlush (W : TWriter κ ω) (b : WriteBuf) (w : ω) : TRes κ Unit × WriteBuf × ω :=
  TRes.step (b.tFlushLoop W w) id fun _ p => (.ok (), p.1.wakeIfRoom, p.2)

/-- `src/io.rs` 60-68: `encode_to_write_buf`; `line` is that of `track!`. -/
def tEncodeToWriteBufAt (line : Nat) (E : TEncoder κ σ α) (s : σ) (b : WriteBuf) : TRes κ Unit × σ × WriteBuf :=
  if b.inner.length < b.tail then (.panic, s, b)
  else
    TRes.step (tracked ⟨"io.rs", line⟩ (E.encode s (b.inner.length - b.tail) (Eos.new b.state.isEos)))
      (fun s' => (s', b)) fun bs s' =>
        (.ok (), s', { b with inner := splice b.inner b.tail bs, tail := b.tail + bs.length })

/-- `src/io.rs` 60-68: `encode_to_write_buf`. -/
def tEncodeToWriteBuf (E : TEncoder κ σ α) (s : σ) (b : WriteBuf) : TRes κ Unit × σ × WriteBuf :=
  tEncodeToWriteBufAt 65 E s b

/-- `src/io.rs` 76-89: `encode_to_write_buf_async`. -/
def tEncodeToWriteBufAsync (E : TEncoder κ σ α) (s : σ) (b : WriteBuf) (waker : Nat) : TRes κ Unit × σ × WriteBuf :=
  TRes.step (tEncodeToWriteBufAt 85 E s b) id fun _ p => (.ok (), p.1, { p.2 with waker := some waker })

/-- `T: Read + Write`. -/
structure TStream (κ τ : Type) where
  reader : TReader κ τ
  writer : TWriter κ τ

/-- `src/io.rs` 399-403: `execute_io`. -/
def BufferedIo.tExecuteIo (T : TStream κ τ) (io : BufferedIo τ) : TRes κ Unit × BufferedIo τ :=
  TRes.step (tracked ⟨"io.rs", 400⟩ (io.rbuf.tFill T.reader io.stream))
    (fun p => { io with rbuf := p.1, stream := p.2 }) fun _ p =>
      TRes.step (tracked ⟨"io.rs", 401⟩ (io.wbuf.tFlush T.writer p.2)) (fun q => ⟨q.2, p.1, q.1⟩) fun _ q =>
        (.ok (), ⟨q.2, p.1, q.1⟩)

/-- `tokio::io::AsyncRead`. -/
structure TAsyncReader (κ ρ : Type) where
  pollRead : ρ → Nat → Poll (TReadRes κ) × ρ

/-- `tokio::io::AsyncWrite`. -/
structure TAsyncWriter (κ ω : Type) where
  pollWrite : ω → Bytes → Poll (TWriteRes κ) × ω

/-- `src/io_async.rs` 15-43: `poll_fill`. -/
def ReadBuf.tPollFill (R : TAsyncReader κ ρ) (b : ReadBuf) (r : ρ) : Poll (TRes κ Unit) × ReadBuf × ρ :=
  if _h1 : b.isFull then (.ready (.ok ()), b, r)
  else if _h2 : b.inner.length < b.tail then (.ready .panic, b, r)
  else
    match R.pollRead r (b.inner.length - b.tail) with
    | (.pending, r') => (.pending, { b with state := .wouldBlock }, r')
    | (.ready (.data []), r') => (.ready (.ok ()), { b with state := .eos }, r')
    | (.ready (.data (x :: xs)), r') =>
      tPollFill R { b with
        inner := splice b.inner b.tail ((x :: xs).take (b.inner.length - b.tail))
        state := .normal
        tail := b.tail + (x :: xs).length } r'
    | (.ready (.error k c), r') =>
      (.ready (.err ((TError.ofIo k c).track ⟨"io_async.rs", 38⟩)), { b with state := .error }, r')
termination_by b.inner.length - b.tail
decreasing_by
  simp only [ReadBuf.isFull, beq_iff_eq] at _h1
  simp only [splice, List.length_append, List.length_take, List.length_drop, List.length_cons]
  omega

/-- `src/io_async.rs` 55-91: `poll_flush`. -/
def WriteBuf.tPollFlush (W : TAsyncWriter κ ω) (b : WriteBuf) (w : ω) : Poll (TRes κ Unit) × WriteBuf × ω :=
  if _h1 : b.isEmpty then (.ready (.ok ()), b, w)
  else if _h2 : b.tail < b.head ∨ b.inner.length < b.tail then (.ready .panic, b, w)
  else
    match W.pollWrite w ((b.inner.take b.tail).drop b.head) with
    | (.ready (.error k c), w') =>
      (.ready (.err ((TError.ofIo k c).track ⟨"io_async.rs", 67⟩)), { b with state := .error }, w')
    | (.ready (.wrote 0), w') => (.ready (.ok ()), { b with state := .eos }, w')
    | (.ready (.wrote (n + 1)), w') => tPollFlush W ({ b with state := .normal }.consume (n + 1)) w'
    | (.pending, w') => (.pending, { b with state := .wouldBlock }, w')
termination_by b.tail + 1 - b.head
decreasing_by
  simp only [WriteBuf.isEmpty, beq_iff_eq] at _h1
  simp only [WriteBuf.consume]
  split <;> simp only <;> omega

/-- `T: AsyncRead + AsyncWrite`. -/
structure TAsyncStream (κ τ : Type) where
  reader : TAsyncReader κ τ
  writer : TAsyncWriter κ τ

/-- `src/io_async.rs` 99-118: `execute_io_poll`. -/
def BufferedIo.tExecuteIoPoll (T : TAsyncStream κ τ) (io : BufferedIo τ) : Poll (TRes κ Unit) × BufferedIo τ :=
  match io.rbuf.tPollFill T.reader io.stream with
  | (.ready .panic, rb, st) => (.ready .panic, { io with rbuf := rb, stream := st })
  | (rres, rb, st) =>
    match io.wbuf.tPollFlush T.writer st with
    | (wres, wb, st') =>
      let io' : BufferedIo τ := ⟨st', rb, wb⟩
      match rres, wres with
      | _, .ready .panic => (.ready .panic, io')
      | .pending, .pending => (.pending, io')
      | .ready (.ok ()), .ready w => (.ready (tracked ⟨"io_async.rs", 111⟩ (w, ())).1, io')
      | .ready (.ok ()), .pending => (.ready (.ok ()), io')
      | .ready r, _ => (.ready (tracked ⟨"io_async.rs", 108⟩ (r, ())).1, io')
      | .pending, .ready w => (.ready (tracked ⟨"io_async.rs", 111⟩ (w, ())).1, io')

end Bytecodec
