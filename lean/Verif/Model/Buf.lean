import Verif.Model.Io
/-!
# Read and write buffers

Models `src/io.rs` 107-461 and `src/io_async.rs`.
-/
namespace Bytecodec

/-- `src/io.rs` 112-117: `enum StreamState`. -/
inductive StreamState where
  | normal
  | eos
  | wouldBlock
  | error
deriving DecidableEq, Repr

/-- `src/io.rs` 130-132. -/
def StreamState.isEos (s : StreamState) : Bool := s == .eos

/-- `src/io.rs` 135-137. -/
def StreamState.isWouldBlock (s : StreamState) : Bool := s == .wouldBlock

/-! ## `ReadBuf` -/

/-- `src/io.rs` 142-147: `struct ReadBuf<B>`; `inner` is the whole backing storage. -/
structure ReadBuf where
  inner : Bytes
  head : Nat
  tail : Nat
  state : StreamState
deriving DecidableEq, Repr

namespace ReadBuf

/-- `src/io.rs` 150-157. -/
def new (inner : Bytes) : ReadBuf := ⟨inner, 0, 0, .normal⟩

/-- `src/io.rs` 160-162 (truncated subtraction; `head ≤ tail` in reachable states). -/
def len (b : ReadBuf) : Nat := b.tail - b.head

/-- `src/io.rs` 167-169. -/
def room (b : ReadBuf) : Nat := b.inner.length - b.tail

/-- `src/io.rs` 172-174. -/
def capacity (b : ReadBuf) : Nat := b.inner.length

/-- `src/io.rs` 177-179. -/
def isEmpty (b : ReadBuf) : Bool := b.tail == 0

/-- `src/io.rs` 182-184. -/
def isFull (b : ReadBuf) : Bool := b.tail == b.inner.length

/-- `src/io.rs` 16-20, 246-250: advance `head`; rewind when everything was consumed. -/
def consume (b : ReadBuf) (size : Nat) : ReadBuf :=
  if b.head + size = b.tail then { b with head := 0, tail := 0 } else { b with head := b.head + size }

/-- `src/io.rs` 202-225: `fill`. `&mut inner[tail..]` panics when `tail` lies beyond the storage
(only after a reader that claimed more bytes than it was offered). -/
def fill {ρ : Type} (R : Reader ρ) (b : ReadBuf) (r : ρ) : Res Unit × ReadBuf × ρ :=
  if _h1 : b.isFull then (.ok (), b, r)
  else if _h2 : b.inner.length < b.tail then (.panic, b, r)
  else
    match R.read r (b.inner.length - b.tail) with
    | (.error k, r') =>
      if k = .wouldBlock then (.ok (), { b with state := .wouldBlock }, r')
      else (.err (ErrorKind.ofIo k), { b with state := .error }, r')
    | (.data [], r') => (.ok (), { b with state := .eos }, r')
    | (.data (x :: xs), r') =>
      fill R { b with
        inner := splice b.inner b.tail ((x :: xs).take (b.inner.length - b.tail))
        state := .normal
        tail := b.tail + (x :: xs).length } r'
termination_by b.inner.length - b.tail
decreasing_by
  simp only [isFull, beq_iff_eq] at _h1
  simp only [splice, List.length_append, List.length_take, List.length_drop, List.length_cons]
  omega

/-- `src/io.rs` 242-253: `impl Read for ReadBuf`: `read(&mut buf[..n])`. -/
def read (b : ReadBuf) (n : Nat) : Bytes × ReadBuf :=
  let size := min n b.len
  ((b.inner.drop b.head).take size, b.consume size)

end ReadBuf

/-- `src/io.rs` 11-23: `IoDecodeExt::decode_from_read_buf`.
`inner[head..tail]` panics unless `head <= tail <= len`. -/
def decodeFromReadBuf {σ α : Type} (D : Decoder σ α) (s : σ) (b : ReadBuf) :
    Res Unit × σ × ReadBuf :=
  if b.tail < b.head ∨ b.inner.length < b.tail then (.panic, s, b)
  else
    Res.step (D.decode s ((b.inner.take b.tail).drop b.head) (Eos.new b.state.isEos))
      (fun s' => (s', b)) fun size s' => (.ok (), s', b.consume size)

/-! ## `WriteBuf` -/

/-- `src/io.rs` 257-264: `struct WriteBuf<B>` with the `tokio-async` feature. A waker is represented
by a number; `woken` is a ghost log of the wakers on which `wake_by_ref` was called. -/
structure WriteBuf where
  inner : Bytes
  head : Nat
  tail : Nat
  state : StreamState
  waker : Option Nat
  woken : List Nat
deriving DecidableEq, Repr

namespace WriteBuf

/-- `src/io.rs` 267-276. -/
def new (inner : Bytes) : WriteBuf := ⟨inner, 0, 0, .normal, none, []⟩

/-- `src/io.rs` 279-281. -/
def len (b : WriteBuf) : Nat := b.tail - b.head

/-- `src/io.rs` 286-288. -/
def room (b : WriteBuf) : Nat := b.inner.length - b.tail

/-- `src/io.rs` 291-293. -/
def capacity (b : WriteBuf) : Nat := b.inner.length

/-- `src/io.rs` 296-298. -/
def isEmpty (b : WriteBuf) : Bool := b.tail == 0

/-- `src/io.rs` 301-303. -/
def isFull (b : WriteBuf) : Bool := b.tail == b.inner.length

/-- `src/io.rs` 340-344: advance `head`; rewind when everything was written. -/
def consume (b : WriteBuf) (size : Nat) : WriteBuf :=
  if b.head + size = b.tail then { b with head := 0, tail := 0 } else { b with head := b.head + size }

/-- `src/io.rs` 324-348: the loop of `flush`. `inner[head..tail]` panics unless
`head <= tail <= len`. -/
def flushLoop {ω : Type} (W : Writer ω) (b : WriteBuf) (w : ω) : Res Unit × WriteBuf × ω :=
  if _h1 : b.isEmpty then (.ok (), b, w)
  else if _h2 : b.tail < b.head ∨ b.inner.length < b.tail then (.panic, b, w)
  else
    match W.write w ((b.inner.take b.tail).drop b.head) with
    | (.error k, w') =>
      if k = .wouldBlock then (.ok (), { b with state := .wouldBlock }, w')
      else (.err (ErrorKind.ofIo k), { b with state := .error }, w')
    | (.wrote 0, w') => (.ok (), { b with state := .eos }, w')
    | (.wrote (n + 1), w') => flushLoop W ({ b with state := .normal }.consume (n + 1)) w'
termination_by b.tail + 1 - b.head
decreasing_by
  simp only [isEmpty, beq_iff_eq] at _h1
  simp only [consume]
  split <;> simp only <;> omega

/-- `src/io.rs` 349-354: after the loop, wake the stored waker if the buffer is not full. -/
def wakeIfRoom (b : WriteBuf) : WriteBuf :=
  if !b.isFull then
    match b.waker with
    | some w => { b with woken := b.woken ++ [w] }
    | none => b
  else b

/-- `src/io.rs` 323-356: `flush` (with the `tokio-async` feature). -/
def flush {ω : Type} (W : Writer ω) (b : WriteBuf) (w : ω) : Res Unit × WriteBuf × ω :=
  Res.step (flushLoop W b w) id fun _ p => (.ok (), p.1.wakeIfRoom, p.2)

/-- `src/io.rs` 373-379: `impl Write for WriteBuf`: `write(buf)`. Never fails. -/
def write (b : WriteBuf) (buf : Bytes) : Nat × WriteBuf :=
  let size := min buf.length b.room
  (size, { b with inner := splice b.inner b.tail (buf.take size), tail := b.tail + size })

end WriteBuf

/-- `src/io.rs` 60-68: `IoEncodeExt::encode_to_write_buf`. The encoder writes directly into
`inner[tail..]`, which panics when `tail` lies beyond the storage. -/
def encodeToWriteBuf {σ α : Type} (E : Encoder σ α) (s : σ) (b : WriteBuf) :
    Res Unit × σ × WriteBuf :=
  if b.inner.length < b.tail then (.panic, s, b)
  else
    Res.step (E.encode s (b.inner.length - b.tail) (Eos.new b.state.isEos))
      (fun s' => (s', b)) fun bs s' =>
        (.ok (), s', { b with inner := splice b.inner b.tail bs, tail := b.tail + bs.length })

/-- `src/io.rs` 76-89: `IoEncodeExt::encode_to_write_buf_async`; `waker` is `cx.waker()`. -/
def encodeToWriteBufAsync {σ α : Type} (E : Encoder σ α) (s : σ) (b : WriteBuf) (waker : Nat) :
    Res Unit × σ × WriteBuf :=
  Res.step (encodeToWriteBuf E s b) id fun _ p => (.ok (), p.1, { p.2 with waker := some waker })

/-! ## `BufferedIo` -/

/-- A stream that can be read and written: `T: Read + Write`. -/
structure Stream (τ : Type) where
  reader : Reader τ
  writer : Writer τ

/-- `src/io.rs` 389-394: `struct BufferedIo<T>`. -/
structure BufferedIo (τ : Type) where
  stream : τ
  rbuf : ReadBuf
  wbuf : WriteBuf

namespace BufferedIo

variable {τ : Type}

/-- `src/io.rs` 408-414: `new`. -/
def new (stream : τ) (readBufSize writeBufSize : Nat) : BufferedIo τ :=
  ⟨stream, .new (List.replicate readBufSize 0), .new (List.replicate writeBufSize 0)⟩

/-- `src/io.rs` 399-403: `execute_io`: fill the read buffer, then flush the write buffer. -/
def executeIo (T : Stream τ) (io : BufferedIo τ) : Res Unit × BufferedIo τ :=
  Res.step (io.rbuf.fill T.reader io.stream) (fun p => { io with rbuf := p.1, stream := p.2 }) fun _ p =>
    Res.step (io.wbuf.flush T.writer p.2) (fun q => ⟨q.2, p.1, q.1⟩) fun _ q => (.ok (), ⟨q.2, p.1, q.1⟩)

/-- `src/io.rs` 417-419: `is_eos`. -/
def isEos (io : BufferedIo τ) : Bool := io.rbuf.state.isEos || io.wbuf.state.isEos

/-- `src/io.rs` 422-425: `would_block`. -/
def wouldBlock (io : BufferedIo τ) : Bool :=
  io.rbuf.state.isWouldBlock && (io.wbuf.isEmpty || io.wbuf.state.isWouldBlock)

end BufferedIo

/-! ## Asynchronous variants (`src/io_async.rs`) -/

/-- `core::task::Poll`. -/
inductive Poll (α : Type) where
  | pending
  | ready (a : α)
deriving DecidableEq, Repr

/-- `tokio::io::AsyncRead::poll_read`; the filled part of the buffer is the data. -/
structure AsyncReader (ρ : Type) where
  pollRead : ρ → Nat → Poll ReadRes × ρ

/-- `tokio::io::AsyncWrite::poll_write`. -/
structure AsyncWriter (ω : Type) where
  pollWrite : ω → Bytes → Poll WriteRes × ω

/-- `src/io_async.rs` 15-43: `poll_fill`. -/
def ReadBuf.pollFill {ρ : Type} (R : AsyncReader ρ) (b : ReadBuf) (r : ρ) :
    Poll (Res Unit) × ReadBuf × ρ :=
  if _h1 : b.isFull then (.ready (.ok ()), b, r)
  else if _h2 : b.inner.length < b.tail then (.ready .panic, b, r)
  else
    match R.pollRead r (b.inner.length - b.tail) with
    | (.pending, r') => (.pending, { b with state := .wouldBlock }, r')
    | (.ready (.data []), r') => (.ready (.ok ()), { b with state := .eos }, r')
    | (.ready (.data (x :: xs)), r') =>
      pollFill R { b with
        inner := splice b.inner b.tail ((x :: xs).take (b.inner.length - b.tail))
        state := .normal
        tail := b.tail + (x :: xs).length } r'
    | (.ready (.error k), r') => (.ready (.err (ErrorKind.ofIo k)), { b with state := .error }, r')
termination_by b.inner.length - b.tail
decreasing_by
  simp only [isFull, beq_iff_eq] at _h1
  simp only [splice, List.length_append, List.length_take, List.length_drop, List.length_cons]
  omega

/-- `src/io_async.rs` 55-91: `poll_flush`. -/
def WriteBuf.pollFlush {ω : Type} (W : AsyncWriter ω) (b : WriteBuf) (w : ω) :
    Poll (Res Unit) × WriteBuf × ω :=
  if _h1 : b.isEmpty then (.ready (.ok ()), b, w)
  else if _h2 : b.tail < b.head ∨ b.inner.length < b.tail then (.ready .panic, b, w)
  else
    match W.pollWrite w ((b.inner.take b.tail).drop b.head) with
    | (.ready (.error k), w') => (.ready (.err (ErrorKind.ofIo k)), { b with state := .error }, w')
    | (.ready (.wrote 0), w') => (.ready (.ok ()), { b with state := .eos }, w')
    | (.ready (.wrote (n + 1)), w') => pollFlush W ({ b with state := .normal }.consume (n + 1)) w'
    | (.pending, w') => (.pending, { b with state := .wouldBlock }, w')
termination_by b.tail + 1 - b.head
decreasing_by
  simp only [isEmpty, beq_iff_eq] at _h1
  simp only [consume]
  split <;> simp only <;> omega

/-- A stream that can be read and written asynchronously: `T: AsyncRead + AsyncWrite`. -/
structure AsyncStream (τ : Type) where
  reader : AsyncReader τ
  writer : AsyncWriter τ

/-- `src/io_async.rs` 99-118: `execute_io_poll`. Both calls are made before either result is looked at; a panic of the fill
propagates before the flush, and one of the flush whatever the fill returned. -/
def BufferedIo.executeIoPoll {τ : Type} (T : AsyncStream τ) (io : BufferedIo τ) :
    Poll (Res Unit) × BufferedIo τ :=
  match io.rbuf.pollFill T.reader io.stream with
  | (.ready .panic, rb, st) => (.ready .panic, { io with rbuf := rb, stream := st })
  | (rres, rb, st) =>
    match io.wbuf.pollFlush T.writer st with
    | (wres, wb, st') =>
      let io' : BufferedIo τ := ⟨st', rb, wb⟩
      match rres, wres with
      | _, .ready .panic => (.ready .panic, io')
      | .pending, .pending => (.pending, io')
      | .ready (.ok ()), .ready w => (.ready w, io')
      | .ready (.ok ()), .pending => (.ready (.ok ()), io')
      | .ready r, _ => (.ready r, io')
      | .pending, .ready w => (.ready w, io')

end Bytecodec
