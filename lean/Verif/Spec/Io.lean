import Verif.Model.Buf
/-!
# Specification: streams and the buffers in front of them

Readers and writers are arbitrary state machines. `logged` wraps one so that its answers are recorded;
nothing else about it changes. The two inductive relations are the calls a user can make on a read
buffer and on a write buffer, with ghost records of the bytes that entered and left it.
-/
namespace Bytecodec.Spec

variable {ρ ω : Type}

/-- `std::io::Read`: never claims more bytes than the buffer holds. -/
def HonestReader (R : Reader ρ) : Prop :=
  ∀ r n bs r', R.read r n = (.data bs, r') → bs.length ≤ n

/-- `std::io::Write`: never claims to have written more bytes than it was given. -/
def HonestWriter (W : Writer ω) : Prop :=
  ∀ w b n w', W.write w b = (.wrote n, w') → n ≤ b.length

/-- The same reader, keeping a record of its answers. -/
def loggedReader (R : Reader ρ) : Reader (ρ × List ReadRes) where
  read r n := ((R.read r.1 n).1, ((R.read r.1 n).2, r.2 ++ [(R.read r.1 n).1]))

/-- The same writer, keeping a record of the buffers it was offered and its answers. -/
def loggedWriter (W : Writer ω) : Writer (ω × List (Bytes × WriteRes)) where
  write w b := ((W.write w.1 b).1, ((W.write w.1 b).2, w.2 ++ [(b, (W.write w.1 b).1)]))

/-- The bytes handed over by one answer of a reader. -/
def ReadRes.bytes : ReadRes → Bytes
  | .data bs => bs
  | .error _ => []

/-- The bytes taken by one answer of a writer. -/
def taken : Bytes × WriteRes → Bytes
  | (b, .wrote n) => b.take n
  | (_, .error _) => []

/-- Everything the reader delivered. -/
def delivered (log : List ReadRes) : Bytes := log.flatMap ReadRes.bytes

/-- Everything the writer accepted. -/
def accepted (log : List (Bytes × WriteRes)) : Bytes := log.flatMap taken

/-- The stream state that names an answer of a reader. -/
def ReadRes.state : ReadRes → StreamState
  | .data [] => .eos
  | .data _ => .normal
  | .error .wouldBlock => .wouldBlock
  | .error _ => .error

/-- The stream state that names an answer of a writer. -/
def WriteRes.state : WriteRes → StreamState
  | .wrote 0 => .eos
  | .wrote _ => .normal
  | .error .wouldBlock => .wouldBlock
  | .error _ => .error

/-! ## A read buffer in use -/

/-- A read buffer, its reader with the record of its answers, and the bytes handed to consumers. -/
structure ReadSys (ρ : Type) where
  buf : ReadBuf
  reader : ρ × List ReadRes
  out : Bytes

/-- The bytes in the buffer: `inner[head..tail]`. -/
def ReadSys.buffered (s : ReadSys ρ) : Bytes := (s.buf.inner.take s.buf.tail).drop s.buf.head

/-- The bytes a call took from the front of the buffer: what is missing in it afterwards. -/
def tookFrom (before after : ReadBuf) : Bytes :=
  ((before.inner.take before.tail).drop before.head).take (before.len - after.len)

/-- The calls: `fill`, `read` into a buffer of any size, `decode_from_read_buf` with any decoder that
does not report more bytes than it was given. Failed calls count as well. -/
inductive ReadStep (R : Reader ρ) : ReadSys ρ → ReadSys ρ → Prop
  | fill (s : ReadSys ρ) :
      ReadStep R s ⟨(s.buf.fill (loggedReader R) s.reader).2.1, (s.buf.fill (loggedReader R) s.reader).2.2, s.out⟩
  | read (s : ReadSys ρ) (n : Nat) :
      ReadStep R s ⟨(s.buf.read n).2, s.reader, s.out ++ (s.buf.read n).1⟩
  | decode (s : ReadSys ρ) {σ α : Type} (D : Decoder σ α) (d : σ) :
      (∀ b e n, (D.decode d b e).1 = .ok n → n ≤ b.length) →
      ReadStep R s ⟨(decodeFromReadBuf D d s.buf).2.2, s.reader,
        s.out ++ tookFrom s.buf (decodeFromReadBuf D d s.buf).2.2⟩

/-- Any number of calls, starting from a new buffer over the storage `inner`. -/
inductive ReadRun (R : Reader ρ) (inner : Bytes) (r : ρ) : ReadSys ρ → Prop
  | new : ReadRun R inner r ⟨.new inner, (r, []), []⟩
  | step {s t : ReadSys ρ} : ReadRun R inner r s → ReadStep R s t → ReadRun R inner r t

/-! ## A write buffer in use -/

/-- A write buffer, its writer with the record of its answers, and the bytes put into the buffer. -/
structure WriteSys (ω : Type) where
  buf : WriteBuf
  writer : ω × List (Bytes × WriteRes)
  input : Bytes

/-- The bytes in the buffer: `inner[head..tail]`. -/
def WriteSys.buffered (s : WriteSys ω) : Bytes := (s.buf.inner.take s.buf.tail).drop s.buf.head

/-- The bytes a call to `encode` put into its output buffer. -/
def Res.bytes : Res Bytes → Bytes
  | .ok bs => bs
  | _ => []

/-- The calls: `write`, `encode_to_write_buf` (also the asynchronous one) with any encoder that does
not overrun its output buffer, `flush`. Failed calls count as well. -/
inductive WriteStep (W : Writer ω) : WriteSys ω → WriteSys ω → Prop
  | write (s : WriteSys ω) (b : Bytes) :
      WriteStep W s ⟨(s.buf.write b).2, s.writer, s.input ++ b.take (s.buf.write b).1⟩
  | encode (s : WriteSys ω) {σ α : Type} (E : Encoder σ α) (d : σ) :
      (∀ n e bs, (E.encode d n e).1 = .ok bs → bs.length ≤ n) →
      WriteStep W s ⟨(encodeToWriteBuf E d s.buf).2.2, s.writer,
        s.input ++ Res.bytes (E.encode d s.buf.room (Eos.new s.buf.state.isEos)).1⟩
  | encodeAsync (s : WriteSys ω) {σ α : Type} (E : Encoder σ α) (d : σ) (waker : Nat) :
      (∀ n e bs, (E.encode d n e).1 = .ok bs → bs.length ≤ n) →
      WriteStep W s ⟨(encodeToWriteBufAsync E d s.buf waker).2.2, s.writer,
        s.input ++ Res.bytes (E.encode d s.buf.room (Eos.new s.buf.state.isEos)).1⟩
  | flush (s : WriteSys ω) :
      WriteStep W s ⟨(s.buf.flush (loggedWriter W) s.writer).2.1, (s.buf.flush (loggedWriter W) s.writer).2.2, s.input⟩

/-- Any number of calls, starting from a new buffer over the storage `inner`. -/
inductive WriteRun (W : Writer ω) (inner : Bytes) (w : ω) : WriteSys ω → Prop
  | new : WriteRun W inner w ⟨.new inner, (w, []), []⟩
  | step {s t : WriteSys ω} : WriteRun W inner w s → WriteStep W s t → WriteRun W inner w t

/-! ## Buffered input and output over one stream -/

/-- One answer of a stream. -/
inductive Event where
  | read (a : ReadRes)
  | wrote (a : Bytes × WriteRes)

/-- The same stream, keeping a record of its answers in order. -/
def loggedStream {τ : Type} (T : Stream τ) : Stream (τ × List Event) where
  reader := ⟨fun r n => ((T.reader.read r.1 n).1, (T.reader.read r.1 n).2, r.2 ++ [.read (T.reader.read r.1 n).1])⟩
  writer := ⟨fun w b => ((T.writer.write w.1 b).1, (T.writer.write w.1 b).2, w.2 ++ [.wrote (b, (T.writer.write w.1 b).1)])⟩

def Event.reads (log : List Event) : List ReadRes := log.filterMap fun | .read a => some a | _ => none

def Event.writes (log : List Event) : List (Bytes × WriteRes) := log.filterMap fun | .wrote a => some a | _ => none

/-- The last answer to a read. -/
def lastRead (log : List Event) : Option ReadRes := (Event.reads log).getLast?

/-- The last answer to a write. -/
def lastWrite (log : List Event) : Option WriteRes := (Event.writes log).getLast?.map Prod.snd

/-- Any use of a `BufferedIo`: `execute_io`, reading and decoding from the read buffer, writing and
encoding into the write buffer, in any order. -/
inductive IoRun {τ : Type} (T : Stream τ) (t : τ) (rsize wsize : Nat) : BufferedIo (τ × List Event) → Prop
  | new : IoRun T t rsize wsize (.new (t, []) rsize wsize)
  | executeIo {io} : IoRun T t rsize wsize io → IoRun T t rsize wsize (io.executeIo (loggedStream T)).2
  | read {io} (n : Nat) : IoRun T t rsize wsize io →
      IoRun T t rsize wsize { io with rbuf := (io.rbuf.read n).2 }
  | decode {io} {σ α : Type} (D : Decoder σ α) (d : σ) :
      (∀ b e n, (D.decode d b e).1 = .ok n → n ≤ b.length) → IoRun T t rsize wsize io →
      IoRun T t rsize wsize { io with rbuf := (decodeFromReadBuf D d io.rbuf).2.2 }
  | write {io} (b : Bytes) : IoRun T t rsize wsize io →
      IoRun T t rsize wsize { io with wbuf := (io.wbuf.write b).2 }
  | encode {io} {σ α : Type} (E : Encoder σ α) (d : σ) :
      (∀ n e bs, (E.encode d n e).1 = .ok bs → bs.length ≤ n) → IoRun T t rsize wsize io →
      IoRun T t rsize wsize { io with wbuf := (encodeToWriteBuf E d io.wbuf).2.2 }

/-! ## Asynchronous streams -/

/-- The blocking-free reader with the same answers: `Pending` becomes a `WouldBlock` error. -/
def syncReader (R : AsyncReader ρ) : Reader ρ where
  read r n := match R.pollRead r n with
    | (.pending, r') => (.error .wouldBlock, r')
    | (.ready a, r') => (a, r')

/-- The blocking-free writer with the same answers: `Pending` becomes a `WouldBlock` error. -/
def syncWriter (W : AsyncWriter ω) : Writer ω where
  write w b := match W.pollWrite w b with
    | (.pending, w') => (.error .wouldBlock, w')
    | (.ready a, w') => (a, w')

/-- `AsyncRead`: "would block" is reported by `Pending`, never by an error. -/
def PollsReader (R : AsyncReader ρ) : Prop := ∀ r n, (R.pollRead r n).1 ≠ .ready (.error .wouldBlock)

/-- `AsyncWrite`: "would block" is reported by `Pending`, never by an error. -/
def PollsWriter (W : AsyncWriter ω) : Prop := ∀ w b, (W.pollWrite w b).1 ≠ .ready (.error .wouldBlock)

/-- The same asynchronous stream, keeping a record of its answers in order; `Pending` is recorded as
"would block". -/
def loggedAsync {τ : Type} (T : AsyncStream τ) : AsyncStream (τ × List Event) where
  reader := ⟨fun r n => ((T.reader.pollRead r.1 n).1, (T.reader.pollRead r.1 n).2,
    r.2 ++ [.read ((syncReader T.reader).read r.1 n).1])⟩
  writer := ⟨fun w b => ((T.writer.pollWrite w.1 b).1, (T.writer.pollWrite w.1 b).2,
    w.2 ++ [.wrote (b, ((syncWriter T.writer).write w.1 b).1)])⟩

/-! ## The bytes that pass through a `BufferedIo` -/

/-- Any use of a `BufferedIo` with the I/O operation `exec` (`execute_io` or `execute_io_poll`), with
ghost records. `IoFlow … io out input`: the instance is now `io`; `out` are the bytes that were read or
decoded from its read buffer, `input` the bytes that were written or encoded into its write buffer.
Failed calls count as well. -/
inductive IoFlow {τ : Type} (exec : BufferedIo (τ × List Event) → BufferedIo (τ × List Event)) (t : τ)
    (rsize wsize : Nat) : BufferedIo (τ × List Event) → Bytes → Bytes → Prop
  | new : IoFlow exec t rsize wsize (.new (t, []) rsize wsize) [] []
  | exec {io out input} : IoFlow exec t rsize wsize io out input →
      IoFlow exec t rsize wsize (exec io) out input
  | read {io out input} (n : Nat) : IoFlow exec t rsize wsize io out input →
      IoFlow exec t rsize wsize { io with rbuf := (io.rbuf.read n).2 } (out ++ (io.rbuf.read n).1) input
  | decode {io out input} {σ α : Type} (D : Decoder σ α) (d : σ) :
      (∀ b e n, (D.decode d b e).1 = .ok n → n ≤ b.length) → IoFlow exec t rsize wsize io out input →
      IoFlow exec t rsize wsize { io with rbuf := (decodeFromReadBuf D d io.rbuf).2.2 }
        (out ++ tookFrom io.rbuf (decodeFromReadBuf D d io.rbuf).2.2) input
  | write {io out input} (b : Bytes) : IoFlow exec t rsize wsize io out input →
      IoFlow exec t rsize wsize { io with wbuf := (io.wbuf.write b).2 } out (input ++ b.take (io.wbuf.write b).1)
  | encode {io out input} {σ α : Type} (E : Encoder σ α) (d : σ) :
      (∀ n e bs, (E.encode d n e).1 = .ok bs → bs.length ≤ n) → IoFlow exec t rsize wsize io out input →
      IoFlow exec t rsize wsize { io with wbuf := (encodeToWriteBuf E d io.wbuf).2.2 } out
        (input ++ Res.bytes (E.encode d io.wbuf.room (Eos.new io.wbuf.state.isEos)).1)
  | encodeAsync {io out input} {σ α : Type} (E : Encoder σ α) (d : σ) (waker : Nat) :
      (∀ n e bs, (E.encode d n e).1 = .ok bs → bs.length ≤ n) → IoFlow exec t rsize wsize io out input →
      IoFlow exec t rsize wsize { io with wbuf := (encodeToWriteBufAsync E d io.wbuf waker).2.2 } out
        (input ++ Res.bytes (E.encode d io.wbuf.room (Eos.new io.wbuf.state.isEos)).1)

end Bytecodec.Spec
