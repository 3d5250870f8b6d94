import Verif.Lemmas.Buf
import Verif.Model.Monolithic
/-!
# Properties of the buffers and of buffered I/O (C38-C41, C44, C45, C48, C49)
-/
namespace Bytecodec.Props

open Spec

variable {ρ ω τ : Type}

/-! ## C38: a read buffer is a queue -/

/-- Whatever calls were made on a read buffer, over any reader: the bytes handed to consumers followed
by the bytes still in the buffer are exactly the bytes the reader delivered. -/
theorem C38_fifo {R : Reader ρ} (hR : HonestReader R) {inner : Bytes} {r : ρ} {s : ReadSys ρ}
    (h : ReadRun R inner r s) : s.out ++ s.buffered = delivered s.reader.2 :=
  (readRun_inv hR h).2.2

/-- The accessors agree with the contents of the buffer. -/
theorem C38_accessors {R : Reader ρ} (hR : HonestReader R) {inner : Bytes} {r : ρ} {s : ReadSys ρ}
    (h : ReadRun R inner r s) :
    s.buf.len = s.buffered.length ∧ s.buf.len + s.buf.room ≤ s.buf.capacity ∧
    s.buf.capacity = inner.length ∧ (s.buf.isEmpty = true ↔ s.buffered = []) ∧
    (s.buf.isFull = true ↔ s.buf.room = 0) := by
  obtain ⟨hI, hc, _⟩ := readRun_inv hR h
  have h1 := hI.le
  have h2 := hI.cap
  have h3 := hI.zero
  have hl := ReadBuf.content_length hI
  refine ⟨hl.symm, ?_, hc, ?_, ?_⟩
  · simp only [ReadBuf.len, ReadBuf.room, ReadBuf.capacity]
    omega
  · have : s.buffered = [] ↔ s.buf.content.length = 0 := List.length_eq_zero_iff.symm
    rw [this, hl]
    simp only [ReadBuf.isEmpty, ReadBuf.len, beq_iff_eq]
    omega
  · simp only [ReadBuf.isFull, ReadBuf.room, beq_iff_eq]
    omega

/-- No call panics: neither a fill, nor a decode unless the decoder itself panics. -/
theorem C38_no_panic {R : Reader ρ} (hR : HonestReader R) {inner : Bytes} {r : ρ} {s : ReadSys ρ}
    (h : ReadRun R inner r s) :
    (s.buf.fill R s.reader.1).1 ≠ .panic ∧
    ∀ {σ α : Type} (D : Decoder σ α) (d : σ), (∀ b e, (D.decode d b e).1 ≠ .panic) →
      (decodeFromReadBuf D d s.buf).1 ≠ .panic := by
  obtain ⟨hI, _, _⟩ := readRun_inv hR h
  constructor
  · have hm := fill_map (R := loggedReader R) (R' := R) Prod.fst (fun r n => rfl) s.buf s.reader
    obtain ⟨as, _, _, _, _, _, _, a7⟩ := fill_spec hR s.buf s.reader hI
    rw [hm]
    rcases a7 with ⟨q, _⟩ | ⟨k, _, _, q⟩
    · simp [q]
    · simp [q]
  · intro σ α D d hD
    have h1 := hI.le
    have h2 := hI.cap
    rw [decodeFromReadBuf, if_neg (by omega)]
    rcases hq : D.decode d ((s.buf.inner.take s.buf.tail).drop s.buf.head) (Eos.new s.buf.state.isEos) with ⟨q, d'⟩
    have := hD ((s.buf.inner.take s.buf.tail).drop s.buf.head) (Eos.new s.buf.state.isEos)
    rw [hq] at this
    cases q <;> simp_all [Res.step]

/-- `read` hands out the front of the buffer, as much as fits. -/
theorem C38_read {R : Reader ρ} (hR : HonestReader R) {inner : Bytes} {r : ρ} {s : ReadSys ρ}
    (h : ReadRun R inner r s) (n : Nat) :
    (s.buf.read n).1 = s.buffered.take n ∧
    (s.buf.read n).1 ++ ((s.buf.read n).2.inner.take (s.buf.read n).2.tail).drop (s.buf.read n).2.head =
      s.buffered := by
  obtain ⟨hI, _, _⟩ := readRun_inv hR h
  obtain ⟨_, a2, a3, _⟩ := s.buf.read_spec hI n
  refine ⟨?_, a2⟩
  have a2' : (s.buf.read n).1 ++ (s.buf.read n).2.content = s.buffered := a2
  rw [← a2', List.take_append]
  have hl : s.buffered.length = s.buf.len := ReadBuf.content_length hI
  rw [← a2', List.length_append] at hl
  rw [List.take_of_length_le (by omega)]
  rcases Nat.lt_or_ge s.buf.len n with hn | hn
  · have : (s.buf.read n).2.content = [] := List.length_eq_zero_iff.1 (by omega)
    rw [this]
    simp
  · have : n - (s.buf.read n).1.length = 0 := by omega
    rw [this]
    simp

/-- `decode_from_read_buf` shows the decoder the bytes in the buffer, and removes exactly the bytes the
decoder consumed; a failed call removes nothing. -/
theorem C38_decode {R : Reader ρ} (hR : HonestReader R) {inner : Bytes} {r : ρ} {s : ReadSys ρ}
    (h : ReadRun R inner r s) {σ α : Type} (D : Decoder σ α) (d : σ)
    (hD : ∀ b e n, (D.decode d b e).1 = .ok n → n ≤ b.length) :
    ((decodeFromReadBuf D d s.buf).1 = .ok () ∧
      ∃ n, (D.decode d s.buffered (Eos.new s.buf.state.isEos)).1 = .ok n ∧
        tookFrom s.buf (decodeFromReadBuf D d s.buf).2.2 = s.buffered.take n ∧
        (decodeFromReadBuf D d s.buf).2.1 = (D.decode d s.buffered (Eos.new s.buf.state.isEos)).2) ∨
    ((decodeFromReadBuf D d s.buf).1 ≠ .ok () ∧ (decodeFromReadBuf D d s.buf).2.2 = s.buf ∧
      (D.decode d s.buffered (Eos.new s.buf.state.isEos)).1.isOk = false) := by
  obtain ⟨hI, _, _⟩ := readRun_inv hR h
  have hk := (decodeFromReadBuf_spec hD hI).1
  change decodeFromReadBuf D d s.buf = Res.step (D.decode d s.buffered (Eos.new s.buf.state.isEos)) _ _ at hk
  rw [hk]
  rcases hq : D.decode d s.buffered (Eos.new s.buf.state.isEos) with ⟨q, d'⟩
  cases q with
  | ok n =>
    have hn : n ≤ s.buf.len := by
      rw [← ReadBuf.content_length hI]
      exact hD s.buf.content (Eos.new s.buf.state.isEos) n (congrArg Prod.fst hq)
    left
    refine ⟨rfl, n, rfl, ?_, rfl⟩
    simp only [Res.step, tookFrom]
    rw [(s.buf.consume_spec hI hn).2.2.2]
    have : s.buf.len - (s.buf.len - n) = n := by omega
    rw [this]
    rfl
  | _ => right; exact ⟨by simp [Res.step], rfl, rfl⟩

/-- A reader over a list of chunks. -/
private def chunkReader : Reader (List Bytes) where
  read r n := match r with
    | [] => (.data [], [])
    | c :: cs => (.data (c.take n), if c.length ≤ n then cs else c.drop n :: cs)

private theorem chunkReader_honest : HonestReader chunkReader := by
  intro r n bs r' h
  cases r with
  | nil => simp only [chunkReader, Prod.mk.injEq, ReadRes.data.injEq] at h; simp [← h.1]
  | cons c cs => simp [chunkReader] at h; rw [← h.1]; simp; omega

example : ∃ s, ReadRun chunkReader [0, 0, 0, 0] [[1, 2], [3]] s ∧ s.buf.inner = [1, 2, 3, 0] ∧
    s.out = [1, 2] ∧ s.buffered = [3] :=
  ⟨_, .step (.step .new (.fill _)) (.read _ 2), by decide +kernel, by decide +kernel, by decide +kernel⟩

/-! ## C40: fill -/

/-- One call of `fill` over any reader; `as` are the answers the reader gave during the call.
All but the last are data; the call ends only when the buffer is full, or the last answer says that the
reader would block, has reached the end of its stream, or failed - and only then is the result an error,
the one for that failure. The stream state afterwards names the last answer, and is unchanged if there
was none. -/
theorem C40_fill {R : Reader ρ} (hR : HonestReader R) {inner : Bytes} {r : ρ} {s : ReadSys ρ}
    (h : ReadRun R inner r s) : ∃ as b' r',
    s.buf.fill (loggedReader R) s.reader = ((s.buf.fill R s.reader.1).1, b', (r', s.reader.2 ++ as)) ∧
    s.buf.fill R s.reader.1 = ((s.buf.fill R s.reader.1).1, b', r') ∧
    (∀ a ∈ as.dropLast, ∃ x xs, a = .data (x :: xs)) ∧
    b'.state = (as.getLast?.map ReadRes.state).getD s.buf.state ∧
    ((s.buf.fill R s.reader.1).1 = .ok () ∧
        (b'.isFull = true ∨ as.getLast? = some (.error .wouldBlock) ∨ as.getLast? = some (.data [])) ∨
      ∃ k, k ≠ .wouldBlock ∧ as.getLast? = some (.error k) ∧
        (s.buf.fill R s.reader.1).1 = .err (ErrorKind.ofIo k)) := by
  obtain ⟨hI, _, _⟩ := readRun_inv hR h
  have hm := fill_map (R := loggedReader R) (R' := R) Prod.fst (fun r n => rfl) s.buf s.reader
  obtain ⟨as, a1, a2, a3, a4, a5, a6, a7⟩ := fill_spec hR s.buf s.reader hI
  rw [hm]
  exact ⟨as, _, _, by rw [← a1], rfl, a5, a6, a7⟩

/-- A call of `fill` on a full buffer reads nothing. -/
theorem C40_full {R : Reader ρ} (b : ReadBuf) (r : ρ) (h : b.isFull = true) :
    b.fill R r = (.ok (), b, r) := by
  rw [ReadBuf.fill, dif_pos h]

/-- Filling is reading: the buffer afterwards holds what it held, followed by what the reader delivered
during the call. -/
theorem C40_content {R : Reader ρ} (hR : HonestReader R) {inner : Bytes} {r : ρ} {s : ReadSys ρ}
    (h : ReadRun R inner r s) :
    delivered (s.buf.fill (loggedReader R) s.reader).2.2.2 =
      s.out ++ ReadSys.buffered ⟨(s.buf.fill (loggedReader R) s.reader).2.1,
        (s.buf.fill (loggedReader R) s.reader).2.2, s.out⟩ :=
  (C38_fifo hR (.step h (.fill s))).symm

example : ((ReadBuf.new [0, 0, 0, 0]).fill (loggedReader chunkReader) ([[1, 2], [3]], [])).2.2.2 =
    [.data [1, 2], .data [3], .data []] ∧
    ((ReadBuf.new [0, 0]).fill (loggedReader chunkReader) ([[1, 2], [3]], [])).2.2.2 = [.data [1, 2]] := by
  decide +kernel

/-! ## C39: a write buffer is a queue -/

/-- Whatever calls were made on a write buffer, over any writer: the bytes the writer accepted followed
by the bytes still in the buffer are exactly the bytes that were put into the buffer. -/
theorem C39_fifo {W : Writer ω} (hW : HonestWriter W) {inner : Bytes} {w : ω} {s : WriteSys ω}
    (h : WriteRun W inner w s) : accepted s.writer.2 ++ s.buffered = s.input :=
  (writeRun_inv hW h).2.2

/-- The accessors agree with the contents of the buffer. -/
theorem C39_accessors {W : Writer ω} (hW : HonestWriter W) {inner : Bytes} {w : ω} {s : WriteSys ω}
    (h : WriteRun W inner w s) :
    s.buf.len = s.buffered.length ∧ s.buf.len + s.buf.room ≤ s.buf.capacity ∧
    s.buf.capacity = inner.length ∧ (s.buf.isEmpty = true ↔ s.buffered = []) ∧
    (s.buf.isFull = true ↔ s.buf.room = 0) := by
  obtain ⟨hI, hc, _⟩ := writeRun_inv hW h
  have h1 := hI.le
  have h2 := hI.cap
  have h3 := hI.zero
  have hl := WriteBuf.content_length hI
  refine ⟨hl.symm, ?_, hc, ?_, ?_⟩
  · simp only [WriteBuf.len, WriteBuf.room, WriteBuf.capacity]
    omega
  · have : s.buffered = [] ↔ s.buf.content.length = 0 := List.length_eq_zero_iff.symm
    rw [this, hl]
    simp only [WriteBuf.isEmpty, WriteBuf.len, beq_iff_eq]
    omega
  · simp only [WriteBuf.isFull, WriteBuf.room, beq_iff_eq]
    omega

/-- No call panics: neither a flush, nor an encode unless the encoder itself panics. -/
theorem C39_no_panic {W : Writer ω} (hW : HonestWriter W) {inner : Bytes} {w : ω} {s : WriteSys ω}
    (h : WriteRun W inner w s) :
    (s.buf.flush W s.writer.1).1 ≠ .panic ∧
    ∀ {σ α : Type} (E : Encoder σ α) (d : σ), (∀ n e, (E.encode d n e).1 ≠ .panic) →
      (encodeToWriteBuf E d s.buf).1 ≠ .panic := by
  obtain ⟨hI, _, _⟩ := writeRun_inv hW h
  constructor
  · have hm := flush_map (W := loggedWriter W) (W' := W) Prod.fst (fun r n => rfl) s.buf s.writer
    obtain ⟨as, _, _, _, _, _, _, _, _, a9⟩ := flushLoop_spec hW s.buf s.writer hI
    rw [hm]
    simp only
    rw [(flush_eq (W := loggedWriter W) s.buf s.writer).1]
    rcases a9 with ⟨q, _⟩ | ⟨k, _, _, q⟩
    · simp [q]
    · simp [q]
  · intro σ α E d hE
    have h1 := hI.le
    have h2 := hI.cap
    rw [encodeToWriteBuf, if_neg (by omega)]
    rcases hq : E.encode d (s.buf.inner.length - s.buf.tail) (Eos.new s.buf.state.isEos) with ⟨q, d'⟩
    have := hE (s.buf.inner.length - s.buf.tail) (Eos.new s.buf.state.isEos)
    rw [hq] at this
    cases q <;> simp_all [Res.step]

/-- `write` takes as many bytes as there is room for. -/
theorem C39_write (b : WriteBuf) (src : Bytes) : (b.write src).1 = min src.length b.room := rfl

/-- `encode_to_write_buf` lets the encoder write into the free space of the buffer. The result and the
encoder's state are the encoder's. -/
theorem C39_encode {W : Writer ω} (hW : HonestWriter W) {inner : Bytes} {w : ω} {s : WriteSys ω}
    (h : WriteRun W inner w s) {σ α : Type} (E : Encoder σ α) (d : σ) :
    (encodeToWriteBuf E d s.buf).2.1 = (E.encode d s.buf.room (Eos.new s.buf.state.isEos)).2 ∧
    ((encodeToWriteBuf E d s.buf).1 = .ok () ↔
      ∃ bs, (E.encode d s.buf.room (Eos.new s.buf.state.isEos)).1 = .ok bs) := by
  obtain ⟨hI, _, _⟩ := writeRun_inv hW h
  have h2 := hI.cap
  rw [encodeToWriteBuf, if_neg (by omega)]
  change _ = (E.encode d (s.buf.inner.length - s.buf.tail) _).2 ∧
    (_ ↔ ∃ bs, (E.encode d (s.buf.inner.length - s.buf.tail) _).1 = .ok bs)
  rcases E.encode d (s.buf.inner.length - s.buf.tail) (Eos.new s.buf.state.isEos) with ⟨q, d'⟩
  cases q <;> simp [Res.step]

/-- A writer that accepts at most two bytes per call, and blocks every time its counter hits zero. -/
private def slowWriter : Writer Nat where
  write w b := match w with
    | 0 => (.error .wouldBlock, 3)
    | n + 1 => (.wrote (min 2 b.length), n)

private theorem slowWriter_honest : HonestWriter slowWriter := by
  intro w b n w' h
  cases w <;> simp [slowWriter] at h
  omega

example : ∃ s, WriteRun slowWriter [0, 0, 0, 0] 1 s ∧ s.input = [1, 2, 3] ∧
    accepted s.writer.2 = [1, 2] ∧ s.buffered = [3] :=
  ⟨_, .step (.step .new (.write _ [1, 2, 3])) (.flush _), by decide +kernel, by decide +kernel, by decide +kernel⟩

/-! ## C41: flush -/

/-- One call of `flush` over any writer; `as` are the answers the writer gave during the call.
All but the last accepted some bytes; the call ends only when the buffer is empty, or the last answer
says that the writer would block, accepted nothing, or failed - and only then is the result an error, the
one for that failure. The stream state afterwards names the last answer, and is unchanged if there was
none. -/
theorem C41_flush {W : Writer ω} (hW : HonestWriter W) {inner : Bytes} {w : ω} {s : WriteSys ω}
    (h : WriteRun W inner w s) : ∃ as b' w',
    s.buf.flush (loggedWriter W) s.writer = ((s.buf.flush W s.writer.1).1, b', (w', s.writer.2 ++ as)) ∧
    s.buf.flush W s.writer.1 = ((s.buf.flush W s.writer.1).1, b', w') ∧
    (∀ a ∈ as.dropLast, ∃ n, a.2 = .wrote (n + 1)) ∧
    b'.state = (as.getLast?.map fun a => WriteRes.state a.2).getD s.buf.state ∧
    ((s.buf.flush W s.writer.1).1 = .ok () ∧
        (b'.isEmpty = true ∨ as.getLast?.map Prod.snd = some (.error .wouldBlock) ∨
          as.getLast?.map Prod.snd = some (.wrote 0)) ∨
      ∃ k, k ≠ .wouldBlock ∧ as.getLast?.map Prod.snd = some (.error k) ∧
        (s.buf.flush W s.writer.1).1 = .err (ErrorKind.ofIo k)) := by
  obtain ⟨hI, _, _⟩ := writeRun_inv hW h
  have hm := flush_map (W := loggedWriter W) (W' := W) Prod.fst (fun r n => rfl) s.buf s.writer
  obtain ⟨as, a1, a2, a3, a4, a5, a6, a7, a8, a9⟩ := flushLoop_spec hW s.buf s.writer hI
  have e1 := flush_eq (W := loggedWriter W) s.buf s.writer
  have e2 := flush_same (W := loggedWriter W) s.buf s.writer
  rw [hm]
  refine ⟨as, _, _, by rw [← a1, ← e1.2.1], rfl, a7, by rw [e2.2.2.2, a8], ?_⟩
  simp only
  rw [e1.1]
  simpa only [WriteBuf.isEmpty, e2.2.2.1] using a9

/-- An empty buffer is not flushed. -/
theorem C41_empty {W : Writer ω} (b : WriteBuf) (w : ω) (h : b.isEmpty = true) :
    (b.flush W w).1 = .ok () ∧ (b.flush W w).2.2 = w := by
  have := flush_eq (W := W) b w
  rw [WriteBuf.flushLoop, dif_pos h] at this
  exact ⟨this.1, this.2.1⟩

example : ((WriteBuf.new [0, 0, 0, 0]).write [1, 2, 3]).2.flush (loggedWriter slowWriter) (5, []) =
    (.ok (), ⟨[1, 2, 3, 0], 0, 0, .normal, none, []⟩, (3, [([1, 2, 3], .wrote 2), ([3], .wrote 1)])) := by
  decide +kernel

/-! ## C44: buffered I/O -/

/-- `execute_io` fills the read buffer and then, if that succeeded, flushes the write buffer: in the
order of the stream's answers the reads come first, and both buffers end up as after a `fill` and a
`flush` of their own. -/
theorem C44_execute {T : Stream τ} (hR : HonestReader T.reader) (hW : HonestWriter T.writer) {t : τ}
    {n m : Nat} {io : BufferedIo (τ × List Event)} (h : IoRun T t n m io) :
    ∃ as ws, (io.executeIo (loggedStream T)).2.stream.2 =
        io.stream.2 ++ as.map Event.read ++ ws.map Event.wrote ∧
      as = (io.rbuf.fill (loggedReader T.reader) (io.stream.1, [])).2.2.2 ∧
      (io.executeIo (loggedStream T)).2.rbuf = (io.rbuf.fill (loggedReader T.reader) (io.stream.1, [])).2.1 ∧
      (((io.rbuf.fill (loggedReader T.reader) (io.stream.1, [])).1 ≠ .ok () ∧
          (io.executeIo (loggedStream T)).1 = (io.rbuf.fill (loggedReader T.reader) (io.stream.1, [])).1 ∧
          ws = [] ∧ (io.executeIo (loggedStream T)).2.wbuf = io.wbuf) ∨
        ((io.rbuf.fill (loggedReader T.reader) (io.stream.1, [])).1 = .ok () ∧
          (io.executeIo (loggedStream T)).1 = (io.wbuf.flush (loggedWriter T.writer)
            ((io.rbuf.fill (loggedReader T.reader) (io.stream.1, [])).2.2.1, [])).1 ∧
          ws = (io.wbuf.flush (loggedWriter T.writer)
            ((io.rbuf.fill (loggedReader T.reader) (io.stream.1, [])).2.2.1, [])).2.2.2 ∧
          (io.executeIo (loggedStream T)).2.wbuf = (io.wbuf.flush (loggedWriter T.writer)
            ((io.rbuf.fill (loggedReader T.reader) (io.stream.1, [])).2.2.1, [])).2.1)) :=
  (executeIo_spec hR hW (ioRun_inv hR hW h)).2

/-- `would_block()` holds exactly when the last read would have blocked, and there is nothing to write or
the last write would have blocked. -/
theorem C44_would_block {T : Stream τ} (hR : HonestReader T.reader) (hW : HonestWriter T.writer) {t : τ}
    {n m : Nat} {io : BufferedIo (τ × List Event)} (h : IoRun T t n m io) :
    io.wouldBlock = true ↔ lastRead io.stream.2 = some (.error .wouldBlock) ∧
      (io.wbuf.len = 0 ∨ lastWrite io.stream.2 = some (.error .wouldBlock)) := by
  have hI := ioRun_inv hR hW h
  have h1 := hI.w.le
  have h3 := hI.w.zero
  have he : io.wbuf.isEmpty = true ↔ io.wbuf.len = 0 := by
    simp only [WriteBuf.isEmpty, WriteBuf.len, beq_iff_eq]
    omega
  simp only [BufferedIo.wouldBlock, Bool.and_eq_true, Bool.or_eq_true, StreamState.isWouldBlock, beq_iff_eq]
  rw [hI.rs, hI.ws, he, readState_wouldBlock, writeState_wouldBlock]
  rfl

/-- `is_eos()` holds exactly when the last read reported the end of the stream or the last write
accepted nothing. -/
theorem C44_is_eos {T : Stream τ} (hR : HonestReader T.reader) (hW : HonestWriter T.writer) {t : τ}
    {n m : Nat} {io : BufferedIo (τ × List Event)} (h : IoRun T t n m io) :
    io.isEos = true ↔ lastRead io.stream.2 = some (.data []) ∨ lastWrite io.stream.2 = some (.wrote 0) := by
  have hI := ioRun_inv hR hW h
  simp only [BufferedIo.isEos, Bool.or_eq_true, StreamState.isEos, beq_iff_eq]
  rw [hI.rs, hI.ws, readState_eos, writeState_eos]
  rfl

/-- A stream that delivers one chunk and then blocks, and accepts everything. -/
private def oneChunk : Stream (List Bytes) where
  reader := ⟨fun r n => match r with
    | [] => (.error .wouldBlock, [])
    | c :: cs => (.data (c.take n), cs)⟩
  writer := ⟨fun r b => (.wrote b.length, r)⟩

example : HonestReader oneChunk.reader ∧ HonestWriter oneChunk.writer ∧
    ∃ io, IoRun oneChunk [[1, 2]] 4 4 io ∧ io.wouldBlock = true ∧ io.rbuf.len = 2 := by
  refine ⟨?_, ?_, _, .executeIo .new, by decide +kernel, by decide +kernel⟩
  · intro r n bs r' h
    cases r with
    | nil => simp [oneChunk] at h
    | cons c cs => simp [oneChunk] at h; rw [← h.1]; simp; omega
  · intro w b n w' h
    simp [oneChunk] at h
    omega

/-! ## C45: asynchronous buffers -/

/-- `poll_fill` does what `fill` does over the reader that answers `WouldBlock` in place of `Pending`:
same buffer, same stream state, same calls of the reader. It is `Pending` exactly when the last answer
was, and otherwise has the result of `fill`. -/
theorem C45_poll_fill {R : AsyncReader ρ} (hR : PollsReader R) (b : ReadBuf) (r : ρ) :
    b.pollFill R r =
      (if (b.fill (loggedReader (syncReader R)) (r, [])).2.2.2.getLast? = some (.error .wouldBlock)
          then .pending
          else .ready (b.fill (loggedReader (syncReader R)) (r, [])).1,
        (b.fill (loggedReader (syncReader R)) (r, [])).2.1,
        (b.fill (loggedReader (syncReader R)) (r, [])).2.2.1) := by
  obtain ⟨as, a1, a2⟩ := pollFill_spec hR b r []
  rw [a2, a1]
  rfl

theorem flushLoop_wakers (W : Writer ω) (b : WriteBuf) (w : ω) :
    (b.flushLoop W w).2.1.woken = b.woken ∧ (b.flushLoop W w).2.1.waker = b.waker := by
  induction b, w using WriteBuf.flushLoop.induct W with
  | case1 b w h1 => rw [WriteBuf.flushLoop, dif_pos h1]; exact ⟨rfl, rfl⟩
  | case2 b w h1 h2 => rw [WriteBuf.flushLoop, dif_neg h1, dif_pos h2]; exact ⟨rfl, rfl⟩
  | case3 b w h1 h2 w' hr =>
    rw [WriteBuf.flushLoop, dif_neg h1, dif_neg h2, hr]; exact ⟨rfl, rfl⟩
  | case4 b w h1 h2 k w' hr hk =>
    rw [WriteBuf.flushLoop, dif_neg h1, dif_neg h2, hr]; simp only [if_neg hk]; exact ⟨trivial, trivial⟩
  | case5 b w h1 h2 w' hr =>
    rw [WriteBuf.flushLoop, dif_neg h1, dif_neg h2, hr]; exact ⟨rfl, rfl⟩
  | case6 b w h1 h2 n w' hr ih =>
    rw [WriteBuf.flushLoop, dif_neg h1, dif_neg h2, hr]
    simp only
    rw [ih.1, ih.2]
    simp only [WriteBuf.consume]
    split <;> exact ⟨rfl, rfl⟩

/-- `poll_flush` does what `flush` does over the writer that answers `WouldBlock` in place of `Pending`:
same bytes left in the buffer, same stream state, same calls of the writer. It is `Pending` exactly when
the last answer was, and otherwise has the result of `flush`. The only difference is the wake-up. -/
theorem C45_poll_flush {W : AsyncWriter ω} (hW : PollsWriter W) (b : WriteBuf) (w : ω) :
    (b.pollFlush W w).1 =
      (if (b.flush (loggedWriter (syncWriter W)) (w, [])).2.2.2.getLast?.map Prod.snd =
          some (.error .wouldBlock)
          then .pending
          else .ready (b.flush (loggedWriter (syncWriter W)) (w, [])).1) ∧
    (b.pollFlush W w).2.1 =
      { (b.flush (loggedWriter (syncWriter W)) (w, [])).2.1 with woken := b.woken } ∧
    (b.pollFlush W w).2.2 = (b.flush (loggedWriter (syncWriter W)) (w, [])).2.2.1 := by
  obtain ⟨as, a1, a2⟩ := pollFlush_spec hW b w []
  have e1 := flush_eq (W := loggedWriter (syncWriter W)) b (w, [])
  have e2 := flush_same (W := loggedWriter (syncWriter W)) b (w, [])
  rw [a2, e1.2.1, a1, e1.1]
  refine ⟨rfl, ?_, rfl⟩
  have hww := flushLoop_wakers (loggedWriter (syncWriter W)) b (w, [])
  have hwk : (b.flush (loggedWriter (syncWriter W)) (w, [])).2.1.waker =
      (b.flushLoop (loggedWriter (syncWriter W)) (w, [])).2.1.waker := by
    rcases e1.2.2 with h | ⟨_, h⟩
    · rw [h]
    · rw [h]; exact (WriteBuf.wake_eq _).2.2.2.2
  simp only [e2.1, e2.2.1, e2.2.2.1, e2.2.2.2, hwk, ← hww.1]

/-- `execute_io_poll` is `Pending` exactly when both directions are. -/
theorem C45_pending (T : AsyncStream τ) (io : BufferedIo τ) (rb : ReadBuf) (wb : WriteBuf) (t t' : τ)
    (p q : Poll (Res Unit)) (hp : io.rbuf.pollFill T.reader io.stream = (p, rb, t))
    (hq : io.wbuf.pollFlush T.writer t = (q, wb, t')) (hn : p ≠ .ready .panic) :
    (io.executeIoPoll T).2 = ⟨t', rb, wb⟩ ∧
    ((io.executeIoPoll T).1 = .pending ↔ p = .pending ∧ q = .pending) := by
  rcases p with _ | ⟨_ | _ | _ | _ | _⟩ <;> rcases q with _ | ⟨_ | _ | _ | _ | _⟩ <;>
    simp_all [BufferedIo.executeIoPoll]

/-- The result of `execute_io_poll`: an error of the read direction comes first, then one of the write
direction. A panic of the write direction comes before both. -/
theorem C45_errors (T : AsyncStream τ) (io : BufferedIo τ) (rb : ReadBuf) (wb : WriteBuf) (t t' : τ)
    (p q : Poll (Res Unit)) (hp : io.rbuf.pollFill T.reader io.stream = (p, rb, t))
    (hq : io.wbuf.pollFlush T.writer t = (q, wb, t')) :
    (∀ k, p = .ready (.err k) → q ≠ .ready .panic → (io.executeIoPoll T).1 = .ready (.err k)) ∧
    (p ≠ .ready .panic → q = .ready .panic → (io.executeIoPoll T).1 = .ready .panic) ∧
    (∀ k, (p = .pending ∨ p = .ready (.ok ())) → q = .ready (.err k) →
      (io.executeIoPoll T).1 = .ready (.err k)) ∧
    ((p = .ready (.ok ()) ∧ (q = .pending ∨ q = .ready (.ok ())) ∨ p = .pending ∧ q = .ready (.ok ())) →
      (io.executeIoPoll T).1 = .ready (.ok ())) := by
  refine ⟨?_, ?_, ?_, ?_⟩
  · rintro k rfl hq
    rcases q with _ | ⟨_ | _ | _ | _ | _⟩ <;> simp_all [BufferedIo.executeIoPoll]
  · rintro hp rfl
    rcases p with _ | ⟨_ | _ | _ | _ | _⟩ <;> simp_all [BufferedIo.executeIoPoll]
  · rintro k (rfl | rfl) rfl <;> simp_all [BufferedIo.executeIoPoll]
  · rintro (⟨rfl, rfl | rfl⟩ | ⟨rfl, rfl⟩) <;> simp_all [BufferedIo.executeIoPoll]

/-- `encode_to_write_buf_async` does what `encode_to_write_buf` does; if it succeeds, the buffer keeps the waker
of the caller in place of any other. -/
theorem C45_encode_async {σ α : Type} (E : Encoder σ α) (d : σ) (b : WriteBuf) (k : Nat) :
    (encodeToWriteBufAsync E d b k).1 = (encodeToWriteBuf E d b).1 ∧
    (encodeToWriteBufAsync E d b k).2.1 = (encodeToWriteBuf E d b).2.1 ∧
    ((encodeToWriteBuf E d b).1 = .ok () →
      (encodeToWriteBufAsync E d b k).2.2 = { (encodeToWriteBuf E d b).2.2 with waker := some k }) ∧
    ((encodeToWriteBuf E d b).1 ≠ .ok () → (encodeToWriteBufAsync E d b k).2.2 = (encodeToWriteBuf E d b).2.2) := by
  unfold encodeToWriteBufAsync
  rcases encodeToWriteBuf E d b with ⟨r, d', b'⟩
  cases r with
  | ok u => exact ⟨rfl, rfl, fun _ => rfl, fun h => absurd rfl h⟩
  | err _ => exact ⟨rfl, rfl, nofun, fun _ => rfl⟩
  | panic => exact ⟨rfl, rfl, nofun, fun _ => rfl⟩
  | capacity => exact ⟨rfl, rfl, nofun, fun _ => rfl⟩
  | diverge => exact ⟨rfl, rfl, nofun, fun _ => rfl⟩

/-- A synchronous `flush` that succeeds and leaves room in the buffer wakes the waker stored by
`encode_to_write_buf_async`, once, and nobody else; otherwise it wakes nobody. The waker stays. -/
theorem C45_flush_wakes_partial {W : Writer ω} (b : WriteBuf) (w : ω) (b' : WriteBuf) (w' : ω)
    (h : b.flush W w = (.ok (), b', w')) :
    b'.waker = b.waker ∧ b'.woken = b.woken ++ (if b'.isFull then [] else b.waker.toList) := by
  have hw := flushLoop_wakers W b w
  simp only [WriteBuf.flush] at h
  rcases hq : b.flushLoop W w with ⟨r, c, v⟩
  rw [hq] at h hw
  simp only at hw
  cases r with
  | ok u =>
    simp only [Res.step, Prod.mk.injEq, true_and] at h
    obtain ⟨rfl, rfl⟩ := h
    obtain ⟨e1, e2, e3, e4, e5⟩ := c.wake_eq
    have hf : c.wakeIfRoom.isFull = c.isFull := by
      simp only [WriteBuf.isFull, e1, e3]
    refine ⟨e5.trans hw.2, ?_⟩
    rw [hf, ← hw.1, ← hw.2]
    simp only [WriteBuf.wakeIfRoom]
    cases c.isFull with
    | true => simp
    | false => cases hk : c.waker <;> simp
  | _ => simp [Res.step] at h

/-- The other calls keep the waker, also when they fail. -/
theorem C45_waker_kept {σ α : Type} (E : Encoder σ α) (d : σ) (W : Writer ω) (w : ω) (b : WriteBuf) (x : Bytes) :
    (b.write x).2.waker = b.waker ∧ (encodeToWriteBuf E d b).2.2.waker = b.waker ∧
    (b.flush W w).2.1.waker = b.waker := by
  refine ⟨rfl, ?_, ?_⟩
  · unfold encodeToWriteBuf
    split
    · rfl
    · rcases E.encode d (b.inner.length - b.tail) (Eos.new b.state.isEos) with ⟨r, d'⟩
      cases r <;> rfl
  · have hw := (flushLoop_wakers W b w).2
    unfold WriteBuf.flush
    rcases hq : b.flushLoop W w with ⟨r, c, v⟩
    rw [hq] at hw
    cases r with
    | ok u => exact c.wake_eq.2.2.2.2.trans hw
    | _ => exact hw

/-- So after `encode_to_write_buf_async` the caller is woken by the next `flush` that makes room. -/
theorem C45_async_then_flush {σ α : Type} {E : Encoder σ α} {d d' : σ} {b b₁ b₂ : WriteBuf} {k : Nat} {W : Writer ω}
    {w w' : ω} (h : encodeToWriteBufAsync E d b k = (.ok (), d', b₁)) (hf : b₁.flush W w = (.ok (), b₂, w'))
    (hr : b₂.isFull = false) : b₂.woken = b₁.woken ++ [k] := by
  obtain ⟨h1, _, h2, _⟩ := C45_encode_async E d b k
  rw [h] at h1 h2
  have h3 := h2 h1.symm
  simp only at h3
  rw [(C45_flush_wakes_partial b₁ w b₂ w' hf).2, hr, h3]
  rfl

example : encodeToWriteBufAsync (bytesEncoder (id : Bytes → Bytes)).toEncoder ⟨some [7, 8], 0⟩
      ⟨[0, 0], 0, 0, .normal, none, []⟩ 5 = (.ok (), ⟨none, 2⟩, ⟨[7, 8], 0, 2, .normal, some 5, []⟩) ∧
    ((⟨[7, 8], 0, 2, .normal, some 5, []⟩ : WriteBuf).flush oneChunk.writer []).2.1.woken = [5] :=
  ⟨rfl, by decide +kernel⟩

/-- The full claim fails: `poll_flush` never wakes anybody, even when it makes room. -/
theorem C45_poll_flush_wakes_nobody_fails {W : AsyncWriter ω} (hW : PollsWriter W) (b : WriteBuf) (w : ω) :
    (b.pollFlush W w).2.1.woken = b.woken := by
  rw [(C45_poll_flush hW b w).2.1]

/-- An asynchronous reader with one chunk, and an asynchronous writer that accepts everything. -/
private def oneChunkAsync : AsyncStream (List Bytes) where
  reader := ⟨fun r n => match r with
    | [] => (.pending, [])
    | c :: cs => (.ready (.data (c.take n)), cs)⟩
  writer := ⟨fun r b => (.ready (.wrote b.length), r)⟩

example : PollsReader oneChunkAsync.reader ∧ PollsWriter oneChunkAsync.writer := by
  refine ⟨?_, ?_⟩
  · intro r n
    cases r <;> simp [oneChunkAsync]
  · intro w b
    simp [oneChunkAsync]

/-- A full buffer with a waiting encoder becomes empty without a wake-up. -/
example : ((⟨[1, 2], 0, 2, .wouldBlock, some 7, []⟩ : WriteBuf).pollFlush oneChunkAsync.writer []).2.1 =
    ⟨[1, 2], 0, 0, .normal, some 7, []⟩ := by decide +kernel

example : ((⟨[1, 2], 0, 2, .wouldBlock, some 7, []⟩ : WriteBuf).flush oneChunk.writer []).2.1 =
    ⟨[1, 2], 0, 0, .normal, some 7, [7]⟩ := by decide +kernel

/-! ## C48: owned slices -/

/-- `as_ref` panics exactly when the bounds are out of order or beyond the inner sequence; otherwise it is
the window: as long as the bounds say, and with the inner elements at the shifted positions. -/
theorem C48_window {α : Type} (s : OwnedSlice α) :
    (s.asRef = .panic ↔ s.stop < s.start ∨ s.inner.length < s.stop) ∧
    ∀ xs, s.asRef = .ok xs → xs.length = s.stop - s.start ∧
      ∀ i, i < s.stop - s.start → xs[i]? = s.inner[s.start + i]? := by
  unfold OwnedSlice.asRef
  split
  · next h =>
    refine ⟨⟨nofun, by omega⟩, ?_⟩
    intro xs hx
    cases hx
    refine ⟨by simp; omega, ?_⟩
    intro i hi
    rw [List.getElem?_drop, List.getElem?_take_of_lt (by omega)]
  · next h => exact ⟨⟨fun _ => by omega, fun _ => rfl⟩, nofun⟩

/-- Writing through `as_mut` changes the window and nothing else. -/
theorem C48_write {α : Type} (s t : OwnedSlice α) (xs : List α) (h : s.write xs = .ok t) :
    t.start = s.start ∧ t.stop = s.stop ∧ t.inner.length = s.inner.length ∧ t.asRef = .ok xs ∧
    ∀ i, i < s.start ∨ s.stop ≤ i → t.inner[i]? = s.inner[i]? := by
  unfold OwnedSlice.write at h
  split at h <;> cases h
  next h =>
  obtain ⟨h1, h2, h3⟩ := h
  have hl : (s.inner.take s.start).length = s.start := by simp; omega
  refine ⟨rfl, rfl, by simp; omega, ?_, ?_⟩
  · unfold OwnedSlice.asRef
    simp only
    rw [if_pos ⟨h1, by simp; omega⟩]
    congr 1
    rw [List.take_append_of_le_length (by simp; omega), List.take_of_length_le (by simp; omega),
      List.drop_append_of_le_length (by omega), List.drop_of_length_le (by omega), List.nil_append]
  · intro i hi
    rcases hi with hi | hi
    · simp only
      rw [List.append_assoc, List.getElem?_append_left (by omega), List.getElem?_take_of_lt hi]
    · simp only
      rw [List.getElem?_append_right (by simp; omega), List.getElem?_drop]
      congr 1
      simp
      omega

/-- Writing succeeds for every slice that could be read, with as many elements as it has. -/
theorem C48_write_ok {α : Type} (s : OwnedSlice α) (xs ys : List α) (h : s.asRef = .ok xs)
    (hl : ys.length = xs.length) : ∃ t, s.write ys = .ok t := by
  have hw := ((C48_window s).2 xs h).1
  unfold OwnedSlice.asRef at h
  split at h
  · next hb => exact ⟨_, by rw [OwnedSlice.write, if_pos ⟨hb.1, hb.2, by omega⟩]⟩
  · cases h

example : (⟨[1, 2, 3, 4], 1, 3⟩ : OwnedSlice Nat).asRef = .ok [2, 3] ∧
    (⟨[1, 2, 3, 4], 3, 1⟩ : OwnedSlice Nat).asRef = .panic := by decide

/-! ## C49: I/O errors -/

/-- `Error::from(io::Error)`: `UnexpectedEos` for `UnexpectedEof`, `Other` for everything else. -/
theorem C49_kinds (k : IoErr) :
    (ErrorKind.ofIo k = .unexpectedEos ↔ k = .unexpectedEof) ∧
    (k ≠ .unexpectedEof → ErrorKind.ofIo k = .other) := by
  cases k <;> simp [ErrorKind.ofIo]

/-- A failing `fill` reports the kind of the reader's error. -/
theorem C49_fill {R : Reader ρ} (hR : HonestReader R) {inner : Bytes} {r : ρ} {s : ReadSys ρ}
    (h : ReadRun R inner r s) (k : ErrorKind) (he : (s.buf.fill R s.reader.1).1 = .err k) :
    ∃ as io, (s.buf.fill (loggedReader R) s.reader).2.2.2 = s.reader.2 ++ as ∧
      as.getLast? = some (.error io) ∧ (k = .unexpectedEos ↔ io = .unexpectedEof) ∧
      (io ≠ .unexpectedEof → k = .other) := by
  obtain ⟨as, b', r', a1, _, _, _, a5⟩ := C40_fill hR h
  rcases a5 with ⟨q, _⟩ | ⟨io, _, q1, q2⟩
  · rw [q] at he; cases he
  · rw [q2] at he
    cases he
    exact ⟨as, io, by rw [a1], q1, (C49_kinds io).1, (C49_kinds io).2⟩

/-- A failing `flush` reports the kind of the writer's error. -/
theorem C49_flush {W : Writer ω} (hW : HonestWriter W) {inner : Bytes} {w : ω} {s : WriteSys ω}
    (h : WriteRun W inner w s) (k : ErrorKind) (he : (s.buf.flush W s.writer.1).1 = .err k) :
    ∃ as io, (s.buf.flush (loggedWriter W) s.writer).2.2.2 = s.writer.2 ++ as ∧
      as.getLast?.map Prod.snd = some (.error io) ∧ (k = .unexpectedEos ↔ io = .unexpectedEof) ∧
      (io ≠ .unexpectedEof → k = .other) := by
  obtain ⟨as, b', r', a1, _, _, _, a5⟩ := C41_flush hW h
  rcases a5 with ⟨q, _⟩ | ⟨io, _, q1, q2⟩
  · rw [q] at he; cases he
  · rw [q2] at he
    cases he
    exact ⟨as, io, by rw [a1], q1, (C49_kinds io).1, (C49_kinds io).2⟩

end Bytecodec.Props
