import Verif.Lemmas.TrackedBuf
/-!
# C101: what buffered I/O reports of the failures of its stream

`/repo` `src/io.rs` 11-23, 60-89, 202-225, 323-356, 399-403 and `src/io_async.rs` 15-118.
-/
namespace Bytecodec.Props
open Bytecodec

variable {κ σ α ρ ω τ : Type} {O : TError κ → Prop} {Q : κ → Bool}

/-- C101: seen through kinds only, the functions with whole errors are those of the rest of the model. -/
theorem C101_same (R : TReader κ ρ) (W : TWriter κ ω) (T : TStream κ τ) (rb : ReadBuf) (wb : WriteBuf)
    (io : BufferedIo τ) (r : ρ) (w : ω) :
    eraseP (rb.tFill R r) = rb.fill R.erase r ∧ eraseP (wb.tFlush W w) = wb.flush W.erase w ∧
      eraseP (io.tExecuteIo T) = io.executeIo T.erase :=
  ⟨tFill_erase R rb r, tFlush_erase W wb w, tExecuteIo_erase T io⟩

/-- C101: the same for the asynchronous functions. -/
theorem C101_same_async (R : TAsyncReader κ ρ) (W : TAsyncWriter κ ω) (T : TAsyncStream κ τ) (rb : ReadBuf) (wb : WriteBuf)
    (io : BufferedIo τ) (r : ρ) (w : ω) :
    ((rb.tPollFill R r).1.eraseRes, (rb.tPollFill R r).2) = rb.pollFill R.erase r ∧
      ((wb.tPollFlush W w).1.eraseRes, (wb.tPollFlush W w).2) = wb.pollFlush W.erase w ∧
      ((io.tExecuteIoPoll T).1.eraseRes, (io.tExecuteIoPoll T).2) = io.executeIoPoll T.erase :=
  ⟨tPollFill_erase R rb r, tPollFlush_erase W wb w, tExecuteIoPoll_erase T io⟩

/-- C101: `fill` returns an error exactly when the reader failed (other than with `WouldBlock`): at most once, the I/O error
is the cause, and the state of the buffer is `Error`. -/
theorem C101_fill (R : TReader κ ρ) (b : ReadBuf) (r : ρ) :
    let p := b.tFill R.noting (r, [])
    (p.1, p.2.1, p.2.2.1) = b.tFill R r ∧ Reports p.2.2.2 p.1 ∧ (p.2.2.2 ≠ [] → p.2.1.state = .error) := by
  obtain ⟨fs, h1, h2, h3⟩ := tFill_noting R b (r, [])
  simp only [h1, List.nil_append]
  exact ⟨trivial, h2, h3⟩

/-- C101: `flush` likewise. -/
theorem C101_flush (W : TWriter κ ω) (b : WriteBuf) (w : ω) :
    let p := b.tFlush W.noting (w, [])
    (p.1, p.2.1, p.2.2.1) = b.tFlush W w ∧ Reports p.2.2.2 p.1 ∧ (p.2.2.2 ≠ [] → p.2.1.state = .error) := by
  obtain ⟨fs, h1, h2, h3⟩ := tFlush_noting W b (w, [])
  simp only [h1, List.nil_append]
  exact ⟨trivial, h2, h3⟩

/-- C101: `execute_io` reports the failure of its stream in whichever direction, and goes on after none. -/
theorem C101_execute_io (T : TStream κ τ) (io : BufferedIo τ) :
    let p := (io.noted κ).tExecuteIo T.noting
    (p.1, p.2.unnoted) = io.tExecuteIo T ∧ Reports p.2.stream.2 p.1 := by
  obtain ⟨fs, h1, h2, h3⟩ := tFill_noting T.reader io.rbuf (io.stream, [])
  simp only [List.nil_append] at h1 h2 h3
  simp only [BufferedIo.tExecuteIo, BufferedIo.noted, TStream.noting, h1]
  rcases hq : io.rbuf.tFill T.reader io.stream with ⟨_ | e | _ | _ | _, rb, t⟩ <;> rw [hq] at h2
  · have hfs : fs = [] := by
      match fs, h2 with
      | [], _ => rfl
      | [(k, c)], ⟨x, hx, _⟩ => cases hx
    subst hfs
    obtain ⟨gs, g1, g2, g3⟩ := tFlush_noting T.writer io.wbuf (t, [])
    simp only [List.nil_append] at g1 g2 g3
    simp only [tracked, TRes.step, g1]
    have g4 := reports_tracked ⟨"io.rs", 401⟩ () g2
    rcases hr : io.wbuf.tFlush T.writer t with ⟨_ | e | _ | _ | _, wb, t'⟩ <;> rw [hr] at g4 <;> exact ⟨rfl, g4⟩
  · exact ⟨rfl, reports_tracked ⟨"io.rs", 400⟩ () h2⟩
  · exact ⟨rfl, reports_tracked ⟨"io.rs", 400⟩ () h2⟩
  · exact ⟨rfl, reports_tracked ⟨"io.rs", 400⟩ () h2⟩
  · exact ⟨rfl, reports_tracked ⟨"io.rs", 400⟩ () h2⟩

/-- C101: `poll_fill`. -/
theorem C101_poll_fill (R : TAsyncReader κ ρ) (b : ReadBuf) (r : ρ) :
    let p := b.tPollFill R.noting (r, [])
    (p.1, p.2.1, p.2.2.1) = b.tPollFill R r ∧ ReportsPoll p.2.2.2 p.1 ∧ (p.2.2.2 ≠ [] → p.2.1.state = .error) := by
  obtain ⟨fs, h1, h2, h3⟩ := tPollFill_noting R b (r, [])
  simp only [h1, List.nil_append]
  exact ⟨trivial, h2, h3⟩

/-- C101: `poll_flush`. -/
theorem C101_poll_flush (W : TAsyncWriter κ ω) (b : WriteBuf) (w : ω) :
    let p := b.tPollFlush W.noting (w, [])
    (p.1, p.2.1, p.2.2.1) = b.tPollFlush W w ∧ ReportsPoll p.2.2.2 p.1 ∧ (p.2.2.2 ≠ [] → p.2.1.state = .error) := by
  obtain ⟨fs, h1, h2, h3⟩ := tPollFlush_noting W b (w, [])
  simp only [h1, List.nil_append]
  exact ⟨trivial, h2, h3⟩

/-- C101: `execute_io_poll` (unless it panics) reports the first failure of its stream. There may be a second one, that of
the write direction, which is not reported (`C101_execute_io_poll_fails`); then the states of both buffers are `Error`. -/
theorem C101_execute_io_poll_partial (T : TAsyncStream κ τ) (io : BufferedIo τ) :
    let p := (io.noted κ).tExecuteIoPoll T.noting
    (p.1, p.2.unnoted) = io.tExecuteIoPoll T ∧
      (p.1 ≠ .ready .panic → ReportsPoll (p.2.stream.2.take 1) p.1 ∧ p.2.stream.2.length ≤ 2 ∧
        (p.2.stream.2.length = 2 → p.2.rbuf.state = .error ∧ p.2.wbuf.state = .error)) := by
  obtain ⟨fs, h1, h2, h3⟩ := tPollFill_noting T.reader io.rbuf (io.stream, [])
  simp only [List.nil_append] at h1 h2 h3
  simp only [BufferedIo.tExecuteIoPoll, BufferedIo.noted, TAsyncStream.noting, h1]
  rcases hq : io.rbuf.tPollFill T.reader io.stream with ⟨pr, rb, t⟩
  have hn := tPollFill_results T.reader io.rbuf io.stream
  rw [hq] at h2 h3 hn
  obtain ⟨gs, g1, g2, g3⟩ := tPollFlush_noting T.writer io.wbuf (t, fs)
  simp only at g1 g2 g3 h2 h3
  rcases hr : io.wbuf.tPollFlush T.writer t with ⟨pw, wb, t'⟩
  rw [hr] at g1 g2 g3
  simp only at g1 g2 g3
  rcases reportsPoll_cases h2 with ⟨rfl, n1⟩ | ⟨k, c, x, rfl, rfl, s1⟩
  · rcases reportsPoll_cases g2 with ⟨rfl, n2⟩ | ⟨k', c', x', rfl, rfl, s2⟩
    · rcases pr with _ | ⟨_ | e | _ | _ | _⟩
      · rcases pw with _ | ⟨_ | e | _ | _ | _⟩ <;> simp_all [tracked, BufferedIo.unnoted, ReportsPoll, Reports]
      · rcases pw with _ | ⟨_ | e | _ | _ | _⟩ <;> simp_all [tracked, BufferedIo.unnoted, ReportsPoll, Reports]
      · exact absurd rfl (n1 e)
      · simp_all [BufferedIo.unnoted]
      · rcases pw with _ | ⟨_ | e | _ | _ | _⟩ <;> simp_all [tracked, BufferedIo.unnoted, ReportsPoll, Reports]
      · rcases pw with _ | ⟨_ | e | _ | _ | _⟩ <;> simp_all [tracked, BufferedIo.unnoted, ReportsPoll, Reports]
    · have s3 := s2.track ⟨"io_async.rs", 111⟩
      rcases pr with _ | ⟨_ | e | _ | _ | _⟩
      · simp_all [tracked, BufferedIo.unnoted, ReportsPoll, Reports]
      · simp_all [tracked, BufferedIo.unnoted, ReportsPoll, Reports]
      · exact absurd rfl (n1 e)
      · simp_all [BufferedIo.unnoted]
      · exact absurd rfl hn.1
      · exact absurd rfl hn.2
  · have s3 := s1.track ⟨"io_async.rs", 108⟩
    rcases reportsPoll_cases g2 with ⟨rfl, n2⟩ | ⟨k', c', x', rfl, rfl, s2⟩
    · rcases pw with _ | ⟨_ | e | _ | _ | _⟩ <;> simp_all [tracked, BufferedIo.unnoted, ReportsPoll, Reports]
    · simp_all [tracked, BufferedIo.unnoted, ReportsPoll, Reports]

/-- A stream for the examples: reading and writing fail, each with its own error. -/
private def broken : TAsyncStream String Unit where
  reader := ⟨fun _ _ => (.ready (.error .unexpectedEof "read: closed by peer"), ())⟩
  writer := ⟨fun _ _ => (.ready (.error .other "write: broken pipe"), ())⟩

/-- Buffers with room for reading and one byte to be written. -/
private def busy : BufferedIo Unit := ⟨(), .new [0, 0], { WriteBuf.new [7, 0] with tail := 1 }⟩

/-- C101 fails for `execute_io_poll`: when both directions fail in one call, the error of the write direction is dropped. The
stream has given it away and the caller never sees it. -/
theorem C101_execute_io_poll_fails : ¬ ∀ (T : TAsyncStream String Unit) (io : BufferedIo Unit),
    let p := (io.noted String).tExecuteIoPoll T.noting
    p.1 ≠ .ready .panic → ∀ k c, (k, c) ∈ p.2.stream.2 → ∃ x, p.1 = .ready (.err x) ∧ Surfaces (becauseOf k c) x := by
  intro h
  have e : (busy.noted String).tExecuteIoPoll broken.noting =
      (.ready (.err ⟨.unexpectedEos, some (.given "read: closed by peer"), some [⟨"io_async.rs", 38⟩, ⟨"io_async.rs", 108⟩]⟩),
        ⟨((), [(.unexpectedEof, "read: closed by peer"), (.other, "write: broken pipe")]),
          { ReadBuf.new [0, 0] with state := .error }, { WriteBuf.new [7, 0] with tail := 1, state := .error }⟩) := by
    simp [BufferedIo.tExecuteIoPoll, BufferedIo.noted, busy, broken, TAsyncStream.noting, ReadBuf.tPollFill,
      WriteBuf.tPollFlush, ReadBuf.isFull, WriteBuf.isEmpty, ReadBuf.new, WriteBuf.new, TAsyncReader.noting,
      TAsyncWriter.noting, TReadRes.failures, TWriteRes.failures, TError.ofIo, TError.track, tracked, ErrorKind.ofIo]
  have := h broken busy
  simp only [e] at this
  obtain ⟨x, hx, hs⟩ := this nofun .other "write: broken pipe" (.tail _ (.head _))
  cases hx
  cases hs.1

/-- C101: `decode_from_read_buf`, `encode_to_write_buf` and `encode_to_write_buf_async` return the errors of the decoder or
encoder, as C100 says; the buffers themselves make none. -/
theorem C101_from_read_buf {D : TDecoder κ σ α} {M : Decoder σ α} (h : TracedDec O D M) (s : σ) (b : ReadBuf) :
    eraseP (tDecodeFromReadBuf D s b) = decodeFromReadBuf M s b ∧
      ∀ x, (tDecodeFromReadBuf D s b).1 = .err x → Arrives O x := by
  constructor
  · rw [tDecodeFromReadBuf_erase, tracedDec_erase h]
  · exact only_ite (only_panic _) (only_step _ _ (only_tracked (arrives_open _) _ ((tracedDec_only h).decode _ _ _))
      fun _ _ => only_ok _ _)

theorem C101_to_write_buf {E : TEncoder κ σ α} {M : Encoder σ α} (h : TracedEnc O E M) (s : σ) (b : WriteBuf) (k : Nat) :
    eraseP (tEncodeToWriteBuf E s b) = encodeToWriteBuf M s b ∧
      eraseP (tEncodeToWriteBufAsync E s b k) = encodeToWriteBufAsync M s b k ∧
      (∀ x, (tEncodeToWriteBuf E s b).1 = .err x → Arrives O x) ∧
      ∀ x, (tEncodeToWriteBufAsync E s b k).1 = .err x → Arrives O x := by
  have ho : ∀ l, Only (Arrives O) (tEncodeToWriteBufAt l E s b) := fun l =>
    only_ite (only_panic _) (only_step _ _ (only_tracked (arrives_open _) _ ((tracedEnc_only h).encode _ _ _))
      fun _ _ => only_ok _ _)
  refine ⟨?_, ?_, ho 65, only_step _ _ (ho 85) fun _ _ => only_ok _ _⟩
  · rw [tEncodeToWriteBuf, tEncodeToWriteBufAt_erase, tracedEnc_erase h]
  · rw [tEncodeToWriteBufAsync_erase, tracedEnc_erase h]

/-- C101: and they swallow none (see `C100_not_swallowed`). -/
theorem C101_not_swallowed {D D' : TDecoder κ σ α} (h : StoppedDec Q D D') (s : σ) (b : ReadBuf) :
    tDecodeFromReadBuf D' s b = stopAt Q (tDecodeFromReadBuf D s b) := by
  rw [stoppedDec_eq h]
  unfold tDecodeFromReadBuf
  rw [stopAt_ite, stopAt_step, stopAt_tracked]; rfl

theorem C101_not_swallowed_encoder {E E' : TEncoder κ σ α} (h : StoppedEnc Q E E') (s : σ) (b : WriteBuf) (k : Nat) :
    tEncodeToWriteBuf E' s b = stopAt Q (tEncodeToWriteBuf E s b) ∧
      tEncodeToWriteBufAsync E' s b k = stopAt Q (tEncodeToWriteBufAsync E s b k) := by
  rw [stoppedEnc_eq h]
  have ha : ∀ l, tEncodeToWriteBufAt l (E.stopping Q) s b = stopAt Q (tEncodeToWriteBufAt l E s b) := by
    intro l
    unfold tEncodeToWriteBufAt
    rw [stopAt_ite, stopAt_step, stopAt_tracked]; rfl
  refine ⟨ha 65, ?_⟩
  unfold tEncodeToWriteBufAsync
  rw [stopAt_step, ha]; rfl

/-- A reader that delivers one byte and then fails. -/
private def shortReader : TReader String Bool where
  read r _ := if r then (.error .unexpectedEof "cut off", true) else (.data [5], true)

/-- The byte is in the buffer, and the failure is reported. -/
example : (ReadBuf.new [0, 0]).tFill shortReader.noting (false, []) =
    (.err ⟨.unexpectedEos, some (.given "cut off"), some [⟨"io.rs", 211⟩]⟩, ⟨[5, 0], 0, 1, .error⟩, true,
      [(.unexpectedEof, "cut off")]) := by
  simp [ReadBuf.tFill, ReadBuf.new, ReadBuf.isFull, shortReader, TReader.noting, TReadRes.failures, hard, splice, TError.ofIo,
    TError.track, ErrorKind.ofIo]

end Bytecodec.Props
