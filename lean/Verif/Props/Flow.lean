import Verif.Lemmas.Flow
/-!
# C68: the bytes that pass through a `BufferedIo`
-/
namespace Bytecodec.Props

open Spec

variable {τ : Type}

/-- The bytes waiting in the read buffer: `inner[head..tail]`. -/
private abbrev waitingIn (io : BufferedIo τ) : Bytes := (io.rbuf.inner.take io.rbuf.tail).drop io.rbuf.head

/-- The bytes waiting in the write buffer: `inner[head..tail]`. -/
private abbrev waitingOut (io : BufferedIo τ) : Bytes := (io.wbuf.inner.take io.wbuf.tail).drop io.wbuf.head

/-- C68 (both directions, `execute_io`): whatever calls were made on a `BufferedIo`, over any stream and
also after errors: what was taken out of the read buffer, followed by what is waiting in it, is exactly
what the stream delivered; what the stream accepted, followed by what is waiting in the write buffer, is
exactly what was put into it. -/
theorem C68_lossless {T : Stream τ} (hR : HonestReader T.reader) (hW : HonestWriter T.writer) {t : τ}
    {rsize wsize : Nat} {io : BufferedIo (τ × List Event)} {out input : Bytes}
    (h : IoFlow (fun io => (io.executeIo (loggedStream T)).2) t rsize wsize io out input) :
    out ++ waitingIn io = delivered (Event.reads io.stream.2) ∧
    accepted (Event.writes io.stream.2) ++ waitingOut io = input :=
  have := ioFlow_flows (flows_executeIo hR hW) h
  ⟨this.rflow, this.wflow⟩

/-- C68 (both directions, `execute_io_poll`). -/
theorem C68_lossless_async {T : AsyncStream τ} (hPR : PollsReader T.reader) (hPW : PollsWriter T.writer)
    (hR : HonestReader (syncReader T.reader)) (hW : HonestWriter (syncWriter T.writer)) {t : τ}
    {rsize wsize : Nat} {io : BufferedIo (τ × List Event)} {out input : Bytes}
    (h : IoFlow (fun io => (io.executeIoPoll (loggedAsync T)).2) t rsize wsize io out input) :
    out ++ waitingIn io = delivered (Event.reads io.stream.2) ∧
    accepted (Event.writes io.stream.2) ++ waitingOut io = input :=
  have := ioFlow_flows (flows_executeIoPoll hPR hPW hR hW) h
  ⟨this.rflow, this.wflow⟩

/-- C68 (sizes): the two buffers keep the capacities given to `new`, in this order, and a new instance has
nothing waiting. -/
theorem C68_sizes {T : Stream τ} (hR : HonestReader T.reader) (hW : HonestWriter T.writer) {t : τ}
    {rsize wsize : Nat} {io : BufferedIo (τ × List Event)} {out input : Bytes}
    (h : IoFlow (fun io => (io.executeIo (loggedStream T)).2) t rsize wsize io out input) :
    io.rbuf.capacity = rsize ∧ io.wbuf.capacity = wsize ∧
    (waitingIn io).length ≤ rsize ∧ (waitingOut io).length ≤ wsize := by
  have h := ioFlow_flows (flows_executeIo hR hW) h
  refine ⟨h.rcap, h.wcap, ?_, ?_⟩
  · have := h.r.cap
    have := h.rcap
    simp
    omega
  · have := h.w.cap
    have := h.wcap
    simp
    omega

theorem C68_new (s : τ) (rsize wsize : Nat) :
    (BufferedIo.new s rsize wsize).rbuf.isEmpty = true ∧ (BufferedIo.new s rsize wsize).wbuf.isEmpty = true ∧
    (BufferedIo.new s rsize wsize).rbuf.room = rsize ∧ (BufferedIo.new s rsize wsize).wbuf.room = wsize ∧
    (BufferedIo.new s rsize wsize).isEos = false ∧ (BufferedIo.new s rsize wsize).wouldBlock = false ∧
    (BufferedIo.new s rsize wsize).stream = s := by
  refine ⟨rfl, rfl, ?_, ?_, rfl, rfl, rfl⟩ <;>
    simp [BufferedIo.new, ReadBuf.new, WriteBuf.new, ReadBuf.room, WriteBuf.room]

/-- C68 (`execute_io_poll`): the capacities, `is_eos()` and `would_block()` are as with `execute_io`;
"would block" is an answer `Pending`. -/
theorem C68_async_state {T : AsyncStream τ} (hPR : PollsReader T.reader) (hPW : PollsWriter T.writer)
    (hR : HonestReader (syncReader T.reader)) (hW : HonestWriter (syncWriter T.writer)) {t : τ}
    {rsize wsize : Nat} {io : BufferedIo (τ × List Event)} {out input : Bytes}
    (h : IoFlow (fun io => (io.executeIoPoll (loggedAsync T)).2) t rsize wsize io out input) :
    io.rbuf.capacity = rsize ∧ io.wbuf.capacity = wsize ∧
    (io.isEos = true ↔ lastRead io.stream.2 = some (.data []) ∨ lastWrite io.stream.2 = some (.wrote 0)) ∧
    (io.wouldBlock = true ↔ lastRead io.stream.2 = some (.error .wouldBlock) ∧
      (io.wbuf.len = 0 ∨ lastWrite io.stream.2 = some (.error .wouldBlock))) := by
  have h := ioFlow_flows (flows_executeIoPoll hPR hPW hR hW) h
  have h1 := h.w.le
  have h3 := h.w.zero
  have he : io.wbuf.isEmpty = true ↔ io.wbuf.len = 0 := by
    simp only [WriteBuf.isEmpty, WriteBuf.len, beq_iff_eq]
    omega
  refine ⟨h.rcap, h.wcap, ?_, ?_⟩
  · simp only [BufferedIo.isEos, Bool.or_eq_true, StreamState.isEos, beq_iff_eq]
    rw [h.rs, h.ws, readState_eos, writeState_eos]
    rfl
  · simp only [BufferedIo.wouldBlock, Bool.and_eq_true, Bool.or_eq_true, StreamState.isWouldBlock, beq_iff_eq]
    rw [h.rs, h.ws, he, readState_wouldBlock, writeState_wouldBlock]
    rfl

/-- A stream that delivers one chunk and then ends, and accepts one byte at a time. -/
private def trickle : Stream (List Bytes) where
  reader := ⟨fun r n => match r with
    | [] => (.data [], [])
    | c :: cs => (.data (c.take n), cs)⟩
  writer := ⟨fun r b => (.wrote (min b.length 1), r)⟩

example : HonestReader trickle.reader ∧ HonestWriter trickle.writer ∧
    ∃ io out input, IoFlow (fun io => (io.executeIo (loggedStream trickle)).2) [[1, 2]] 4 2 io out input ∧
      out = [1] ∧ input = [7, 8] ∧ io.rbuf.len = 1 ∧ io.isEos = true ∧ accepted (Event.writes io.stream.2) = [7, 8] := by
  refine ⟨?_, ?_, _, _, _, .read 1 (.exec (.write [7, 8, 9] .new)), by decide +kernel, by decide +kernel, by decide +kernel, by decide +kernel, by decide +kernel⟩
  · intro r n bs r' h
    cases r with
    | nil => simp [trickle] at h; rw [h.1]; simp
    | cons c cs => simp [trickle] at h; rw [← h.1]; simp; omega
  · intro w b n w' h
    simp [trickle] at h
    omega

end Bytecodec.Props
