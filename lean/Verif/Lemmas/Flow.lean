import Verif.Lemmas.Buf
/-!
# The bytes that pass through a `BufferedIo`
-/
namespace Bytecodec

open Spec

variable {τ : Type}

/-- What every call on a `BufferedIo` keeps true, with the ghost records of `IoFlow`. -/
structure Flows (rsize wsize : Nat) (io : BufferedIo (τ × List Event)) (out input : Bytes) : Prop
    extends IoInv io where
  rcap : io.rbuf.inner.length = rsize
  wcap : io.wbuf.inner.length = wsize
  rflow : out ++ io.rbuf.content = delivered (Event.reads io.stream.2)
  wflow : accepted (Event.writes io.stream.2) ++ io.wbuf.content = input

/-- Filling the read buffer. -/
def fillIo (T : Stream τ) (io : BufferedIo τ) : BufferedIo τ :=
  { io with rbuf := (io.rbuf.fill T.reader io.stream).2.1, stream := (io.rbuf.fill T.reader io.stream).2.2 }

/-- Flushing the write buffer, without the wake-up. -/
def flushIo (T : Stream τ) (io : BufferedIo τ) : BufferedIo τ :=
  { io with wbuf := (io.wbuf.flushLoop T.writer io.stream).2.1, stream := (io.wbuf.flushLoop T.writer io.stream).2.2 }

theorem delivered_append (l m : List ReadRes) : delivered (l ++ m) = delivered l ++ delivered m := by
  simp [delivered]

theorem accepted_append (l m : List (Bytes × WriteRes)) : accepted (l ++ m) = accepted l ++ accepted m := by
  simp [accepted]

theorem flows_fill {T : Stream τ} (hR : HonestReader T.reader) {rsize wsize : Nat}
    {io : BufferedIo (τ × List Event)} {out input : Bytes} (h : Flows rsize wsize io out input) :
    Flows rsize wsize (fillIo (loggedStream T) io) out input := by
  have hm := fill_map (R := loggedReader T.reader) (R' := (loggedStream T).reader)
    (fun p => (p.1, io.stream.2 ++ p.2.map Event.read)) (fun r n => by simp [loggedReader, loggedStream])
    io.rbuf (io.stream.1, [])
  simp only [List.map_nil, List.append_nil] at hm
  obtain ⟨as, a1, a2, a3, a4, _, a6, _⟩ := fill_spec hR io.rbuf (io.stream.1, []) h.r
  simp only [List.nil_append] at a1
  have e : fillIo (loggedStream T) io =
      ⟨((io.rbuf.fill (loggedReader T.reader) (io.stream.1, [])).2.2.1, io.stream.2 ++ as.map Event.read),
        (io.rbuf.fill (loggedReader T.reader) (io.stream.1, [])).2.1, io.wbuf⟩ := by
    have : io.stream = (io.stream.1, io.stream.2) := rfl
    simp only [fillIo]
    rw [this, hm]
    simp only [a1]
  rw [e]
  refine ⟨⟨a3, h.w, ?_, ?_⟩, a4.trans h.rcap, h.wcap, ?_, ?_⟩
  · simp only
    rw [a6, h.rs, last_getD, reads_append, reads_read]
  · simp only
    rw [h.ws, writes_append, writes_read, List.append_nil]
  · simp only
    rw [a2, ← List.append_assoc, h.rflow, reads_append, reads_read, delivered_append]
  · simp only
    rw [writes_append, writes_read, List.append_nil, h.wflow]

theorem flows_flush {T : Stream τ} (hW : HonestWriter T.writer) {rsize wsize : Nat}
    {io : BufferedIo (τ × List Event)} {out input : Bytes} (h : Flows rsize wsize io out input) :
    Flows rsize wsize (flushIo (loggedStream T) io) out input := by
  have hm := flushLoop_map (W := loggedWriter T.writer) (W' := (loggedStream T).writer)
    (fun p => (p.1, io.stream.2 ++ p.2.map Event.wrote)) (fun r n => by simp [loggedWriter, loggedStream])
    io.wbuf (io.stream.1, [])
  simp only [List.map_nil, List.append_nil] at hm
  obtain ⟨as, a1, a2, a3, a4, _, _, _, a8, _⟩ := flushLoop_spec hW io.wbuf (io.stream.1, []) h.w
  simp only [List.nil_append] at a1
  have e : flushIo (loggedStream T) io =
      ⟨((io.wbuf.flushLoop (loggedWriter T.writer) (io.stream.1, [])).2.2.1, io.stream.2 ++ as.map Event.wrote),
        io.rbuf, (io.wbuf.flushLoop (loggedWriter T.writer) (io.stream.1, [])).2.1⟩ := by
    have : io.stream = (io.stream.1, io.stream.2) := rfl
    simp only [flushIo]
    rw [this, hm]
    simp only [a1]
  rw [e]
  refine ⟨⟨h.r, a3, ?_, ?_⟩, h.rcap, by simp only; rw [a4, h.wcap], ?_, ?_⟩
  · simp only
    rw [h.rs, reads_append, reads_wrote, List.append_nil]
  · simp only
    rw [a8, h.ws, last_getD, writes_append, writes_wrote]
  · simp only
    rw [reads_append, reads_wrote, List.append_nil, h.rflow]
  · simp only
    rw [writes_append, writes_wrote, accepted_append, List.append_assoc, a2, h.wflow]

/-- Only the wakers differ. -/
theorem flows_congr {rsize wsize : Nat} {io : BufferedIo (τ × List Event)} {out input : Bytes}
    (h : Flows rsize wsize io out input) {b : WriteBuf} (h1 : b.inner = io.wbuf.inner)
    (h2 : b.head = io.wbuf.head) (h3 : b.tail = io.wbuf.tail) (h4 : b.state = io.wbuf.state) :
    Flows rsize wsize { io with wbuf := b } out input := by
  obtain ⟨c1, c2⟩ := writeInv_congr h.w h1 h2 h3
  refine ⟨⟨h.r, c1, h.rs, by simp only; rw [h4]; exact h.ws⟩, h.rcap, by simp only; rw [h1]; exact h.wcap, h.rflow, ?_⟩
  simp only
  rw [c2, h.wflow]

theorem flows_executeIo {T : Stream τ} (hR : HonestReader T.reader) (hW : HonestWriter T.writer)
    {rsize wsize : Nat} {io : BufferedIo (τ × List Event)} {out input : Bytes}
    (h : Flows rsize wsize io out input) :
    Flows rsize wsize (io.executeIo (loggedStream T)).2 out input := by
  have h1 := flows_fill hR h
  have h2 := flows_flush hW h1
  simp only [BufferedIo.executeIo, step_id]
  simp only [fillIo, flushIo] at h1 h2
  rcases hq : io.rbuf.fill (loggedStream T).reader io.stream with ⟨res, rb, s⟩
  rw [hq] at h1 h2
  simp only at h1 h2
  cases res with
  | ok u =>
    simp only [Res.step]
    obtain ⟨e1, e2, e3, e4⟩ := flush_same (W := (loggedStream T).writer) io.wbuf s
    have e5 := (flush_eq (W := (loggedStream T).writer) io.wbuf s).2.1
    rw [e5]
    exact flows_congr h2 e1 e2 e3 e4
  | _ => exact h1

theorem polls_loggedReader {T : AsyncStream τ} (h : PollsReader T.reader) : PollsReader (loggedAsync T).reader :=
  fun r n => h r.1 n

theorem polls_loggedWriter {T : AsyncStream τ} (h : PollsWriter T.writer) : PollsWriter (loggedAsync T).writer :=
  fun w b => h w.1 b

/-- The stream that answers `WouldBlock` in place of `Pending`. -/
def syncStream (T : AsyncStream τ) : Stream τ := ⟨syncReader T.reader, syncWriter T.writer⟩

theorem sync_loggedReader (T : AsyncStream τ) :
    syncReader (loggedAsync T).reader = (loggedStream (syncStream T)).reader := by
  simp only [syncReader, loggedAsync, loggedStream, syncStream]
  congr 1
  funext r n
  rcases hq : T.reader.pollRead r.1 n with ⟨_ | a, s⟩ <;> simp

theorem sync_loggedWriter (T : AsyncStream τ) :
    syncWriter (loggedAsync T).writer = (loggedStream (syncStream T)).writer := by
  simp only [syncWriter, loggedAsync, loggedStream, syncStream]
  congr 1
  funext r n
  rcases hq : T.writer.pollWrite r.1 n with ⟨_ | a, s⟩ <;> simp

theorem pollFill_io {T : AsyncStream τ} (hP : PollsReader T.reader) (b : ReadBuf) (s : τ × List Event) :
    (b.pollFill (loggedAsync T).reader s).2 = (b.fill (loggedStream (syncStream T)).reader s).2 ∧
    ((b.pollFill (loggedAsync T).reader s).1 = .ready .panic →
      (b.fill (loggedStream (syncStream T)).reader s).1 = .panic) := by
  obtain ⟨as, _, a2⟩ := pollFill_spec (polls_loggedReader hP) b s []
  have hm := fill_map (R := loggedReader (syncReader (loggedAsync T).reader)) (R' := syncReader (loggedAsync T).reader)
    Prod.fst (fun r n => rfl) b (s, [])
  rw [sync_loggedReader] at hm a2
  simp only at hm
  rw [a2, hm]
  refine ⟨rfl, ?_⟩
  split
  · nofun
  · intro h
    injection h

theorem pollFlush_io {T : AsyncStream τ} (hP : PollsWriter T.writer) (b : WriteBuf) (s : τ × List Event) :
    (b.pollFlush (loggedAsync T).writer s).2 = (b.flushLoop (loggedStream (syncStream T)).writer s).2 := by
  obtain ⟨as, _, a2⟩ := pollFlush_spec (polls_loggedWriter hP) b s []
  have hm := flushLoop_map (W := loggedWriter (syncWriter (loggedAsync T).writer)) (W' := syncWriter (loggedAsync T).writer)
    Prod.fst (fun r n => rfl) b (s, [])
  rw [sync_loggedWriter] at hm a2
  simp only at hm
  rw [a2, hm]

theorem fill_no_panic {T : Stream τ} (hR : HonestReader T.reader) {b : ReadBuf} (h : b.Inv) (s : τ × List Event) :
    (b.fill (loggedStream T).reader s).1 ≠ .panic := by
  obtain ⟨as, _, _, _, _, _, _, a7⟩ := fill_spec hR b (s.1, []) h
  have hm := fill_map (R := loggedReader T.reader) (R' := (loggedStream T).reader)
    (fun p => (p.1, s.2 ++ p.2.map Event.read)) (fun r n => by simp [loggedReader, loggedStream]) b (s.1, [])
  simp only [List.map_nil, List.append_nil] at hm
  have : s = (s.1, s.2) := rfl
  rw [this, hm]
  rcases a7 with ⟨q, _⟩ | ⟨k, _, _, q⟩ <;> simp [q]

theorem executeIoPoll_snd {τ : Type} {T : AsyncStream τ} {io : BufferedIo τ} {rb : ReadBuf} {wb : WriteBuf} {t t' : τ}
    {p q : Poll (Res Unit)} (hp : io.rbuf.pollFill T.reader io.stream = (p, rb, t))
    (hq : io.wbuf.pollFlush T.writer t = (q, wb, t')) (hn : p ≠ .ready .panic) :
    (io.executeIoPoll T).2 = ⟨t', rb, wb⟩ := by
  rcases p with _ | ⟨_ | _ | _ | _ | _⟩ <;> rcases q with _ | ⟨_ | _ | _ | _ | _⟩ <;>
    simp_all [BufferedIo.executeIoPoll]

theorem flows_executeIoPoll {T : AsyncStream τ} (hPR : PollsReader T.reader) (hPW : PollsWriter T.writer)
    (hR : HonestReader (syncReader T.reader)) (hW : HonestWriter (syncWriter T.writer))
    {rsize wsize : Nat} {io : BufferedIo (τ × List Event)} {out input : Bytes}
    (h : Flows rsize wsize io out input) :
    Flows rsize wsize (io.executeIoPoll (loggedAsync T)).2 out input := by
  have h1 := flows_fill (T := syncStream T) hR h
  have h2 := flows_flush (T := syncStream T) hW h1
  have h3 := fill_no_panic (T := syncStream T) hR h.r io.stream
  obtain ⟨p1, p2⟩ := pollFill_io hPR io.rbuf io.stream
  simp only [fillIo, flushIo] at h1 h2
  rw [← p1] at h1 h2
  rw [← pollFlush_io hPW] at h2
  rcases hq : io.rbuf.pollFill (loggedAsync T).reader io.stream with ⟨res, rb, s⟩
  rw [hq] at h1 h2 p2
  simp only at h1 h2 p2
  rcases hw : io.wbuf.pollFlush (loggedAsync T).writer s with ⟨wres, wb, s'⟩
  rw [hw] at h2
  rw [executeIoPoll_snd hq hw fun hp => h3 (p2 hp)]
  exact h2

/-- Every use of a `BufferedIo`, for an I/O operation that keeps `Flows`. -/
theorem ioFlow_flows {exec : BufferedIo (τ × List Event) → BufferedIo (τ × List Event)} {t : τ} {rsize wsize : Nat}
    (hx : ∀ {io out input}, Flows rsize wsize io out input → Flows rsize wsize (exec io) out input)
    {io : BufferedIo (τ × List Event)} {out input : Bytes} (h : IoFlow exec t rsize wsize io out input) :
    Flows rsize wsize io out input := by
  induction h with
  | new =>
    exact ⟨⟨⟨Nat.le_refl _, by simp [BufferedIo.new, ReadBuf.new], fun _ => rfl⟩,
      ⟨Nat.le_refl _, by simp [BufferedIo.new, WriteBuf.new], fun _ => rfl⟩, rfl, rfl⟩,
      by simp [BufferedIo.new, ReadBuf.new], by simp [BufferedIo.new, WriteBuf.new],
      by simp [BufferedIo.new, ReadBuf.new, ReadBuf.content, delivered, Event.reads],
      by simp [BufferedIo.new, WriteBuf.new, WriteBuf.content, accepted, Event.writes]⟩
  | exec _ ih => exact hx ih
  | @read io out input n _ ih =>
    obtain ⟨a1, a2, a3, a4⟩ := io.rbuf.read_spec ih.r n
    refine ⟨⟨a1, ih.w, ?_, ih.ws⟩, by simp only; rw [a4, ih.rcap], ih.wcap, ?_, ih.wflow⟩
    · rw [← ih.rs]
      simp only [ReadBuf.read, ReadBuf.consume]
      split <;> rfl
    · simp only
      rw [List.append_assoc, a2, ih.rflow]
  | @decode io out input σ α D d hD _ ih =>
    rcases (decodeFromReadBuf_spec hD ih.r).2 with q | ⟨n, _, q1, q2⟩
    · simp only [q]
      refine ⟨⟨ih.r, ih.w, ih.rs, ih.ws⟩, ih.rcap, ih.wcap, ?_, ih.wflow⟩
      simp [tookFrom]
      exact ih.rflow
    · have hc := io.rbuf.consume_spec ih.r q1
      simp only [q2]
      refine ⟨⟨hc.1, ih.w, ?_, ih.ws⟩, by simp only; rw [hc.2.2.1, ih.rcap], ih.wcap, ?_, ih.wflow⟩
      · rw [← ih.rs]
        simp only [ReadBuf.consume]
        split <;> rfl
      · simp only
        rw [hc.2.1, List.append_assoc]
        have : tookFrom io.rbuf (io.rbuf.consume n) = io.rbuf.content.take n := by
          simp only [tookFrom]
          rw [hc.2.2.2]
          have : io.rbuf.len - (io.rbuf.len - n) = n := by omega
          rw [this]
          rfl
        rw [this, List.take_append_drop, ih.rflow]
  | @write io out input b _ ih =>
    obtain ⟨a1, a2, a3, a4⟩ := io.wbuf.write_spec ih.w b
    refine ⟨⟨ih.r, a1, ih.rs, ih.ws⟩, ih.rcap, by simp only; rw [a4, ih.wcap], ih.rflow, ?_⟩
    simp only
    rw [a2, ← List.append_assoc, ih.wflow]
  | @encode io out input σ α E d hE _ ih =>
    obtain ⟨a1, a2, a3, a4⟩ := encodeToWriteBuf_spec hE ih.w
    refine ⟨⟨ih.r, a1, ih.rs, by simp only; rw [a4, ih.ws]⟩, ih.rcap, by simp only; rw [a3, ih.wcap], ih.rflow, ?_⟩
    simp only
    rw [a2, ← List.append_assoc, ih.wflow]
  | @encodeAsync io out input σ α E d k hE _ ih =>
    obtain ⟨a1, a2, a3, a4⟩ := encodeToWriteBuf_spec hE ih.w
    obtain ⟨b1, b2, b3⟩ := encodeToWriteBufAsync_same (E := E) (d := d) (b := io.wbuf) (k := k)
    have b4 : (encodeToWriteBufAsync E d io.wbuf k).2.2.state = (encodeToWriteBuf E d io.wbuf).2.2.state := by
      simp only [encodeToWriteBufAsync]
      rcases encodeToWriteBuf E d io.wbuf with ⟨r, d', b'⟩
      cases r <;> rfl
    obtain ⟨c1, c2⟩ := writeInv_congr a1 b1 b2 b3
    refine ⟨⟨ih.r, c1, ih.rs, by simp only; rw [b4, a4, ih.ws]⟩, ih.rcap, by simp only; rw [b1, a3, ih.wcap], ih.rflow, ?_⟩
    simp only
    rw [c2, a2, ← List.append_assoc, ih.wflow]

end Bytecodec
