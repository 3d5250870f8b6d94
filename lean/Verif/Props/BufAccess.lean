import Verif.Lemmas.BufAccess
/-!
# C78: changing the storage and the state of a buffer
-/
namespace Bytecodec.Props

open Spec

variable {ρ ω : Type} {keep : Bool}

/-! ## Read buffer -/

/-- C78: also if the storage was exchanged between the calls (enlarged, shortened, moved, without altering the bytes in
use) and the stream state was set, the bytes handed out and those still in the buffer are what the reader delivered. -/
theorem C78_read_fifo {R : Reader ρ} (hR : HonestReader R) {inner : Bytes} {r : ρ} {s : ReadSys ρ}
    (h : ReadAccess true R inner r s) : s.out ++ s.buffered = delivered s.reader.2 :=
  (readAccess_inv hR h).2 rfl

/-- C78: the accessors agree with the contents of the buffer, also if the caller altered these contents. -/
theorem C78_read_accessors {R : Reader ρ} (hR : HonestReader R) {inner : Bytes} {r : ρ} {s : ReadSys ρ}
    (h : ReadAccess keep R inner r s) :
    s.buf.len = s.buffered.length ∧ s.buf.len + s.buf.room ≤ s.buf.capacity ∧
    (s.buf.isEmpty = true ↔ s.buffered = []) ∧ (s.buf.isFull = true ↔ s.buf.room = 0) := by
  obtain ⟨hI, _⟩ := readAccess_inv hR h
  have h1 := hI.le
  have h2 := hI.cap
  have h3 := hI.zero
  have hl := ReadBuf.content_length hI
  refine ⟨hl.symm, ?_, ?_, ?_⟩
  · simp only [ReadBuf.len, ReadBuf.room, ReadBuf.capacity]
    omega
  · have : s.buffered = [] ↔ s.buf.content.length = 0 := List.length_eq_zero_iff.symm
    rw [this, hl]
    simp only [ReadBuf.isEmpty, ReadBuf.len, beq_iff_eq]
    omega
  · simp only [ReadBuf.isFull, ReadBuf.room, beq_iff_eq]
    omega

/-- C78: no call panics. -/
theorem C78_read_no_panic {R : Reader ρ} (hR : HonestReader R) {inner : Bytes} {r : ρ} {s : ReadSys ρ}
    (h : ReadAccess keep R inner r s) :
    (s.buf.fill R s.reader.1).1 ≠ .panic ∧
    ∀ {σ α : Type} (D : Decoder σ α) (d : σ), (∀ b e, (D.decode d b e).1 ≠ .panic) →
      (decodeFromReadBuf D d s.buf).1 ≠ .panic := by
  obtain ⟨hI, _⟩ := readAccess_inv hR h
  constructor
  · have hm := fill_map (R := loggedReader R) (R' := R) Prod.fst (fun r n => rfl) s.buf s.reader
    obtain ⟨as, _, _, _, _, _, _, a7⟩ := fill_spec hR s.buf s.reader hI
    rw [hm]
    rcases a7 with ⟨q, _⟩ | ⟨k, _, _, q⟩
    · simp [q]
    · simp [q]
  · intro σ α D d hD
    have h1 := hI.le
    have h2 := hI.cap
    rw [decodeFromReadBuf, if_neg (by omega)]
    rcases hq : D.decode d ((s.buf.inner.take s.buf.tail).drop s.buf.head) (Eos.new s.buf.state.isEos) with ⟨q, d'⟩
    have := hD ((s.buf.inner.take s.buf.tail).drop s.buf.head) (Eos.new s.buf.state.isEos)
    rw [hq] at this
    cases q <;> simp_all [Res.step]

/-- C78: the next decoder sees exactly what is in the buffer now, altered or not, and is told that the stream ends iff
the state says `Eos` now, whoever set it. -/
theorem C78_read_decode {R : Reader ρ} (hR : HonestReader R) {inner : Bytes} {r : ρ} {s : ReadSys ρ}
    (h : ReadAccess keep R inner r s) {σ α : Type} (D : Decoder σ α) (d : σ) :
    (decodeFromReadBuf D d s.buf).2.1 = (D.decode d s.buffered (Eos.new (s.buf.state == StreamState.eos))).2 := by
  obtain ⟨hI, _⟩ := readAccess_inv hR h
  have h1 := hI.le
  have h2 := hI.cap
  rw [decodeFromReadBuf, if_neg (by omega)]
  show (Res.step (D.decode d s.buffered (Eos.new (s.buf.state == StreamState.eos)))
    (fun s' => (s', s.buf)) fun size s' => ((.ok () : Res Unit), s', s.buf.consume size)).2.1 = _
  rcases D.decode d s.buffered (Eos.new (s.buf.state == StreamState.eos)) with ⟨q, d'⟩
  cases q <;> rfl

/-- C78: enlarging the storage gives exactly that much room, and loses nothing; a full buffer is no longer full. -/
theorem C78_read_grow {R : Reader ρ} (hR : HonestReader R) {inner : Bytes} {r : ρ} {s : ReadSys ρ}
    (h : ReadAccess keep R inner r s) (more : Bytes) :
    let t : ReadSys ρ := { s with buf := s.buf.setInner (s.buf.inner ++ more) }
    ReadAccess keep R inner r t ∧ t.buffered = s.buffered ∧ t.buf.room = s.buf.room + more.length ∧
    t.buf.len = s.buf.len ∧ (more ≠ [] → t.buf.isFull = false) := by
  obtain ⟨hI, _⟩ := readAccess_inv hR h
  have h2 := hI.cap
  have hu := ReadBuf.used hI
  refine ⟨.storage _ h (by rw [hu, List.length_append]; omega) fun _ => ?_, ?_, ?_, rfl, fun hm => ?_⟩
  · rw [hu, List.take_append_of_le_length h2]
  · simp only [ReadSys.buffered, ReadBuf.setInner]
    rw [List.take_append_of_le_length h2]
  · simp only [ReadBuf.room, ReadBuf.setInner, List.length_append]
    omega
  · have : more.length ≠ 0 := fun h => hm (List.length_eq_zero_iff.1 h)
    simp only [ReadBuf.isFull, ReadBuf.setInner, List.length_append, beq_eq_false_iff_ne]
    omega

/-- A reader over a list of chunks. -/
private def chunkReader2 : Reader (List Bytes) where
  read r n := match r with
    | [] => (.data [], [])
    | c :: cs => (.data (c.take n), if c.length ≤ n then cs else c.drop n :: cs)

private theorem chunkReader2_honest : HonestReader chunkReader2 := by
  intro r n bs r' h
  cases r with
  | nil => simp only [chunkReader2, Prod.mk.injEq, ReadRes.data.injEq] at h; simp [← h.1]
  | cons c cs => simp [chunkReader2] at h; rw [← h.1]; simp; omega

/-- A buffer of two bytes that turns out to be too small is enlarged and filled further. -/
example : ∃ s, ReadAccess true chunkReader2 [0, 0] [[1, 2], [3]] s ∧ s.buf.inner = [1, 2, 3, 0] ∧ s.buffered = [1, 2, 3] ∧
    s.buf.state = .eos :=
  ⟨_, .step (C78_read_grow chunkReader2_honest (.step .new (.fill _)) [0, 0]).1 (.fill _), by decide +kernel,
    by decide +kernel, by decide +kernel⟩

/-- C78: cutting off bytes in use makes the next call panic. -/
theorem C78_read_shrink_panics {σ α : Type} (D : Decoder σ α) (d : σ) (R : Reader ρ) (r : ρ) (b : ReadBuf) (storage : Bytes)
    (h : storage.length < b.tail) :
    (decodeFromReadBuf D d (b.setInner storage)).1 = .panic ∧ ((b.setInner storage).fill R r).1 = .panic := by
  constructor
  · rw [decodeFromReadBuf, if_pos (.inr h)]
  · have hf : ¬ ((b.setInner storage).isFull = true) := by
      simp only [ReadBuf.isFull, ReadBuf.setInner, beq_iff_eq]
      omega
    have ht : (b.setInner storage).inner.length < (b.setInner storage).tail := h
    rw [ReadBuf.fill, dif_neg hf, dif_pos ht]

/-! ## Write buffer -/

/-- C78: the same for a write buffer: what the writer accepted and what is still in the buffer is what was put into it. -/
theorem C78_write_fifo {W : Writer ω} (hW : HonestWriter W) {inner : Bytes} {w : ω} {s : WriteSys ω}
    (h : WriteAccess true W inner w s) : accepted s.writer.2 ++ s.buffered = s.input :=
  (writeAccess_inv hW h).2 rfl

/-- C78: the accessors agree with the contents of the buffer. -/
theorem C78_write_accessors {W : Writer ω} (hW : HonestWriter W) {inner : Bytes} {w : ω} {s : WriteSys ω}
    (h : WriteAccess keep W inner w s) :
    s.buf.len = s.buffered.length ∧ s.buf.len + s.buf.room ≤ s.buf.capacity ∧
    (s.buf.isEmpty = true ↔ s.buffered = []) ∧ (s.buf.isFull = true ↔ s.buf.room = 0) := by
  obtain ⟨hI, _⟩ := writeAccess_inv hW h
  have h1 := hI.le
  have h2 := hI.cap
  have h3 := hI.zero
  have hl := WriteBuf.content_length hI
  refine ⟨hl.symm, ?_, ?_, ?_⟩
  · simp only [WriteBuf.len, WriteBuf.room, WriteBuf.capacity]
    omega
  · have : s.buffered = [] ↔ s.buf.content.length = 0 := List.length_eq_zero_iff.symm
    rw [this, hl]
    simp only [WriteBuf.isEmpty, WriteBuf.len, beq_iff_eq]
    omega
  · simp only [WriteBuf.isFull, WriteBuf.room, beq_iff_eq]
    omega

/-- C78: no call panics. -/
theorem C78_write_no_panic {W : Writer ω} (hW : HonestWriter W) {inner : Bytes} {w : ω} {s : WriteSys ω}
    (h : WriteAccess keep W inner w s) :
    (s.buf.flush W s.writer.1).1 ≠ .panic ∧
    ∀ {σ α : Type} (E : Encoder σ α) (d : σ), (∀ n e, (E.encode d n e).1 ≠ .panic) →
      (encodeToWriteBuf E d s.buf).1 ≠ .panic := by
  obtain ⟨hI, _⟩ := writeAccess_inv hW h
  constructor
  · have hm := flush_map (W := loggedWriter W) (W' := W) Prod.fst (fun r n => rfl) s.buf s.writer
    obtain ⟨as, _, _, _, _, _, _, _, _, a9⟩ := flushLoop_spec hW s.buf s.writer hI
    rw [hm]
    simp only
    rw [(flush_eq (W := loggedWriter W) s.buf s.writer).1]
    rcases a9 with ⟨q, _⟩ | ⟨k, _, _, q⟩
    · simp [q]
    · simp [q]
  · intro σ α E d hE
    have h1 := hI.le
    have h2 := hI.cap
    rw [encodeToWriteBuf, if_neg (by omega)]
    rcases hq : E.encode d (s.buf.inner.length - s.buf.tail) (Eos.new s.buf.state.isEos) with ⟨q, d'⟩
    have := hE (s.buf.inner.length - s.buf.tail) (Eos.new s.buf.state.isEos)
    rw [hq] at this
    cases q <;> simp_all [Res.step]

/-- C78: the next encoder gets exactly the room there is now, and is told that the stream ends iff the state says `Eos`
now, whoever set it. -/
theorem C78_write_encode {W : Writer ω} (hW : HonestWriter W) {inner : Bytes} {w : ω} {s : WriteSys ω}
    (h : WriteAccess keep W inner w s) {σ α : Type} (E : Encoder σ α) (d : σ) :
    (encodeToWriteBuf E d s.buf).2.1 = (E.encode d s.buf.room (Eos.new (s.buf.state == StreamState.eos))).2 := by
  obtain ⟨hI, _⟩ := writeAccess_inv hW h
  have h2 := hI.cap
  rw [encodeToWriteBuf, if_neg (by omega)]
  show (Res.step (E.encode d s.buf.room (Eos.new (s.buf.state == StreamState.eos)))
    (fun s' => (s', s.buf)) fun bs s' => ((.ok () : Res Unit), s',
      { s.buf with inner := splice s.buf.inner s.buf.tail bs, tail := s.buf.tail + bs.length })).2.1 = _
  rcases E.encode d s.buf.room (Eos.new (s.buf.state == StreamState.eos)) with ⟨q, d'⟩
  cases q <;> rfl

/-- C78: enlarging the storage gives exactly that much room, and loses nothing. -/
theorem C78_write_grow {W : Writer ω} (hW : HonestWriter W) {inner : Bytes} {w : ω} {s : WriteSys ω}
    (h : WriteAccess keep W inner w s) (more : Bytes) :
    let t : WriteSys ω := { s with buf := s.buf.setInner (s.buf.inner ++ more) }
    WriteAccess keep W inner w t ∧ t.buffered = s.buffered ∧ t.buf.room = s.buf.room + more.length ∧
    t.buf.len = s.buf.len ∧ (more ≠ [] → t.buf.isFull = false) := by
  obtain ⟨hI, _⟩ := writeAccess_inv hW h
  have h2 := hI.cap
  have hu := WriteBuf.used hI
  refine ⟨.storage _ h (by rw [hu, List.length_append]; omega) fun _ => ?_, ?_, ?_, rfl, fun hm => ?_⟩
  · rw [hu, List.take_append_of_le_length h2]
  · simp only [WriteSys.buffered, WriteBuf.setInner]
    rw [List.take_append_of_le_length h2]
  · simp only [WriteBuf.room, WriteBuf.setInner, List.length_append]
    omega
  · have : more.length ≠ 0 := fun h => hm (List.length_eq_zero_iff.1 h)
    simp only [WriteBuf.isFull, WriteBuf.setInner, List.length_append, beq_eq_false_iff_ne]
    omega

/-- C78: cutting off bytes in use makes the next call panic. -/
theorem C78_write_shrink_panics {σ α : Type} (E : Encoder σ α) (d : σ) (W : Writer ω) (w : ω) (b : WriteBuf) (storage : Bytes)
    (h : storage.length < b.tail) :
    (encodeToWriteBuf E d (b.setInner storage)).1 = .panic ∧ ((b.setInner storage).flush W w).1 = .panic := by
  constructor
  · have ht : (b.setInner storage).inner.length < (b.setInner storage).tail := h
    rw [encodeToWriteBuf, if_pos ht]
  · have he : ¬ ((b.setInner storage).isEmpty = true) := by
      simp only [WriteBuf.isEmpty, WriteBuf.setInner, beq_iff_eq]
      omega
    have ht : (b.setInner storage).tail < (b.setInner storage).head ∨
        (b.setInner storage).inner.length < (b.setInner storage).tail := .inr h
    rw [WriteBuf.flush, WriteBuf.flushLoop, dif_neg he, dif_pos ht]
    rfl

/-- A full write buffer is enlarged, takes more, and the end of the stream is withdrawn. -/
example : ∃ s, WriteAccess true vecWriter [0, 0] [] s ∧ s.buffered = [1, 2, 3] ∧ s.buf.state = .normal :=
  ⟨_, .state .normal (.step (C78_write_grow (by intro w b n w' h; cases h; exact Nat.le_refl _)
    (.step .new (.write _ [1, 2, 3])) [0, 0]).1 (.write _ [3])), by decide +kernel, rfl⟩

/-! ## The storage -/

/-- C78: the storage given to a read buffer is the one it gives back; what is in the buffer is found in it, at the end of
the part in use. -/
theorem C78_read_into_inner {R : Reader ρ} (hR : HonestReader R) {inner : Bytes} {r : ρ} {s : ReadSys ρ}
    (h : ReadAccess keep R inner r s) :
    s.buf.intoInner.length = s.buf.capacity ∧
    (s.buf.intoInner.take (s.buf.capacity - s.buf.room)).drop (s.buf.capacity - s.buf.room - s.buf.len) = s.buffered ∧
    (∀ storage, (s.buf.setInner storage).intoInner = storage) ∧ (ReadBuf.new inner).intoInner = inner := by
  obtain ⟨hI, _⟩ := readAccess_inv hR h
  refine ⟨rfl, ?_, fun _ => rfl, rfl⟩
  have h1 := hI.le
  rw [ReadBuf.used hI]
  have : s.buf.tail - s.buf.len = s.buf.head := by simp only [ReadBuf.len]; omega
  rw [this]
  rfl

/-- C78: the same for a write buffer. -/
theorem C78_write_into_inner {W : Writer ω} (hW : HonestWriter W) {inner : Bytes} {w : ω} {s : WriteSys ω}
    (h : WriteAccess keep W inner w s) :
    s.buf.intoInner.length = s.buf.capacity ∧
    (s.buf.intoInner.take (s.buf.capacity - s.buf.room)).drop (s.buf.capacity - s.buf.room - s.buf.len) = s.buffered ∧
    (∀ storage, (s.buf.setInner storage).intoInner = storage) ∧ (WriteBuf.new inner).intoInner = inner := by
  obtain ⟨hI, _⟩ := writeAccess_inv hW h
  refine ⟨rfl, ?_, fun _ => rfl, rfl⟩
  have h1 := hI.le
  rw [WriteBuf.used hI]
  have : s.buf.tail - s.buf.len = s.buf.head := by simp only [WriteBuf.len]; omega
  rw [this]
  rfl

/-! ## The stream state -/

/-- C78: the state set is the state reported, and what the next decoder is told; nothing else changes. -/
theorem C78_read_state (b : ReadBuf) (st st' : StreamState) :
    (b.setState st).state = st ∧ ((b.setState st).setState st') = b.setState st' ∧ b.setState b.state = b ∧
    (b.setState st).len = b.len ∧ (b.setState st).room = b.room ∧ (b.setState st).intoInner = b.intoInner ∧
    ∀ {σ α : Type} (D : Decoder σ α) (d : σ), b.head ≤ b.tail → b.tail ≤ b.inner.length →
      (decodeFromReadBuf D d (b.setState st)).2.1 =
        (D.decode d ((b.inner.take b.tail).drop b.head) (Eos.new (st == StreamState.eos))).2 := by
  refine ⟨rfl, rfl, rfl, rfl, rfl, rfl, fun {σ α} D d h1 h2 => ?_⟩
  rw [decodeFromReadBuf, if_neg (by show ¬ (b.tail < b.head ∨ b.inner.length < b.tail); omega)]
  show (Res.step (D.decode d ((b.inner.take b.tail).drop b.head) (Eos.new (st == StreamState.eos)))
    (fun s' => (s', b.setState st)) fun size s' => ((.ok () : Res Unit), s', (b.setState st).consume size)).2.1 = _
  rcases D.decode d ((b.inner.take b.tail).drop b.head) (Eos.new (st == StreamState.eos)) with ⟨q, d'⟩
  cases q <;> rfl

/-- C78: `fill` does not care about the state set: also after an end of the stream, an error or a blocked read was
recorded, it reads on as long as there is room, and records a new state. -/
theorem C78_fill_resumes (R : Reader ρ) (b : ReadBuf) (r : ρ) (st : StreamState) (hr : b.tail < b.inner.length) :
    (b.setState st).fill R r = b.fill R r := by
  have f1 : ∀ c : ReadBuf, c.tail < c.inner.length → ¬ (c.isFull = true) := by
    intro c hc
    simp only [ReadBuf.isFull, beq_iff_eq]
    omega
  have g : ¬ b.inner.length < b.tail := by omega
  rw [ReadBuf.fill, dif_neg (f1 (b.setState st) hr),
    dif_neg (show ¬ (b.setState st).inner.length < (b.setState st).tail from g)]
  conv => rhs; rw [ReadBuf.fill, dif_neg (f1 _ hr), dif_neg g]
  rfl

/-- C78: the same for a write buffer. -/
theorem C78_write_state (b : WriteBuf) (st st' : StreamState) :
    (b.setState st).state = st ∧ ((b.setState st).setState st') = b.setState st' ∧ b.setState b.state = b ∧
    (b.setState st).len = b.len ∧ (b.setState st).room = b.room ∧ (b.setState st).intoInner = b.intoInner ∧
    ∀ {σ α : Type} (E : Encoder σ α) (d : σ), b.tail ≤ b.inner.length →
      (encodeToWriteBuf E d (b.setState st)).2.1 =
        (E.encode d b.room (Eos.new (st == StreamState.eos))).2 := by
  refine ⟨rfl, rfl, rfl, rfl, rfl, rfl, fun {σ α} E d h1 => ?_⟩
  rw [encodeToWriteBuf, if_neg (by show ¬ (b.inner.length < b.tail); omega)]
  show (Res.step (E.encode d b.room (Eos.new (st == StreamState.eos)))
    (fun s' => (s', b.setState st)) fun bs s' => ((.ok () : Res Unit), s',
      { b.setState st with inner := splice b.inner b.tail bs, tail := b.tail + bs.length })).2.1 = _
  rcases E.encode d b.room (Eos.new (st == StreamState.eos)) with ⟨q, d'⟩
  cases q <;> rfl

/-- C78: `flush` writes on whatever state was set, as long as something is buffered. -/
theorem C78_flush_resumes (W : Writer ω) (b : WriteBuf) (w : ω) (st : StreamState) (h1 : b.head < b.tail)
    (h2 : b.tail ≤ b.inner.length) : (b.setState st).flush W w = b.flush W w := by
  have f1 : ∀ c : WriteBuf, c.head < c.tail → ¬ (c.isEmpty = true) := by
    intro c hc
    simp only [WriteBuf.isEmpty, beq_iff_eq]
    omega
  have g : ¬ (b.tail < b.head ∨ b.inner.length < b.tail) := by omega
  have : (b.setState st).flushLoop W w = b.flushLoop W w := by
    rw [WriteBuf.flushLoop, dif_neg (f1 (b.setState st) h1), dif_neg (show ¬ ((b.setState st).tail < (b.setState st).head ∨
      (b.setState st).inner.length < (b.setState st).tail) from g)]
    conv => rhs; rw [WriteBuf.flushLoop, dif_neg (f1 _ h1), dif_neg g]
    rfl
  rw [WriteBuf.flush, this]
  rfl

/-- C78: a stream state is reported by exactly one of the four queries. -/
theorem C78_state_queries (st : StreamState) :
    (st.isNormal = true ↔ st = .normal) ∧ (st.isError = true ↔ st = .error) ∧ (st.isEos = true ↔ st = .eos) ∧
    (st.isWouldBlock = true ↔ st = .wouldBlock) := by
  cases st <;> decide

example : let b : ReadBuf := { (ReadBuf.new [0, 0, 0]) with tail := 2, state := .eos }
    b.tail < b.inner.length ∧ (b.setState .normal).state = .normal ∧ (b.setState .normal).len = 2 := by decide

end Bytecodec.Props
