import Verif.Model.BufStreams
import Verif.Lemmas.Buf
import Verif.Lemmas.CodesIo
import Verif.Lemmas.DecodeExact
/-!
# Lemmas: buffers as streams
-/
namespace Bytecodec
open Spec

variable {σ α ρ ω : Type}

/-! ## Another reader or writer with the same answers -/

theorem decodeExact_map {ρ' : Type} {D : Decoder σ α} {R : Reader ρ} {R' : Reader ρ'} (h : ρ → ρ')
    (hh : ∀ r n, R'.read (h r) n = ((R.read r n).1, h (R.read r n).2)) :
    ∀ s r y, decodeExact D R s r = some y → decodeExact D R' s (h r) = some (y.1, y.2.1, h y.2.2) := by
  refine decodeExact.partial_correctness D R
    (motive := fun s r y => decodeExact D R' s (h r) = some (y.1, y.2.1, h y.2.2)) ?_
  intro loop ih s r y hy
  have hy : (match exactRead R (D.requiring s) r with
      | (.error k, r') => some (.err (ErrorKind.ofIo k), s, r')
      | (.data bs, r') =>
        if 1024 < bs.length then some (.panic, s, r')
        else
          match D.decode s bs (Eos.new (readSize (D.requiring s) ≠ 0 && bs.isEmpty)) with
          | (.ok consumed, s') =>
            if consumed ≠ bs.length then some (.err .inconsistentState, s', r')
            else if D.isIdle s' then some ((D.finish s').1, (D.finish s').2, r')
            else loop s' r'
          | (.err k, s') => some (.err k, s', r')
          | (.panic, s') => some (.panic, s', r')
          | (.capacity, s') => some (.capacity, s', r')
          | (.diverge, s') => some (.diverge, s', r')) = some y := by
    rw [← hy]
    cases D.requiring s <;> rfl
  have hread : (if readSize (D.requiring s) ≠ 0 then R'.read (h r) (readSize (D.requiring s)) else (.data [], h r)) =
      ((exactRead R (D.requiring s) r).1, h (exactRead R (D.requiring s) r).2) := by
    rw [exactRead]
    split
    · exact hh _ _
    · rfl
  rw [decodeExact_eq, hread]
  rcases hx : exactRead R (D.requiring s) r with ⟨a, r'⟩
  rw [hx] at hy
  cases a with
  | error k => cases hy; rfl
  | data bs =>
    simp only at hy ⊢
    split at hy
    · rw [if_pos ‹_›]; cases hy; rfl
    · rw [if_neg ‹_›]
      rcases hd : D.decode s bs (Eos.new (readSize (D.requiring s) ≠ 0 && bs.isEmpty)) with ⟨z, s'⟩
      rw [hd] at hy
      cases z with
      | ok n =>
        simp only at hy ⊢
        split at hy
        · rw [if_pos ‹_›]; cases hy; rfl
        · rw [if_neg ‹_›]
          split at hy
          · rw [if_pos ‹_›]; cases hy; rfl
          · rw [if_neg ‹_›]; exact ih _ _ _ hy
      | _ => cases hy; rfl

theorem writeAll_map {ω' : Type} {W : Writer ω} {W' : Writer ω'} (h : ω → ω')
    (hh : ∀ w b, W'.write (h w) b = ((W.write w b).1, h (W.write w b).2)) (w : ω) (buf : Bytes) :
    writeAll W' (h w) buf = ((writeAll W w buf).1, h (writeAll W w buf).2) := by
  induction w, buf using writeAll.induct W with
  | case1 w buf h0 => rw [writeAll, if_pos h0, writeAll, if_pos h0]
  | case2 w buf h0 k w' hw => rw [writeAll, if_neg h0, hh, writeAll, if_neg h0, hw]
  | case3 w buf h0 w' hw => rw [writeAll, if_neg h0, hh, writeAll, if_neg h0, hw]; simp
  | case4 w buf h0 n w' hw h1 h2 => rw [writeAll, if_neg h0, hh, writeAll, if_neg h0, hw]; simp [h1, h2]
  | case5 w buf h0 n w' hw h1 h2 ih =>
    rw [writeAll, if_neg h0, hh, writeAll, if_neg h0, hw]
    simp only
    rw [if_neg h1, if_neg h2, if_neg h1, if_neg h2, ih]

theorem encodeAll_map {ω' : Type} {E : Encoder σ α} {W : Writer ω} {W' : Writer ω'} (h : ω → ω')
    (hh : ∀ w b, W'.write (h w) b = ((W.write w b).1, h (W.write w b).2)) :
    ∀ s w y, encodeAll E W s w = some y → encodeAll E W' s (h w) = some (y.1, y.2.1, h y.2.2) := by
  refine encodeAll.partial_correctness E W
    (fun s w y => encodeAll E W' s (h w) = some (y.1, y.2.1, h y.2.2)) ?_
  intro rec ih s w r hr
  rw [encodeAll]
  split at hr
  · rw [if_pos ‹_›]; cases hr; rfl
  · rw [if_neg ‹_›]
    rcases he : E.encode s 1024 (Eos.new false) with ⟨x, s'⟩
    rw [he] at hr
    cases x with
    | ok bs =>
      simp only at hr ⊢
      split at hr
      · rw [if_pos ‹_›]; cases hr; rfl
      · rw [if_neg ‹_›, writeAll_map h hh]
        rcases hw : writeAll W w bs with ⟨y, w'⟩
        rw [hw] at hr
        cases y with
        | ok u =>
          simp only at hr ⊢
          split at hr
          · rw [if_pos ‹_›]; cases hr; rfl
          · rw [if_neg ‹_›]; exact ih _ _ _ hr
        | _ => cases hr; rfl
    | _ => cases hr; rfl

/-! ## Buffer to buffer -/

theorem ReadBuf.read_none {b : ReadBuf} (h : b.Inv) {n : Nat} (hn : min n b.len = 0) : b.read n = ([], b) := by
  rw [ReadBuf.read, hn, List.take_zero, ReadBuf.consume]
  split
  · next he =>
    have h1 := h.zero (by omega)
    have h2 := h.le
    rcases b with ⟨i, hd, tl, st⟩
    have h4 : tl = 0 := h1
    have h5 : hd ≤ tl := h2
    obtain rfl : hd = 0 := by omega
    rw [h4]
  · rfl

/-- Filling a read buffer from another one. -/
theorem fill_readBuf {b c : ReadBuf} (hb : b.Inv) (hc : c.Inv) :
    ∃ b', b.fill readBufReader c = (.ok (), b', (c.read b.room).2) ∧ b'.Inv ∧
      b'.inner.length = b.inner.length ∧ b'.content = b.content ++ (c.read b.room).1 ∧
      b'.state = if b.room = 0 then b.state else if c.len < b.room then .eos else .normal := by
  have hb2 := hb.cap
  have hr : b.room = b.inner.length - b.tail := rfl
  obtain ⟨a1, a2, a3, a4⟩ := c.read_spec hc b.room
  by_cases h0 : b.room = 0
  · have hf : b.isFull = true := by simp only [ReadBuf.isFull, beq_iff_eq]; omega
    rw [ReadBuf.fill, dif_pos hf, ReadBuf.read_none hc (by omega)]
    exact ⟨b, rfl, hb, rfl, by simp, by rw [if_pos h0]⟩
  · have hf : ¬ b.isFull = true := by simp only [ReadBuf.isFull, beq_iff_eq]; omega
    rw [if_neg h0]
    by_cases hc0 : c.len = 0
    · rw [ReadBuf.fill, dif_neg hf, dif_neg (by omega)]
      have : readBufReader.read c (b.inner.length - b.tail) = (.data [], c) := by
        simp only [readBufReader, ReadBuf.read_none hc (n := b.inner.length - b.tail) (by omega)]
      rw [this, ReadBuf.read_none hc (by omega)]
      exact ⟨_, rfl, ⟨hb.1, hb.2, hb.3⟩, rfl, by simp [ReadBuf.content], by rw [if_pos (by omega)]⟩
    · rcases hx : c.read b.room with ⟨bs, c'⟩
      rw [hx] at a1 a2 a3 a4
      simp only at a1 a2 a3 a4
      have hread : readBufReader.read c (b.inner.length - b.tail) = (.data bs, c') := by
        rw [← hr]
        simp only [readBufReader, hx]
      cases bs with
      | nil => simp only [List.length_nil] at a3; omega
      | cons x xs =>
        rw [ReadBuf.fill, dif_neg hf, dif_neg (by omega), hread]
        simp only
        have htake : (x :: xs).take (b.inner.length - b.tail) = x :: xs := List.take_of_length_le (by omega)
        rw [htake]
        have hlen : (splice b.inner b.tail (x :: xs)).length = b.inner.length := splice_len (by omega)
        have hcont := splice_take_drop (inner := b.inner) (src := x :: xs) hb.1 (by omega)
        have hle := hb.le
        by_cases hfull : c.len < b.room
        · rw [ReadBuf.fill, dif_neg (by simp only [ReadBuf.isFull, beq_iff_eq]; omega), dif_neg (by simp only; omega)]
          have hcl := ReadBuf.content_length hc
          have hcl' := ReadBuf.content_length a1
          have := congrArg List.length a2
          rw [List.length_append] at this
          have hn : readBufReader.read c' ((splice b.inner b.tail (x :: xs)).length - (b.tail + (x :: xs).length)) =
              (.data [], c') := by
            simp only [readBufReader, ReadBuf.read_none a1 (n := (splice b.inner b.tail (x :: xs)).length -
              (b.tail + (x :: xs).length)) (by omega)]
          simp only
          rw [hn]
          refine ⟨_, rfl, ⟨by simp only; omega, by simp only; omega, by simp only [List.length_cons]; omega⟩, hlen, hcont, ?_⟩
          rw [if_pos hfull]
        · rw [ReadBuf.fill, dif_pos (by simp only [ReadBuf.isFull, beq_iff_eq]; omega)]
          refine ⟨_, rfl, ⟨by simp only; omega, by simp only; omega, by simp only [List.length_cons]; omega⟩, hlen, hcont, ?_⟩
          rw [if_neg hfull]

theorem WriteBuf.write_none {b : WriteBuf} {x : Bytes} (hn : min x.length b.room = 0) :
    b.write x = (0, b) := by
  rw [WriteBuf.write, hn]
  have : splice b.inner b.tail (x.take 0) = b.inner := by simp [splice]
  rw [this]
  rfl

/-- Flushing a write buffer into another one. -/
theorem flush_writeBuf {b c : WriteBuf} (hb : b.Inv) (hc : c.Inv) :
    ∃ b', b.flushLoop writeBufWriter c = (.ok (), b', (c.write b.content).2) ∧ b'.Inv ∧
      b'.inner.length = b.inner.length ∧ b'.content = b.content.drop c.room ∧
      b'.state = if b.content = [] then b.state else if c.room < b.content.length then .eos else .normal := by
  have h1 := hb.le
  have h2 := hb.cap
  have h3 := hb.zero
  have hl := WriteBuf.content_length hb
  have hlen : b.len = b.tail - b.head := rfl
  obtain ⟨a1, a2, a3, a4⟩ := c.write_spec hc b.content
  by_cases h0 : b.content = []
  · have hl0 : b.len = 0 := by rw [← hl, h0]; rfl
    rw [WriteBuf.flushLoop, dif_pos (by simp only [WriteBuf.isEmpty, beq_iff_eq]; omega),
      WriteBuf.write_none (by simp [h0])]
    exact ⟨b, rfl, hb, rfl, by simp [h0], by rw [if_pos h0]⟩
  · have hpos : 0 < b.content.length := List.length_pos_iff.2 h0
    rw [if_neg h0, WriteBuf.flushLoop, dif_neg (by simp only [WriteBuf.isEmpty, beq_iff_eq]; omega), dif_neg (by omega)]
    have hcont : (b.inner.take b.tail).drop b.head = b.content := rfl
    rw [hcont]
    by_cases hr : c.room = 0
    · have hw : writeBufWriter.write c b.content = (.wrote 0, c) := by
        simp only [writeBufWriter, WriteBuf.write_none (b := c) (x := b.content) (by omega)]
      rw [hw, WriteBuf.write_none (by omega)]
      exact ⟨_, rfl, ⟨hb.1, hb.2, hb.3⟩, rfl, by rw [hr]; rfl, by rw [if_pos (by omega)]⟩
    · rcases hx : c.write b.content with ⟨n, c'⟩
      rw [hx] at a1 a2 a3 a4
      simp only at a1 a2 a3 a4
      have hw : writeBufWriter.write c b.content = (.wrote n, c') := by simp only [writeBufWriter, hx]
      obtain ⟨m, rfl⟩ : ∃ m, n = m + 1 := ⟨n - 1, by omega⟩
      rw [hw]
      simp only
      have hb' : ({ b with state := .normal } : WriteBuf).Inv := ⟨hb.1, hb.2, hb.3⟩
      obtain ⟨k1, k2, k3, _, _, k6⟩ := WriteBuf.consume_spec hb' (n := m + 1) (by
        change m + 1 ≤ b.len; omega)
      have k2 : (({ b with state := .normal } : WriteBuf).consume (m + 1)).content = b.content.drop (m + 1) := k2
      have hl' := WriteBuf.content_length k1
      have q1 := k1.le
      have q3 := k1.zero
      rw [k2, List.length_drop] at hl'
      have hlen' : (({ b with state := .normal } : WriteBuf).consume (m + 1)).len =
        (({ b with state := .normal } : WriteBuf).consume (m + 1)).tail -
        (({ b with state := .normal } : WriteBuf).consume (m + 1)).head := rfl
      have q4 := k1.cap
      generalize hd : ({ b with state := .normal } : WriteBuf).consume (m + 1) = d at *
      by_cases hfull : c.room < b.content.length
      · have hroom : c'.room = 0 := by
          have e1 : c' = (c.write b.content).2 := by rw [hx]
          have e2 : c'.tail = c.tail + min b.content.length c.room := by rw [e1]; rfl
          have e3 : c.room = c.inner.length - c.tail := rfl
          have e4 : c'.room = c'.inner.length - c'.tail := rfl
          omega
        rw [WriteBuf.flushLoop, dif_neg (by simp only [WriteBuf.isEmpty, beq_iff_eq]; omega), dif_neg (by omega)]
        have hw' : writeBufWriter.write c' ((d.inner.take d.tail).drop d.head) = (.wrote 0, c') := by
          simp only [writeBufWriter, WriteBuf.write_none (b := c') (x := (d.inner.take d.tail).drop d.head) (by omega)]
        rw [hw']
        refine ⟨_, rfl, ⟨k1.1, k1.2, k1.3⟩, by simp only [k3], ?_, by rw [if_pos hfull]⟩
        change d.content = _
        rw [k2]
        congr 1
        omega
      · rw [WriteBuf.flushLoop, dif_pos (by simp only [WriteBuf.isEmpty, beq_iff_eq]; omega)]
        refine ⟨d, rfl, k1, by rw [k3], ?_, by rw [k6, if_neg hfull]⟩
        rw [k2, List.drop_eq_nil_of_le (by omega), List.drop_eq_nil_of_le (by omega)]

/-! ## The buffers in use -/

theorem readBufReader_honest : HonestReader readBufReader := by
  intro b n bs b' h
  simp only [readBufReader, Prod.mk.injEq, ReadRes.data.injEq] at h
  rw [← h.1, ReadBuf.read, List.length_take]
  omega

theorem writeBufWriter_honest : HonestWriter writeBufWriter := by
  intro b buf n b' h
  simp only [writeBufWriter, Prod.mk.injEq, WriteRes.wrote.injEq] at h
  rw [← h.1, WriteBuf.write]
  simp only
  omega

/-- A read buffer in use, as a reader; what lies behind it stays as it is. -/
def sysReader (R : Reader ρ) (inner : Bytes) (r : ρ) (rd : ρ × List ReadRes) :
    Reader {t : ReadSys ρ // ReadRun R inner r t ∧ t.reader = rd} where
  read t n := (.data (t.1.buf.read n).1,
    ⟨⟨(t.1.buf.read n).2, t.1.reader, t.1.out ++ (t.1.buf.read n).1⟩, .step t.2.1 (.read _ n), t.2.2⟩)

theorem sysReader_delivers {R : Reader ρ} (hR : HonestReader R) (inner : Bytes) (r : ρ) (rd : ρ × List ReadRes) :
    Delivers (sysReader R inner r rd) (fun t => t.1.buffered) := by
  constructor
  intro t n hn
  obtain ⟨hI, _, _⟩ := readRun_inv hR t.2.1
  obtain ⟨_, a2, a3, _⟩ := t.1.buf.read_spec hI n
  refine ⟨_, rfl, by rw [a3]; omega, a2.symm, fun h => ?_⟩
  rw [h, List.length_nil] at a3
  have hl := ReadBuf.content_length hI
  exact List.length_eq_zero_iff.1 (by change t.1.buf.content.length = 0; omega)

/-- A write buffer in use, as a writer; what lies behind it stays as it is, and so does its room up to
what is written. -/
def sysWriter (W : Writer ω) (inner : Bytes) (w : ω) (s : WriteSys ω) :
    Writer {t : WriteSys ω // WriteRun W inner w t ∧ t.writer = s.writer ∧ t.buf.head = s.buf.head ∧
      t.buf.state = s.buf.state} where
  write t b := (.wrote (t.1.buf.write b).1,
    ⟨⟨(t.1.buf.write b).2, t.1.writer, t.1.input ++ b.take (t.1.buf.write b).1⟩, .step t.2.1 (.write _ b), t.2.2⟩)

theorem sysWriter_sink {W : Writer ω} (hW : HonestWriter W) (inner : Bytes) (w : ω) (s : WriteSys ω) :
    Sink (sysWriter W inner w s) (fun t => t.1.buffered) := by
  constructor
  · intro t b n t' h
    simp only [sysWriter, Prod.mk.injEq, WriteRes.wrote.injEq] at h
    obtain ⟨hI, _, _⟩ := writeRun_inv hW t.2.1
    obtain ⟨_, a2, a3, _⟩ := t.1.buf.write_spec hI b
    refine ⟨by rw [← h.1, a3]; omega, ?_⟩
    rw [← h.2, ← h.1]
    exact a2
  · intro t b k t' h
    simp only [sysWriter, Prod.mk.injEq, reduceCtorEq, false_and] at h

end Bytecodec
