import Verif.Lemmas.BufStreams
import Verif.Lemmas.Writes
import Verif.Props.Exact
import Verif.Props.Encoding
/-!
# Properties of buffers used as streams (C75)
-/
namespace Bytecodec.Props
open Spec

variable {σ τ α ρ ρ' ω ω' : Type}

/-! ## A read buffer as a reader -/

/-- C75: `decode_exact` on a read buffer with the bytes of an item in front returns this item and leaves
the rest in the buffer, for the next item; nothing is read from the stream behind the buffer. -/
theorem C75_decode_exact {w p : Bool} {D : Decoder σ α} {s₀ : σ} (hD : Exactable w p D s₀)
    {R : Reader ρ} (hR : HonestReader R) {inner : Bytes} {r : ρ} :
    ∃ G : σ → Prop, G s₀ ∧ ∀ s, G s → ∀ {t : ReadSys ρ} {c tail e n x s'}, ReadRun R inner r t →
      t.buffered = c ++ tail → feed D s [(c, e)] = some (n, x, s') → (p = false → e = Eos.new true ∧ tail = []) →
      ∃ t', decodeExact D readBufReader s t.buf = some (.ok x, s', t'.buf) ∧ ReadRun R inner r t' ∧
        t'.reader = t.reader ∧ t'.out = t.out ++ c.take n ∧ t'.buffered = c.drop n ++ tail ∧ G s' := by
  refine ⟨ExFresh w p D, exactable_fresh hD, ?_⟩
  intro s hs t c tail e n x s' ht hrest hf hp
  obtain ⟨u, hi⟩ := feed_one.1 hf
  have hm := (steady w p D).fresh hs
  obtain ⟨t', h1, h2⟩ := decodeExact_item (steady w p D) (sysReader_delivers hR inner r t.reader) _
    (Nat.lt_succ_self _) hm hi (r := ⟨t, ht, rfl⟩) hrest hp
  have h3 := decodeExact_map (R' := readBufReader) (fun t => t.1.buf) (fun _ _ => rfl) _ _ _ h1
  refine ⟨t'.1, h3, t'.2.1, t'.2.2, ?_, h2, ((steady w p D).item_again hm hi).1⟩
  have e1 := C38_fifo hR ht
  have e2 := C38_fifo hR t'.2.1
  have e3 : t'.1.out ++ (c.drop n ++ tail) = (t.out ++ c.take n) ++ (c.drop n ++ tail) := by
    have e4 : (t.out ++ c.take n) ++ (c.drop n ++ tail) = t.out ++ t.buffered := by
      rw [hrest, List.append_assoc, ← List.append_assoc (c.take n), List.take_append_drop]
    have e5 : delivered t'.1.reader.2 = delivered t.reader.2 := congrArg (fun x => delivered x.2) t'.2.2
    rw [e4, e1, ← e5, ← e2, h2]
  exact List.append_cancel_right e3

/-- C75 from the sender's side: messages that lie one after the other in a read buffer. -/
theorem C75_messages {strict delim again w : Bool} {E : Encoder τ α} {sE : τ} {D : Decoder σ α} {sD : σ}
    {dom : α → Prop} {enc : α → Except ErrorKind Bytes} (hM : Matched strict delim again E sE D sD dom enc)
    (hD : Exactable w delim D sD) {R : Reader ρ} (hR : HonestReader R) {inner : Bytes} {r : ρ} {t : ReadSys ρ}
    (ht : ReadRun R inner r t) {msgs : List (α × Bytes)} (hm : ∀ m ∈ msgs, dom m.1 ∧ enc m.1 = .ok m.2)
    (ha : delim = true ∧ again = true ∨ msgs.length ≤ 1) {tail : Bytes}
    (hr : t.buffered = (msgs.flatMap Prod.snd) ++ tail)
    (hd : delim = true ∨ tail = [] ∧ t.buffered.length < 2 ^ 64) :
    ∃ s' t', readItems D readBufReader msgs.length sD t.buf = some (msgs.map Prod.fst, s', t'.buf) ∧
      ReadRun R inner r t' ∧ t'.reader = t.reader ∧ t'.buffered = tail := by
  obtain ⟨s', t', h1, h2⟩ := C42_messages_partial hM hD (sysReader_delivers hR inner r t.reader) hm ha
    (r := ⟨t, ht, rfl⟩) hr hd
  have key : ∀ k s u z, readItems D (sysReader R inner r t.reader) k s u = some z →
      readItems D readBufReader k s u.1.buf = some (z.1, z.2.1, z.2.2.1.buf) := by
    intro k
    induction k with
    | zero => intro s u z h; cases h; rfl
    | succ k ih =>
      intro s u z h
      simp only [readItems] at h ⊢
      split at h
      · next x s1 u1 he =>
        have h3 := decodeExact_map (R' := readBufReader) (fun t => t.1.buf) (fun _ _ => rfl) _ _ _ he
        rw [h3]
        simp only
        rcases hq : readItems D (sysReader R inner r t.reader) k s1 u1 with _ | y
        · rw [hq] at h; cases h
        · rw [hq] at h
          cases h
          rw [ih _ _ _ hq]
          rfl
      · cases h
  exact ⟨s', t'.1, key _ _ _ _ h1, t'.2.1, t'.2.2, h2⟩

/-- C75: filling a read buffer from another one moves as many bytes as there is room for, from the front
of the one to the end of the other; nothing is lost, doubled or reordered, and nothing is read from the
stream behind the source. -/
theorem C75_fill {R : Reader ρ} (hR : HonestReader R) {R' : Reader ρ'} (hR' : HonestReader R') {inner inner' : Bytes}
    {r : ρ} {r' : ρ'} {src : ReadSys ρ} {dst : ReadSys ρ'} (hs : ReadRun R inner r src)
    (hd : ReadRun R' inner' r' dst) :
    ∃ dst' src', dst.buf.fill readBufReader src.buf = (.ok (), dst', src'.buf) ∧
      ReadRun R inner r src' ∧ src'.reader = src.reader ∧
      src'.out = src.out ++ src.buffered.take dst.buf.room ∧ src'.buffered = src.buffered.drop dst.buf.room ∧
      (dst'.inner.take dst'.tail).drop dst'.head = dst.buffered ++ src.buffered.take dst.buf.room ∧
      dst'.capacity = dst.buf.capacity ∧
      dst'.state = if dst.buf.room = 0 then dst.buf.state
        else if src.buf.len < dst.buf.room then .eos else .normal := by
  obtain ⟨hI, _, _⟩ := readRun_inv hR hs
  obtain ⟨hJ, _, _⟩ := readRun_inv hR' hd
  obtain ⟨b', h1, _, h3, h4, h5⟩ := fill_readBuf hJ hI
  obtain ⟨_, a2, a3, _⟩ := src.buf.read_spec hI dst.buf.room
  have hl := ReadBuf.content_length hI
  have e1 : (src.buf.read dst.buf.room).1 = src.buffered.take dst.buf.room := by
    change _ = src.buf.content.take dst.buf.room
    rw [← a2]
    by_cases h : dst.buf.room ≤ src.buf.len
    · rw [List.take_append_of_le_length (by omega), List.take_of_length_le (by omega)]
    · have h0 : (src.buf.read dst.buf.room).2.content = [] := by
        have := congrArg List.length a2
        rw [List.length_append] at this
        exact List.length_eq_zero_iff.1 (by omega)
      rw [h0, List.append_nil, List.take_of_length_le (by omega)]
  have e2 : (src.buf.read dst.buf.room).2.content = src.buffered.drop dst.buf.room := by
    have : src.buffered = src.buf.content := rfl
    have h6 : src.buffered.take dst.buf.room ++ (src.buf.read dst.buf.room).2.content =
        src.buffered.take dst.buf.room ++ src.buffered.drop dst.buf.room := by
      rw [← e1, a2, e1, List.take_append_drop]; rfl
    exact List.append_cancel_left h6
  refine ⟨b', ⟨_, src.reader, src.out ++ (src.buf.read dst.buf.room).1⟩, h1, .step hs (.read _ _), rfl, ?_, e2, ?_, h3, h5⟩
  · simp only; rw [e1]
  · rw [← e1]; exact h4

/-- A reader with three bytes that then would block. -/
private def threeBytes : Reader Bytes where
  read r n := if r.isEmpty then (.error .wouldBlock, r) else (.data (r.take n), r.drop n)

private theorem threeBytes_honest : HonestReader threeBytes := by
  intro r n bs r' h
  simp only [threeBytes] at h
  split at h
  · cases h
  · cases h; rw [List.length_take]; omega

/-- The hypotheses can be met: from a buffer of four bytes over a stream that delivered three and then
would block, into an empty buffer of two. -/
example : ∃ src : ReadSys Bytes, ReadRun threeBytes [0, 0, 0, 0] [1, 2, 3] src ∧ src.buffered = [1, 2, 3] ∧
    src.buf.state = .wouldBlock ∧
    ∃ dst' src', (ReadBuf.new [0, 0]).fill readBufReader src.buf = (.ok (), dst', src') ∧ dst'.inner = [1, 2] ∧
      src'.len = 1 :=
  ⟨_, .step .new (.fill _), by decide +kernel, by decide +kernel, _, _, Prod.ext (by decide +kernel) rfl,
    by decide +kernel, by decide +kernel⟩

/-- Items of one byte and of two, from such a buffer. -/
example : ∃ src : ReadSys Bytes, ReadRun threeBytes [0, 0, 0, 0] [1, 2, 3] src ∧
    ∃ s' b, decodeExact copyableBytesDecoder readBufReader (.new [0, 0]) src.buf = some (.ok [1, 2], s', b) ∧
      b.len = 1 := by
  refine ⟨_, .step .new (.fill _), ?_⟩
  obtain ⟨G, hG, h⟩ := C75_decode_exact (.copyable true true [0, 0] (by simp)) threeBytes_honest
    (inner := [0, 0, 0, 0]) (r := [1, 2, 3])
  obtain ⟨t', h1, h2, h3, h4, h5, _⟩ := h _ hG (c := [1, 2]) (tail := [3]) (e := Eos.new false) (n := 2)
    (x := [1, 2]) (s' := ⟨[1, 2], 0⟩) (.step .new (.fill _)) (by decide +kernel) (feed_one.2 ⟨_, rfl, rfl⟩) (by simp)
  refine ⟨_, _, h1, ?_⟩
  rw [(C38_accessors threeBytes_honest h2).1, h5]
  rfl

/-- The code deviates from C75: a read buffer that has run empty answers `Ok(0)`, whatever the state of the
stream behind it. The reader of the buffer takes this for the end of the stream, although the stream
only would block: a fill from it sets the state to `Eos`, a decoder then fails with `UnexpectedEos`, and
so does `decode_exact`. -/
theorem C75_drained_is_eos_fails :
    ∃ src : ReadSys Bytes, ReadRun threeBytes [0, 0, 0, 0] [1, 2, 3] src ∧ src.buf.state = .wouldBlock ∧
      ((ReadBuf.new [0, 0, 0, 0]).fill readBufReader src.buf).2.1.state = .eos ∧
      (decodeFromReadBuf copyableBytesDecoder (.new [0, 0, 0, 0])
        ((ReadBuf.new [0, 0, 0, 0]).fill readBufReader src.buf).2.1).1 = .err .unexpectedEos ∧
      (decodeFromReadBuf copyableBytesDecoder (.new [0, 0, 0, 0]) src.buf).1 = .ok () ∧
      ∃ s' b, decodeExact copyableBytesDecoder readBufReader (.new [0, 0, 0, 0]) src.buf =
        some (.err .unexpectedEos, s', b) := by
  refine ⟨_, .step .new (.fill _), by decide +kernel, by decide +kernel, by decide +kernel, by decide +kernel, ?_⟩
  have e : ((⟨ReadBuf.new [0, 0, 0, 0], ([1, 2, 3], []), []⟩ : ReadSys Bytes).buf.fill (loggedReader threeBytes)
      ([1, 2, 3], [])).2.1 = ⟨[1, 2, 3, 0], 0, 3, .wouldBlock⟩ := by decide +kernel
  rw [e]
  have d : decodeExact copyableBytesDecoder readBufReader (.new [0, 0, 0, 0]) ⟨[1, 2, 3, 0], 0, 3, .wouldBlock⟩ =
      some (.err .unexpectedEos, ⟨[1, 2, 3, 0], 3⟩, ⟨[1, 2, 3, 0], 0, 0, .wouldBlock⟩) := by
    rw [decodeExact_eq]
    show decodeExact copyableBytesDecoder readBufReader ⟨[1, 2, 3, 0], 3⟩ ⟨[1, 2, 3, 0], 0, 0, .wouldBlock⟩ = _
    rw [decodeExact_eq]
    rfl
  exact ⟨_, _, d⟩

/-! ## A write buffer as a writer -/

/-- C75: `encode_all` into a write buffer. If what the encoder has to write fits into the room of the
buffer, it ends up there, after the bytes already waiting. Otherwise `encode_all` fails, and the buffer
was filled up to its end with the first of these bytes. Nothing is written to the stream behind the
buffer. -/
theorem C75_encode_all {strict : Bool} {E : Encoder σ α} {s₀ : σ} {dom enc} (h : Emits strict E s₀ dom enc)
    {s : σ} {acc em : Bytes} (hr : EncRun E dom enc s₀ s acc em) {W : Writer ω} (hW : HonestWriter W)
    {inner : Bytes} {w : ω} {t : WriteSys ω} (ht : WriteRun W inner w t) :
    ∃ s' t', WriteRun W inner w t' ∧ t'.writer = t.writer ∧ t'.buf.state = t.buf.state ∧
      ((acc.drop em.length).length ≤ t.buf.room ∧
          encodeAll E writeBufWriter s t.buf = some (.ok (), s', t'.buf) ∧ E.isIdle s' = true ∧
          t'.buffered = t.buffered ++ acc.drop em.length ∨
        t.buf.room < (acc.drop em.length).length ∧
          encodeAll E writeBufWriter s t.buf = some (.err .other, s', t'.buf) ∧
          t'.buffered = t.buffered ++ (acc.drop em.length).take t.buf.room ∧ t'.buf.isFull = true) := by
  obtain ⟨a1, _, _⟩ := emits_fresh h
  obtain ⟨b, rfl⟩ := h.inOrder hr
  rw [List.drop_left]
  obtain ⟨hI, hc, _⟩ := writeRun_inv hW ht
  have hl := WriteBuf.content_length hI
  have hcap := hI.cap
  have hle := hI.le
  have hz := hI.zero
  obtain ⟨res, s', t', q1, q2⟩ := encodeAll_spec a1 (sysWriter_sink hW inner w t) _ s b ⟨t, ht, rfl, rfl, rfl⟩
    (Nat.le_refl _) ⟨em, hr⟩
  have q3 := encodeAll_map (W' := writeBufWriter) (fun t => t.1.buf) (fun _ _ => rfl) _ _ _ q1
  obtain ⟨t', hrun, ht1, ht2, ht3⟩ := t'
  obtain ⟨hI', hc', _⟩ := writeRun_inv hW hrun
  have hl' := WriteBuf.content_length hI'
  have hcap' := hI'.cap
  have hle' := hI'.le
  have g1 : t.buf.room = t.buf.inner.length - t.buf.tail := rfl
  have g2 : t.buf.len = t.buf.tail - t.buf.head := rfl
  have g3 : t'.buf.len = t'.buf.tail - t'.buf.head := rfl
  refine ⟨s', t', hrun, ht1, ht3, ?_⟩
  rcases q2 with ⟨hres, k1, _, k2⟩ | ⟨k, pre, hres, ⟨k1, k2⟩, k3, u, x, hx, k4⟩
  · left
    subst hres
    have k2 : t'.buf.content = t.buf.content ++ b := k2
    have := congrArg List.length k2
    rw [List.length_append] at this
    exact ⟨by omega, q3, k1, k2⟩
  · right
    have k3 : t'.buf.content = t.buf.content ++ pre := k3
    have hlen := congrArg List.length k3
    rw [List.length_append] at hlen
    rcases k4 with ⟨io, k5, _⟩ | ⟨k5, k6⟩
    · simp only [sysWriter, Prod.mk.injEq, reduceCtorEq, false_and] at k5
    · subst k6 hres
      simp only [sysWriter, Prod.mk.injEq, WriteRes.wrote.injEq] at k5
      obtain ⟨k7, k8⟩ := k5
      obtain ⟨hI'', _, _⟩ := writeRun_inv hW u.2.1
      obtain ⟨_, _, l3, l4⟩ := u.1.buf.write_spec hI'' x
      have hxl := List.length_pos_iff.2 hx
      have k9 : (u.1.buf.write x).2 = t'.buf := congrArg (fun z => z.1.buf) k8
      have hroom : u.1.buf.room = 0 := by omega
      rw [WriteBuf.write_none (by omega)] at k9
      have k9 : u.1.buf = t'.buf := k9
      rw [k9] at hroom
      have g4 : t'.buf.room = t'.buf.inner.length - t'.buf.tail := rfl
      obtain ⟨rest, rfl⟩ := k1
      have hpre : pre.length = t.buf.room := by omega
      have hne : 0 < rest.length := List.length_pos_iff.2 (fun h => k2 (by rw [h, List.append_nil]))
      refine ⟨by rw [List.length_append]; omega, q3, ?_, ?_⟩
      · rw [← hpre, List.take_left]; exact k3
      · simp only [WriteBuf.isFull, beq_iff_eq]; omega

/-- C75: flushing a write buffer into another one moves as many bytes as there is room for; nothing is
lost, doubled or reordered, and nothing is written to the stream behind the destination. -/
theorem C75_flush {W : Writer ω} (hW : HonestWriter W) {W' : Writer ω'} (hW' : HonestWriter W') {inner inner' : Bytes}
    {w : ω} {w' : ω'} {src : WriteSys ω} {dst : WriteSys ω'} (hs : WriteRun W inner w src)
    (hd : WriteRun W' inner' w' dst) :
    ∃ src' dst', src.buf.flush writeBufWriter dst.buf = (.ok (), src', dst'.buf) ∧
      WriteRun W' inner' w' dst' ∧ dst'.writer = dst.writer ∧
      dst'.input = dst.input ++ src.buffered.take dst.buf.room ∧
      dst'.buffered = dst.buffered ++ src.buffered.take dst.buf.room ∧
      (src'.inner.take src'.tail).drop src'.head = src.buffered.drop dst.buf.room ∧
      src'.capacity = src.buf.capacity ∧
      src'.state = if src.buffered = [] then src.buf.state
        else if dst.buf.room < src.buf.len then .eos else .normal := by
  obtain ⟨hI, _, _⟩ := writeRun_inv hW hs
  obtain ⟨hJ, _, _⟩ := writeRun_inv hW' hd
  obtain ⟨b', h1, _, h3, h4, h5⟩ := flush_writeBuf hI hJ
  obtain ⟨_, a2, a3, _⟩ := dst.buf.write_spec hJ src.buf.content
  obtain ⟨f1, f2, f3, f4⟩ := flush_same (W := writeBufWriter) src.buf dst.buf
  obtain ⟨g1, g2, _⟩ := flush_eq (W := writeBufWriter) src.buf dst.buf
  rw [h1] at f1 f2 f3 f4 g1 g2
  have e : src.buf.content.take (dst.buf.write src.buf.content).1 = src.buffered.take dst.buf.room := by
    rw [a3]
    by_cases h : dst.buf.room ≤ src.buf.content.length
    · rw [Nat.min_eq_right h]; rfl
    · rw [Nat.min_eq_left (by omega)]
      have : src.buffered = src.buf.content := rfl
      rw [this, List.take_of_length_le (Nat.le_refl _), List.take_of_length_le (by omega)]
  refine ⟨(src.buf.flush writeBufWriter dst.buf).2.1, ⟨(dst.buf.write src.buf.content).2, dst.writer,
      dst.input ++ src.buf.content.take (dst.buf.write src.buf.content).1⟩,
    Prod.ext g1 (Prod.ext rfl g2), .step hd (.write _ src.buf.content), rfl, ?_, ?_, ?_, ?_, ?_⟩
  · simp only; rw [e]
  · rw [← e]; exact a2
  · rw [f1, f2, f3]; exact h4
  · simp only [WriteBuf.capacity]; rw [f1, h3]
  · rw [f4, h5, WriteBuf.content_length hI]; rfl

/-- A writer that accepts nothing and would block. -/
private def stuckWriter : Writer Unit where
  write w _ := (.error .wouldBlock, w)

private theorem stuckWriter_honest : HonestWriter stuckWriter := by
  intro w b n w' h
  cases h

/-- Three bytes wait in a buffer; another one has room for two. -/
example : ∃ src dst : WriteSys Unit, WriteRun stuckWriter [0, 0, 0, 0] () src ∧
    WriteRun stuckWriter [0, 0, 0] () dst ∧ src.buffered = [1, 2, 3] ∧ dst.buffered = [9] ∧
    ∃ src' dst', src.buf.flush writeBufWriter dst.buf = (.ok (), src', dst') ∧ src'.len = 1 ∧ dst'.inner = [9, 1, 2] :=
  ⟨_, _, .step .new (.write _ [1, 2, 3]), .step .new (.write _ [9]), by decide +kernel, by decide +kernel, _, _,
    Prod.ext (by decide +kernel) rfl, by decide +kernel, by decide +kernel⟩

/-- A text of three bytes into a buffer with room for two, and into one with room for three. -/
example : ∃ (s₁ s₂ : _) (t₁ t₂ : WriteSys Unit),
    encodeAll utf8Encoder.toEncoder writeBufWriter ⟨some "abc", 0⟩ (.new [0, 0]) = some (.err .other, s₁, t₁.buf) ∧
    t₁.buffered = [97, 98] ∧
    encodeAll utf8Encoder.toEncoder writeBufWriter ⟨some "abc", 0⟩ (.new [0, 0, 0]) = some (.ok (), s₂, t₂.buf) ∧
    t₂.buffered = [97, 98, 99] := by
  have hw : Writes true utf8Encoder.toEncoder .new (fun _ => True) (fun x => .ok (utf8Bytes x)) := .utf8 true
  have hc := C54_contract hw
  have hr : EncRun utf8Encoder.toEncoder (fun _ => True) (fun x => .ok (utf8Bytes x)) .new ⟨some "abc", 0⟩ ([] ++ [97, 98, 99]) [] :=
    EncRun.start (x := "abc") EncRun.new hc.new trivial (congrArg Except.ok (by decide +kernel)) rfl
  obtain ⟨s₁, t₁, _, _, _, ⟨h1, _⟩ | ⟨_, h2, h3, _⟩⟩ := C75_encode_all hc hr stuckWriter_honest (WriteRun.new (inner := [0, 0]) (w := ()))
  · exact absurd h1 (by decide)
  obtain ⟨s₂, t₂, _, _, _, ⟨_, h4, _, h5⟩ | ⟨h1, _⟩⟩ := C75_encode_all hc hr stuckWriter_honest (WriteRun.new (inner := [0, 0, 0]) (w := ()))
  · exact ⟨s₁, s₂, t₁, t₂, h2, h3, h4, h5⟩
  · exact absurd h1 (by decide)

/-- The code deviates from C75: a write buffer that is full answers `Ok(0)`. A flush into it takes this for the
end of the stream: the state becomes `Eos`, and the next `encode_to_write_buf` makes the encoder fail
with `UnexpectedEos`. Over a stream that would block the same encoder just waits. -/
theorem C75_full_is_eos_fails :
    ∃ src dst : WriteSys Unit, WriteRun stuckWriter [0, 0] () src ∧ WriteRun stuckWriter [0] () dst ∧
      (src.buf.flush writeBufWriter dst.buf).1 = .ok () ∧
      (src.buf.flush writeBufWriter dst.buf).2.1.state = .eos ∧
      (encodeToWriteBuf (bytesEncoder id).toEncoder ⟨some [7, 8], 0⟩
        (src.buf.flush writeBufWriter dst.buf).2.1).1 = .err .unexpectedEos ∧
      (encodeToWriteBuf (bytesEncoder id).toEncoder ⟨some [7, 8], 0⟩
        (src.buf.flush stuckWriter ()).2.1).1 = .ok () :=
  ⟨_, _, .step .new (.write _ [1, 2]), .new, by decide +kernel, by decide +kernel, by decide +kernel, by decide +kernel⟩

end Bytecodec.Props
