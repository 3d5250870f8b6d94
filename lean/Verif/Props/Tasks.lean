import Verif.Lemmas.Tasks
import Verif.Props.Decoding
/-!
# C82: asynchronous tasks
-/
namespace Bytecodec.Props

open Bytecodec Bytecodec.Spec

/-! ## Nobody sleeps without a waker -/

/-- C82: when `poll_fill` is `Pending`, the stream holds the waker of this poll. -/
theorem C82_fill_registers {τ : Type} {T : Nat → AsyncStream τ} {readArmed writeArmed : τ → Nat → Prop}
    (hT : KeepsWakers T readArmed writeArmed) {k : Nat} {b b' : ReadBuf} {s s' : τ}
    (h : b.pollFill (T k).reader s = (.pending, b', s')) : readArmed s' k := by
  have := pollFill_armed (armed := fun s => readArmed s k) hT.read b s (by rw [h])
  rwa [h] at this

/-- C82: when `poll_flush` is `Pending`, the stream holds the waker of this poll. -/
theorem C82_flush_registers {τ : Type} {T : Nat → AsyncStream τ} {readArmed writeArmed : τ → Nat → Prop}
    (hT : KeepsWakers T readArmed writeArmed) {k : Nat} {b b' : WriteBuf} {s s' : τ}
    (h : b.pollFlush (T k).writer s = (.pending, b', s')) : writeArmed s' k := by
  have := pollFlush_armed (armed := fun s => writeArmed s k) hT.write b s (by rw [h])
  rwa [h] at this

/-- C82: when `execute_io_poll` is `Pending`, the stream holds the waker of this poll for both
directions. -/
theorem C82_execute_registers {τ : Type} {T : Nat → AsyncStream τ} {readArmed writeArmed : τ → Nat → Prop}
    (hT : KeepsWakers T readArmed writeArmed) {k : Nat} {io io' : BufferedIo τ}
    (h : io.executeIoPoll (T k) = (.pending, io')) : readArmed io'.stream k ∧ writeArmed io'.stream k := by
  obtain ⟨h1, h2, h3⟩ := executeIoPoll_pending (T := T k) (io := io) (by rw [h])
  rw [h] at h3
  simp only at h3
  rw [h3]
  exact ⟨pollFlush_keeps (armed := fun s => readArmed s k) hT.keep _ _
      (pollFill_armed (armed := fun s => readArmed s k) hT.read _ _ h1),
    pollFlush_armed (armed := fun s => writeArmed s k) hT.write _ _ h2⟩

/-- The state is what is registered; nothing can be read or written. -/
example : ∃ io' : BufferedIo (Option Nat × Option Nat),
    let T : Nat → AsyncStream (Option Nat × Option Nat) := fun k =>
      ⟨⟨fun s _ => (.pending, (some k, s.2))⟩, ⟨fun s _ => (.pending, (s.1, some k))⟩⟩
    KeepsWakers T (fun s k => s.1 = some k) (fun s k => s.2 = some k) ∧
    (⟨(none, none), .new [0], ⟨[1], 0, 1, .normal, none, []⟩⟩ : BufferedIo _).executeIoPoll (T 5) = (.pending, io') ∧
    io'.stream = (some 5, some 5) := by
  refine ⟨⟨(some 5, some 5), { ReadBuf.new [0] with state := .wouldBlock }, ⟨[1], 0, 1, .wouldBlock, none, []⟩⟩,
    ⟨?_, ?_, ?_⟩, ?_, rfl⟩
  · intro k s n s' h
    cases h
    rfl
  · intro k s b s' h
    cases h
    rfl
  · intro j k s b h
    exact h
  · rw [BufferedIo.executeIoPoll, ReadBuf.pollFill, dif_neg (by decide), dif_neg (by decide)]
    simp only
    rw [WriteBuf.pollFlush, dif_neg (by decide), dif_neg (by decide)]

/-! ## Two tasks and a channel -/

variable {σ τ α : Type} {strict delim again : Bool} {E : Encoder τ α} {sE : τ} {D : Decoder σ α} {sD : σ}
  {dom : α → Prop} {enc : α → Except ErrorKind Bytes} {wstore rstore : Bytes} {cap : Nat} {msgs : List α}
  {sizes : Nat → Nat} {k w : Nat} {t : Tasks τ σ α}

/-- C82: no call fails in either task, and what the receiver has got are the first messages of the
sender, in order; whatever the executor does, and however the bytes are cut. -/
theorem C82_in_order (hM : Matched strict delim again E sE D sD dom enc) (hS : SafeFrom D sD)
    (hcap : rstore.length < 2 ^ 64) (hw : wstore ≠ []) (hr : rstore ≠ [])
    (hm : ∀ x ∈ msgs, dom x ∧ ∃ b, enc x = .ok b) (hl : (bytesOfAll enc msgs).length < 2 ^ 64)
    (ha : delim = true ∧ again = true ∨ msgs.length ≤ 1)
    (h : Rounds E D cap (.new sE sD wstore rstore sizes msgs) k w t) :
    t.failed = false ∧ t.got <+: msgs := by
  obtain ⟨sent, pos, em, hI, _⟩ := tasks_inv hM hS hcap hw hr hm hl ha h
  obtain ⟨hR, hD, _⟩ := hI.pipe.receives_all hM hm hl ha hI.split hI.done
  have : t.got.take msgs.length = msgs.take t.got.length := hR.inOrder hD
  rw [List.take_of_length_le hI.le] at this
  exact ⟨hI.ok, this ▸ List.take_prefix _ _⟩

/-- C82: the tasks never stall: when neither of them can run any more, the receiver has all messages and the
sender has finished. -/
theorem C82_no_stall (hM : Matched strict delim again E sE D sD dom enc) (hS : SafeFrom D sD)
    (hcap : rstore.length < 2 ^ 64) (hw : wstore ≠ []) (hr : rstore ≠ []) (hc : 0 < cap)
    (hm : ∀ x ∈ msgs, dom x ∧ ∃ b, enc x = .ok b) (hl : (bytesOfAll enc msgs).length < 2 ^ 64)
    (ha : delim = true ∧ again = true ∨ msgs.length ≤ 1)
    (h : Rounds E D cap (.new sE sD wstore rstore sizes msgs) k w t)
    (h1 : ¬ t.senderReady) (h2 : ¬ t.receiverReady) : t.got = msgs ∧ t.finished = true := by
  have hE := matched_emits hM
  obtain ⟨sent, pos, em, hI, _⟩ := tasks_inv hM hS hcap hw hr hm hl ha h
  obtain ⟨hR, hD, _⟩ := hI.pipe.receives_all hM hm hl ha hI.split hI.done
  have hord : t.got.take msgs.length = msgs.take t.got.length := hR.inOrder hD
  rw [List.take_of_length_le hI.le] at hord
  have hgot : ¬ t.got.length < t.want → t.got = msgs := by
    intro hn
    rw [hI.want] at hn
    rw [List.take_of_length_le (by omega)] at hord
    exact hord
  have hrs : t.got.length < t.want → t.chan.recvRuns = false := by
    intro hlt
    cases hx : t.chan.recvRuns with
    | false => rfl
    | true => exact absurd ⟨hx, hlt, hI.ok⟩ h2
  cases hf : t.finished with
  | true =>
    refine ⟨hgot fun hlt => ?_, rfl⟩
    obtain ⟨_, _, h3, _⟩ := hI.sleepR (hrs hlt) hlt
    rw [← hI.fin, hf] at h3
    cases h3
  | false =>
    exfalso
    have hss : t.chan.sendRuns = false := by
      cases hx : t.chan.sendRuns with
      | false => rfl
      | true => exact absurd ⟨hx, hf, hI.ok⟩ h1
    obtain ⟨_, h4⟩ := hI.sleepS hss hf
    by_cases hlt : t.got.length < t.want
    · obtain ⟨_, h3, _⟩ := hI.sleepR (hrs hlt) hlt
      rw [h3, List.length_nil] at h4
      omega
    · have h5 := hI.all (by rw [hI.want] at hlt; have := hI.le; omega)
      have h6 := hI.total hE
      omega

/-- C82: the tasks do not spin either: the number of rounds is bounded by the size of the messages,
whatever the executor does. Each spurious wake-up may add one. So every execution comes to an end, and
then (`C82_no_stall`) everything has arrived. -/
theorem C82_bound (hM : Matched strict delim again E sE D sD dom enc) (hS : SafeFrom D sD)
    (hcap : rstore.length < 2 ^ 64) (hw : wstore ≠ []) (hr : rstore ≠ [])
    (hm : ∀ x ∈ msgs, dom x ∧ ∃ b, enc x = .ok b) (hl : (bytesOfAll enc msgs).length < 2 ^ 64)
    (ha : delim = true ∧ again = true ∨ msgs.length ≤ 1)
    (h : Rounds E D cap (.new sE sD wstore rstore sizes msgs) k w t) :
    k ≤ 12 * (bytesOfAll enc msgs).length + 7 * msgs.length + 7 + w := by
  obtain ⟨sent, pos, em, _, hb⟩ := tasks_inv hM hS hcap hw hr hm hl ha h
  omega

/-- C82: a task sleeps only when it has nothing to do. A receiver that sleeps and wants more messages has
taken every byte from the channel and decoded every byte in its buffer, and no item is ready; a sender that
sleeps has left no room in the channel. -/
theorem C82_prompt (hM : Matched strict delim again E sE D sD dom enc) (hS : SafeFrom D sD)
    (hcap : rstore.length < 2 ^ 64) (hw : wstore ≠ []) (hr : rstore ≠ [])
    (hm : ∀ x ∈ msgs, dom x ∧ ∃ b, enc x = .ok b) (hl : (bytesOfAll enc msgs).length < 2 ^ 64)
    (ha : delim = true ∧ again = true ∨ msgs.length ≤ 1)
    (h : Rounds E D cap (.new sE sD wstore rstore sizes msgs) k w t) :
    (t.chan.recvRuns = false → t.got.length < msgs.length →
      t.chan.wire = [] ∧ t.rbuf.isEmpty = true ∧ D.isIdle t.dec = false) ∧
    (t.chan.sendRuns = false → t.finished = false → cap ≤ t.chan.wire.length) := by
  obtain ⟨sent, pos, em, hI, _⟩ := tasks_inv hM hS hcap hw hr hm hl ha h
  refine ⟨fun h1 h2 => ?_, fun h1 h2 => (hI.sleepS h1 h2).2⟩
  obtain ⟨_, g2, _, g4, g5⟩ := hI.sleepR h1 (by rw [hI.want]; exact h2)
  refine ⟨g2, ?_, g5⟩
  have := ReadBuf.content_nil hI.pipe.r g4
  simp only [asPipe] at this
  simp [ReadBuf.isEmpty, this]

/-- C82: there are executions that come to an end; by `C82_bound` all of them do. -/
theorem C82_ends (hM : Matched strict delim again E sE D sD dom enc) (hS : SafeFrom D sD)
    (hcap : rstore.length < 2 ^ 64) (hw : wstore ≠ []) (hr : rstore ≠ []) (hc : 0 < cap)
    (hm : ∀ x ∈ msgs, dom x ∧ ∃ b, enc x = .ok b) (hl : (bytesOfAll enc msgs).length < 2 ^ 64)
    (ha : delim = true ∧ again = true ∨ msgs.length ≤ 1) (sizes : Nat → Nat) :
    ∃ k t, Rounds E D cap (.new sE sD wstore rstore sizes msgs) k 0 t ∧ t.got = msgs ∧ t.finished = true := by
  have key : ∀ n, (∃ k t, Rounds E D cap (.new sE sD wstore rstore sizes msgs) k 0 t ∧
      ¬ t.senderReady ∧ ¬ t.receiverReady) ∨
      ∃ t, Rounds E D cap (.new sE sD wstore rstore sizes msgs) n 0 t := by
    intro n
    induction n with
    | zero => exact .inr ⟨_, .new⟩
    | succ n ih =>
      rcases ih with ih | ⟨t, ht⟩
      · exact .inl ih
      · by_cases h1 : t.senderReady
        · exact .inr ⟨_, .send ht h1⟩
        · by_cases h2 : t.receiverReady
          · exact .inr ⟨_, .recv ht h2⟩
          · exact .inl ⟨n, t, ht, h1, h2⟩
  rcases key (12 * (bytesOfAll enc msgs).length + 7 * msgs.length + 7 + 1) with ⟨k, t, h, h1, h2⟩ | ⟨t, h⟩
  · exact ⟨k, t, h, C82_no_stall hM hS hcap hw hr hc hm hl ha h h1 h2⟩
  · have := C82_bound hM hS hcap hw hr hm hl ha h
    omega

/-- Two messages of two bytes each, through buffers and a channel of one byte, byte by byte or not. -/
example (sizes : Nat → Nat) : ∃ k t, Rounds (bytesEncoder (id : Bytes → Bytes)).toEncoder copyableBytesDecoder 1
    (.new .new (.new [0, 0]) [0] [0] sizes [[7, 8], [9, 9]]) k 0 t ∧ t.got = [[7, 8], [9, 9]] ∧ t.finished = true :=
  C82_ends (Matched.copyable true [0, 0]) (C05_safe (.copyable _ trivial)) (by decide) (by decide) (by decide)
    (by decide) (by intro x hx; simp at hx; rcases hx with rfl | rfl <;> exact ⟨rfl, _, rfl⟩) (by decide)
    (.inl ⟨rfl, rfl⟩) sizes

/-- C82, why the receiver decodes before it sleeps: `poll_fill` may be `Pending` although it has read a
whole message into the buffer. -/
theorem C82_pending_with_message :
    let r := (ReadBuf.new [0, 0, 0, 0]).pollFill Channel.reader { Channel.new (fun _ => 9) with wire := [1, 2] }
    r.1 = .pending ∧ r.2.1.len = 2 ∧
    copyableBytesDecoder.isIdle (decodeFromReadBuf copyableBytesDecoder (.new [0, 0]) r.2.1).2.1 = true := by
  rw [ReadBuf.pollFill, dif_neg (by decide), dif_neg (by decide)]
  have h1 : Channel.reader.pollRead { Channel.new (fun _ => 9) with wire := [1, 2] }
      ((ReadBuf.new [0, 0, 0, 0]).inner.length - (ReadBuf.new [0, 0, 0, 0]).tail) =
      (.ready (.data [1, 2]), { Channel.new (fun _ => 9) with wire := [] }) := rfl
  rw [h1]
  simp only
  rw [ReadBuf.pollFill, dif_neg (by decide), dif_neg (by decide)]
  exact ⟨rfl, rfl, rfl⟩

end Bytecodec.Props
