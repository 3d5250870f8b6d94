import Verif.Lemmas.Talk
import Verif.Props.Encoding
import Verif.Props.Relay
/-!
# C104: the format can change from message to message

Protocols in which each message decides in which format the next one is. The listener replaces its decoder after each
message and keeps its read buffer, in which there may already be bytes of later messages.
-/
namespace Bytecodec.Props

open Spec

variable {P : Protocol} {dom : ∀ q, P.Msg q → Prop} {enc : ∀ q, P.Msg q → Except ErrorKind Bytes} {tail : Bytes}
  {strict again : P.Phase → Bool} {script : List P.Said} {q : P.Phase} {store : Bytes} {t : Listener P}

/-- C104 (speaking): new encoders, one for each message, write the encodings one after the other. -/
theorem C104_speaks (hE : ∀ q, Emits (strict q) (P.E q) (P.sE q) (dom q) (enc q))
    (hd : ∀ y ∈ script, dom y.1 y.2 ∧ ∃ b, enc y.1 y.2 = .ok b) (out : Bytes) :
    speak P script out = some (out ++ talkBytes P enc script) := by
  induction script generalizing out with
  | nil => simp [speak, talkBytes]
  | cons y more ih =>
    obtain ⟨q, x⟩ := y
    obtain ⟨hx, b, hb⟩ := hd ⟨q, x⟩ (by simp)
    have ha := (hE q).accepts .new (hE q).new hx hb
    rcases hs : (P.E q).start (P.sE q) x with ⟨r, s⟩
    rw [hs] at ha
    cases ha
    obtain ⟨s', k1, _⟩ := C43_vec (hE q) (.start .new (hE q).new hx hb hs) out
    have ht : talkBytes P enc (⟨q, x⟩ :: more) = b ++ talkBytes P enc more := by
      have hb' : enc q x = .ok b := hb
      simp [talkBytes, hb']
    simp only [speak, hs, k1]
    rw [ht, List.nil_append, List.length_nil, List.drop_zero, ih (fun y hy => hd y (by simp [hy])), List.append_assoc]

/-- C104 (in order): whatever the reads and however the listener schedules its calls, with a buffer of any capacity and
whatever follows the conversation in the stream: it hears the messages that were said, in order, each in its state of
the protocol. -/
theorem C104_in_order (hM : ∀ q, Matched (strict q) true (again q) (P.E q) (P.sE q) (P.D q) (P.sD q) (dom q) (enc q))
    (hS : ∀ q, SafeFrom (P.D q) (P.sD q)) (hcap : store.length < 2 ^ 64)
    (hd : ∀ y ∈ script, dom y.1 y.2 ∧ ∃ b, enc y.1 y.2 = .ok b) (hf : Conversation P q script)
    (hl : (talkBytes P enc script ++ tail).length < 2 ^ 64)
    (h : ListenSteps P (.new P q store (talkBytes P enc script ++ tail)) t) :
    t.got.take script.length = script.take t.got.length := by
  rcases listen_inv hM hS hcap hd hf hl h with ⟨todo, pos, h1, _⟩ | ⟨m, h1⟩
  · rw [h1.split, List.take_left, List.take_of_length_le (by simp)]
  · rw [← h1, List.take_left, List.take_of_length_le (by simp)]

/-- C104 (no errors): as long as the conversation is not over, giving the buffer to the decoder does not fail, and an
idle decoder hands out the next message. -/
theorem C104_no_errors (hM : ∀ q, Matched (strict q) true (again q) (P.E q) (P.sE q) (P.D q) (P.sD q) (dom q) (enc q))
    (hS : ∀ q, SafeFrom (P.D q) (P.sD q)) (hcap : store.length < 2 ^ 64)
    (hd : ∀ y ∈ script, dom y.1 y.2 ∧ ∃ b, enc y.1 y.2 = .ok b) (hf : Conversation P q script)
    (hl : (talkBytes P enc script ++ tail).length < 2 ^ 64)
    (h : ListenSteps P (.new P q store (talkBytes P enc script ++ tail)) t)
    (hlt : t.got.length < script.length) :
    ((P.D t.phase).isIdle t.dec = false → (decodeFromReadBuf (P.D t.phase) t.dec t.rbuf).1 = .ok ()) ∧
    ((P.D t.phase).isIdle t.dec = true →
      ∃ x, ((P.D t.phase).finish t.dec).1 = .ok x ∧ script[t.got.length] = ⟨t.phase, x⟩) := by
  rcases listen_inv hM hS hcap hd hf hl h with ⟨todo, pos, h1, hsuf⟩ | h1
  · have hlen := talk_suffix (enc := enc) (tail := tail) hsuf
    cases todo with
    | nil =>
      have := congrArg List.length h1.split
      simp at this
      omega
    | cons y more =>
      constructor
      · intro hi
        obtain ⟨p, x⟩ := y
        obtain ⟨hp, _⟩ := h1.follows
        subst hp
        obtain ⟨hdx, b, hb⟩ := hd ⟨t.phase, x⟩ (by rw [h1.split]; simp)
        obtain ⟨n, s', k1, _⟩ :=
          (talk_receives hM hdx hb (Nat.lt_of_le_of_lt hlen hl)).going (more := []) h1.inv.run rfl hi h1.inv.offer
        have k2 : decodeFromReadBuf (P.D t.phase) t.dec t.rbuf = _ := (h1.inv.decode (hS _) hcap hi k1).1
        rw [k2]
      · intro hi
        obtain ⟨x, s', k1, k2, _⟩ := h1.take hM hd (by omega) hi
        refine ⟨x, by rw [k2], ?_⟩
        have hs := h1.split
        subst k1
        simp [hs]
  · have := h1.length_le
    omega

/-- C104 (everything can be heard): from every situation in which the conversation is not over, the listener can go on
until it has heard all of it, with a buffer of one byte. What follows in the stream is then still there, in the buffer
or unread. -/
theorem C104_delivers (hM : ∀ q, Matched (strict q) true (again q) (P.E q) (P.sE q) (P.D q) (P.sD q) (dom q) (enc q))
    (hS : ∀ q, SafeFrom (P.D q) (P.sD q)) (hcap : store.length < 2 ^ 64) (hne : store ≠ [])
    (hd : ∀ y ∈ script, dom y.1 y.2 ∧ ∃ b, enc y.1 y.2 = .ok b) (hf : Conversation P q script)
    (hl : (talkBytes P enc script ++ tail).length < 2 ^ 64)
    (h : ListenSteps P (.new P q store (talkBytes P enc script ++ tail)) t)
    (hlt : t.got.length < script.length) :
    ∃ u, ListenSteps P t u ∧ u.got = script ∧ u.rbuf.content ++ u.unread = tail := by
  rcases listen_inv hM hS hcap hd hf hl h with ⟨todo, pos, h1, hsuf⟩ | h1
  · have hlen := talk_suffix (enc := enc) (tail := tail) hsuf
    refine listen_delivers hM hS hcap (List.length_pos_iff.mpr hne) hd todo h1 (by omega) ?_
    intro he
    have := congrArg List.length h1.split
    rw [he] at this
    simp at this
    omega
  · have := h1.length_le
    omega

/-- C104 (no endless detours): up to the end of the conversation, the number of steps in which the listener gets ahead
is bounded by the length of the stream and the number of messages. -/
theorem C104_bounded (hM : ∀ q, Matched (strict q) true (again q) (P.E q) (P.sE q) (P.D q) (P.sD q) (dom q) (enc q))
    (hS : ∀ q, SafeFrom (P.D q) (P.sD q)) (hcap : store.length < 2 ^ 64)
    (hd : ∀ y ∈ script, dom y.1 y.2 ∧ ∃ b, enc y.1 y.2 = .ok b) (hf : Conversation P q script)
    (hl : (talkBytes P enc script ++ tail).length < 2 ^ 64) {n : Nat}
    (h : ListenRun P (.new P q store (talkBytes P enc script ++ tail)) n t) (ht : t.got.length ≤ script.length) :
    n ≤ 2 * (talkBytes P enc script ++ tail).length + 2 * script.length + 1 := by
  obtain ⟨_, _, _, _, h3⟩ := listen_bounded hM hS hcap hd hf hl h ht
  omega

/-- C104 (the way ahead is always open): as long as the conversation is not over, taking the message from an idle decoder
gets ahead; so does giving a busy decoder a buffer that is not empty, or that is empty at the end of the stream; and if
the buffer is empty then it has room, so that the next `fill` asks the stream for at least one byte. With `C104_bounded`:
a listener that does one of these things whenever it can hears the whole conversation, once the stream delivers. -/
theorem C104_advances (hM : ∀ q, Matched (strict q) true (again q) (P.E q) (P.sE q) (P.D q) (P.sD q) (dom q) (enc q))
    (hS : ∀ q, SafeFrom (P.D q) (P.sD q)) (hcap : store.length < 2 ^ 64) (hne : store ≠ [])
    (hd : ∀ y ∈ script, dom y.1 y.2 ∧ ∃ b, enc y.1 y.2 = .ok b) (hf : Conversation P q script)
    (hl : (talkBytes P enc script ++ tail).length < 2 ^ 64)
    (h : ListenSteps P (.new P q store (talkBytes P enc script ++ tail)) t)
    (hlt : t.got.length < script.length) :
    ((P.D t.phase).isIdle t.dec = true → ∃ x s', (P.D t.phase).finish t.dec = (.ok x, s') ∧
      Advances t ⟨t.rbuf, t.unread, P.next t.phase x, P.sD (P.next t.phase x), t.got ++ [⟨t.phase, x⟩]⟩) ∧
    ((P.D t.phase).isIdle t.dec = false → t.rbuf.content ≠ [] ∨ t.rbuf.state = .eos → ∃ s' b',
      decodeFromReadBuf (P.D t.phase) t.dec t.rbuf = (.ok (), s', b') ∧ Advances t { t with dec := s', rbuf := b' }) ∧
    (t.rbuf.content = [] → t.rbuf.isFull = false) := by
  rcases listen_inv hM hS hcap hd hf hl h with ⟨todo, pos, h1, hsuf⟩ | h1
  · have hlen := talk_suffix (enc := enc) (tail := tail) hsuf
    cases todo with
    | nil =>
      have := congrArg List.length h1.split
      simp at this
      omega
    | cons y more =>
      refine ⟨?_, ?_, ?_⟩
      · intro hi
        obtain ⟨x, s', k1, k2, _⟩ := h1.take hM hd (by omega) hi
        exact ⟨x, s', k2, .inr (.inr (.inl (by simp)))⟩
      · intro hi hc
        obtain ⟨p, x⟩ := y
        obtain ⟨hp, _⟩ := h1.follows
        subst hp
        obtain ⟨hdx, b, hb⟩ := hd ⟨t.phase, x⟩ (by rw [h1.split]; simp)
        have hR := talk_receives hM hdx hb (Nat.lt_of_le_of_lt hlen hl)
        obtain ⟨n, s', k1, kn, k3, _⟩ := hR.going (more := []) h1.inv.run rfl hi h1.inv.offer
        obtain ⟨k2, h2⟩ := h1.inv.decode (hS _) hcap hi k1
        refine ⟨s', _, k2, ?_⟩
        cases hi2 : (P.D t.phase).isIdle s' with
        | true => exact .inr (.inr (.inr ⟨hi, hi2⟩))
        | false =>
          have hn := k3 hi2
          have b1 := congrArg List.length h1.inv.bytes
          have b2 := congrArg List.length h2.bytes
          have b3 := h2.bound
          simp only [Listener.recv, List.length_append, List.length_drop] at b1 b2 b3 hn
          by_cases hcont : t.rbuf.content = []
          · rcases hc with hc | hc
            · exact absurd hcont hc
            · have hun : t.unread = [] := h1.inv.eos hc
              have hcm := hR.complete (more := []) h1.inv.run rfl hi
              have hb1 : _ = t.rbuf.content ++ t.unread := h1.inv.bytes
              have k1' : (P.D t.phase).decode t.dec t.rbuf.content (Eos.new t.rbuf.state.isEos) = (.ok n, s') := k1
              rw [hun, List.append_nil] at hb1
              rw [hc] at k1'
              have hcm' : (P.D t.phase).isIdle ((P.D t.phase).decode t.dec (List.drop pos _) (Eos.new true)).2 = true := hcm
              rw [hb1, show Eos.new true = Eos.new StreamState.eos.isEos from rfl, k1', hi2] at hcm'
              cases hcm'
          · right; left
            have : 0 < t.rbuf.content.length := List.length_pos_iff.mpr hcont
            have l1 := t.rbuf.content_length h1.inv.r
            have l2 := ReadBuf.content_length h2.r
            simp only [Listener.recv] at l2 ⊢
            omega
      · intro hc
        have h0 := ReadBuf.content_nil (b := t.rbuf) h1.inv.r hc
        have hcp : t.rbuf.inner.length = store.length := h1.inv.cap
        have := List.length_pos_iff.mpr hne
        simp only [ReadBuf.isFull, beq_eq_false_iff_ne, ne_eq]
        omega
  · have := h1.length_le
    omega

/-! ## A protocol -/

/-- Numbers of one byte; after a number above 9 comes one number of two bytes. -/
def escapes : Protocol where
  Phase := Bool
  Msg := fun q => match q with | false => UInt8 | true => UInt16
  EncState := fun _ => BytesEncoderState Bytes
  DecState := fun _ => CopyableState
  E := fun q => match q with | false => u8Encoder.toEncoder | true => u16beEncoder.toEncoder
  sE := fun _ => .new
  D := fun q => match q with | false => u8Decoder | true => u16beDecoder
  sD := fun q => match q with | false => fixInit 1 | true => fixInit 2
  next := fun q => match q with | false => fun n => decide ((9 : UInt8) < n) | true => fun _ => false

/-- The encodings of its messages. -/
def escapesEnc : ∀ q, escapes.Msg q → Except ErrorKind Bytes
  | false => fun (n : UInt8) => .ok [n]
  | true => fun (n : UInt16) => .ok (writeBE 2 n.toNat)

/-- The conversation 7, 10, 300, 8, followed by a byte of something else, with a buffer of one byte or of any other size
below 2^64: everything is heard, and the last byte is left. -/
example (store : Bytes) (hcap : store.length < 2 ^ 64) (hne : store ≠ []) :
    let script : List escapes.Said :=
      [⟨false, (7 : UInt8)⟩, ⟨false, (10 : UInt8)⟩, ⟨true, (300 : UInt16)⟩, ⟨false, (8 : UInt8)⟩]
    speak escapes script [] = some [7, 10, 1, 44, 8] ∧
    (∀ t, ListenSteps escapes (.new escapes false store [7, 10, 1, 44, 8, 99]) t →
      t.got.take 4 = script.take t.got.length) ∧
    ∃ u, ListenSteps escapes (.new escapes false store [7, 10, 1, 44, 8, 99]) u ∧ u.got = script ∧
      u.rbuf.content ++ u.unread = [99] := by
  intro script
  have hM : ∀ q, Matched true true true (escapes.E q) (escapes.sE q) (escapes.D q) (escapes.sD q) (fun _ => True)
      (escapesEnc q) := by
    intro q
    cases q
    · exact one_matched
    · exact two_matched
  have hS : ∀ q, SafeFrom (escapes.D q) (escapes.sD q) := by
    intro q
    cases q
    · exact C05_safe (.number _ 1 trivial)
    · exact C05_safe (.number _ 2 trivial)
  have hd : ∀ y ∈ script, True ∧ ∃ b, escapesEnc y.1 y.2 = .ok b := by
    intro y _
    obtain ⟨q, x⟩ := y
    cases q
    · exact ⟨trivial, _, rfl⟩
    · exact ⟨trivial, _, rfl⟩
  have hf : Conversation escapes false script := ⟨rfl, rfl, rfl, rfl, trivial⟩
  have hb : talkBytes escapes escapesEnc script = [7, 10, 1, 44, 8] := rfl
  have hl : (talkBytes escapes escapesEnc script ++ [99]).length < 2 ^ 64 := by rw [hb]; decide
  have hs := C104_speaks (fun q => matched_emits (hM q)) hd []
  rw [hb] at hs
  refine ⟨hs, fun t ht => C104_in_order (tail := [99]) hM hS hcap hd hf hl (by rw [hb]; exact ht), ?_⟩
  have := C104_delivers (tail := [99]) hM hS hcap hne hd hf hl .refl (by simp [Listener.new, script])
  rwa [hb] at this

/-- With a buffer of one byte: the first byte is read, which gets ahead. The decoder can take it, which gets ahead too. -/
example : ∃ t, ListenRun escapes (.new escapes false [0] [7, 10, 1, 44, 8, 99]) 1 t ∧ t.rbuf.content = [7] ∧
    ∃ s' b', decodeFromReadBuf (escapes.D t.phase) t.dec t.rbuf = (.ok (), s', b') ∧
      (escapes.D t.phase).isIdle s' = true ∧ Advances t { t with dec := s', rbuf := b' } := by
  have hst : ListenStep escapes (.new escapes false [0] [7, 10, 1, 44, 8, 99])
      { Listener.new escapes false [0] [7, 10, 1, 44, 8, 99] with
        rbuf := ⟨[7], 0, 1, .normal⟩, unread := [10, 1, 44, 8, 99] } :=
    .fill scriptReader_honest (fill_full (b := .new [0]) (bytes := [7]) (r := []) (by simp) rfl) rfl (by simp)
  exact ⟨_, .ahead .refl hst (.inl (by simp [Listener.new])), rfl, _, _, rfl, rfl, .inr (.inr (.inr ⟨rfl, rfl⟩))⟩

end Bytecodec.Props
