import Verif.Lemmas.Pipeline
import Verif.Lemmas.Safe
import Verif.Props.Decoding
/-!
# C51: from encoder to decoder through buffers and a pipe
-/
namespace Bytecodec.Props

open Bytecodec Bytecodec.Spec

variable {σ τ α : Type} {strict delim again : Bool} {E : Encoder τ α} {sE : τ} {D : Decoder σ α} {sD : σ}
  {dom : α → Prop} {enc : α → Except ErrorKind Bytes} {wstore rstore : Bytes} {p : Pipe τ σ α}

/-- C51 (unchanged and in order): whatever the two sides and the pipe do, with buffers of any capacities,
the messages taken from the decoder are the messages handed to the encoder, in the same order.
(`SafeFrom` holds for every assembled decoder by C05. A format whose items end with the stream, or whose
decoder is for one item only, carries one message.) -/
theorem C51_in_order (hM : Matched strict delim again E sE D sD dom enc) (hS : SafeFrom D sD)
    (hcap : rstore.length < 2 ^ 64) (h : PipeSteps E D dom (.new sE sD wstore rstore) p)
    (hl : (bytesOfAll enc p.sent).length < 2 ^ 64) (ha : delim = true ∧ again = true ∨ p.sent.length ≤ 1) :
    p.got.take p.sent.length = p.sent.take p.got.length := by
  obtain ⟨pos, em, hI⟩ := pipe_inv (matched_emits hM) hS hcap h
  obtain ⟨hR, hD, _⟩ := hI.receives hM hl ha
  exact hR.inOrder hD

/-- C51 (nothing invented): before the sender closes the pipe, no more messages are received than were
sent; together with `C51_in_order`, the received messages are the first ones sent.
(`z` is any message with a non-empty encoding.) -/
theorem C51_nothing_invented (hM : Matched strict true true E sE D sD dom enc) (hS : SafeFrom D sD)
    (hcap : rstore.length < 2 ^ 64) {z : α} {bz : Bytes} (hz : dom z) (hbz : enc z = .ok bz) (hne : bz ≠ [])
    (h : PipeSteps E D dom (.new sE sD wstore rstore) p) (hc : p.closed = false) :
    p.got.length ≤ p.sent.length := by
  have hE := matched_emits hM
  generalize hp₀ : Pipe.new sE sD wstore rstore = p₀ at h
  induction h with
  | refl => subst hp₀; exact Nat.le_refl _
  | @step p q hs hst ih =>
    cases hst with
    | start x hc' _ _ _ =>
      have := ih hc'
      simp only [List.length_append]
      omega
    | encode => exact ih hc
    | flush => exact ih hc
    | close => cases hc
    | fill => exact ih hc
    | decode => exact ih hc
    | @finish s' x hi hf =>
      have hle := ih hc
      simp only [List.length_append, List.length_singleton]
      refine Nat.lt_of_not_le fun hge => ?_
      subst hp₀
      obtain ⟨pos, em, hI⟩ := pipe_inv hE hS hcap hs
      -- suppose another message `z` were sent now
      have hall : bytesOfAll enc (p.sent ++ [z]) = bytesOfAll enc p.sent ++ bz := by
        simp [bytesOfAll, bytesOf_ok hbz]
      have hd : ∀ x ∈ p.sent ++ [z], dom x ∧ ∃ b, enc x = .ok b ∧ (bytesOf (enc x)).length = b.length := by
        intro x hx
        simp only [List.mem_append, List.mem_singleton] at hx
        rcases hx with hx | rfl
        · obtain ⟨h1, b, h2⟩ := hI.msgs x hx
          exact ⟨h1, b, h2, by rw [bytesOf_ok h2]⟩
        · exact ⟨hz, bz, hbz, by rw [bytesOf_ok hbz]⟩
      have hR := matched_receives hM (tail := []) (e := Eos.new false) hd
        (by intro n hn; cases hn) (.inl ⟨rfl, rfl⟩) (.inl rfl)
      rw [List.append_nil] at hR
      have hD := hI.dec
      simp only at hc
      rw [hc] at hD
      have hD := decRun_extend hD bz (Eos.new false)
      rw [← hall] at hD
      have ho := hR.inOrder hD
      have hg : p.got = p.sent := by
        have e1 : p.got.length = p.sent.length := by omega
        rw [List.take_of_length_le (by simp; omega), List.take_append_of_le_length (by omega),
          List.take_of_length_le (by omega)] at ho
        exact ho
      obtain ⟨_, hpos⟩ := hR.ready hD (x := z) (more := []) (by rw [hg]) hi
      have hb := hI.bound
      have hb2 := (hE.inOrder hI.sends).length_le
      have hsum : ((p.got ++ [z]).map fun x => (bytesOf (enc x)).length).sum =
          (bytesOfAll enc p.sent).length + bz.length := by
        rw [hg]
        simp [bytesOfAll, bytesOf_ok hbz, List.length_flatMap]
      have : 0 < bz.length := List.length_pos_iff.mpr hne
      omega

/-- C51 (no errors): an idle encoder accepts the next message, encoding into the buffer never fails,
and neither does decoding from the buffer while there are messages to come; an idle decoder hands out the
next one. -/
theorem C51_no_errors (hM : Matched strict delim again E sE D sD dom enc) (hS : SafeFrom D sD)
    (hcap : rstore.length < 2 ^ 64) (h : PipeSteps E D dom (.new sE sD wstore rstore) p) :
    (E.isIdle p.enc = true → ∀ x b, dom x → enc x = .ok b → (E.start p.enc x).1 = .ok ()) ∧
    (encodeToWriteBuf E p.enc p.wbuf).1 = .ok () ∧
    ((bytesOfAll enc p.sent).length < 2 ^ 64 → (delim = true ∧ again = true ∨ p.sent.length ≤ 1) →
      p.got.length < p.sent.length →
      (D.isIdle p.dec = false → (decodeFromReadBuf D p.dec p.rbuf).1 = .ok ()) ∧
      (D.isIdle p.dec = true → some (D.finish p.dec).1 = p.sent[p.got.length]?.map .ok)) := by
  have hE := matched_emits hM
  obtain ⟨pos, em, hI⟩ := pipe_inv hE hS hcap h
  refine ⟨fun hi x b hx hb => hE.accepts hI.sends hi hx hb, ?_, ?_⟩
  · obtain ⟨s', b', h1, _⟩ := hI.encode hE
    rw [h1]
  · intro hl ha hlt
    obtain ⟨hR, hD, hO⟩ := hI.receives hM hl ha
    have hgot := hR.inOrder hD
    rw [List.take_of_length_le (by omega)] at hgot
    have hx : p.sent = p.got ++ p.sent[p.got.length] :: p.sent.drop (p.got.length + 1) := by
      conv => lhs; rw [← List.take_append_drop p.got.length p.sent, ← hgot, List.drop_eq_getElem_cons hlt]
    refine ⟨fun hi => ?_, fun hi => ?_⟩
    · obtain ⟨n, s', hd, _⟩ := hR.going hD hx hi hO
      rw [(hI.decode hE hS hcap hi hd).1]
    · obtain ⟨⟨s', hf⟩, _⟩ := hR.ready hD hx hi
      rw [hf, List.getElem?_eq_getElem hlt]
      rfl

/-- C51 (everything arrives): with buffers of at least one byte, from every situation the system can be
run so that all messages handed to the encoder arrive; nothing that happened before can prevent it. -/
theorem C51_delivers (hM : Matched strict delim again E sE D sD dom enc) (hS : SafeFrom D sD)
    (hcap : rstore.length < 2 ^ 64) (hw : wstore ≠ []) (hr : rstore ≠ [])
    (h : PipeSteps E D dom (.new sE sD wstore rstore) p)
    (hl : (bytesOfAll enc p.sent).length < 2 ^ 64) (ha : delim = true ∧ again = true ∨ p.sent.length ≤ 1) :
    ∃ q, PipeSteps E D dom p q ∧ q.sent = p.sent ∧ q.got = p.got ++ p.sent.drop p.got.length := by
  have hE := matched_emits hM
  obtain ⟨pos, em, hI⟩ := pipe_inv hE hS hcap h
  obtain ⟨q, h1, h2, h3, h4, h5, _⟩ := pipe_drain hE hS hcap (List.length_pos_iff.mpr hw) _ hI (Nat.le_refl _)
  have hst := PipeStep.close (E := E) (D := D) (dom := dom) h4 h5
  have h6 := pipe_trans h1 (.step .refl hst)
  obtain ⟨pos', em', hI'⟩ := pipe_inv hE hS hcap (pipe_trans h h6)
  obtain ⟨r, h7, h8, h9⟩ := pipe_receive hM hS hcap (List.length_pos_iff.mpr hr) _ _ hI' rfl
    (by simpa only [h2] using hl) (by simpa only [h2] using ha) (Nat.le_refl _) (Nat.le_refl _)
  refine ⟨r, pipe_trans h6 h7, by rw [h8]; exact h2, ?_⟩
  rw [h9]
  simp only [h2, h3]

/-- Arrays of two bytes through buffers of one byte: `[7, 8]` is handed over, half of it is encoded; it can
arrive. The array `[9, 9]` is a possible next message. -/
example : ∃ p q : Pipe (BytesEncoderState Bytes) CopyableState Bytes,
    PipeSteps (bytesEncoder (id : Bytes → Bytes)).toEncoder copyableBytesDecoder (·.length = 2)
      (.new .new (.new [0, 0]) [0] [0]) p ∧ p.sent = [[7, 8]] ∧ p.wbuf.len = 1 ∧ p.closed = false ∧
    PipeSteps (bytesEncoder (id : Bytes → Bytes)).toEncoder copyableBytesDecoder (·.length = 2) p q ∧
    q.got = [[7, 8]] := by
  have hM := Matched.copyable true [0, 0]
  have hS : SafeFrom copyableBytesDecoder (.new [0, 0]) := C05_safe (.copyable _ trivial)
  have h0 : PipeSteps (bytesEncoder (id : Bytes → Bytes)).toEncoder copyableBytesDecoder (·.length = 2)
      (.new .new (.new [0, 0]) [0] [0]) (Pipe.new .new (.new [0, 0]) [0] [0]) := .refl
  have h1 := PipeSteps.step h0 (.start [7, 8] rfl rfl rfl rfl)
  have h2 := PipeSteps.step h1 (.encode rfl)
  obtain ⟨q, h3, _, h5⟩ := C51_delivers hM hS (by decide) (by decide) (by decide) h2 (by decide) (.inl ⟨rfl, rfl⟩)
  exact ⟨_, q, h2, rfl, rfl, rfl, h3, h5⟩

end Bytecodec.Props
