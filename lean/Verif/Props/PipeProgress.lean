import Verif.Lemmas.PipeProgress
import Verif.Props.Relay
/-!
# C51 and C103: pipes and relays cannot go round in circles

How many steps of a pipe can get ahead, and that there is always one.
-/
namespace Bytecodec.Props

open Spec

variable {τ σ α : Type} {strict delim again : Bool} {E : Encoder τ α} {sE : τ} {D : Decoder σ α} {sD : σ} {dom : α → Prop}
  {enc : α → Except ErrorKind Bytes} {wstore rstore : Bytes} {p : Pipe τ σ α}

/-- C51 (no endless detours): however the steps are scheduled, the number of steps in which anything gets ahead is bounded
by the number of bytes and messages that were sent. -/
theorem C51_bounded (hM : Matched strict delim again E sE D sD dom enc) (hS : SafeFrom D sD)
    (hcap : rstore.length < 2 ^ 64) {n : Nat} (h : PipeRun E D dom (.new sE sD wstore rstore) n p)
    (hg : p.got.length ≤ p.sent.length) :
    n ≤ 4 * (bytesOfAll enc p.sent).length + 4 * p.sent.length + 2 := by
  obtain ⟨pos, em, h1, h2⟩ := pipe_run (matched_emits hM) hS hcap h
  have l := h1.lengths
  have hb := ((matched_emits hM).inOrder h1.sends).length_le
  have i1 := Bool.toNat_le (D.isIdle p.dec)
  have i2 := Bool.toNat_le (E.isIdle p.enc)
  simp only [pipeGauge] at h2
  omega

/-- C51 (the way ahead is always open): in every situation,
* a busy encoder gets ahead when the write buffer is not full;
* as long as messages are outstanding, taking the message from an idle decoder gets ahead;
* so does giving a busy decoder a read buffer that is not empty, or that is empty at the end of the stream;
* so does giving it an empty read buffer when everything was delivered and the pipe is still open, if the end of a message
  is recognised from the bytes alone;
* a buffer that is empty is not full: the next `flush` or `fill` frees or finds room.

The only other steps are those of the pipe itself: to accept and to deliver bytes. With `C51_bounded`: if both sides do one
of these things whenever they can, and the pipe does its part, then everything is received. -/
theorem C51_advances (hM : Matched strict delim again E sE D sD dom enc) (hS : SafeFrom D sD)
    (hcap : rstore.length < 2 ^ 64) (hw : wstore ≠ []) (hr : rstore ≠ [])
    (h : PipeSteps E D dom (.new sE sD wstore rstore) p)
    (hl : (bytesOfAll enc p.sent).length < 2 ^ 64) (ha : delim = true ∧ again = true ∨ p.sent.length ≤ 1) :
    (E.isIdle p.enc = false → p.wbuf.isFull = false → ∃ s' b', encodeToWriteBuf E p.enc p.wbuf = (.ok (), s', b') ∧
      Ahead E D p { p with enc := s', wbuf := b' }) ∧
    (p.got.length < p.sent.length →
      (D.isIdle p.dec = true → ∃ x s', D.finish p.dec = (.ok x, s') ∧
        Ahead E D p { p with dec := s', got := p.got ++ [x] }) ∧
      (D.isIdle p.dec = false →
        p.rbuf.isEmpty = false ∨ p.rbuf.state = .eos ∨
          delim = true ∧ p.closed = false ∧ E.isIdle p.enc = true ∧ p.wbuf.isEmpty = true ∧ p.wire = [] →
        ∃ s' b', decodeFromReadBuf D p.dec p.rbuf = (.ok (), s', b') ∧ Ahead E D p { p with dec := s', rbuf := b' })) ∧
    (p.wbuf.isEmpty = true → p.wbuf.isFull = false) ∧ (p.rbuf.isEmpty = true → p.rbuf.isFull = false) := by
  have hE := matched_emits hM
  obtain ⟨pos, em, hI⟩ := pipe_inv hE hS hcap h
  have l := hI.lengths
  have hwl := List.length_pos_iff.mpr hw
  have hrl := List.length_pos_iff.mpr hr
  have hwc := hI.wcap
  have hrc := hI.rcap
  refine ⟨?_, ?_, ?_, ?_⟩
  · intro hi hf
    obtain ⟨s', b', h1, h2, h3⟩ := hI.encode hE
    refine ⟨s', b', h1, ?_⟩
    cases hi2 : E.isIdle s' with
    | true => exact .inr (.inr (.inr (.inr (.inr (.inl ⟨hi, hi2⟩)))))
    | false =>
      right; left
      have hroom : ¬ (bytesOfAll enc p.sent).length - em.length ≤ p.wbuf.room := fun k => by
        rw [h2.mpr k] at hi2
        cases hi2
      have l' := h3.lengths
      have hc := hI.w.cap
      simp only [WriteBuf.isFull, beq_eq_false_iff_ne, ne_eq] at hf
      simp only [List.length_append, List.length_take, List.length_drop] at l'
      have hrm : p.wbuf.room = p.wbuf.inner.length - p.wbuf.tail := rfl
      show b'.len ≠ p.wbuf.len
      omega
  · intro hlt
    have hd : ∀ x ∈ p.sent, dom x ∧ ∃ b, enc x = .ok b ∧ (bytesOf (enc x)).length = b.length := by
      intro x hx
      obtain ⟨h1, b, h2⟩ := hI.msgs x hx
      exact ⟨h1, b, h2, by rw [bytesOf_ok h2]⟩
    obtain ⟨hR, hD, hO⟩ := hI.receives hM hl ha
    have hgot := hR.inOrder hD
    rw [List.take_of_length_le (by omega)] at hgot
    have hsent : p.sent = p.got ++ p.sent[p.got.length] :: p.sent.drop (p.got.length + 1) := by
      rw [← List.drop_eq_getElem_cons hlt]
      conv => rhs; lhs; rw [hgot]
      exact (List.take_append_drop _ _).symm
    constructor
    · intro hi
      obtain ⟨⟨s', hf⟩, _⟩ := hR.ready hD hsent hi
      exact ⟨_, s', hf, .inr (.inr (.inr (.inr (.inl (by simp)))))⟩
    · intro hi hc
      obtain ⟨n, s', k1, kn, k3, _⟩ := hR.going hD hsent hi hO
      obtain ⟨k2, h2⟩ := hI.decode hE hS hcap hi k1
      refine ⟨s', _, k2, ?_⟩
      cases hi2 : D.isIdle s' with
      | true => exact .inr (.inr (.inr (.inr (.inr (.inr ⟨hi, hi2⟩)))))
      | false =>
        have hn := k3 hi2
        have l' := h2.lengths
        rw [ReadBuf.content_length hI.r] at hn
        simp only at l'
        by_cases he : p.rbuf.len = 0
        · exfalso
          have hcont : p.rbuf.content = [] := List.length_eq_zero_iff.mp (by rw [ReadBuf.content_length hI.r, he])
          rw [hcont] at k1
          rcases hc with hc | hc | ⟨hdl, hcl, hc1, hc2, hc3⟩
          · have ht := ReadBuf.content_nil hI.r hcont
            simp [ReadBuf.isEmpty, ht] at hc
          · obtain ⟨g1, g2⟩ := hI.eos (by rw [hc]; rfl)
            obtain ⟨g3, g4⟩ := hI.closed g1
            have hcm := hR.complete hD hsent hi
            rw [← hE.complete hI.sends g3, hI.bytes, hcont, g2, g4, List.append_nil, List.append_nil] at hcm
            rw [hc, show Eos.new StreamState.eos.isEos = Eos.new true from rfl] at k1
            rw [k1, hi2] at hcm
            cases hcm
          · subst hdl
            have hR' := matched_receives hM (tail := []) (e := Eos.new p.closed) hd
              (by rw [List.append_nil]; exact sane_new _ hl) ha (.inl rfl)
            rw [List.append_nil] at hR'
            have hcm : D.isIdle (D.decode p.dec ((bytesOfAll enc p.sent).drop pos) (Eos.new p.closed)).2 = true :=
              hR'.complete hI.dec hsent hi
            have hdrop : (bytesOfAll enc p.sent).drop pos = [] := by
              rw [← hE.complete hI.sends hc1, hI.bytes, hcont, hc3, (WriteBuf.content_nil hI.w).mpr hc2]
              rfl
            have hne : p.rbuf.state.isEos = false := by
              cases hs : p.rbuf.state.isEos with
              | false => rfl
              | true =>
                rw [(hI.eos hs).1] at hcl
                cases hcl
            rw [hne] at k1
            rw [hdrop, hcl, k1, hi2] at hcm
            cases hcm
        · right; right; right; left
          simp only
          omega
  · intro he
    have := hI.w.cap
    simp only [WriteBuf.isEmpty, beq_iff_eq] at he
    simp only [WriteBuf.isFull, beq_eq_false_iff_ne, ne_eq]
    omega
  · intro he
    simp only [ReadBuf.isEmpty, beq_iff_eq] at he
    simp only [ReadBuf.isFull, beq_eq_false_iff_ne, ne_eq]
    omega

/-- C103 (no endless detours): however the sender, the relay, the receiver and the pipes are scheduled, the number of
steps in which anything gets ahead is bounded by the number of bytes and messages on the two sides. (That a way ahead is
open on each side is `C51_advances`, and that the relay itself can pass on a message is `C103_no_errors`.) -/
theorem C103_bounded {τ' σ' β : Type} {strict' delim' again' : Bool} {E' : Encoder τ' β} {sE' : τ'} {D' : Decoder σ' β}
    {sD' : σ'} {dom' : β → Prop} {enc' : β → Except ErrorKind Bytes} {f : α → β} {wstore' rstore' : Bytes}
    {r : Relay τ σ α τ' σ' β} {n : Nat} (hM : Matched strict delim again E sE D sD dom enc) (hS : SafeFrom D sD)
    (hM' : Matched strict' delim' again' E' sE' D' sD' dom' enc') (hS' : SafeFrom D' sD')
    (hcap : rstore.length < 2 ^ 64) (hcap' : rstore'.length < 2 ^ 64)
    (h : RelayRun E D dom E' D' dom' f ⟨.new sE sD wstore rstore, .new sE' sD' wstore' rstore'⟩ n r)
    (hg : r.up.got.length ≤ r.up.sent.length) (hg' : r.down.got.length ≤ r.down.sent.length) :
    n ≤ 4 * ((bytesOfAll enc r.up.sent).length + (bytesOfAll enc' r.down.sent).length) +
      4 * (r.up.sent.length + r.down.sent.length) + 4 := by
  obtain ⟨n₁, n₂, h1, h2, h3⟩ := relay_runs h
  have b1 := C51_bounded hM hS hcap h1 hg
  have b2 := C51_bounded hM' hS' hcap' h2 hg'
  omega

/-- C103 for any number of relays: the number of steps in which anything gets ahead is bounded by the number of bytes and
messages in all pipes. -/
theorem C103_chain_bounded {τ σ α : Nat → Type} {strict delim again : Nat → Bool} {E : ∀ i, Encoder (τ i) (α i)}
    {sE : ∀ i, τ i} {D : ∀ i, Decoder (σ i) (α i)} {sD : ∀ i, σ i} {dom : ∀ i, α i → Prop}
    {enc : ∀ i, α i → Except ErrorKind Bytes} {f : ∀ i, α i → α (i + 1)} {wstore rstore : Nat → Bytes} {n k : Nat}
    {c : Chain τ σ α} (hM : ∀ i ≤ n, Matched (strict i) (delim i) (again i) (E i) (sE i) (D i) (sD i) (dom i) (enc i))
    (hS : ∀ i ≤ n, SafeFrom (D i) (sD i)) (hcap : ∀ i ≤ n, (rstore i).length < 2 ^ 64)
    (h : ChainRun E D dom f n (fun i => .new (sE i) (sD i) (wstore i) (rstore i)) k c)
    (hg : ∀ i ≤ n, (c i).got.length ≤ (c i).sent.length) :
    k ≤ ((List.range (n + 1)).map fun i =>
      4 * (bytesOfAll (enc i) (c i).sent).length + 4 * (c i).sent.length + 2).sum := by
  obtain ⟨g, h1, h2⟩ := chain_runs h
  refine Nat.le_trans h2 (sumRange_le _ fun i hi => ?_)
  have hi : i ≤ n := by omega
  exact C51_bounded (hM i hi) (hS i hi) (hcap i hi) (h1 i) (hg i hi)

/-- Numbers of one byte through three relays, each of which adds 1: the sender hands over 7, which gets ahead. -/
example : ∃ c : Chain (fun _ => BytesEncoderState Bytes) (fun _ => CopyableState) (fun _ => UInt8),
    ChainRun (fun _ => u8Encoder.toEncoder) (fun _ => u8Decoder) (fun _ _ => True) (fun _ x => x + 1) 3
      (fun _ => .new .new (fixInit 1) [0] [0]) 1 c ∧ (c 0).sent = [7] ∧ ∀ i ≤ 3, (c i).got.length ≤ (c i).sent.length := by
  refine ⟨_, .ahead .refl (.within 0 (by decide) (.start 7 rfl rfl trivial rfl) (by decide) (fun _ => rfl))
    ⟨0, by decide, .inl (by rw [chainPut_self]; simp [Pipe.new])⟩, rfl, ?_⟩
  intro i _
  by_cases h : 0 = i
  · subst h; rw [chainPut_self]; simp [Pipe.new]
  · rw [chainPut_other _ _ h]; simp [Pipe.new]

/-- A relay that turns numbers of one byte into numbers of two bytes: 7 is handed over. -/
example : ∃ r : Relay (BytesEncoderState Bytes) CopyableState UInt8 (BytesEncoderState Bytes) CopyableState UInt16,
    RelayRun u8Encoder.toEncoder u8Decoder (fun _ => True) u16beEncoder.toEncoder u16beDecoder (fun _ => True)
      (fun n => n.toUInt16) ⟨.new .new (fixInit 1) [0] [0], .new .new (fixInit 2) [0] [0]⟩ 2 r ∧ r.up.sent = [7] := by
  have h0 : RelayRun u8Encoder.toEncoder u8Decoder (fun _ => True) u16beEncoder.toEncoder u16beDecoder (fun _ => True)
      (fun n => n.toUInt16) ⟨.new .new (fixInit 1) [0] [0], .new .new (fixInit 2) [0] [0]⟩ 0 _ := .refl
  have h1 := RelayRun.ahead h0 (.up (.start 7 rfl rfl trivial rfl) rfl) (.inl (.inl (by simp [Pipe.new])))
  have h2 := RelayRun.ahead h1 (.up (.encode rfl) rfl) (.inl (.inr (.inl (by decide))))
  exact ⟨_, h2, rfl⟩

/-- Numbers of one byte through buffers of one byte: 7 is handed over and encoded, and both steps get ahead. -/
example : ∃ p : Pipe (BytesEncoderState Bytes) CopyableState UInt8,
    PipeRun u8Encoder.toEncoder u8Decoder (fun _ => True) (.new .new (fixInit 1) [0] [0]) 2 p ∧ p.sent = [7] ∧
      p.wbuf.isFull = true ∧ p.got.length < p.sent.length := by
  have h0 : PipeRun u8Encoder.toEncoder u8Decoder (fun _ => True) (.new .new (fixInit 1) [0] [0]) 0 _ := .refl
  have h1 := PipeRun.ahead h0 (.start 7 rfl rfl trivial rfl) (.inl (by simp [Pipe.new]))
  have h2 := PipeRun.ahead h1 (.encode rfl) (.inr (.inl (by decide)))
  exact ⟨_, h2, rfl, rfl, by decide⟩

end Bytecodec.Props
