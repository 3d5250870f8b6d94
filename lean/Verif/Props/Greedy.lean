import Verif.Lemmas.Greedy
import Verif.Lemmas.Productive
import Verif.Lemmas.Buf
import Verif.Lemmas.Stall
import Verif.Props.Chunking
/-!
# C64: a decoder that still waits for bytes has taken all it was given
-/
namespace Bytecodec.Props

open Bytecodec Bytecodec.Spec

variable {σ α ρ : Type}

/-- C64 (everything but `slice`; inside a `length` frame neither another frame nor `maybe_eos`):
whatever the caller did before, a `decode` call that succeeds completes the item or consumes the
whole buffer. -/
theorem C64_greedy_partial {D : Decoder σ α} {s : σ} (h : Framed D s) : Greedy D s :=
  (framed_greedy h).2

/-- A length-prefixed UTF-8 string, in a list of such strings. -/
example : Framed (collectNDecoder (andThenDecoder u8Decoder (lengthDecoder (utf8Decoder remainingBytesDecoder))
      (fun n => .new .new n.toNat))) (.new (fixInit 1, none) 3) :=
  .collectN 3 (.andThen _ (.plain (.number _ 1 (by decide))) fun n =>
    .frame _ (by have := n.toNat_lt; omega) (.utf8 (by decide) (.remaining (by decide))))

/-- A sliced decoder leaves bytes over only when its allowance is used up. -/
theorem C64_slice {D : Decoder σ α} {s : σ} (h : Framed D s) (n : Nat) :
    GreedyUnlessSuspended (sliceDecoder D) ⟨s, n⟩ :=
  greedy_slice (C64_greedy_partial h)

example : Framed u16beDecoder (fixInit 2) := .plain (.number _ 2 (by decide))

/-- Decoding from a read buffer empties the buffer or completes the item: a loop of `fill` and
`decode_from_read_buf` cannot stall on a full buffer. -/
theorem C64_read_buf_partial {R : Reader ρ} (hR : HonestReader R) {inner : Bytes} {r : ρ}
    {sys : ReadSys ρ} (hb : inner.length < 2 ^ 64) (hrun : ReadRun R inner r sys) {D : Decoder σ α}
    {s₀ s : σ} (hD : Framed D s₀) (hs : Reach D s₀ s) {s' : σ} {buf : ReadBuf}
    (h : decodeFromReadBuf D s sys.buf = (.ok (), s', buf)) (hi : D.isIdle s' = false) :
    buf.len = 0 ∧ buf.isEmpty = true ∧ buf.room = inner.length := by
  obtain ⟨hI, hl, _⟩ := readRun_inv hR hrun
  have h1 := hI.le
  have h2 := hI.cap
  have hlen := ReadBuf.content_length hI
  rw [decodeFromReadBuf, if_neg (by omega)] at h
  obtain ⟨n, t, hd, hk⟩ := step_ok h
  cases hk
  have hn := C64_greedy_partial hD s hs _ _ _ _
    (EosSane.new _ (by simp only [List.length_drop, List.length_take]; omega)) hd hi
  change n = sys.buf.content.length at hn
  rw [hlen] at hn
  have : sys.buf.head + n = sys.buf.tail := by simp only [ReadBuf.len] at hn; omega
  simp [ReadBuf.consume, this, ReadBuf.len, ReadBuf.isEmpty, ReadBuf.room, hl]

/-- After one byte of a 16-bit number has arrived in a buffer of three bytes. -/
example : decodeFromReadBuf u16beDecoder (fixInit 2) ⟨[7, 0, 0], 0, 1, .normal⟩
    = (.ok (), ⟨[7, 0], 1⟩, ⟨[7, 0, 0], 0, 0, .normal⟩) := by decide

/-- C64 (what a stall means; everything but `collect` and `slice`, with frames in frames, `maybe_eos` in frames, and
limits and checks anywhere): if a `decode` call succeeds without completing the item and leaves bytes over, the input is
malformed: whatever comes next, the item is never completed. So a caller that is left with unused bytes may give up. -/
theorem C64_stall_is_final_partial {τ : Type} {p q : Bool} {D : Decoder σ α} {s₀ s s' t : σ} {D' : Decoder τ α} {s₀' : τ}
    (hS : Stripped D s₀ D' s₀') (hD : Streamable Plain p q D' s₀') (h : Uses D s₀ s) {b : Bytes} {e : Eos} {n : Nat}
    (hi : D.isIdle s = false) (hd : D.decode s b e = (.ok n, s')) (hi' : D.isIdle s' = false) (hn : n ≠ b.length)
    (ht : Decodes D s' t) (hti : D.isIdle t = true) (x : α) (u : σ) : D.finish t ≠ (.ok x, u) := by
  intro hf
  obtain ⟨R, hk, hr⟩ := stripped_kept hS
  obtain ⟨v, h1, h2⟩ := uses_retained hk hr h
  obtain ⟨v', h3, h4⟩ := hk.decode h1 _ _ _ _ hd
  obtain ⟨w, h5, h6⟩ := decodes_retained hk ht h4
  obtain ⟨y, h7, _⟩ := hk.finish h5 _ _ hf
  exact stall_lost (c := true) (streamable_stalls (fun h => h.1 rfl) (fun h => h.2.1 rfl) hD) h2
    (by rw [← hk.idle h1, hi]) h3 (by rw [← hk.idle h4, hi']) hn h6 (by rw [← hk.idle h5, hti]) _ _ h7

/-- The two decoders of the counterexamples below: both leave bytes over. -/
example :
    (let D := lengthDecoder (maybeEosDecoder u16beDecoder)
     let s : LengthState (MaybeEosState CopyableState) := .new (.new (fixInit 2)) 0
     Stripped D s D s ∧ Streamable Plain true false D s ∧ D.isIdle s = false ∧
       D.decode s [1, 2] (Eos.new false) = (.ok 0, s)) ∧
    (let D := maxBytesDecoder (lengthDecoder (lengthDecoder bytesDecoder))
     let D' := lengthDecoder (lengthDecoder bytesDecoder)
     let s : LengthState (LengthState BytesDecoderState) := .new (.new (.new [0, 0, 0, 0, 0]) 5) 3
     Stripped D (.new s 9) D' s ∧ Streamable Plain true false D' s ∧
       (D.decode (.new s 9) [1, 2, 3, 4] (Eos.new false)).1 = .ok 3 ∧
       D.isIdle (D.decode (.new s 9) [1, 2, 3, 4] (Eos.new false)).2 = false) := by
  refine ⟨⟨.same, .length true 0 (by decide) (.maybeEos (.number true true _ 2)), rfl, rfl⟩, .maxBytes _ .same,
    .length true 3 (by decide) (.length true 5 (by decide) (.bytes true false _)), by decide, by decide⟩

/-- C64 (the code deviates): a `length(0)` frame around a `maybe_eos` decoder is not idle, takes none
of the bytes it is given, reports success and stays as it is: a caller that repeats the call runs
forever. -/
theorem C64_frame_maybe_eos_fails :
    let D := lengthDecoder (maybeEosDecoder u16beDecoder)
    let s : LengthState (MaybeEosState CopyableState) := .new (.new (fixInit 2)) 0
    D.decode s [1, 2] (Eos.new false) = (.ok 0, s) ∧ D.isIdle s = false := by
  refine ⟨by rfl, by rfl⟩

/-- C64 (the code deviates): so does a `length` frame in a shorter frame: all three bytes of the outer
frame are consumed, the decoder is not idle, and the rest of the buffer is left over. -/
theorem C64_frame_frame_fails :
    let D := lengthDecoder (lengthDecoder bytesDecoder)
    let r := D.decode (.new (.new (.new [0, 0, 0, 0, 0]) 5) 3) [1, 2, 3, 4] (Eos.new false)
    r.1 = .ok 3 ∧ D.isIdle r.2 = false := by
  decide

end Bytecodec.Props
