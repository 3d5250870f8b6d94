import Verif.Lemmas.Interrupted
import Verif.Props.Encoding
/-!
# C73: interrupted system calls lose nothing

`encode_all` repeats interrupted calls. `decode_exact`, `fill` and `flush` report an interruption as the
error `Other`, and calling them again gives what they would have given without it.
-/
namespace Bytecodec.Props

open Spec

variable {σ α ω ρ : Type}

theorem interruptedWriter_steady (k : Nat) : WithoutInterruptions (interruptedWriter k) (steadyWriter k) := by
  rintro ⟨n, out⟩ buf
  refine ⟨n, ?_⟩
  induction n with
  | zero => exact .done rfl
  | succ n ih => exact .again rfl ih

theorem interruptedReader_steady : ReadsWithoutInterruptions interruptedReader steadyReader := by
  rintro ⟨_ | _, bs⟩ k
  · exact ⟨0, .done rfl⟩
  · exact ⟨1, .again rfl (.done rfl)⟩

/-- C73: `encode_all` returns what it returns without interruptions, and leaves the encoder and the
writer in the same states. -/
theorem C73_encode_all (E : Encoder σ α) {W : RawWriter ω} {V : Writer ω} (h : WithoutInterruptions W V)
    (s : σ) (w : ω) : encodeAllRaw E W s w = encodeAll E V s w :=
  encodeAllRaw_eq h s w

example : encodeAllRaw u16beEncoder.toEncoder (interruptedWriter 3) ⟨some [1, 2], 0⟩ (3, []) =
    encodeAll u16beEncoder.toEncoder (steadyWriter 3) ⟨some [1, 2], 0⟩ (3, []) :=
  C73_encode_all _ (interruptedWriter_steady 3) _ _

/-- C73: so a writer that takes at least one byte between the interruptions gets all bytes. -/
theorem C73_complete {strict : Bool} {E : Encoder σ α} {s₀ : σ} {dom enc} (h : Emits strict E s₀ dom enc)
    {s : σ} {acc em : Bytes} (hr : EncRun E dom enc s₀ s acc em) {W : RawWriter ω} {V : Writer ω}
    (hi : WithoutInterruptions W V) {written : ω → Bytes}
    (hV : ∀ w buf, ∃ n w', V.write w buf = (.wrote n, w') ∧ n ≤ buf.length ∧ (buf ≠ [] → 0 < n) ∧
      written w' = written w ++ buf.take n) (w : ω) :
    ∃ s' w', encodeAllRaw E W s w = some (.ok (), s', w') ∧ E.isIdle s' = true ∧
      written w' = written w ++ acc.drop em.length := by
  obtain ⟨a1, _, _⟩ := emits_fresh h
  obtain ⟨rest, rfl⟩ := h.inOrder hr
  rw [List.drop_left, C73_encode_all E hi]
  have sink : Sink V written := by
    constructor
    · intro w b n w' e
      obtain ⟨m, u, h1, h2, _, h3⟩ := hV w b
      rw [e] at h1
      cases h1
      exact ⟨h2, h3⟩
    · intro w b k w' e
      obtain ⟨m, u, h1, _⟩ := hV w b
      rw [e] at h1
      cases h1
  obtain ⟨res, s', w', q1, q2⟩ := encodeAll_spec a1 sink rest.length s rest w (Nat.le_refl _) ⟨em, hr⟩
  rcases q2 with ⟨rfl, q3, q4, q5⟩ | ⟨k, pre, hr, q3, q4, u, b, hb, hf⟩
  · exact ⟨s', w', q1, q3, q5⟩
  · obtain ⟨m, v, h1, _, h2, _⟩ := hV u b
    rcases hf with ⟨io, hf, _⟩ | ⟨hf, _⟩ <;> rw [hf] at h1 <;> cases h1
    exact absurd (h2 hb) (Nat.lt_irrefl 0)

/-- The writer that takes single bytes. -/
example (k : Nat) : ∀ w buf, ∃ n w', (steadyWriter k).write w buf = (.wrote n, w') ∧ n ≤ buf.length ∧
    (buf ≠ [] → 0 < n) ∧ w'.2 = w.2 ++ buf.take n := by
  intro w buf
  refine ⟨_, _, rfl, by omega, fun h => ?_, ?_⟩
  · cases buf with
    | nil => exact absurd rfl h
    | cons _ _ => simp only [List.length_cons]; omega
  · cases buf with
    | nil => rfl
    | cons _ _ => simp

/-- C73: a `decode_exact` whose reads are interrupted returns what it returns without interruptions, or it
returns the error `Other` and calling it again goes on to the same outcome. -/
theorem C73_decode_exact {D : Decoder σ α} {R : RawReader ρ} {V : Reader ρ}
    (h : ReadsWithoutInterruptions R V) {s s' : σ} {r r' : ρ} {y : Res α}
    (hd : decodeExact D R.direct s r = some (y, s', r')) :
    decodeExact D V s r = some (y, s', r') ∨
    y = .err .other ∧ decodeExact D V s' r' = decodeExact D V s r :=
  decodeExact_direct h hd

/-- One byte arrives, and the second read is interrupted; the second call completes the number. -/
example : decodeExact u16beDecoder interruptedReader.direct (.new [0, 0]) (false, [1, 2]) =
      some (.err .other, ⟨[1, 0], 1⟩, (false, [2])) ∧
    decodeExact u16beDecoder interruptedReader.direct ⟨[1, 0], 1⟩ (false, [2]) =
      some (.ok 258, ⟨[1, 2], 0⟩, (true, [])) := by
  constructor
  · rw [decodeExact_eq]
    show decodeExact u16beDecoder interruptedReader.direct ⟨[1, 0], 1⟩ (true, [2]) = _
    rw [decodeExact_eq]
    rfl
  · rw [decodeExact_eq]; rfl

/-- C73: the same for `fill`. -/
theorem C73_fill {R : RawReader ρ} {V : Reader ρ} (h : ReadsWithoutInterruptions R V) (b : ReadBuf) (r : ρ) :
    b.fill R.direct r = b.fill V r ∨
    ∃ b' r', b.fill R.direct r = (.err .other, b', r') ∧ b'.fill V r' = b.fill V r :=
  fill_direct h _ b r (Nat.le_refl _)

/-- C73: the same for `flush`. -/
theorem C73_flush {W : RawWriter ω} {V : Writer ω} (h : WithoutInterruptions W V) (b : WriteBuf) (w : ω) :
    b.flush W.direct w = b.flush V w ∨
    ∃ b' w', b.flush W.direct w = (.err .other, b', w') ∧ b'.flush V w' = b.flush V w :=
  flush_direct h b w

/-- C73: an interruption is an error for the stream state, so `would_block` and `is_eos` stay false. -/
theorem C73_state {R : RawReader ρ} (b : ReadBuf) (r r' : ρ) (hb : b.tail < b.inner.length)
    (hr : R.read r (b.inner.length - b.tail) = (none, r')) :
    b.fill R.direct r = (.err .other, { b with state := .error }, r') := by
  rw [ReadBuf.fill, dif_neg (by simp only [ReadBuf.isFull, beq_iff_eq]; omega), dif_neg (by omega)]
  simp only [RawReader.direct, hr]
  rfl

example : (ReadBuf.new [0, 0, 0]).fill interruptedReader.direct (false, [1, 2]) =
    (.err .other, ⟨[1, 0, 0], 0, 1, .error⟩, (false, [2])) := by
  decide +kernel

end Bytecodec.Props
