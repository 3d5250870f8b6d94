import Verif.Spec.Work
import Verif.Lemmas.Safe
import Verif.Lemmas.Buf
import Verif.Lemmas.DecodeExact
import Verif.Lemmas.Pipeline
/-!
# Counting the calls
-/
namespace Bytecodec

open Spec

variable {σ α ρ ω τ κ : Type}

/-! ## Buffers and streams -/

/-- A reader with a counter beside its state: `f i` is the counter after `i` calls. -/
def CountsReads (R : Reader ρ) (f : Nat → κ) (R' : Reader (ρ × κ)) : Prop :=
  ∀ r i n, R'.read (r, f i) n = ((R.read r n).1, (R.read r n).2, f (i + 1))

/-- A writer with a counter beside its state. -/
def CountsWrites (W : Writer ω) (f : Nat → κ) (W' : Writer (ω × κ)) : Prop :=
  ∀ w i b, W'.write (w, f i) b = ((W.write w b).1, (W.write w b).2, f (i + 1))

/-- An asynchronous reader with a counter beside its state. -/
def CountsPollReads (R : AsyncReader ρ) (f : Nat → κ) (R' : AsyncReader (ρ × κ)) : Prop :=
  ∀ r i n, R'.pollRead (r, f i) n = ((R.pollRead r n).1, (R.pollRead r n).2, f (i + 1))

/-- An asynchronous writer with a counter beside its state. -/
def CountsPollWrites (W : AsyncWriter ω) (f : Nat → κ) (W' : AsyncWriter (ω × κ)) : Prop :=
  ∀ w i b, W'.pollWrite (w, f i) b = ((W.pollWrite w b).1, (W.pollWrite w b).2, f (i + 1))

theorem fill_count {R : Reader ρ} {f : Nat → κ} {R' : Reader (ρ × κ)} (h : CountsReads R f R') (c : Nat) (b : ReadBuf)
    (r : ρ) : ∃ k, k ≤ b.room ∧ b.fill R' (r, f c) =
      ((b.fill R r).1, (b.fill R r).2.1, (b.fill R r).2.2, f (c + k)) := by
  induction b, r using ReadBuf.fill.induct R generalizing c with
  | case1 b r h => exact ⟨0, by omega, by simp [ReadBuf.fill, h]⟩
  | case2 b r h1 h2 => exact ⟨0, by omega, by simp [ReadBuf.fill, h1, h2]⟩
  | case3 b r h1 h2 r' hr =>
    simp only [ReadBuf.isFull, beq_iff_eq] at h1
    refine ⟨1, by simp only [ReadBuf.room]; omega, ?_⟩
    rw [ReadBuf.fill, ReadBuf.fill, dif_neg (by simpa [ReadBuf.isFull] using h1), dif_neg h2,
      dif_neg (by simpa [ReadBuf.isFull] using h1), dif_neg h2]
    simp [h r c, hr]
  | case4 b r h1 h2 k r' hr hk =>
    simp only [ReadBuf.isFull, beq_iff_eq] at h1
    refine ⟨1, by simp only [ReadBuf.room]; omega, ?_⟩
    rw [ReadBuf.fill, ReadBuf.fill, dif_neg (by simpa [ReadBuf.isFull] using h1), dif_neg h2,
      dif_neg (by simpa [ReadBuf.isFull] using h1), dif_neg h2]
    simp [h r c, hr, hk]
  | case5 b r h1 h2 r' hr =>
    simp only [ReadBuf.isFull, beq_iff_eq] at h1
    refine ⟨1, by simp only [ReadBuf.room]; omega, ?_⟩
    rw [ReadBuf.fill, ReadBuf.fill, dif_neg (by simpa [ReadBuf.isFull] using h1), dif_neg h2,
      dif_neg (by simpa [ReadBuf.isFull] using h1), dif_neg h2]
    simp [h r c, hr]
  | case6 b r h1 h2 x xs r' hr ih =>
    obtain ⟨k, hk, he⟩ := ih (c + 1)
    simp only [ReadBuf.isFull, beq_iff_eq] at h1
    refine ⟨k + 1, ?_, ?_⟩
    · simp only [ReadBuf.room, splice, List.length_append, List.length_take, List.length_drop,
        List.length_cons] at hk ⊢
      omega
    · rw [ReadBuf.fill, ReadBuf.fill, dif_neg (by simpa [ReadBuf.isFull] using h1), dif_neg h2,
        dif_neg (by simpa [ReadBuf.isFull] using h1), dif_neg h2]
      simp only [h r c, hr] at he ⊢
      rw [he, Nat.add_assoc, Nat.add_comm 1 k]

theorem pollFill_count {R : AsyncReader ρ} {f : Nat → κ} {R' : AsyncReader (ρ × κ)} (h : CountsPollReads R f R') (c : Nat) (b : ReadBuf)
    (r : ρ) : ∃ k, k ≤ b.room ∧ b.pollFill R' (r, f c) =
      ((b.pollFill R r).1, (b.pollFill R r).2.1, (b.pollFill R r).2.2, f (c + k)) := by
  induction b, r using ReadBuf.pollFill.induct R generalizing c with
  | case1 b r h => exact ⟨0, by omega, by simp [ReadBuf.pollFill, h]⟩
  | case2 b r h1 h2 => exact ⟨0, by omega, by simp [ReadBuf.pollFill, h1, h2]⟩
  | case3 b r h1 h2 r' hr =>
    simp only [ReadBuf.isFull, beq_iff_eq] at h1
    refine ⟨1, by simp only [ReadBuf.room]; omega, ?_⟩
    rw [ReadBuf.pollFill, ReadBuf.pollFill, dif_neg (by simpa [ReadBuf.isFull] using h1), dif_neg h2,
      dif_neg (by simpa [ReadBuf.isFull] using h1), dif_neg h2]
    simp [h r c, hr]
  | case4 b r h1 h2 r' hr =>
    simp only [ReadBuf.isFull, beq_iff_eq] at h1
    refine ⟨1, by simp only [ReadBuf.room]; omega, ?_⟩
    rw [ReadBuf.pollFill, ReadBuf.pollFill, dif_neg (by simpa [ReadBuf.isFull] using h1), dif_neg h2,
      dif_neg (by simpa [ReadBuf.isFull] using h1), dif_neg h2]
    simp [h r c, hr]
  | case5 b r h1 h2 x xs r' hr ih =>
    obtain ⟨k, hk, he⟩ := ih (c + 1)
    simp only [ReadBuf.isFull, beq_iff_eq] at h1
    refine ⟨k + 1, ?_, ?_⟩
    · simp only [ReadBuf.room, splice, List.length_append, List.length_take, List.length_drop,
        List.length_cons] at hk ⊢
      omega
    · rw [ReadBuf.pollFill, ReadBuf.pollFill, dif_neg (by simpa [ReadBuf.isFull] using h1), dif_neg h2,
        dif_neg (by simpa [ReadBuf.isFull] using h1), dif_neg h2]
      simp only [h r c, hr] at he ⊢
      rw [he, Nat.add_assoc, Nat.add_comm 1 k]
  | case6 b r h1 h2 k r' hr =>
    simp only [ReadBuf.isFull, beq_iff_eq] at h1
    refine ⟨1, by simp only [ReadBuf.room]; omega, ?_⟩
    rw [ReadBuf.pollFill, ReadBuf.pollFill, dif_neg (by simpa [ReadBuf.isFull] using h1), dif_neg h2,
      dif_neg (by simpa [ReadBuf.isFull] using h1), dif_neg h2]
    simp [h r c, hr]

theorem flushLoop_count {W : Writer ω} {f : Nat → κ} {W' : Writer (ω × κ)} (h : CountsWrites W f W') (c : Nat) (b : WriteBuf)
    (w : ω) (hb : b.tail ≠ 0 → b.head < b.tail) : ∃ k, k ≤ b.len ∧ b.flushLoop W' (w, f c) =
      ((b.flushLoop W w).1, (b.flushLoop W w).2.1, (b.flushLoop W w).2.2, f (c + k)) := by
  induction b, w using WriteBuf.flushLoop.induct W generalizing c with
  | case1 b w h => exact ⟨0, by omega, by simp [WriteBuf.flushLoop, h]⟩
  | case2 b w h1 h2 => exact ⟨0, by omega, by simp [WriteBuf.flushLoop, h1, h2]⟩
  | case3 b w h1 h2 w' hw =>
    simp only [WriteBuf.isEmpty, beq_iff_eq] at h1
    refine ⟨1, by have := hb h1; simp only [WriteBuf.len]; omega, ?_⟩
    rw [WriteBuf.flushLoop, WriteBuf.flushLoop, dif_neg (by simpa [WriteBuf.isEmpty] using h1), dif_neg h2,
      dif_neg (by simpa [WriteBuf.isEmpty] using h1), dif_neg h2]
    simp [h w c, hw]
  | case4 b w h1 h2 k w' hw hk =>
    simp only [WriteBuf.isEmpty, beq_iff_eq] at h1
    refine ⟨1, by have := hb h1; simp only [WriteBuf.len]; omega, ?_⟩
    rw [WriteBuf.flushLoop, WriteBuf.flushLoop, dif_neg (by simpa [WriteBuf.isEmpty] using h1), dif_neg h2,
      dif_neg (by simpa [WriteBuf.isEmpty] using h1), dif_neg h2]
    simp [h w c, hw, hk]
  | case5 b w h1 h2 w' hw =>
    simp only [WriteBuf.isEmpty, beq_iff_eq] at h1
    refine ⟨1, by have := hb h1; simp only [WriteBuf.len]; omega, ?_⟩
    rw [WriteBuf.flushLoop, WriteBuf.flushLoop, dif_neg (by simpa [WriteBuf.isEmpty] using h1), dif_neg h2,
      dif_neg (by simpa [WriteBuf.isEmpty] using h1), dif_neg h2]
    simp [h w c, hw]
  | case6 b w h1 h2 n w' hw ih =>
    simp only [WriteBuf.isEmpty, beq_iff_eq] at h1
    have hlt := hb h1
    have step : ∃ k, k + 1 ≤ b.len ∧ WriteBuf.flushLoop W' (WriteBuf.consume { b with state := .normal } (n + 1)) (w', f (c + 1)) =
        ((WriteBuf.flushLoop W (WriteBuf.consume { b with state := .normal } (n + 1)) w').1,
          (WriteBuf.flushLoop W (WriteBuf.consume { b with state := .normal } (n + 1)) w').2.1,
          (WriteBuf.flushLoop W (WriteBuf.consume { b with state := .normal } (n + 1)) w').2.2, f (c + 1 + k)) := by
      by_cases hover : b.tail < b.head + (n + 1)
      · refine ⟨0, by simp only [WriteBuf.len]; omega, ?_⟩
        simp only [WriteBuf.consume]
        rw [if_neg (by omega), WriteBuf.flushLoop, WriteBuf.flushLoop, dif_neg (by simpa [WriteBuf.isEmpty] using h1),
          dif_pos (by simp only; omega), dif_neg (by simpa [WriteBuf.isEmpty] using h1),
          dif_pos (by simp only; omega)]
      · obtain ⟨k, hk, he⟩ := ih (c + 1) (by simp only [WriteBuf.consume]; split <;> simp only <;> omega)
        refine ⟨k, ?_, he⟩
        simp only [WriteBuf.consume, WriteBuf.len] at hk ⊢
        split at hk <;> simp only at hk <;> omega
    obtain ⟨k, hk, he⟩ := step
    refine ⟨k + 1, hk, ?_⟩
    rw [WriteBuf.flushLoop, WriteBuf.flushLoop, dif_neg (by simpa [WriteBuf.isEmpty] using h1), dif_neg h2,
      dif_neg (by simpa [WriteBuf.isEmpty] using h1), dif_neg h2]
    simp only [h w c, hw] at he ⊢
    rw [he, Nat.add_assoc, Nat.add_comm 1 k]

theorem pollFlush_count {W : AsyncWriter ω} {f : Nat → κ} {W' : AsyncWriter (ω × κ)} (h : CountsPollWrites W f W') (c : Nat) (b : WriteBuf)
    (w : ω) (hb : b.tail ≠ 0 → b.head < b.tail) : ∃ k, k ≤ b.len ∧ b.pollFlush W' (w, f c) =
      ((b.pollFlush W w).1, (b.pollFlush W w).2.1, (b.pollFlush W w).2.2, f (c + k)) := by
  induction b, w using WriteBuf.pollFlush.induct W generalizing c with
  | case1 b w h => exact ⟨0, by omega, by simp [WriteBuf.pollFlush, h]⟩
  | case2 b w h1 h2 => exact ⟨0, by omega, by simp [WriteBuf.pollFlush, h1, h2]⟩
  | case3 b w h1 h2 k w' hw =>
    simp only [WriteBuf.isEmpty, beq_iff_eq] at h1
    refine ⟨1, by have := hb h1; simp only [WriteBuf.len]; omega, ?_⟩
    rw [WriteBuf.pollFlush, WriteBuf.pollFlush, dif_neg (by simpa [WriteBuf.isEmpty] using h1), dif_neg h2,
      dif_neg (by simpa [WriteBuf.isEmpty] using h1), dif_neg h2]
    simp [h w c, hw]
  | case4 b w h1 h2 w' hw =>
    simp only [WriteBuf.isEmpty, beq_iff_eq] at h1
    refine ⟨1, by have := hb h1; simp only [WriteBuf.len]; omega, ?_⟩
    rw [WriteBuf.pollFlush, WriteBuf.pollFlush, dif_neg (by simpa [WriteBuf.isEmpty] using h1), dif_neg h2,
      dif_neg (by simpa [WriteBuf.isEmpty] using h1), dif_neg h2]
    simp [h w c, hw]
  | case5 b w h1 h2 n w' hw ih =>
    simp only [WriteBuf.isEmpty, beq_iff_eq] at h1
    have hlt := hb h1
    have step : ∃ k, k + 1 ≤ b.len ∧ WriteBuf.pollFlush W' (WriteBuf.consume { b with state := .normal } (n + 1)) (w', f (c + 1)) =
        ((WriteBuf.pollFlush W (WriteBuf.consume { b with state := .normal } (n + 1)) w').1,
          (WriteBuf.pollFlush W (WriteBuf.consume { b with state := .normal } (n + 1)) w').2.1,
          (WriteBuf.pollFlush W (WriteBuf.consume { b with state := .normal } (n + 1)) w').2.2, f (c + 1 + k)) := by
      by_cases hover : b.tail < b.head + (n + 1)
      · refine ⟨0, by simp only [WriteBuf.len]; omega, ?_⟩
        simp only [WriteBuf.consume]
        rw [if_neg (by omega), WriteBuf.pollFlush, WriteBuf.pollFlush, dif_neg (by simpa [WriteBuf.isEmpty] using h1),
          dif_pos (by simp only; omega), dif_neg (by simpa [WriteBuf.isEmpty] using h1),
          dif_pos (by simp only; omega)]
      · obtain ⟨k, hk, he⟩ := ih (c + 1) (by simp only [WriteBuf.consume]; split <;> simp only <;> omega)
        refine ⟨k, ?_, he⟩
        simp only [WriteBuf.consume, WriteBuf.len] at hk ⊢
        split at hk <;> simp only at hk <;> omega
    obtain ⟨k, hk, he⟩ := step
    refine ⟨k + 1, hk, ?_⟩
    rw [WriteBuf.pollFlush, WriteBuf.pollFlush, dif_neg (by simpa [WriteBuf.isEmpty] using h1), dif_neg h2,
      dif_neg (by simpa [WriteBuf.isEmpty] using h1), dif_neg h2]
    simp only [h w c, hw] at he ⊢
    rw [he, Nat.add_assoc, Nat.add_comm 1 k]
  | case6 b w h1 h2 w' hw =>
    simp only [WriteBuf.isEmpty, beq_iff_eq] at h1
    refine ⟨1, by have := hb h1; simp only [WriteBuf.len]; omega, ?_⟩
    rw [WriteBuf.pollFlush, WriteBuf.pollFlush, dif_neg (by simpa [WriteBuf.isEmpty] using h1), dif_neg h2,
      dif_neg (by simpa [WriteBuf.isEmpty] using h1), dif_neg h2]
    simp [h w c, hw]

theorem flush_count {W : Writer ω} {f : Nat → κ} {W' : Writer (ω × κ)} (h : CountsWrites W f W') (c : Nat) (b : WriteBuf)
    (w : ω) (hb : b.tail ≠ 0 → b.head < b.tail) : ∃ k, k ≤ b.len ∧ b.flush W' (w, f c) =
      ((b.flush W w).1, (b.flush W w).2.1, (b.flush W w).2.2, f (c + k)) := by
  obtain ⟨k, hk, he⟩ := flushLoop_count h c b w hb
  refine ⟨k, hk, ?_⟩
  simp only [WriteBuf.flush, he]
  rcases b.flushLoop W w with ⟨r, q⟩
  cases r <;> rfl

theorem executeIo_count (T : Stream τ) (c d : Nat) (io : BufferedIo τ)
    (hb : io.wbuf.tail ≠ 0 → io.wbuf.head < io.wbuf.tail) : ∃ k l, k ≤ io.rbuf.room ∧ l ≤ io.wbuf.len ∧
      BufferedIo.executeIo (countedStream T) ⟨(io.stream, c, d), io.rbuf, io.wbuf⟩ =
        ((io.executeIo T).1, ⟨((io.executeIo T).2.stream, c + k, d + l), (io.executeIo T).2.rbuf,
          (io.executeIo T).2.wbuf⟩) := by
  obtain ⟨k, hk, he⟩ := fill_count (R := T.reader) (f := fun i => (i, d)) (R' := (countedStream T).reader)
    (fun _ _ _ => rfl) c io.rbuf io.stream
  simp only [BufferedIo.executeIo, he]
  rcases io.rbuf.fill T.reader io.stream with ⟨r, rb, st⟩
  cases r with
  | ok u =>
    obtain ⟨l, hl, hw⟩ := flush_count (W := T.writer) (f := fun i => (c + k, i)) (W' := (countedStream T).writer)
      (fun _ _ _ => rfl) d io.wbuf st hb
    refine ⟨k, l, hk, hl, ?_⟩
    simp only [Res.step, hw]
    rcases io.wbuf.flush T.writer st with ⟨r, wb, st'⟩
    cases r <;> rfl
  | err => exact ⟨k, 0, hk, by omega, rfl⟩
  | panic => exact ⟨k, 0, hk, by omega, rfl⟩
  | capacity => exact ⟨k, 0, hk, by omega, rfl⟩
  | diverge => exact ⟨k, 0, hk, by omega, rfl⟩

theorem executeIoPoll_count (T : AsyncStream τ) (c d : Nat) (io : BufferedIo τ)
    (hb : io.wbuf.tail ≠ 0 → io.wbuf.head < io.wbuf.tail) : ∃ k l, k ≤ io.rbuf.room ∧ l ≤ io.wbuf.len ∧
      BufferedIo.executeIoPoll (countedAsyncStream T) ⟨(io.stream, c, d), io.rbuf, io.wbuf⟩ =
        ((io.executeIoPoll T).1, ⟨((io.executeIoPoll T).2.stream, c + k, d + l), (io.executeIoPoll T).2.rbuf,
          (io.executeIoPoll T).2.wbuf⟩) := by
  obtain ⟨k, hk, he⟩ := pollFill_count (R := T.reader) (f := fun i => (i, d)) (R' := (countedAsyncStream T).reader)
    (fun _ _ _ => rfl) c io.rbuf io.stream
  simp only [BufferedIo.executeIoPoll, he]
  rcases io.rbuf.pollFill T.reader io.stream with ⟨r, rb, st⟩
  obtain ⟨l, hl, hw⟩ := pollFlush_count (W := T.writer) (f := fun i => (c + k, i)) (W' := (countedAsyncStream T).writer)
    (fun _ _ _ => rfl) d io.wbuf st hb
  by_cases hp : r = .ready .panic
  · subst hp
    exact ⟨k, 0, hk, by omega, rfl⟩
  · refine ⟨k, l, hk, hl, ?_⟩
    rcases r with _ | r
    · simp only [hw]
      rcases io.wbuf.pollFlush T.writer st with ⟨_ | ⟨_ | _ | _ | _ | _⟩, wb, st'⟩ <;> rfl
    · cases r with
      | panic => exact absurd rfl hp
      | _ =>
        simp only [hw]
        rcases io.wbuf.pollFlush T.writer st with ⟨_ | ⟨_ | _ | _ | _ | _⟩, wb, st'⟩ <;> rfl

theorem writeAll_count {W : Writer ω} {f : Nat → κ} {W' : Writer (ω × κ)} (h : CountsWrites W f W') (c : Nat)
    (w : ω) (b : Bytes) : ∃ k, k ≤ b.length ∧ writeAll W' (w, f c) b =
      ((writeAll W w b).1, (writeAll W w b).2, f (c + k)) := by
  induction w, b using writeAll.induct W generalizing c with
  | case1 w b h => exact ⟨0, by omega, by simp [writeAll, h]⟩
  | case2 w b hne k w' hw =>
    have : b.length ≠ 0 := by cases b <;> simp_all
    refine ⟨1, by omega, ?_⟩
    rw [writeAll, writeAll, if_neg hne, if_neg hne]
    simp [h w c, hw]
  | case3 w b hne w' hw =>
    have : b.length ≠ 0 := by cases b <;> simp_all
    refine ⟨1, by omega, ?_⟩
    rw [writeAll, writeAll, if_neg hne, if_neg hne]
    simp [h w c, hw]
  | case4 w b hne n w' hw hn hl =>
    refine ⟨1, by have : b.length ≠ 0 := by { cases b <;> simp_all }
                  omega, ?_⟩
    rw [writeAll, writeAll, if_neg hne, if_neg hne]
    simp [h w c, hw, hn, hl]
  | case5 w b hne n w' hw hn hl ih =>
    obtain ⟨k, hk, he⟩ := ih (c + 1)
    refine ⟨k + 1, by simp only [List.length_drop] at hk; omega, ?_⟩
    rw [writeAll, writeAll, if_neg hne, if_neg hne]
    simp only [h w c, hw, if_neg hn, if_neg hl]
    rw [he, Nat.add_assoc, Nat.add_comm 1 k]

/-! ## Loops over an inner codec -/

theorem tryDecode_counted (D : Decoder σ α) (s : σ) (c : DecCalls) (off : Nat) (buf : Bytes) (e : Eos) :
    tryDecode (countedDecoder D) (s, c) off buf e =
      match tryDecode D s off buf e with
      | .next o s' => .next o (s', if D.isIdle s then c else ⟨c.decodes + 1, c.finishes⟩)
      | .ret r s' => .ret r (s', if D.isIdle s ∨ buf.length < off then c else ⟨c.decodes + 1, c.finishes⟩) := by
  unfold tryDecode
  by_cases hi : D.isIdle s = true
  · have : (countedDecoder D).isIdle (s, c) = true := hi
    simp [hi, this]
  · have : ¬ (countedDecoder D).isIdle (s, c) = true := hi
    rw [if_neg hi, if_neg this]
    by_cases ho : buf.length < off
    · simp [ho]
    · rw [if_neg ho, if_neg ho]
      have hd : (countedDecoder D).decode (s, c) (buf.drop off) e =
        ((D.decode s (buf.drop off) e).1, (D.decode s (buf.drop off) e).2, ⟨c.decodes + 1, c.finishes⟩) := rfl
      rw [hd]
      rcases D.decode s (buf.drop off) e with ⟨r, s'⟩
      cases r with
      | ok n =>
        by_cases hi' : D.isIdle s' = true
        · have : (countedDecoder D).isIdle (s', ⟨c.decodes + 1, c.finishes⟩) = true := hi'
          simp [hi, hi', this]
        · have : ¬ (countedDecoder D).isIdle (s', ⟨c.decodes + 1, c.finishes⟩) = true := hi'
          simp [hi, ho, hi', this]
      | _ => simp [hi, ho]

/-- A round of `collect` that yields an item moves on. -/
theorem productive_moves {D : Decoder σ α} {s₀ s s' : σ} {buf : Bytes} {e : Eos} {off o : Nat} (hp : Productive D s₀)
    (hr : ReachItem D s₀ s) (he : EosSane e buf.length) (hlt : off < buf.length)
    (hstep : tryDecode D s off buf e = .next o s') (hfin : (D.finish s').1.isOk = true) : off < o := by
  have hp' := hp s hr
  unfold tryDecode at hstep
  split at hstep
  · next hi =>
    cases hstep
    have := hp'.1 hi
    rw [hfin] at this; cases this
  · next hi =>
    rw [if_neg (by omega)] at hstep
    split at hstep
    · next n t hdec =>
      split at hstep
      · next hi2 =>
        simp only [Flow.next.injEq] at hstep
        obtain ⟨rfl, rfl⟩ := hstep
        rcases Nat.eq_zero_or_pos n with rfl | hn
        · have hb : buf.drop off ≠ [] := by
            intro hnil
            have := congrArg List.length hnil
            simp at this; omega
          have := hp'.2 (buf.drop off) e hb he.drop (by simpa using hi)
          rw [hdec] at this
          have := this rfl hi2
          rw [hfin] at this; cases this
        · omega
      · cases hstep
    all_goals cases hstep

/-- The counters at the end of the loop of `collect`. -/
def LoopExit.state {σ α : Type} : LoopExit σ α → σ
  | .done _ s _ => s
  | .ret _ s _ => s

/-- The counters at the end of the loop of `collectn`. -/
def LoopExitN.state {σ α : Type} : LoopExitN σ α → σ
  | .done _ s _ _ => s
  | .ret _ s _ _ => s

theorem collectLoop_count {D : Decoder σ α} {s₀ : σ} {buf : Bytes} {e : Eos} (hp : Productive D s₀)
    (he : EosSane e buf.length) : ∀ k off s c items, buf.length - off ≤ k → ReachItem D s₀ s →
      ∃ x, collectLoop (countedDecoder D) buf e off (s, c) items = some x ∧
        x.state.2.decodes ≤ c.decodes + k ∧ x.state.2.finishes ≤ c.finishes + k := by
  intro k
  induction k with
  | zero =>
    intro off s c items hk hr
    rw [collectLoop, if_neg (by omega)]
    exact ⟨_, rfl, by simp [LoopExit.state]⟩
  | succ k ih =>
    intro off s c items hk hr
    have hri := tryDecode_reachItem (off := off) hr he
    rw [collectLoop]
    split
    · next hlt =>
      rw [tryDecode_counted]
      rcases hstep : tryDecode D s off buf e with ⟨o, s'⟩ | ⟨r, s'⟩
      · have hf := hri.1 _ _ hstep
        have hmove := productive_moves hp hr he hlt hstep
        simp only
        have hd : ∀ c, (countedDecoder D).finish (s', c) =
          ((D.finish s').1, (D.finish s').2, ⟨c.decodes, c.finishes + 1⟩) := fun _ => rfl
        rw [hd]
        rcases hfin : D.finish s' with ⟨r, s''⟩
        rw [hfin] at hf hmove
        cases r with
        | ok x =>
          simp only
          have := hmove rfl
          obtain ⟨x, hx, h1, h2⟩ := ih o s'' ⟨(if D.isIdle s then c else ⟨c.decodes + 1, c.finishes⟩).decodes,
            (if D.isIdle s then c else ⟨c.decodes + 1, c.finishes⟩).finishes + 1⟩ (items ++ [x]) (by omega) hf
          refine ⟨x, hx, ?_⟩
          split at h1 <;> split at h2 <;> simp only at h1 h2 <;> first | omega | contradiction
        | _ =>
          refine ⟨_, rfl, ?_⟩
          simp only [LoopExit.state]
          split <;> (try dsimp only) <;> omega
      · refine ⟨_, rfl, ?_⟩
        simp only [LoopExit.state]
        split <;> (try dsimp only) <;> omega
    · exact ⟨_, rfl, by simp only [LoopExit.state]; omega⟩

theorem collectNLoop_count {D : Decoder σ α} {buf : Bytes} {e : Eos} : ∀ k off s c items,
    (collectNLoop (countedDecoder D) buf e k off (s, c) items).state.2.decodes ≤ c.decodes + k ∧
      (collectNLoop (countedDecoder D) buf e k off (s, c) items).state.2.finishes ≤ c.finishes + k := by
  intro k
  induction k with
  | zero =>
    intro off s c items
    simp [collectNLoop, LoopExitN.state]
  | succ k ih =>
    intro off s c items
    rw [collectNLoop]
    split
    · rw [tryDecode_counted]
      rcases hstep : tryDecode D s off buf e with ⟨o, s'⟩ | ⟨r, s'⟩
      · simp only
        have hd : ∀ c, (countedDecoder D).finish (s', c) =
          ((D.finish s').1, (D.finish s').2, ⟨c.decodes, c.finishes + 1⟩) := fun _ => rfl
        rw [hd]
        rcases hfin : D.finish s' with ⟨r, s''⟩
        cases r with
        | ok x =>
          simp only
          have h := ih o s'' ⟨(if D.isIdle s then c else ⟨c.decodes + 1, c.finishes⟩).decodes,
            (if D.isIdle s then c else ⟨c.decodes + 1, c.finishes⟩).finishes + 1⟩ (items ++ [x])
          refine ⟨Nat.le_trans h.1 ?_, Nat.le_trans h.2 ?_⟩ <;> split <;> simp only <;> omega
        | _ =>
          simp only [LoopExitN.state]
          split <;> (try dsimp only) <;> omega
      · simp only [LoopExitN.state]
        split <;> (try dsimp only) <;> omega
    · simp only [LoopExitN.state]; omega

theorem collectNLoop_count_bytes {D : Decoder σ α} {s₀ : σ} {buf : Bytes} {e : Eos} (hp : Productive D s₀)
    (he : EosSane e buf.length) : ∀ n k off s c items, buf.length - off ≤ k → ReachItem D s₀ s →
      (collectNLoop (countedDecoder D) buf e n off (s, c) items).state.2.decodes ≤ c.decodes + k ∧
        (collectNLoop (countedDecoder D) buf e n off (s, c) items).state.2.finishes ≤ c.finishes + k := by
  intro n
  induction n with
  | zero =>
    intro k off s c items _ _
    simp only [collectNLoop, LoopExitN.state]; omega
  | succ n ih =>
    intro k off s c items hk hr
    have hri := tryDecode_reachItem (off := off) hr he
    rw [collectNLoop]
    split
    · next hlt =>
      rw [tryDecode_counted]
      rcases hstep : tryDecode D s off buf e with ⟨o, s'⟩ | ⟨r, s'⟩
      · have hf := hri.1 _ _ hstep
        have hmove := productive_moves hp hr he hlt hstep
        simp only
        have hd : ∀ c, (countedDecoder D).finish (s', c) =
          ((D.finish s').1, (D.finish s').2, ⟨c.decodes, c.finishes + 1⟩) := fun _ => rfl
        rw [hd]
        rcases hfin : D.finish s' with ⟨r, s''⟩
        rw [hfin] at hf hmove
        cases r with
        | ok x =>
          simp only
          have := hmove rfl
          have h := ih (k - 1) o s'' ⟨(if D.isIdle s then c else ⟨c.decodes + 1, c.finishes⟩).decodes,
            (if D.isIdle s then c else ⟨c.decodes + 1, c.finishes⟩).finishes + 1⟩ (items ++ [x]) (by omega) hf
          refine ⟨Nat.le_trans h.1 ?_, Nat.le_trans h.2 ?_⟩ <;> split <;> simp only <;> omega
        | _ =>
          simp only [LoopExitN.state]
          split <;> (try dsimp only) <;> omega
      · simp only [LoopExitN.state]
        split <;> (try dsimp only) <;> omega
    · simp only [LoopExitN.state]; omega

/-! ## Encoders -/

theorem startNext_count (E : Encoder σ α) : ∀ (xs : List α) (s : σ) (c : EncCalls),
    match startNext (countedEncoder E) (s, c) xs with
    | .exhausted s' => s'.2.encodes = c.encodes ∧ s'.2.starts ≤ c.starts + xs.length
    | .failed _ s' rest => s'.2.encodes = c.encodes ∧ s'.2.starts + rest.length ≤ c.starts + xs.length
    | .busy s' rest => s'.2.encodes = c.encodes ∧ s'.2.starts + rest.length ≤ c.starts + xs.length := by
  intro xs
  induction xs with
  | nil =>
    intro s c
    simp only [startNext]
    split
    · next h =>
      split at h
      · cases h; simp
      · cases h
    · next h => split at h <;> cases h
    · next h =>
      split at h
      · cases h
      · cases h; simp
  | cons x xs ih =>
    intro s c
    by_cases hi : (countedEncoder E).isIdle (s, c) = true
    · have hs : (countedEncoder E).start (s, c) x =
        ((E.start s x).1, (E.start s x).2, ⟨c.encodes, c.starts + 1, c.bytes⟩) := rfl
      simp only [startNext, hi, if_true, hs]
      rcases E.start s x with ⟨r, s'⟩
      cases r with
      | ok u =>
        have h := ih s' ⟨c.encodes, c.starts + 1, c.bytes⟩
        simp only at h ⊢
        split at h <;> simp only [List.length_cons] at h ⊢ <;> omega
      | _ =>
        simp only [List.length_cons, true_and]
        omega
    · simp only [startNext, hi]
      simp

/-- The items `repeat` still holds. -/
def RepeatState.left {σ α : Type} (s : RepeatState σ α) : Nat := (s.items.getD []).length

theorem repeatLoop_count (E : Encoder σ α) (cap : Nat) (e : Eos) (k : Nat) : ∀ (out : Bytes) (s : σ) (c : EncCalls)
    (items : Option (List α)), cap + 1 - out.length ≤ k →
    (repeatLoop (countedEncoder E) cap e out (s, c) items).2.inner.2.encodes ≤ c.encodes + k ∧
    (repeatLoop (countedEncoder E) cap e out (s, c) items).2.inner.2.starts +
      (repeatLoop (countedEncoder E) cap e out (s, c) items).2.left ≤ c.starts + (items.getD []).length := by
  induction k with
  | zero =>
    intro out s c items hk
    rw [repeatLoop]
    have hs := startNext_count E (items.getD []) s c
    rcases hn : startNext (countedEncoder E) (s, c) (items.getD []) with ⟨t, rest⟩ | t | ⟨r, t, rest⟩ <;>
      rw [hn] at hs <;> simp only at hs ⊢
    · rw [if_pos (by omega)]
      cases items <;> simp only [RepeatState.left, Option.map, Option.getD, List.length_nil] at hs ⊢ <;> omega
    · simp only [RepeatState.left, Option.getD_none, List.length_nil]; omega
    · cases items <;> simp only [RepeatState.left, Option.map, Option.getD, List.length_nil] at hs ⊢ <;> omega
  | succ k ih =>
    intro out s c items hk
    rw [repeatLoop]
    have hs := startNext_count E (items.getD []) s c
    rcases hn : startNext (countedEncoder E) (s, c) (items.getD []) with ⟨t, rest⟩ | t | ⟨r, t, rest⟩ <;>
      rw [hn] at hs <;> simp only at hs ⊢
    · have hl : ∀ x : σ × EncCalls, (RepeatState.left ⟨x, items.map fun _ => rest⟩) ≤ rest.length := by
        intro x
        cases items <;> simp [RepeatState.left]
      by_cases hc : cap < out.length
      · rw [if_pos hc]
        have := hl t
        simp only
        omega
      · rw [if_neg hc]
        have he : (countedEncoder E).encode t (cap - out.length) e =
          ((E.encode t.1 (cap - out.length) e).1, (E.encode t.1 (cap - out.length) e).2,
            ⟨t.2.encodes + 1, t.2.starts, t.2.bytes + match (E.encode t.1 (cap - out.length) e).1 with
              | .ok bs => bs.length | _ => 0⟩) := rfl
        rw [he]
        rcases E.encode t.1 (cap - out.length) e with ⟨r, t'⟩
        cases r with
        | ok bs =>
          simp only
          split
          · have := hl (t', ⟨t.2.encodes + 1, t.2.starts, t.2.bytes + bs.length⟩)
            simp only
            omega
          · have h := ih (out ++ bs) t' ⟨t.2.encodes + 1, t.2.starts, t.2.bytes + bs.length⟩ (items.map fun _ => rest)
              (by simp only [List.length_append]; omega)
            have := hl t
            simp only [RepeatState.left] at h this ⊢
            omega
        | _ =>
          have := hl (t', ⟨t.2.encodes + 1, t.2.starts, t.2.bytes + 0⟩)
          simp only at this ⊢
          omega
    · simp only [RepeatState.left, Option.getD_none, List.length_nil]; omega
    · cases items <;> simp only [RepeatState.left, Option.map, Option.getD, List.length_nil] at hs ⊢ <;> omega

theorem encodeAll_count {E : Encoder σ α} {W : Writer ω} {I : σ → Prop} {m : Nat}
    (hI : ∀ s bs s', I s → E.isIdle s = false → E.encode s 1024 (Eos.new false) = (.ok bs, s') →
      I s' ∧ (bs ≠ [] → m ≤ bs.length ∨ E.isIdle s' = true)) :
    ∀ (s : σ × EncCalls) (w : ω × Nat) (x : Res Unit × (σ × EncCalls) × (ω × Nat)),
    encodeAll (countedEncoder E) (countedWriter W) s w = some x → I s.1 →
      m * x.2.1.2.encodes + s.2.bytes ≤ m * s.2.encodes + x.2.1.2.bytes + m ∧
      x.2.2.2 + s.2.bytes ≤ w.2 + x.2.1.2.bytes ∧ s.2.bytes ≤ x.2.1.2.bytes ∧ x.2.1.2.starts = s.2.starts ∧
      (E.isIdle s.1 = true → x.2.1.2.encodes = s.2.encodes) := by
  refine encodeAll.partial_correctness _ _
    (fun (s : σ × EncCalls) (w : ω × Nat) (x : Res Unit × (σ × EncCalls) × (ω × Nat)) => I s.1 →
      m * x.2.1.2.encodes + s.2.bytes ≤ m * s.2.encodes + x.2.1.2.bytes + m ∧
      x.2.2.2 + s.2.bytes ≤ w.2 + x.2.1.2.bytes ∧ s.2.bytes ≤ x.2.1.2.bytes ∧ x.2.1.2.starts = s.2.starts ∧
      (E.isIdle s.1 = true → x.2.1.2.encodes = s.2.encodes)) ?_
  intro loop ih s w x h hs
  by_cases hi : E.isIdle s.1 = true
  · have hi' : (countedEncoder E).isIdle s = true := hi
    rw [if_pos hi'] at h
    cases h
    exact ⟨by simp only; omega, by simp only; omega, by simp only; omega, rfl, fun _ => rfl⟩
  · have hi' : ¬ (countedEncoder E).isIdle s = true := hi
    rw [if_neg hi'] at h
    have he : (countedEncoder E).encode s 1024 (Eos.new false) =
      ((E.encode s.1 1024 (Eos.new false)).1, (E.encode s.1 1024 (Eos.new false)).2,
        ⟨s.2.encodes + 1, s.2.starts, s.2.bytes + match (E.encode s.1 1024 (Eos.new false)).1 with
          | .ok bs => bs.length | _ => 0⟩) := rfl
    rw [he] at h
    have hI' := hI s.1
    rcases hen : E.encode s.1 1024 (Eos.new false) with ⟨r, t⟩
    rw [hen] at h
    have hm : m * (s.2.encodes + 1) = m * s.2.encodes + m := by rw [Nat.mul_add, Nat.mul_one]
    cases r with
    | ok bs =>
      obtain ⟨hIt, hfull⟩ := hI' bs t hs (by simpa using hi) hen
      simp only at h
      split at h
      · cases h
        simp only [hm]
        exact ⟨by omega, by omega, by omega, by trivial, fun h => absurd h hi⟩
      · obtain ⟨k, hk, hw⟩ := writeAll_count (W := W) (f := id) (W' := countedWriter W) (fun _ _ _ => rfl) w.2 w.1 bs
        have hw' : writeAll (countedWriter W) w bs =
          ((writeAll W w.1 bs).1, (writeAll W w.1 bs).2, w.2 + k) := hw
        rw [hw'] at h
        rcases hwr : writeAll W w.1 bs with ⟨r, w'⟩
        rw [hwr] at h
        cases r with
        | ok u =>
          simp only at h
          split at h
          · cases h
            simp only [hm]
            exact ⟨by omega, by omega, by omega, by trivial, fun h => absurd h hi⟩
          · next hne =>
            obtain ⟨h1, h2, h3, h4, h5⟩ := ih _ _ _ h hIt
            simp only at h1 h2 h3 h4 h5
            refine ⟨?_, by omega, by omega, h4, fun h => absurd h hi⟩
            by_cases ht : E.isIdle t = true
            · rw [h5 ht, hm]; omega
            · have ht' : (countedEncoder E).isIdle (t, (⟨s.2.encodes + 1, s.2.starts, s.2.bytes + bs.length⟩ : EncCalls)) = false := by
                simpa [countedEncoder] using ht
              have hbs : bs ≠ [] := by
                rintro rfl
                simp [ht'] at hne
                exact ht hne
              have := (hfull hbs).resolve_right ht
              rw [hm] at h1
              omega
        | _ =>
          cases h
          simp only [hm]
          exact ⟨by omega, by omega, by omega, by trivial, fun h => absurd h hi⟩
    | _ =>
      cases h
      simp only [hm]
      exact ⟨by omega, by omega, by omega, by trivial, fun h => absurd h hi⟩

/-- What one round of `decode_exact` adds to the record of the reader. -/
theorem exactRead_log (R : Reader ρ) (c : ByteCount) (r : ρ × List ReadRes) {a : ReadRes} {r' : ρ × List ReadRes}
    (h : exactRead (loggedReader R) c r = (a, r')) :
    (readSize c = 0 ∧ a = .data [] ∧ r' = r) ∨ (readSize c ≠ 0 ∧ r'.2 = r.2 ++ [a]) := by
  unfold exactRead at h
  split at h
  · next hz =>
    cases h
    exact .inr ⟨hz, rfl⟩
  · next hz =>
    cases h
    exact .inl ⟨by omega, rfl, rfl⟩

theorem decodeExact_count {D : Decoder σ α} {R : Reader ρ} {s₀ : σ} (hR : HonestReader R) (hD : EosStrict D s₀)
    {s : σ × DecCalls} {r : ρ × List ReadRes} {y : Res α} {t : σ × DecCalls} {q : ρ × List ReadRes}
    (h : decodeExact (countedDecoder D) (loggedReader R) s r = some (y, t, q)) : Reach D s₀ s.1 →
      ∃ as, q.2 = r.2 ++ as ∧ as.length ≤ (delivered as).length + 1 ∧ t.2.finishes ≤ s.2.finishes + 1 ∧
        ((∀ u, Reach D s₀ u → D.isIdle u = false → D.requiring u ≠ .finite 0) →
          t.2.decodes ≤ s.2.decodes + as.length + if D.isIdle s.1 then 1 else 0) := by
  refine decodeExact_induct (D := countedDecoder D) (R := loggedReader R) (P := fun s r _ t q => Reach D s₀ s.1 →
    ∃ as, q.2 = r.2 ++ as ∧ as.length ≤ (delivered as).length + 1 ∧ t.2.finishes ≤ s.2.finishes + 1 ∧
        ((∀ u, Reach D s₀ u → D.isIdle u = false → D.requiring u ≠ .finite 0) →
          t.2.decodes ≤ s.2.decodes + as.length + if D.isIdle s.1 then 1 else 0)) ?_ ?_ ?_ ?_ h
  · intro s r k r' he hs
    rcases exactRead_log R _ r he with ⟨_, h, _⟩ | ⟨_, h⟩
    · cases h
    · exact ⟨_, h, by simp, by omega, fun _ => by omega⟩
  · intro s r bs r' y t he _ hz hs
    rcases hz with hlong | ⟨z, hz, _⟩
    · exfalso
      unfold exactRead at he
      split at he
      · simp only [loggedReader, Prod.mk.injEq] at he
        have := hR _ _ _ _ (Prod.ext he.1 rfl)
        have := readSize_le ((countedDecoder D).requiring s)
        omega
      · cases he; simp at hlong
    · have ht : t.2 = ⟨s.2.decodes + 1, s.2.finishes⟩ := by rw [← (Prod.mk.inj hz).2]
      rcases exactRead_log R _ r he with ⟨h0, hb, h⟩ | ⟨_, h⟩
      · refine ⟨[], by rw [h]; simp, by simp, by rw [ht]; simp, fun hask => ?_⟩
        rw [ht]
        cases hi : D.isIdle s.1 with
        | true => simp
        | false =>
          have := hask _ hs hi
          exfalso
          have hrq : (countedDecoder D).requiring s = D.requiring s.1 := rfl
          rw [hrq] at h0
          cases hreq : D.requiring s.1 with
          | finite n => rw [hreq] at h0 this; simp only [readSize] at h0; exact this (congrArg ByteCount.finite (by omega))
          | infinite => rw [hreq] at h0; cases h0
          | unknown => rw [hreq] at h0; cases h0
      · exact ⟨_, h, by simp, by rw [ht]; simp, fun _ => by rw [ht]; simp⟩
  · intro s r bs r' t he hlen hd hi hs
    have ht : t.2 = ⟨s.2.decodes + 1, s.2.finishes⟩ := by rw [← (Prod.mk.inj hd).2]
    have hf : ((countedDecoder D).finish t).2.2 = ⟨s.2.decodes + 1, s.2.finishes + 1⟩ := by
      have : ((countedDecoder D).finish t).2.2 = ⟨t.2.decodes, t.2.finishes + 1⟩ := rfl
      rw [this, ht]
    rcases exactRead_log R _ r he with ⟨h0, hb, h⟩ | ⟨_, h⟩
    · refine ⟨[], by rw [h]; simp, by simp, by rw [hf]; simp, fun hask => ?_⟩
      rw [hf]
      cases hi : D.isIdle s.1 with
      | true => simp
      | false =>
        have := hask _ hs hi
        exfalso
        have hrq : (countedDecoder D).requiring s = D.requiring s.1 := rfl
        rw [hrq] at h0
        cases hreq : D.requiring s.1 with
        | finite n => rw [hreq] at h0 this; simp only [readSize] at h0; exact this (congrArg ByteCount.finite (by omega))
        | infinite => rw [hreq] at h0; cases h0
        | unknown => rw [hreq] at h0; cases h0
    · exact ⟨_, h, by simp, by rw [hf]; simp, fun _ => by rw [hf]; simp⟩
  · intro s r bs r' s' y t q he hlen hd hi ih hs
    have ht : s'.2 = ⟨s.2.decodes + 1, s.2.finishes⟩ := by rw [← (Prod.mk.inj hd).2]
    have hd' : D.decode s.1 bs (Eos.new (readSize ((countedDecoder D).requiring s) ≠ 0 && bs.isEmpty)) = (.ok bs.length, s'.1) := by
      have h1 := (Prod.mk.inj hd).1
      have h2 := (Prod.mk.inj hd).2
      exact Prod.ext h1 (by rw [← h2])
    have hi' : D.isIdle s'.1 = false := hi
    have hs' : Reach D s₀ s'.1 := by
      have := hs.decode bs (Eos.new (readSize ((countedDecoder D).requiring s) ≠ 0 && bs.isEmpty))
        (sane_new _ (by omega))
      rw [hd'] at this
      exact this
    obtain ⟨as, h1, h2, h3, h4⟩ := ih hs'
    rw [ht] at h3 h4
    rw [hi'] at h4
    simp only [Bool.false_eq_true, if_false] at h3 h4
    rcases exactRead_log R _ r he with ⟨h0, hb, h⟩ | ⟨hz, h⟩
    · refine ⟨as, by rw [h1, h], h2, h3, fun hask => ?_⟩
      have h4 := h4 hask
      cases hi : D.isIdle s.1 with
      | true => simp only [if_true]; omega
      | false =>
        have := hask _ hs hi
        exfalso
        have hrq : (countedDecoder D).requiring s = D.requiring s.1 := rfl
        rw [hrq] at h0
        cases hreq : D.requiring s.1 with
        | finite n => rw [hreq] at h0 this; simp only [readSize] at h0; exact this (congrArg ByteCount.finite (by omega))
        | infinite => rw [hreq] at h0; cases h0
        | unknown => rw [hreq] at h0; cases h0
    · have hbs : bs ≠ [] := by
        rintro rfl
        have : (Eos.new (readSize ((countedDecoder D).requiring s) ≠ 0 && ([] : Bytes).isEmpty)) = Eos.new true := by
          simp [hz]
        rw [this] at hd'
        have := hD _ hs _ _ _ (by simp) hd'
        rw [hi'] at this; cases this
      have hpos : 0 < bs.length := List.length_pos_iff.2 hbs
      refine ⟨.data bs :: as, by rw [h1, h]; simp, ?_, h3, fun hask => ?_⟩
      · simp only [delivered, List.flatMap_cons, List.length_append, List.length_cons, ReadRes.bytes] at h2 ⊢
        omega
      · have h4 := h4 hask
        simp only [List.length_cons]
        omega

end Bytecodec
