import Verif.Spec.TrackedBuf
import Verif.Lemmas.TrackedEraseEnc
import Verif.Lemmas.TrackedOriginEnc
/-!
# Buffered I/O with whole errors
-/
namespace Bytecodec

variable {κ σ α β ρ ω τ υ : Type}

/-! ## Erasure -/

theorem tFill_erase (R : TReader κ ρ) (b : ReadBuf) (r : ρ) : eraseP (b.tFill R r) = b.fill R.erase r := by
  induction b, r using ReadBuf.tFill.induct (R := R) with
  | case1 b r h1 => rw [ReadBuf.tFill, ReadBuf.fill, dif_pos h1, dif_pos h1]; rfl
  | case2 b r h1 h2 => rw [ReadBuf.tFill, ReadBuf.fill, dif_neg h1, dif_neg h1, dif_pos h2, dif_pos h2]; rfl
  | case3 b r h1 h2 c r' hr =>
    rw [ReadBuf.tFill, ReadBuf.fill, dif_neg h1, dif_neg h1, dif_neg h2, dif_neg h2]
    simp only [TReader.erase, hr, TReadRes.erase]; rfl
  | case4 b r h1 h2 k c r' hr hk =>
    rw [ReadBuf.tFill, ReadBuf.fill, dif_neg h1, dif_neg h1, dif_neg h2, dif_neg h2]
    simp only [TReader.erase, hr, TReadRes.erase, if_neg hk]; rfl
  | case5 b r h1 h2 r' hr =>
    rw [ReadBuf.tFill, ReadBuf.fill, dif_neg h1, dif_neg h1, dif_neg h2, dif_neg h2]
    simp only [TReader.erase, hr, TReadRes.erase]; rfl
  | case6 b r h1 h2 x xs r' hr ih =>
    rw [ReadBuf.tFill, ReadBuf.fill, dif_neg h1, dif_neg h1, dif_neg h2, dif_neg h2]
    simp only [TReader.erase, hr, TReadRes.erase] at ih ⊢
    exact ih

theorem tFlushLoop_erase (W : TWriter κ ω) (b : WriteBuf) (w : ω) : eraseP (b.tFlushLoop W w) = b.flushLoop W.erase w := by
  induction b, w using WriteBuf.tFlushLoop.induct (W := W) with
  | case1 b w h1 => rw [WriteBuf.tFlushLoop, WriteBuf.flushLoop, dif_pos h1, dif_pos h1]; rfl
  | case2 b w h1 h2 => rw [WriteBuf.tFlushLoop, WriteBuf.flushLoop, dif_neg h1, dif_neg h1, dif_pos h2, dif_pos h2]; rfl
  | case3 b w h1 h2 c w' hr =>
    rw [WriteBuf.tFlushLoop, WriteBuf.flushLoop, dif_neg h1, dif_neg h1, dif_neg h2, dif_neg h2]
    simp only [TWriter.erase, hr, TWriteRes.erase]; rfl
  | case4 b w h1 h2 k c w' hr hk =>
    rw [WriteBuf.tFlushLoop, WriteBuf.flushLoop, dif_neg h1, dif_neg h1, dif_neg h2, dif_neg h2]
    simp only [TWriter.erase, hr, TWriteRes.erase, if_neg hk]; rfl
  | case5 b w h1 h2 w' hr =>
    rw [WriteBuf.tFlushLoop, WriteBuf.flushLoop, dif_neg h1, dif_neg h1, dif_neg h2, dif_neg h2]
    simp only [TWriter.erase, hr, TWriteRes.erase]; rfl
  | case6 b w h1 h2 n w' hr ih =>
    rw [WriteBuf.tFlushLoop, WriteBuf.flushLoop, dif_neg h1, dif_neg h1, dif_neg h2, dif_neg h2]
    simp only [TWriter.erase, hr, TWriteRes.erase] at ih ⊢
    exact ih

theorem tFlush_erase (W : TWriter κ ω) (b : WriteBuf) (w : ω) : eraseP (b.tFlush W w) = b.flush W.erase w := by
  unfold WriteBuf.tFlush WriteBuf.flush
  rw [eraseP_step, tFlushLoop_erase]; rfl

theorem tExecuteIo_erase (T : TStream κ τ) (io : BufferedIo τ) : eraseP (io.tExecuteIo T) = io.executeIo T.erase := by
  unfold BufferedIo.tExecuteIo BufferedIo.executeIo
  rw [eraseP_step, eraseP_tracked, tFill_erase]
  congr 1
  funext _ p
  rw [eraseP_step, eraseP_tracked, tFlush_erase]; rfl

theorem tDecodeFromReadBuf_erase (D : TDecoder κ σ α) (s : σ) (b : ReadBuf) :
    eraseP (tDecodeFromReadBuf D s b) = decodeFromReadBuf D.erase s b := by
  unfold tDecodeFromReadBuf decodeFromReadBuf
  rw [eraseP_ite, eraseP_step, eraseP_tracked]; rfl

theorem tEncodeToWriteBufAt_erase (l : Nat) (E : TEncoder κ σ α) (s : σ) (b : WriteBuf) :
    eraseP (tEncodeToWriteBufAt l E s b) = encodeToWriteBuf E.erase s b := by
  unfold tEncodeToWriteBufAt encodeToWriteBuf
  rw [eraseP_ite, eraseP_step, eraseP_tracked]; rfl

theorem tEncodeToWriteBufAsync_erase (E : TEncoder κ σ α) (s : σ) (b : WriteBuf) (k : Nat) :
    eraseP (tEncodeToWriteBufAsync E s b k) = encodeToWriteBufAsync E.erase s b k := by
  unfold tEncodeToWriteBufAsync encodeToWriteBufAsync
  rw [eraseP_step, tEncodeToWriteBufAt_erase]; rfl

/-- As `eraseP`, for a call that may be `Pending`. -/
def erasePollP (p : Poll (TRes κ α) × τ) : Poll (Res α) × τ := (p.1.eraseRes, p.2)

theorem tPollFill_erase (R : TAsyncReader κ ρ) (b : ReadBuf) (r : ρ) :
    erasePollP (b.tPollFill R r) = b.pollFill R.erase r := by
  induction b, r using ReadBuf.tPollFill.induct (R := R) with
  | case1 b r h1 => rw [ReadBuf.tPollFill, ReadBuf.pollFill, dif_pos h1, dif_pos h1]; rfl
  | case2 b r h1 h2 => rw [ReadBuf.tPollFill, ReadBuf.pollFill, dif_neg h1, dif_neg h1, dif_pos h2, dif_pos h2]; rfl
  | case3 b r h1 h2 r' hr =>
    rw [ReadBuf.tPollFill, ReadBuf.pollFill, dif_neg h1, dif_neg h1, dif_neg h2, dif_neg h2]
    simp only [TAsyncReader.erase, hr]; rfl
  | case4 b r h1 h2 r' hr =>
    rw [ReadBuf.tPollFill, ReadBuf.pollFill, dif_neg h1, dif_neg h1, dif_neg h2, dif_neg h2]
    simp only [TAsyncReader.erase, hr, TReadRes.erase]; rfl
  | case5 b r h1 h2 x xs r' hr ih =>
    rw [ReadBuf.tPollFill, ReadBuf.pollFill, dif_neg h1, dif_neg h1, dif_neg h2, dif_neg h2]
    simp only [TAsyncReader.erase, hr, TReadRes.erase] at ih ⊢
    exact ih
  | case6 b r h1 h2 k c r' hr =>
    rw [ReadBuf.tPollFill, ReadBuf.pollFill, dif_neg h1, dif_neg h1, dif_neg h2, dif_neg h2]
    simp only [TAsyncReader.erase, hr, TReadRes.erase]; rfl

theorem tPollFlush_erase (W : TAsyncWriter κ ω) (b : WriteBuf) (w : ω) :
    erasePollP (b.tPollFlush W w) = b.pollFlush W.erase w := by
  induction b, w using WriteBuf.tPollFlush.induct (W := W) with
  | case1 b w h1 => rw [WriteBuf.tPollFlush, WriteBuf.pollFlush, dif_pos h1, dif_pos h1]; rfl
  | case2 b w h1 h2 => rw [WriteBuf.tPollFlush, WriteBuf.pollFlush, dif_neg h1, dif_neg h1, dif_pos h2, dif_pos h2]; rfl
  | case3 b w h1 h2 k c w' hr =>
    rw [WriteBuf.tPollFlush, WriteBuf.pollFlush, dif_neg h1, dif_neg h1, dif_neg h2, dif_neg h2]
    simp only [TAsyncWriter.erase, hr, TWriteRes.erase]; rfl
  | case4 b w h1 h2 w' hr =>
    rw [WriteBuf.tPollFlush, WriteBuf.pollFlush, dif_neg h1, dif_neg h1, dif_neg h2, dif_neg h2]
    simp only [TAsyncWriter.erase, hr, TWriteRes.erase]; rfl
  | case5 b w h1 h2 n w' hr ih =>
    rw [WriteBuf.tPollFlush, WriteBuf.pollFlush, dif_neg h1, dif_neg h1, dif_neg h2, dif_neg h2]
    simp only [TAsyncWriter.erase, hr, TWriteRes.erase] at ih ⊢
    exact ih
  | case6 b w h1 h2 w' hr =>
    rw [WriteBuf.tPollFlush, WriteBuf.pollFlush, dif_neg h1, dif_neg h1, dif_neg h2, dif_neg h2]
    simp only [TAsyncWriter.erase, hr]; rfl

theorem tExecuteIoPoll_erase (T : TAsyncStream κ τ) (io : BufferedIo τ) :
    erasePollP (io.tExecuteIoPoll T) = io.executeIoPoll T.erase := by
  have h1 := tPollFill_erase T.reader io.rbuf io.stream
  unfold BufferedIo.tExecuteIoPoll BufferedIo.executeIoPoll
  simp only [TAsyncStream.erase, ← h1]
  rcases io.rbuf.tPollFill T.reader io.stream with ⟨p, rb, st⟩
  have h2 := tPollFlush_erase T.writer io.wbuf st
  rcases p with _ | ⟨_ | _ | _ | _ | _⟩ <;> simp only [erasePollP, Poll.eraseRes, TRes.erase, ← h2] <;>
    rcases io.wbuf.tPollFlush T.writer st with ⟨_ | ⟨_ | _ | _ | _ | _⟩, wb, st'⟩ <;> rfl

/-! ## Noting -/

theorem ofIo_becauseOf (k : IoErr) (c : κ) : TError.ofIo k c = becauseOf k c := rfl

theorem tFill_noting (R : TReader κ ρ) (b : ReadBuf) (p : ρ × List (Failed κ)) :
    ∃ fs, b.tFill R.noting p = ((b.tFill R p.1).1, (b.tFill R p.1).2.1, (b.tFill R p.1).2.2, p.2 ++ fs) ∧
      Reports fs (b.tFill R p.1).1 ∧ (fs ≠ [] → (b.tFill R p.1).2.1.state = .error) := by
  obtain ⟨r, l⟩ := p
  simp only
  induction b, r using ReadBuf.tFill.induct (R := R) with
  | case1 b r h1 =>
    refine ⟨[], ?_, ?_, fun h => absurd rfl h⟩
    · rw [ReadBuf.tFill, ReadBuf.tFill, dif_pos h1, dif_pos h1, List.append_nil]
    · rw [ReadBuf.tFill, dif_pos h1]; nofun
  | case2 b r h1 h2 =>
    refine ⟨[], ?_, ?_, fun h => absurd rfl h⟩
    · rw [ReadBuf.tFill, ReadBuf.tFill, dif_neg h1, dif_neg h1, dif_pos h2, dif_pos h2, List.append_nil]
    · rw [ReadBuf.tFill, dif_neg h1, dif_pos h2]; nofun
  | case3 b r h1 h2 c r' hr =>
    have e : b.tFill R r = (.ok (), { b with state := .wouldBlock }, r') := by
      rw [ReadBuf.tFill, dif_neg h1, dif_neg h2, hr]; rfl
    rw [e]
    refine ⟨[], ?_, nofun, fun h => absurd rfl h⟩
    rw [ReadBuf.tFill, dif_neg h1, dif_neg h2]
    simp only [TReader.noting, hr]; rfl
  | case4 b r h1 h2 k c r' hr hk =>
    have e : b.tFill R r = (.err ((TError.ofIo k c).track ⟨"io.rs", 211⟩), { b with state := .error }, r') := by
      rw [ReadBuf.tFill, dif_neg h1, dif_neg h2, hr]; simp only [if_neg hk]
    rw [e]
    refine ⟨[(k, c)], ?_, ⟨_, rfl, (Surfaces.refl _).track _⟩, fun _ => rfl⟩
    rw [ReadBuf.tFill, dif_neg h1, dif_neg h2]
    simp [TReader.noting, hr, TReadRes.failures, hard, hk]
  | case5 b r h1 h2 r' hr =>
    have e : b.tFill R r = (.ok (), { b with state := .eos }, r') := by
      rw [ReadBuf.tFill, dif_neg h1, dif_neg h2, hr]
    rw [e]
    refine ⟨[], ?_, nofun, fun h => absurd rfl h⟩
    rw [ReadBuf.tFill, dif_neg h1, dif_neg h2]
    simp only [TReader.noting, hr]; rfl
  | case6 b r h1 h2 x xs r' hr ih =>
    have e : b.tFill R r = ReadBuf.tFill R { b with
        inner := splice b.inner b.tail ((x :: xs).take (b.inner.length - b.tail)), state := .normal,
        tail := b.tail + (x :: xs).length } r' := by
      rw [ReadBuf.tFill, dif_neg h1, dif_neg h2, hr]
    rw [e]
    obtain ⟨fs, i1, i2⟩ := ih
    refine ⟨fs, ?_, i2⟩
    rw [ReadBuf.tFill, dif_neg h1, dif_neg h2]
    have e2 : (R.noting.read (r, l) (b.inner.length - b.tail)) = (.data (x :: xs), r', l) := by
      simp [TReader.noting, hr, TReadRes.failures, hard]
    rw [e2]
    exact i1

theorem tFlushLoop_noting (W : TWriter κ ω) (b : WriteBuf) (p : ω × List (Failed κ)) :
    ∃ fs, b.tFlushLoop W.noting p =
        ((b.tFlushLoop W p.1).1, (b.tFlushLoop W p.1).2.1, (b.tFlushLoop W p.1).2.2, p.2 ++ fs) ∧
      Reports fs (b.tFlushLoop W p.1).1 ∧ (fs ≠ [] → (b.tFlushLoop W p.1).2.1.state = .error) := by
  obtain ⟨w, l⟩ := p
  simp only
  induction b, w using WriteBuf.tFlushLoop.induct (W := W) with
  | case1 b w h1 =>
    refine ⟨[], ?_, ?_, fun h => absurd rfl h⟩
    · rw [WriteBuf.tFlushLoop, WriteBuf.tFlushLoop, dif_pos h1, dif_pos h1, List.append_nil]
    · rw [WriteBuf.tFlushLoop, dif_pos h1]; nofun
  | case2 b w h1 h2 =>
    refine ⟨[], ?_, ?_, fun h => absurd rfl h⟩
    · rw [WriteBuf.tFlushLoop, WriteBuf.tFlushLoop, dif_neg h1, dif_neg h1, dif_pos h2, dif_pos h2, List.append_nil]
    · rw [WriteBuf.tFlushLoop, dif_neg h1, dif_pos h2]; nofun
  | case3 b w h1 h2 c w' hr =>
    have e : b.tFlushLoop W w = (.ok (), { b with state := .wouldBlock }, w') := by
      rw [WriteBuf.tFlushLoop, dif_neg h1, dif_neg h2, hr]; rfl
    rw [e]
    refine ⟨[], ?_, nofun, fun h => absurd rfl h⟩
    rw [WriteBuf.tFlushLoop, dif_neg h1, dif_neg h2]
    simp only [TWriter.noting, hr]; rfl
  | case4 b w h1 h2 k c w' hr hk =>
    have e : b.tFlushLoop W w = (.err ((TError.ofIo k c).track ⟨"io.rs", 332⟩), { b with state := .error }, w') := by
      rw [WriteBuf.tFlushLoop, dif_neg h1, dif_neg h2, hr]; simp only [if_neg hk]
    rw [e]
    refine ⟨[(k, c)], ?_, ⟨_, rfl, (Surfaces.refl _).track _⟩, fun _ => rfl⟩
    rw [WriteBuf.tFlushLoop, dif_neg h1, dif_neg h2]
    simp [TWriter.noting, hr, TWriteRes.failures, hard, hk]
  | case5 b w h1 h2 w' hr =>
    have e : b.tFlushLoop W w = (.ok (), { b with state := .eos }, w') := by
      rw [WriteBuf.tFlushLoop, dif_neg h1, dif_neg h2, hr]
    rw [e]
    refine ⟨[], ?_, nofun, fun h => absurd rfl h⟩
    rw [WriteBuf.tFlushLoop, dif_neg h1, dif_neg h2]
    simp only [TWriter.noting, hr]; rfl
  | case6 b w h1 h2 n w' hr ih =>
    have e : b.tFlushLoop W w = WriteBuf.tFlushLoop W ({ b with state := .normal }.consume (n + 1)) w' := by
      rw [WriteBuf.tFlushLoop, dif_neg h1, dif_neg h2, hr]
    rw [e]
    obtain ⟨fs, i1, i2⟩ := ih
    refine ⟨fs, ?_, i2⟩
    rw [WriteBuf.tFlushLoop, dif_neg h1, dif_neg h2]
    have e2 : (W.noting.write (w, l) ((b.inner.take b.tail).drop b.head)) = (.wrote (n + 1), w', l) := by
      simp [TWriter.noting, hr, TWriteRes.failures, hard]
    rw [e2]
    exact i1

theorem reports_tracked {fs : List (Failed κ)} {r : TRes κ Unit} (l : Loc) {υ : Type} (t : υ) (h : Reports fs r) :
    Reports fs (tracked l (r, t)).1 := by
  match fs, h with
  | [], h =>
    intro x hx
    cases r with
    | err e => exact h e rfl
    | _ => cases hx
  | [(k, c)], ⟨x, hr, hx⟩ => subst hr; exact ⟨_, rfl, hx.track l⟩

theorem tracked_state (l : Loc) (p : TRes κ α × τ) : (tracked l p).2 = p.2 := by
  rcases p with ⟨_ | _ | _ | _ | _, s⟩ <;> rfl

theorem tFlush_noting (W : TWriter κ ω) (b : WriteBuf) (p : ω × List (Failed κ)) :
    ∃ fs, b.tFlush W.noting p = ((b.tFlush W p.1).1, (b.tFlush W p.1).2.1, (b.tFlush W p.1).2.2, p.2 ++ fs) ∧
      Reports fs (b.tFlush W p.1).1 ∧ (fs ≠ [] → (b.tFlush W p.1).2.1.state = .error) := by
  obtain ⟨fs, h1, h2, h3⟩ := tFlushLoop_noting W b p
  refine ⟨fs, ?_⟩
  unfold WriteBuf.tFlush
  rw [h1]
  rcases hq : b.tFlushLoop W p.1 with ⟨_ | e | _ | _ | _, b', w'⟩ <;> rw [hq] at h2 h3
  · refine ⟨rfl, h2, fun hf => ?_⟩
    match fs, h2, hf with
    | [(k, c)], ⟨x, hx, _⟩, _ => cases hx
    | [], _, hf => exact absurd rfl hf
  · exact ⟨rfl, h2, h3⟩
  · exact ⟨rfl, h2, h3⟩
  · exact ⟨rfl, h2, h3⟩
  · exact ⟨rfl, h2, h3⟩

theorem tPollFill_noting (R : TAsyncReader κ ρ) (b : ReadBuf) (p : ρ × List (Failed κ)) :
    ∃ fs, b.tPollFill R.noting p =
        ((b.tPollFill R p.1).1, (b.tPollFill R p.1).2.1, (b.tPollFill R p.1).2.2, p.2 ++ fs) ∧
      ReportsPoll fs (b.tPollFill R p.1).1 ∧ (fs ≠ [] → (b.tPollFill R p.1).2.1.state = .error) := by
  obtain ⟨r, l⟩ := p
  simp only
  induction b, r using ReadBuf.tPollFill.induct (R := R) with
  | case1 b r h1 =>
    refine ⟨[], ?_, ?_, fun h => absurd rfl h⟩
    · rw [ReadBuf.tPollFill, ReadBuf.tPollFill, dif_pos h1, dif_pos h1, List.append_nil]
    · rw [ReadBuf.tPollFill, dif_pos h1]; nofun
  | case2 b r h1 h2 =>
    refine ⟨[], ?_, ?_, fun h => absurd rfl h⟩
    · rw [ReadBuf.tPollFill, ReadBuf.tPollFill, dif_neg h1, dif_neg h1, dif_pos h2, dif_pos h2, List.append_nil]
    · rw [ReadBuf.tPollFill, dif_neg h1, dif_pos h2]; nofun
  | case3 b r h1 h2 r' hr =>
    have e : b.tPollFill R r = (.pending, { b with state := .wouldBlock }, r') := by
      rw [ReadBuf.tPollFill, dif_neg h1, dif_neg h2, hr]
    rw [e]
    refine ⟨[], ?_, rfl, fun h => absurd rfl h⟩
    rw [ReadBuf.tPollFill, dif_neg h1, dif_neg h2]
    simp [TAsyncReader.noting, hr]
  | case4 b r h1 h2 r' hr =>
    have e : b.tPollFill R r = (.ready (.ok ()), { b with state := .eos }, r') := by
      rw [ReadBuf.tPollFill, dif_neg h1, dif_neg h2, hr]
    rw [e]
    refine ⟨[], ?_, nofun, fun h => absurd rfl h⟩
    rw [ReadBuf.tPollFill, dif_neg h1, dif_neg h2]
    simp [TAsyncReader.noting, hr, TReadRes.failures]
  | case5 b r h1 h2 x xs r' hr ih =>
    have e : b.tPollFill R r = ReadBuf.tPollFill R { b with
        inner := splice b.inner b.tail ((x :: xs).take (b.inner.length - b.tail)), state := .normal,
        tail := b.tail + (x :: xs).length } r' := by
      rw [ReadBuf.tPollFill, dif_neg h1, dif_neg h2, hr]
    rw [e]
    obtain ⟨fs, i1, i2⟩ := ih
    refine ⟨fs, ?_, i2⟩
    rw [ReadBuf.tPollFill, dif_neg h1, dif_neg h2]
    have e2 : (R.noting.pollRead (r, l) (b.inner.length - b.tail)) = (.ready (.data (x :: xs)), r', l) := by
      simp [TAsyncReader.noting, hr, TReadRes.failures]
    rw [e2]
    exact i1
  | case6 b r h1 h2 k c r' hr =>
    have e : b.tPollFill R r =
        (.ready (.err ((TError.ofIo k c).track ⟨"io_async.rs", 38⟩)), { b with state := .error }, r') := by
      rw [ReadBuf.tPollFill, dif_neg h1, dif_neg h2, hr]
    rw [e]
    refine ⟨[(k, c)], ?_, ⟨_, rfl, (Surfaces.refl _).track _⟩, fun _ => rfl⟩
    rw [ReadBuf.tPollFill, dif_neg h1, dif_neg h2]
    simp [TAsyncReader.noting, hr, TReadRes.failures]

theorem tPollFlush_noting (W : TAsyncWriter κ ω) (b : WriteBuf) (p : ω × List (Failed κ)) :
    ∃ fs, b.tPollFlush W.noting p =
        ((b.tPollFlush W p.1).1, (b.tPollFlush W p.1).2.1, (b.tPollFlush W p.1).2.2, p.2 ++ fs) ∧
      ReportsPoll fs (b.tPollFlush W p.1).1 ∧ (fs ≠ [] → (b.tPollFlush W p.1).2.1.state = .error) := by
  obtain ⟨w, l⟩ := p
  simp only
  induction b, w using WriteBuf.tPollFlush.induct (W := W) with
  | case1 b w h1 =>
    refine ⟨[], ?_, ?_, fun h => absurd rfl h⟩
    · rw [WriteBuf.tPollFlush, WriteBuf.tPollFlush, dif_pos h1, dif_pos h1, List.append_nil]
    · rw [WriteBuf.tPollFlush, dif_pos h1]; nofun
  | case2 b w h1 h2 =>
    refine ⟨[], ?_, ?_, fun h => absurd rfl h⟩
    · rw [WriteBuf.tPollFlush, WriteBuf.tPollFlush, dif_neg h1, dif_neg h1, dif_pos h2, dif_pos h2, List.append_nil]
    · rw [WriteBuf.tPollFlush, dif_neg h1, dif_pos h2]; nofun
  | case3 b w h1 h2 k c w' hr =>
    have e : b.tPollFlush W w =
        (.ready (.err ((TError.ofIo k c).track ⟨"io_async.rs", 67⟩)), { b with state := .error }, w') := by
      rw [WriteBuf.tPollFlush, dif_neg h1, dif_neg h2, hr]
    rw [e]
    refine ⟨[(k, c)], ?_, ⟨_, rfl, (Surfaces.refl _).track _⟩, fun _ => rfl⟩
    rw [WriteBuf.tPollFlush, dif_neg h1, dif_neg h2]
    simp [TAsyncWriter.noting, hr, TWriteRes.failures]
  | case4 b w h1 h2 w' hr =>
    have e : b.tPollFlush W w = (.ready (.ok ()), { b with state := .eos }, w') := by
      rw [WriteBuf.tPollFlush, dif_neg h1, dif_neg h2, hr]
    rw [e]
    refine ⟨[], ?_, nofun, fun h => absurd rfl h⟩
    rw [WriteBuf.tPollFlush, dif_neg h1, dif_neg h2]
    simp [TAsyncWriter.noting, hr, TWriteRes.failures]
  | case5 b w h1 h2 n w' hr ih =>
    have e : b.tPollFlush W w = WriteBuf.tPollFlush W ({ b with state := .normal }.consume (n + 1)) w' := by
      rw [WriteBuf.tPollFlush, dif_neg h1, dif_neg h2, hr]
    rw [e]
    obtain ⟨fs, i1, i2⟩ := ih
    refine ⟨fs, ?_, i2⟩
    rw [WriteBuf.tPollFlush, dif_neg h1, dif_neg h2]
    have e2 : (W.noting.pollWrite (w, l) ((b.inner.take b.tail).drop b.head)) = (.ready (.wrote (n + 1)), w', l) := by
      simp [TAsyncWriter.noting, hr, TWriteRes.failures]
    rw [e2]
    exact i1
  | case6 b w h1 h2 w' hr =>
    have e : b.tPollFlush W w = (.pending, { b with state := .wouldBlock }, w') := by
      rw [WriteBuf.tPollFlush, dif_neg h1, dif_neg h2, hr]
    rw [e]
    refine ⟨[], ?_, rfl, fun h => absurd rfl h⟩
    rw [WriteBuf.tPollFlush, dif_neg h1, dif_neg h2]
    simp [TAsyncWriter.noting, hr]

theorem tPollFill_results (R : TAsyncReader κ ρ) (b : ReadBuf) (r : ρ) :
    (b.tPollFill R r).1 ≠ .ready .capacity ∧ (b.tPollFill R r).1 ≠ .ready .diverge := by
  induction b, r using ReadBuf.tPollFill.induct (R := R) with
  | case1 b r h1 => rw [ReadBuf.tPollFill, dif_pos h1]; exact ⟨nofun, nofun⟩
  | case2 b r h1 h2 => rw [ReadBuf.tPollFill, dif_neg h1, dif_pos h2]; exact ⟨nofun, nofun⟩
  | case3 b r h1 h2 r' hr => rw [ReadBuf.tPollFill, dif_neg h1, dif_neg h2, hr]; exact ⟨nofun, nofun⟩
  | case4 b r h1 h2 r' hr => rw [ReadBuf.tPollFill, dif_neg h1, dif_neg h2, hr]; exact ⟨nofun, nofun⟩
  | case5 b r h1 h2 x xs r' hr ih => rw [ReadBuf.tPollFill, dif_neg h1, dif_neg h2, hr]; exact ih
  | case6 b r h1 h2 k c r' hr => rw [ReadBuf.tPollFill, dif_neg h1, dif_neg h2, hr]; exact ⟨nofun, nofun⟩

theorem reportsPoll_cases {fs : List (Failed κ)} {p : Poll (TRes κ Unit)} (h : ReportsPoll fs p) :
    fs = [] ∧ (∀ x, p ≠ .ready (.err x)) ∨ ∃ k c x, fs = [(k, c)] ∧ p = .ready (.err x) ∧ Surfaces (becauseOf k c) x := by
  cases p with
  | pending => exact .inl ⟨h, nofun⟩
  | ready r =>
    match fs, h with
    | [], h => exact .inl ⟨rfl, fun x hx => h x (by cases hx; rfl)⟩
    | [(k, c)], ⟨x, hr, hx⟩ => exact .inr ⟨k, c, x, rfl, by rw [hr], hx⟩

end Bytecodec
