import Verif.Lemmas.Retry
import Verif.Props.Exact
import Verif.Props.Encoding
/-!
# C93: calls that failed because of the stream can be repeated

`decode_exact`, `fill` and `flush` keep everything they have got when a read or a write fails, and go on when they
are called again. `encode_all` does not: what it has taken from the encoder and not yet written is lost.
-/
namespace Bytecodec.Props

open Spec

variable {σ τ α ω ρ : Type}

theorem hesitating_tries (k : Nat) : TriesReading (hesitating k) (unhesitating k) := by
  rintro ⟨_ | m, bs⟩ n <;> rfl

theorem hesitating_finite (k : Nat) : FailsFinitely (hesitating k) (fun r => r.1 + k * r.2.length) := by
  rintro ⟨_ | m, bs⟩ n
  · cases bs with
    | nil => simp [hesitating]
    | cons b bs =>
      rcases n with _ | n
      · simp [hesitating]
      · simp only [hesitating, reduceCtorEq, Nat.succ_ne_zero, or_self, if_false]
        rw [show min 1 (n + 1) = 1 by omega]
        simp only [List.drop_one, List.tail_cons, List.length_cons, Nat.mul_add]
        omega
  · simp only [hesitating]; omega

theorem hesitatingWriter_tries : TriesWriting hesitatingWriter unhesitatingWriter := by
  rintro ⟨_ | _ | m, out⟩ buf
  · rfl
  · rfl
  · simp [hesitatingWriter, unhesitatingWriter]

/-- C93: whoever calls `decode_exact` again and again until no read has failed gets in the end what they would
have got with a reader that does not fail, and decoder and reader are left as they would have been. Any decoder, any
errors of the reader, any number of them and at any places. -/
theorem C93_decode_exact {D : Decoder σ α} {R V : Reader ρ} (h : TriesReading R V) {n : Nat} {s s' : σ} {r r' : ρ}
    {y : Res α} (hi : Insists D R n s r y s' r') : decodeExact D V s r = some (y, s', r') :=
  insists_outcome h hi

/-- A number of two bytes, over a reader that would block once before each byte: two calls fail. -/
example : Insists u16beDecoder (hesitating 1) 2 (.new [0, 0]) (1, [1, 2]) (.ok 258) ⟨[1, 2], 0⟩ (1, []) := by
  refine .again (u := .new [0, 0]) (v := (0, [1, 2])) (x := .err .other) (log := [.error .wouldBlock]) (io := .wouldBlock)
    ?_ rfl (.again (u := ⟨[1, 0], 1⟩) (v := (0, [2])) (x := .err .other) (log := [.data [1], .error .wouldBlock])
    (io := .wouldBlock) ?_ rfl (.once (log := [.data [2]]) ?_ (by simp)))
  · rw [decodeExact_eq]; rfl
  · rw [decodeExact_eq]
    show decodeExact u16beDecoder (loggedReader (hesitating 1)) ⟨[1, 0], 1⟩ ((1, [2]), [.data [1]]) = _
    rw [decodeExact_eq]; rfl
  · rw [decodeExact_eq]; rfl

/-- C93: a call that fails because of the reader says so, and does not change what comes out in the end. -/
theorem C93_failed_call {D : Decoder σ α} {R V : Reader ρ} (h : TriesReading R V) {s s' : σ} {r r' : ρ} {y : Res α}
    {log : List ReadRes} {io : IoErr} (hd : decodeExact D (loggedReader R) s (r, []) = some (y, s', (r', log)))
    (hl : log.getLast? = some (.error io)) :
    y = .err (ErrorKind.ofIo io) ∧ decodeExact D V s' r' = decodeExact D V s r := by
  obtain ⟨as, q1, q2⟩ := decodeExact_tries h hd
  rw [List.nil_append] at q1
  subst q1
  rcases q2 with ⟨q2, _⟩ | ⟨io', q2, q3⟩
  · exact absurd hl (q2 io)
  · rw [hl] at q2
    cases q2
    exact q3

/-- C93: if the reader fails only finitely often, then trying again comes to an end, after at most as many failed
calls as the reader has failures. -/
theorem C93_decode_exact_arrives {D : Decoder σ α} {R V : Reader ρ} (h : TriesReading R V) {left : ρ → Nat}
    (hf : FailsFinitely R left) {s s' : σ} {r r' : ρ} {y : Res α} (hd : decodeExact D V s r = some (y, s', r')) :
    ∃ n, n ≤ left r ∧ Insists D R n s r y s' r' :=
  insists_arrives h hf _ (Nat.le_refl _) hd

/-- C93 together with C42: over a reader that fails finitely often and otherwise delivers the stream in pieces of
any sizes, the message at the front of the stream is received, and the reader is left right after it. -/
theorem C93_message_partial {w p : Bool} {D : Decoder σ α} {s₀ : σ} (hD : Exactable w p D s₀) {R V : Reader ρ}
    (h : TriesReading R V) {left : ρ → Nat} (hf : FailsFinitely R left) {rest : ρ → Bytes} (hV : Delivers V rest) :
    ∃ G : σ → Prop, G s₀ ∧ ∀ s, G s → ∀ {r c tail e m x s'}, rest r = c ++ tail →
      feed D s [(c, e)] = some (m, x, s') → (p = false → e = Eos.new true ∧ tail = []) →
      ∃ n r', n ≤ left r ∧ Insists D R n s r (.ok x) s' r' ∧ rest r' = c.drop m ++ tail ∧ G s' := by
  obtain ⟨G, h0, hG⟩ := C42_exact_partial hD hV
  refine ⟨G, h0, ?_⟩
  intro s hs r c tail e m x s' hr hd hp
  obtain ⟨r', q1, q2, q3⟩ := hG s hs hr hd hp
  obtain ⟨n, hn, hi⟩ := insists_arrives h hf _ (Nat.le_refl _) q1
  exact ⟨n, r', hn, hi, q2, q3⟩

/-- C93: `fill` returns what it returns with a reader that does not fail; or it reports the failure (`Ok` and the
state `WouldBlock`, or the error and the state `Error`), and filling again goes on to the same outcome. -/
theorem C93_fill {R V : Reader ρ} (h : TriesReading R V) (b : ReadBuf) (r : ρ) :
    b.fill R r = b.fill V r ∨
    ∃ io b' r', b.fill R r = (if io = .wouldBlock then .ok () else .err (ErrorKind.ofIo io), b', r') ∧
      b'.state = (if io = .wouldBlock then .wouldBlock else .error) ∧ b'.fill V r' = b.fill V r :=
  fill_tries h _ b r (Nat.le_refl _)

/-- C93: the same for `flush`. (When a task waits for room it may be woken more than once, hence `hb`.) -/
theorem C93_flush {W V : Writer ω} (h : TriesWriting W V) {b : WriteBuf} (hb : b.waker = none) (w : ω) :
    b.flush W w = b.flush V w ∨
    ∃ io b' w', b.flush W w = (if io = .wouldBlock then .ok () else .err (ErrorKind.ofIo io), b', w') ∧
      b'.state = (if io = .wouldBlock then .wouldBlock else .error) ∧ b'.waker = none ∧
      b'.flush V w' = b.flush V w :=
  flush_tries h hb w

example : (⟨[1, 2, 3], 0, 3, .normal, none, []⟩ : WriteBuf).flush hesitatingWriter (0, []) =
      (.ok (), ⟨[1, 2, 3], 1, 3, .wouldBlock, none, []⟩, (2, [1])) ∧
    (⟨[1, 2, 3], 1, 3, .wouldBlock, none, []⟩ : WriteBuf).flush hesitatingWriter (2, [1]) =
      (.ok (), ⟨[1, 2, 3], 0, 0, .normal, none, []⟩, (2, [1, 2, 3])) := by
  decide +kernel

/-- C93: `poll_fill` either gives what the blocking `fill` gives with a reader that does not fail; or it is `Pending`
(and the state `WouldBlock`) or reports the error (and the state `Error`), and polling again goes on to the same
outcome. -/
theorem C93_poll_fill {R : AsyncReader ρ} {V : Reader ρ} (h : TriesPolling R V) (b : ReadBuf) (r : ρ) :
    ∃ x b' r', b.pollFill R r = (x, b', r') ∧
      (x = .ready (b.fill V r).1 ∧ (b', r') = (b.fill V r).2 ∨
        x = .pending ∧ b'.state = .wouldBlock ∧ b'.fill V r' = b.fill V r ∨
        ∃ io, x = .ready (.err (ErrorKind.ofIo io)) ∧ b'.state = .error ∧ b'.fill V r' = b.fill V r) :=
  pollFill_tries h _ b r (Nat.le_refl _)

theorem sleepy_tries (k : Nat) : TriesPolling (sleepy k) (unhesitating k) := by
  rintro ⟨_ | m, bs⟩ n <;> rfl

example : (ReadBuf.new [0, 0]).pollFill (sleepy 1) (0, [1, 2, 3]) =
      (.pending, ⟨[1, 0], 0, 1, .wouldBlock⟩, (0, [2, 3])) ∧
    (⟨[1, 0], 0, 1, .wouldBlock⟩ : ReadBuf).pollFill (sleepy 1) (0, [2, 3]) =
      (.ready (.ok ()), ⟨[1, 2], 0, 2, .normal⟩, (1, [3])) ∧
    (ReadBuf.new [0, 0]).fill (unhesitating 1) (0, [1, 2, 3]) = (.ok (), ⟨[1, 2], 0, 2, .normal⟩, (1, [3])) := by
  decide +kernel

/-- C93: the same for `poll_flush`, which in the end gives what `flush` gives when no task waits for room. -/
theorem C93_poll_flush {W : AsyncWriter ω} {V : Writer ω} (h : TriesPollingWrites W V) {b : WriteBuf}
    (hb : b.waker = none) (w : ω) :
    ∃ x b' w', b.pollFlush W w = (x, b', w') ∧
      (x = .ready (b.flush V w).1 ∧ (b', w') = (b.flush V w).2 ∨
        x = .pending ∧ b'.state = .wouldBlock ∧ b'.flush V w' = b.flush V w ∨
        ∃ io, x = .ready (.err (ErrorKind.ofIo io)) ∧ b'.state = .error ∧ b'.flush V w' = b.flush V w) := by
  obtain ⟨x, b', w', h1, h2⟩ := pollFlush_tries h _ b w (Nat.le_refl _)
  refine ⟨x, b', w', h1, ?_⟩
  rcases h2 with ⟨h2, h3⟩ | ⟨h2, h3, h4⟩ | ⟨io, h2, h3, h4⟩
  · left
    rw [flush_noWaker hb, ← h3, ← h2]
    exact ⟨rfl, rfl⟩
  · exact .inr (.inl ⟨h2, h3, by simp only [WriteBuf.flush, h4]⟩)
  · exact .inr (.inr ⟨io, h2, h3, by simp only [WriteBuf.flush, h4]⟩)

/-- C93 (the code deviates): the writer takes one byte of three and would block; `encode_all` reports it. Called
again it returns `Ok`, without having written the other two bytes. -/
theorem C93_encode_all_fails :
    encodeAll (bytesEncoder id).toEncoder hesitatingWriter ⟨some [1, 2, 3], 0⟩ (0, []) =
      some (.err .other, ⟨(none : Option Bytes), 3⟩, (2, [1])) ∧
    encodeAll (bytesEncoder id).toEncoder hesitatingWriter ⟨(none : Option Bytes), 3⟩ (2, [1]) = some (.ok (), ⟨(none : Option Bytes), 3⟩, (2, [1])) ∧
    encodeAll (bytesEncoder id).toEncoder unhesitatingWriter ⟨some [1, 2, 3], 0⟩ (0, []) =
      some (.ok (), ⟨(none : Option Bytes), 3⟩, (2, [1, 2, 3])) := by
  have h1 : writeAll hesitatingWriter (0, []) [1, 2, 3] = (.err .other, (2, [1])) := by decide +kernel
  have h2 : writeAll unhesitatingWriter (0, []) [1, 2, 3] = (.ok (), (2, [1, 2, 3])) := by decide +kernel
  have h3 : (bytesEncoder id).toEncoder.encode ⟨some [1, 2, 3], 0⟩ 1024 (Eos.new false) =
      (.ok [1, 2, 3], ⟨none, 3⟩) := rfl
  have h4 : (bytesEncoder (id : Bytes → Bytes)).toEncoder.isIdle ⟨none, 3⟩ = true := rfl
  have h5 : (bytesEncoder (id : Bytes → Bytes)).toEncoder.isIdle ⟨some [1, 2, 3], 0⟩ = false := rfl
  refine ⟨?_, ?_, ?_⟩
  · rw [encodeAll, if_neg (by simp [h5]), h3]
    simp [h1]
  · rw [encodeAll, if_pos h4]
  · rw [encodeAll, if_neg (by simp [h5]), h3]
    simp only [h2]
    simp only [h4]
    simp
    rw [encodeAll, if_pos h4]

/-- C93, what is lost: when `encode_all` fails, the writer has got the beginning of the pending bytes; the next at
least one and at most 1024 of them are lost, and the encoder goes on with the bytes after these.
Missing: that nothing is lost (`C93_encode_all_fails`). -/
theorem C93_encode_all_partial {strict : Bool} {E : Encoder σ α} {s₀ : σ} {dom enc} (h : Emits strict E s₀ dom enc)
    {s : σ} {acc em : Bytes} (hr : EncRun E dom enc s₀ s acc em) {W : Writer ω} (hW : HonestWriter W) {w w' : ω}
    {k : ErrorKind} {s' : σ} {log : List (Bytes × WriteRes)}
    (he : encodeAll E (loggedWriter W) s (w, []) = some (.err k, s', (w', log))) :
    ∃ lost rest, acc.drop em.length = accepted log ++ lost ++ rest ∧ lost ≠ [] ∧ lost.length ≤ 1024 ∧
      ∃ t, encodeAll E vecWriter s' [] = some (.ok (), t, rest) := by
  obtain ⟨a1, _, _⟩ := emits_fresh h
  obtain ⟨rest, rfl⟩ := h.inOrder hr
  rw [List.drop_left]
  obtain ⟨pre, lost, rest', q1, q2, q3, q4, em', q5⟩ := encodeAll_lost a1 (sink_logged hW) rest.length s rest (w, []) k s'
    (w', log) (Nat.le_refl _) ⟨em, hr⟩ he
  obtain ⟨t, q6, _⟩ := C43_vec h q5 []
  simp only [List.drop_left, List.nil_append] at q6
  refine ⟨lost, rest', ?_, q2, q3, t, q6⟩
  rw [q1]
  simp only [accepted, List.flatMap_nil, List.nil_append] at q4 ⊢
  rw [q4]

end Bytecodec.Props
