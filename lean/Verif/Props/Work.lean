import Verif.Lemmas.WorkOnce
import Verif.Lemmas.Productive
import Verif.Lemmas.Idle
/-!
# C91: one call does a bounded amount of work

The counters of `Spec/Work.lean` stand beside the states of the inner codecs and of the streams.
-/
namespace Bytecodec.Props

open Spec

variable {σ α β ρ ω τ : Type}

/-! ## Buffers and streams -/

/-- One call of `fill` calls `read` at most as often as there are free bytes in the buffer, whatever the
reader answers, and the counter changes nothing. -/
theorem C91_fill (R : Reader ρ) (b : ReadBuf) (r : ρ) (c : Nat) :
    ∃ reads ≤ b.room, b.fill (countedReader R) (r, c) =
      ((b.fill R r).1, (b.fill R r).2.1, (b.fill R r).2.2, c + reads) := by
  obtain ⟨k, hk, h⟩ := fill_count (f := id) (R := R) (R' := countedReader R) (fun _ _ _ => rfl) c b r
  exact ⟨k, hk, h⟩

/-- One call of `flush` calls `write` at most as often as there are bytes in the buffer. -/
theorem C91_flush (W : Writer ω) (b : WriteBuf) (w : ω) (c : Nat) (hb : b.isEmpty = false → 0 < b.len) :
    ∃ writes ≤ b.len, b.flush (countedWriter W) (w, c) =
      ((b.flush W w).1, (b.flush W w).2.1, (b.flush W w).2.2, c + writes) := by
  obtain ⟨k, hk, h⟩ := flush_count (f := id) (W := W) (W' := countedWriter W) (fun _ _ _ => rfl) c b w
    (fun h => by have := hb (by simpa [WriteBuf.isEmpty] using h); simp only [WriteBuf.len] at this; omega)
  exact ⟨k, hk, h⟩

/-- The same for `poll_fill`. -/
theorem C91_poll_fill (R : AsyncReader ρ) (b : ReadBuf) (r : ρ) (c : Nat) :
    ∃ reads ≤ b.room, b.pollFill (countedAsyncReader R) (r, c) =
      ((b.pollFill R r).1, (b.pollFill R r).2.1, (b.pollFill R r).2.2, c + reads) := by
  obtain ⟨k, hk, h⟩ := pollFill_count (f := id) (R := R) (R' := countedAsyncReader R) (fun _ _ _ => rfl) c b r
  exact ⟨k, hk, h⟩

/-- The same for `poll_flush`. -/
theorem C91_poll_flush (W : AsyncWriter ω) (b : WriteBuf) (w : ω) (c : Nat) (hb : b.isEmpty = false → 0 < b.len) :
    ∃ writes ≤ b.len, b.pollFlush (countedAsyncWriter W) (w, c) =
      ((b.pollFlush W w).1, (b.pollFlush W w).2.1, (b.pollFlush W w).2.2, c + writes) := by
  obtain ⟨k, hk, h⟩ := pollFlush_count (f := id) (W := W) (W' := countedAsyncWriter W) (fun _ _ _ => rfl) c b w
    (fun h => by have := hb (by simpa [WriteBuf.isEmpty] using h); simp only [WriteBuf.len] at this; omega)
  exact ⟨k, hk, h⟩

/-- One call of `execute_io`: no peer, however fast, keeps it busy for longer than the two buffers
allow. -/
theorem C91_execute_io (T : Stream τ) (io : BufferedIo τ) (c d : Nat) (hb : io.wbuf.isEmpty = false → 0 < io.wbuf.len) :
    ∃ reads ≤ io.rbuf.room, ∃ writes ≤ io.wbuf.len,
      BufferedIo.executeIo (countedStream T) ⟨(io.stream, c, d), io.rbuf, io.wbuf⟩ =
        ((io.executeIo T).1, ⟨((io.executeIo T).2.stream, c + reads, d + writes), (io.executeIo T).2.rbuf,
          (io.executeIo T).2.wbuf⟩) := by
  obtain ⟨k, l, hk, hl, h⟩ := executeIo_count T c d io
    (fun h => by have := hb (by simpa [WriteBuf.isEmpty] using h); simp only [WriteBuf.len] at this; omega)
  exact ⟨k, hk, l, hl, h⟩

/-- The same for `execute_io_poll`. -/
theorem C91_execute_io_poll (T : AsyncStream τ) (io : BufferedIo τ) (c d : Nat)
    (hb : io.wbuf.isEmpty = false → 0 < io.wbuf.len) :
    ∃ reads ≤ io.rbuf.room, ∃ writes ≤ io.wbuf.len,
      BufferedIo.executeIoPoll (countedAsyncStream T) ⟨(io.stream, c, d), io.rbuf, io.wbuf⟩ =
        ((io.executeIoPoll T).1, ⟨((io.executeIoPoll T).2.stream, c + reads, d + writes),
          (io.executeIoPoll T).2.rbuf, (io.executeIoPoll T).2.wbuf⟩) := by
  obtain ⟨k, l, hk, hl, h⟩ := executeIoPoll_count T c d io
    (fun h => by have := hb (by simpa [WriteBuf.isEmpty] using h); simp only [WriteBuf.len] at this; omega)
  exact ⟨k, hk, l, hl, h⟩

/-- The hypothesis holds for a buffer in use, and the bound is reached: a writer that takes one byte at a
time is called three times for three bytes. -/
example : ((⟨[1, 2, 3, 4], 1, 4, .normal, none, []⟩ : WriteBuf).isEmpty = false →
      0 < (⟨[1, 2, 3, 4], 1, 4, .normal, none, []⟩ : WriteBuf).len) ∧
    ((⟨[1, 2, 3, 4], 1, 4, .normal, none, []⟩ : WriteBuf).flush
      (countedWriter ⟨fun _ b => (.wrote (min b.length 1), ())⟩) ((), 0)).2.2 = ((), 3) := by
  refine ⟨by decide, ?_⟩
  decide +kernel

/-! ## `encode_all` and `decode_exact` -/

/-- `encode_all` calls `encode` at most once more than there are bytes, `write` at most once per byte, and
`start_encoding` never: for every encoder and every writer, also when it fails. -/
theorem C91_encode_all (E : Encoder σ α) (W : Writer ω) (s s' : σ) (w w' : ω) (calls : EncCalls) (writes : Nat)
    (r : Res Unit)
    (h : encodeAll (countedEncoder E) (countedWriter W) (s, ⟨0, 0, 0⟩) (w, 0) = some (r, (s', calls), (w', writes))) :
    calls.encodes ≤ calls.bytes + 1 ∧ writes ≤ calls.bytes ∧ calls.starts = 0 := by
  have := encodeAll_count (E := E) (W := W) (I := fun _ => True) (m := 1)
    (fun s bs s' _ _ _ => ⟨trivial, fun hne => .inl (List.length_pos_iff.2 hne)⟩) _ _ _ h trivial
  simp only at this
  omega

/-- If the encoder, in the states `I` it goes through, fills the buffer it is given unless that completes
the item, `encode_all` calls it once per 1024 bytes. -/
theorem C91_encode_all_full (E : Encoder σ α) (W : Writer ω) (I : σ → Prop) (s s' : σ) (w w' : ω) (calls : EncCalls)
    (writes : Nat) (r : Res Unit) (hs : I s)
    (hI : ∀ s bs s', I s → E.isIdle s = false → E.encode s 1024 (Eos.new false) = (.ok bs, s') →
      I s' ∧ (1024 ≤ bs.length ∨ E.isIdle s' = true))
    (h : encodeAll (countedEncoder E) (countedWriter W) (s, ⟨0, 0, 0⟩) (w, 0) = some (r, (s', calls), (w', writes))) :
    calls.encodes ≤ calls.bytes / 1024 + 1 := by
  have := encodeAll_count (E := E) (W := W) (I := I) (m := 1024)
    (fun s bs s' h1 h2 h3 => ⟨(hI s bs s' h1 h2 h3).1, fun _ => (hI s bs s' h1 h2 h3).2⟩) _ _ _ h hs
  simp only at this
  omega

/-- The bytes encoder is such an encoder. -/
example : ∀ s bs s', True → (bytesEncoder id).isIdle s = false →
    (bytesEncoder id).encode s 1024 (Eos.new false) = (.ok bs, s') →
      True ∧ (1024 ≤ bs.length ∨ (bytesEncoder id).isIdle s' = true) := by
  intro s bs s' _ hi h
  refine ⟨trivial, ?_⟩
  simp only [bytesEncoder] at hi h ⊢
  split at h
  · split at h
    · cases h
    · next hle =>
      split at h
      · cases h; exact .inr rfl
      · next hne =>
        simp only [show (Eos.new false).isReached = false from rfl, Bool.false_eq_true, if_false] at h
        cases h
        refine .inl ?_
        simp only [id, List.length_take, List.length_drop] at hle hne ⊢
        omega
  · next hn => rw [hn] at hi; cases hi

/-- `decode_exact` with a decoder that completes its item or fails at the end of the stream, and a reader
that is honest: at most one `read` more than there are bytes delivered, one `finish_decoding`, and, if an
unfinished decoder never says that it needs 0 bytes, one `decode` per `read`. -/
theorem C91_decode_exact (D : Decoder σ α) (R : Reader ρ) (s₀ s s' : σ) (r r' : ρ) (y : Res α) (calls : DecCalls)
    (log : List ReadRes) (hR : HonestReader R) (hD : EosStrict D s₀) (hs : Reach D s₀ s)
    (h : decodeExact (countedDecoder D) (loggedReader R) (s, ⟨0, 0⟩) (r, []) = some (y, (s', calls), (r', log))) :
    log.length ≤ (delivered log).length + 1 ∧ calls.finishes ≤ 1 ∧
      ((∀ u, Reach D s₀ u → D.isIdle u = false → D.requiring u ≠ .finite 0) → calls.decodes ≤ log.length + 1 ∧
        (D.isIdle s = false → calls.decodes ≤ log.length)) := by
  obtain ⟨as, h1, h2, h3, h4⟩ := decodeExact_count hR hD h hs
  simp only [List.nil_append] at h1 h2 h3 h4
  subst h1
  refine ⟨h2, by omega, fun hask => ?_⟩
  have h4 := h4 hask
  cases hi : D.isIdle s <;> simp [hi] at h4 ⊢ <;> omega

/-- Fixed-size bytes read from a script of chunks: such a decoder and such a reader. -/
example : HonestReader scriptReader ∧ EosStrict copyableBytesDecoder ⟨[0, 0, 0], 0⟩ ∧
    (∀ u, Reach copyableBytesDecoder ⟨[0, 0, 0], 0⟩ u → copyableBytesDecoder.isIdle u = false →
      copyableBytesDecoder.requiring u ≠ .finite 0) := by
  refine ⟨scriptReader_honest, eos_copyable, fun u hu hi hz => ?_⟩
  have inv : u.offset ≤ u.bytes.length := by
    clear hi hz
    induction hu with
    | refl => simp
    | @decode s b e _ _ ih =>
      obtain ⟨B, hB, hd⟩ := copyable_decode b e ih
      rw [hd]
      simp only
      omega
    | @finish s _ ih =>
      simp only [copyableBytesDecoder]
      split
      · simp
      · exact ih
  simp only [copyableBytesDecoder, beq_eq_false_iff_ne, ne_eq, ByteCount.finite.injEq] at hi hz
  omega

/-! ## The loops of the combinators -/

/-- `collect` over items that take at least one byte: one call of `decode` calls the inner decoder at most
once per byte it is given. -/
theorem C91_collect (D : Decoder σ α) (s₀ s : σ) (hp : Productive D s₀) (hr : ReachItem D s₀ s) (items : List α)
    (eos : Bool) (b : Bytes) (e : Eos) (he : EosSane e b.length) :
    ((collectDecoder (countedDecoder D)).decode ⟨(s, ⟨0, 0⟩), items, eos⟩ b e).2.inner.2.decodes ≤ b.length ∧
    ((collectDecoder (countedDecoder D)).decode ⟨(s, ⟨0, 0⟩), items, eos⟩ b e).2.inner.2.finishes ≤ b.length := by
  obtain ⟨x, hx, h1, h2⟩ := collectLoop_count hp he b.length 0 s ⟨0, 0⟩ items (by omega) hr
  simp only [collectDecoder]
  split
  · simp
  · rw [hx]
    cases x <;> simp only [LoopExit.state] at h1 h2 ⊢ <;> omega

/-- `collectn`: the same, and never more calls than there are items to decode. -/
theorem C91_collectn (D : Decoder σ α) (s : σ) (n : Nat) (items : List α) (b : Bytes) (e : Eos) :
    ((collectNDecoder (countedDecoder D)).decode ⟨(s, ⟨0, 0⟩), n, items⟩ b e).2.inner.2.decodes ≤ n ∧
    ((collectNDecoder (countedDecoder D)).decode ⟨(s, ⟨0, 0⟩), n, items⟩ b e).2.inner.2.finishes ≤ n := by
  have h := collectNLoop_count (D := D) (buf := b) (e := e) n 0 s ⟨0, 0⟩ items
  simp only [collectNDecoder]
  rcases hx : collectNLoop (countedDecoder D) b e n 0 (s, ⟨0, 0⟩) items with ⟨o, t, i, m⟩ | ⟨r, t, i, m⟩ <;>
    rw [hx] at h <;> simp only [LoopExitN.state] at h ⊢
  · split <;> simp only <;> omega
  · omega

theorem C91_collectn_bytes (D : Decoder σ α) (s₀ s : σ) (hp : Productive D s₀) (hr : ReachItem D s₀ s) (n : Nat)
    (items : List α) (b : Bytes) (e : Eos) (he : EosSane e b.length) :
    ((collectNDecoder (countedDecoder D)).decode ⟨(s, ⟨0, 0⟩), n, items⟩ b e).2.inner.2.decodes ≤ b.length ∧
    ((collectNDecoder (countedDecoder D)).decode ⟨(s, ⟨0, 0⟩), n, items⟩ b e).2.inner.2.finishes ≤ b.length := by
  have h := collectNLoop_count_bytes hp he n b.length 0 s ⟨0, 0⟩ items (by omega) hr
  simp only [collectNDecoder]
  rcases hx : collectNLoop (countedDecoder D) b e n 0 (s, ⟨0, 0⟩) items with ⟨o, t, i, m⟩ | ⟨r, t, i, m⟩ <;>
    rw [hx] at h <;> simp only [LoopExitN.state] at h ⊢
  · split <;> simp only <;> omega
  · omega

/-- **Not so** for items that take no bytes: with one byte in the buffer, one call of `collectn` decodes as
many empty items as it was told to, however many. Whoever chooses the count chooses how long the call takes. -/
theorem C91_collectn_empty_items_fails (n : Nat) :
    ((collectNDecoder (countedDecoder nullDecoder)).decode (.new ((), ⟨0, 0⟩) n) [7] (Eos.new false)).2.inner.2 =
      ⟨0, n⟩ := by
  have key : ∀ n c items, (collectNLoop (countedDecoder nullDecoder) [7] (Eos.new false) n 0 ((), ⟨0, c⟩) items) =
      .done 0 ((), ⟨0, c + n⟩) (items ++ List.replicate n ()) 0 := by
    intro n
    induction n with
    | zero => intro c items; simp [collectNLoop]
    | succ n ih =>
      intro c items
      have : tryDecode (countedDecoder nullDecoder) ((), ⟨0, c⟩) 0 [7] (Eos.new false) = .next 0 ((), ⟨0, c⟩) := rfl
      rw [collectNLoop, if_pos (by decide), this]
      have hf : (countedDecoder nullDecoder).finish ((), ⟨0, c⟩) = (.ok (), ((), ⟨0, c + 1⟩)) := rfl
      simp only [hf]
      rw [ih]
      simp only [List.replicate_succ, List.append_assoc, List.cons_append, List.nil_append]
      rw [show c + 1 + n = c + (n + 1) by omega]
  simp only [collectNDecoder, CollectNState.new, key]
  simp

/-- Single bytes are items that take at least one byte; three bytes are collected in three calls. -/
example : Productive u8Decoder (fixInit 1) ∧
    ((collectDecoder (countedDecoder u8Decoder)).decode ⟨(fixInit 1, ⟨0, 0⟩), [], false⟩ [1, 2, 3] (Eos.new false)).2.inner.2.finishes
      ≤ 3 :=
  ⟨productive_number _ (by decide),
    (C91_collect u8Decoder (fixInit 1) (fixInit 1) (productive_number _ (by decide)) .refl [] false [1, 2, 3]
      (Eos.new false) EosSane.newFalse).2⟩

/-- `repeat`: one call of `encode` calls the inner encoder at most once more than there is room for bytes,
and starts at most the items that are left. -/
theorem C91_repeat (E : Encoder σ α) (s : σ) (items : Option (List α)) (cap : Nat) (e : Eos) :
    ((repeatEncoder (countedEncoder E)).encode ⟨(s, ⟨0, 0, 0⟩), items⟩ cap e).2.inner.2.encodes ≤ cap + 1 ∧
    ((repeatEncoder (countedEncoder E)).encode ⟨(s, ⟨0, 0, 0⟩), items⟩ cap e).2.inner.2.starts ≤ (items.getD []).length := by
  have h := repeatLoop_count E cap e (cap + 1) [] s ⟨0, 0, 0⟩ items (by simp)
  simp only [repeatEncoder] at h ⊢
  omega

/-! ## Combinators without a loop -/

/-- Every combinator for one inner decoder without a loop calls it at most once. -/
theorem C91_once (D : Decoder σ α) (f : α → β) (g : α → Except ErrorKind β) (k : ErrorKind → ErrorKind) :
    AtMostOnce (mapDecoder (countedDecoder D) f) (·.2) ∧
    AtMostOnce (tryMapDecoder (countedDecoder D) g) (·.2) ∧
    AtMostOnce (mapErrDecoder (countedDecoder D) k) (·.2) ∧
    AtMostOnce (omittableDecoder (countedDecoder D)) (·.inner.2) ∧
    AtMostOnce (lengthDecoder (countedDecoder D)) (·.inner.2) ∧
    AtMostOnce (maxBytesDecoder (countedDecoder D)) (·.inner.2) ∧
    AtMostOnce (sliceDecoder (countedDecoder D)) (·.inner.2) ∧
    AtMostOnce (peekableDecoder (countedDecoder D)) (·.inner.2) ∧
    AtMostOnce (maybeEosDecoder (countedDecoder D)) (·.inner.2) :=
  ⟨once_map D f, once_tryMap D g, once_mapErr D k, once_omit D, once_length D, once_maxBytes D, once_slice D,
    once_peekable D, once_maybeEos D⟩

/-- `and_then` calls its first decoder at most once. -/
theorem C91_and_then_first {σ0 α0 σ1 α1 : Type} (D0 : Decoder σ0 α0) (D1 : Decoder σ1 α1) (f : α0 → σ1) :
    AtMostOnce (andThenDecoder (countedDecoder D0) D1 f) (·.1.2) :=
  once_andThen_first D0 D1 f

/-- `and_then` calls its second decoder at most once, also in the call that creates it. -/
theorem C91_and_then_second {σ0 α0 σ1 α1 : Type} (D0 : Decoder σ0 α0) (D1 : Decoder σ1 α1) (f : α0 → σ1)
    (s : σ0 × Option (σ1 × DecCalls)) (b : Bytes) (e : Eos) (t : σ1 × DecCalls)
    (h : ((andThenDecoder D0 (countedDecoder D1) fun x => (f x, ⟨0, 0⟩)).decode s b e).2.2 = some t) :
    t.2.decodes ≤ (s.2.elim 0 (·.2.decodes)) + 1 ∧ t.2.finishes = s.2.elim 0 (·.2.finishes) :=
  once_andThen_second D0 D1 f s b e t h

/-- A tuple of 2 decoders calls each of them at most once. -/
theorem C91_tuple2 {σ0 α0 σ1 α1 : Type} (D0 : Decoder σ0 α0) (D1 : Decoder σ1 α1) :
    AtMostOnce (tupleDecoder2 (countedDecoder D0) (countedDecoder D1)) (fun s => s.1.2) ∧
    AtMostOnce (tupleDecoder2 (countedDecoder D0) (countedDecoder D1)) (fun s => s.2.2) :=
  once_tuple2 D0 D1

/-- A tuple of 3 decoders calls each of them at most once. -/
theorem C91_tuple3 {σ0 α0 σ1 α1 σ2 α2 : Type} (D0 : Decoder σ0 α0) (D1 : Decoder σ1 α1) (D2 : Decoder σ2 α2) :
    AtMostOnce (tupleDecoder3 (countedDecoder D0) (countedDecoder D1) (countedDecoder D2)) (fun s => s.1.2) ∧
    AtMostOnce (tupleDecoder3 (countedDecoder D0) (countedDecoder D1) (countedDecoder D2)) (fun s => s.2.1.2) ∧
    AtMostOnce (tupleDecoder3 (countedDecoder D0) (countedDecoder D1) (countedDecoder D2)) (fun s => s.2.2.2) :=
  once_tuple3 D0 D1 D2

/-- A tuple of 4 decoders calls each of them at most once. -/
theorem C91_tuple4 {σ0 α0 σ1 α1 σ2 α2 σ3 α3 : Type} (D0 : Decoder σ0 α0) (D1 : Decoder σ1 α1) (D2 : Decoder σ2 α2) (D3 : Decoder σ3 α3) :
    AtMostOnce (tupleDecoder4 (countedDecoder D0) (countedDecoder D1) (countedDecoder D2) (countedDecoder D3)) (fun s => s.1.2) ∧
    AtMostOnce (tupleDecoder4 (countedDecoder D0) (countedDecoder D1) (countedDecoder D2) (countedDecoder D3)) (fun s => s.2.1.2) ∧
    AtMostOnce (tupleDecoder4 (countedDecoder D0) (countedDecoder D1) (countedDecoder D2) (countedDecoder D3)) (fun s => s.2.2.1.2) ∧
    AtMostOnce (tupleDecoder4 (countedDecoder D0) (countedDecoder D1) (countedDecoder D2) (countedDecoder D3)) (fun s => s.2.2.2.2) :=
  once_tuple4 D0 D1 D2 D3

/-- A tuple of 5 decoders calls each of them at most once. -/
theorem C91_tuple5 {σ0 α0 σ1 α1 σ2 α2 σ3 α3 σ4 α4 : Type} (D0 : Decoder σ0 α0) (D1 : Decoder σ1 α1) (D2 : Decoder σ2 α2) (D3 : Decoder σ3 α3) (D4 : Decoder σ4 α4) :
    AtMostOnce (tupleDecoder5 (countedDecoder D0) (countedDecoder D1) (countedDecoder D2) (countedDecoder D3) (countedDecoder D4)) (fun s => s.1.2) ∧
    AtMostOnce (tupleDecoder5 (countedDecoder D0) (countedDecoder D1) (countedDecoder D2) (countedDecoder D3) (countedDecoder D4)) (fun s => s.2.1.2) ∧
    AtMostOnce (tupleDecoder5 (countedDecoder D0) (countedDecoder D1) (countedDecoder D2) (countedDecoder D3) (countedDecoder D4)) (fun s => s.2.2.1.2) ∧
    AtMostOnce (tupleDecoder5 (countedDecoder D0) (countedDecoder D1) (countedDecoder D2) (countedDecoder D3) (countedDecoder D4)) (fun s => s.2.2.2.1.2) ∧
    AtMostOnce (tupleDecoder5 (countedDecoder D0) (countedDecoder D1) (countedDecoder D2) (countedDecoder D3) (countedDecoder D4)) (fun s => s.2.2.2.2.2) :=
  once_tuple5 D0 D1 D2 D3 D4

/-- A tuple of 6 decoders calls each of them at most once. -/
theorem C91_tuple6 {σ0 α0 σ1 α1 σ2 α2 σ3 α3 σ4 α4 σ5 α5 : Type} (D0 : Decoder σ0 α0) (D1 : Decoder σ1 α1) (D2 : Decoder σ2 α2) (D3 : Decoder σ3 α3) (D4 : Decoder σ4 α4) (D5 : Decoder σ5 α5) :
    AtMostOnce (tupleDecoder6 (countedDecoder D0) (countedDecoder D1) (countedDecoder D2) (countedDecoder D3) (countedDecoder D4) (countedDecoder D5)) (fun s => s.1.2) ∧
    AtMostOnce (tupleDecoder6 (countedDecoder D0) (countedDecoder D1) (countedDecoder D2) (countedDecoder D3) (countedDecoder D4) (countedDecoder D5)) (fun s => s.2.1.2) ∧
    AtMostOnce (tupleDecoder6 (countedDecoder D0) (countedDecoder D1) (countedDecoder D2) (countedDecoder D3) (countedDecoder D4) (countedDecoder D5)) (fun s => s.2.2.1.2) ∧
    AtMostOnce (tupleDecoder6 (countedDecoder D0) (countedDecoder D1) (countedDecoder D2) (countedDecoder D3) (countedDecoder D4) (countedDecoder D5)) (fun s => s.2.2.2.1.2) ∧
    AtMostOnce (tupleDecoder6 (countedDecoder D0) (countedDecoder D1) (countedDecoder D2) (countedDecoder D3) (countedDecoder D4) (countedDecoder D5)) (fun s => s.2.2.2.2.1.2) ∧
    AtMostOnce (tupleDecoder6 (countedDecoder D0) (countedDecoder D1) (countedDecoder D2) (countedDecoder D3) (countedDecoder D4) (countedDecoder D5)) (fun s => s.2.2.2.2.2.2) :=
  once_tuple6 D0 D1 D2 D3 D4 D5

/-- A tuple of 7 decoders calls each of them at most once. -/
theorem C91_tuple7 {σ0 α0 σ1 α1 σ2 α2 σ3 α3 σ4 α4 σ5 α5 σ6 α6 : Type} (D0 : Decoder σ0 α0) (D1 : Decoder σ1 α1) (D2 : Decoder σ2 α2) (D3 : Decoder σ3 α3) (D4 : Decoder σ4 α4) (D5 : Decoder σ5 α5) (D6 : Decoder σ6 α6) :
    AtMostOnce (tupleDecoder7 (countedDecoder D0) (countedDecoder D1) (countedDecoder D2) (countedDecoder D3) (countedDecoder D4) (countedDecoder D5) (countedDecoder D6)) (fun s => s.1.2) ∧
    AtMostOnce (tupleDecoder7 (countedDecoder D0) (countedDecoder D1) (countedDecoder D2) (countedDecoder D3) (countedDecoder D4) (countedDecoder D5) (countedDecoder D6)) (fun s => s.2.1.2) ∧
    AtMostOnce (tupleDecoder7 (countedDecoder D0) (countedDecoder D1) (countedDecoder D2) (countedDecoder D3) (countedDecoder D4) (countedDecoder D5) (countedDecoder D6)) (fun s => s.2.2.1.2) ∧
    AtMostOnce (tupleDecoder7 (countedDecoder D0) (countedDecoder D1) (countedDecoder D2) (countedDecoder D3) (countedDecoder D4) (countedDecoder D5) (countedDecoder D6)) (fun s => s.2.2.2.1.2) ∧
    AtMostOnce (tupleDecoder7 (countedDecoder D0) (countedDecoder D1) (countedDecoder D2) (countedDecoder D3) (countedDecoder D4) (countedDecoder D5) (countedDecoder D6)) (fun s => s.2.2.2.2.1.2) ∧
    AtMostOnce (tupleDecoder7 (countedDecoder D0) (countedDecoder D1) (countedDecoder D2) (countedDecoder D3) (countedDecoder D4) (countedDecoder D5) (countedDecoder D6)) (fun s => s.2.2.2.2.2.1.2) ∧
    AtMostOnce (tupleDecoder7 (countedDecoder D0) (countedDecoder D1) (countedDecoder D2) (countedDecoder D3) (countedDecoder D4) (countedDecoder D5) (countedDecoder D6)) (fun s => s.2.2.2.2.2.2.2) :=
  once_tuple7 D0 D1 D2 D3 D4 D5 D6

/-- A tuple of 8 decoders calls each of them at most once. -/
theorem C91_tuple8 {σ0 α0 σ1 α1 σ2 α2 σ3 α3 σ4 α4 σ5 α5 σ6 α6 σ7 α7 : Type} (D0 : Decoder σ0 α0) (D1 : Decoder σ1 α1) (D2 : Decoder σ2 α2) (D3 : Decoder σ3 α3) (D4 : Decoder σ4 α4) (D5 : Decoder σ5 α5) (D6 : Decoder σ6 α6) (D7 : Decoder σ7 α7) :
    AtMostOnce (tupleDecoder8 (countedDecoder D0) (countedDecoder D1) (countedDecoder D2) (countedDecoder D3) (countedDecoder D4) (countedDecoder D5) (countedDecoder D6) (countedDecoder D7)) (fun s => s.1.2) ∧
    AtMostOnce (tupleDecoder8 (countedDecoder D0) (countedDecoder D1) (countedDecoder D2) (countedDecoder D3) (countedDecoder D4) (countedDecoder D5) (countedDecoder D6) (countedDecoder D7)) (fun s => s.2.1.2) ∧
    AtMostOnce (tupleDecoder8 (countedDecoder D0) (countedDecoder D1) (countedDecoder D2) (countedDecoder D3) (countedDecoder D4) (countedDecoder D5) (countedDecoder D6) (countedDecoder D7)) (fun s => s.2.2.1.2) ∧
    AtMostOnce (tupleDecoder8 (countedDecoder D0) (countedDecoder D1) (countedDecoder D2) (countedDecoder D3) (countedDecoder D4) (countedDecoder D5) (countedDecoder D6) (countedDecoder D7)) (fun s => s.2.2.2.1.2) ∧
    AtMostOnce (tupleDecoder8 (countedDecoder D0) (countedDecoder D1) (countedDecoder D2) (countedDecoder D3) (countedDecoder D4) (countedDecoder D5) (countedDecoder D6) (countedDecoder D7)) (fun s => s.2.2.2.2.1.2) ∧
    AtMostOnce (tupleDecoder8 (countedDecoder D0) (countedDecoder D1) (countedDecoder D2) (countedDecoder D3) (countedDecoder D4) (countedDecoder D5) (countedDecoder D6) (countedDecoder D7)) (fun s => s.2.2.2.2.2.1.2) ∧
    AtMostOnce (tupleDecoder8 (countedDecoder D0) (countedDecoder D1) (countedDecoder D2) (countedDecoder D3) (countedDecoder D4) (countedDecoder D5) (countedDecoder D6) (countedDecoder D7)) (fun s => s.2.2.2.2.2.2.1.2) ∧
    AtMostOnce (tupleDecoder8 (countedDecoder D0) (countedDecoder D1) (countedDecoder D2) (countedDecoder D3) (countedDecoder D4) (countedDecoder D5) (countedDecoder D6) (countedDecoder D7)) (fun s => s.2.2.2.2.2.2.2.2) :=
  once_tuple8 D0 D1 D2 D3 D4 D5 D6 D7

end Bytecodec.Props
