import Verif.Spec.Io
/-!
# Read and write buffers: one call
-/
namespace Bytecodec

open Spec

variable {ρ ω : Type}

theorem splice_take_drop {inner src : Bytes} {head tail : Nat} (h1 : head ≤ tail)
    (h2 : tail + src.length ≤ inner.length) :
    ((splice inner tail src).take (tail + src.length)).drop head =
      (inner.take tail).drop head ++ src := by
  unfold splice
  have e1 : (inner.take tail).length = tail := by simp; omega
  rw [List.take_append_of_le_length (by simp; omega), List.take_of_length_le (by simp; omega),
    List.drop_append_of_le_length (by omega)]

theorem splice_len {inner src : Bytes} {tail : Nat} (h2 : tail + src.length ≤ inner.length) :
    (splice inner tail src).length = inner.length := by
  unfold splice
  simp
  omega

/-! ## Read buffer -/

/-- The invariant of a read buffer. -/
structure ReadBuf.Inv (b : ReadBuf) : Prop where
  le : b.head ≤ b.tail
  cap : b.tail ≤ b.inner.length
  zero : b.head = b.tail → b.tail = 0

/-- The bytes in the buffer. -/
def ReadBuf.content (b : ReadBuf) : Bytes := (b.inner.take b.tail).drop b.head

theorem ReadBuf.content_length {b : ReadBuf} (h : b.Inv) : b.content.length = b.len := by
  have := h.cap
  simp [ReadBuf.content, ReadBuf.len]
  omega

/-- One call of `fill`, with a reader that records its answers. -/
theorem fill_spec {R : Reader ρ} (hR : HonestReader R) (b : ReadBuf) (r : ρ × List ReadRes) :
    b.Inv → ∃ as, (b.fill (loggedReader R) r).2.2.2 = r.2 ++ as ∧
      (b.fill (loggedReader R) r).2.1.content = b.content ++ delivered as ∧
      (b.fill (loggedReader R) r).2.1.Inv ∧
      (b.fill (loggedReader R) r).2.1.inner.length = b.inner.length ∧
      (∀ a ∈ as.dropLast, ∃ x xs, a = .data (x :: xs)) ∧
      (b.fill (loggedReader R) r).2.1.state = (as.getLast?.map ReadRes.state).getD b.state ∧
      ((b.fill (loggedReader R) r).1 = .ok () ∧
          ((b.fill (loggedReader R) r).2.1.isFull = true ∨
            as.getLast? = some (.error .wouldBlock) ∨ as.getLast? = some (.data [])) ∨
        ∃ k, k ≠ .wouldBlock ∧ as.getLast? = some (.error k) ∧
          (b.fill (loggedReader R) r).1 = .err (ErrorKind.ofIo k)) := by
  induction b, r using ReadBuf.fill.induct (loggedReader R) with
  | case1 b r h =>
    intro hI
    rw [ReadBuf.fill, dif_pos h]
    exact ⟨[], by simp, by simp [delivered], hI, rfl, by simp, rfl, .inl ⟨rfl, .inl h⟩⟩
  | case2 b r h1 h2 =>
    intro hI
    have := hI.cap
    omega
  | case3 b r h1 h2 r' hr =>
    intro hI
    rw [ReadBuf.fill, dif_neg h1, dif_neg h2, hr]
    simp only [if_pos]
    have : r' = (r'.1, r.2 ++ [.error .wouldBlock]) := by
      simp only [loggedReader, Prod.mk.injEq] at hr
      rw [← hr.2, hr.1]
    rw [this]
    exact ⟨[.error .wouldBlock], rfl, by simp [ReadBuf.content, delivered, ReadRes.bytes], ⟨hI.1, hI.2, hI.3⟩,
      by trivial, by simp, by trivial, .inl ⟨by trivial, .inr (.inl rfl)⟩⟩
  | case4 b r h1 h2 k r' hr hk =>
    intro hI
    rw [ReadBuf.fill, dif_neg h1, dif_neg h2, hr]
    simp only [if_neg hk]
    have : r' = (r'.1, r.2 ++ [.error k]) := by
      simp only [loggedReader, Prod.mk.injEq] at hr
      rw [← hr.2, hr.1]
    rw [this]
    refine ⟨[.error k], rfl, by simp [ReadBuf.content, delivered, ReadRes.bytes], ⟨hI.1, hI.2, hI.3⟩,
      by trivial, by simp, ?_, .inr ⟨k, hk, rfl, by trivial⟩⟩
    cases k <;> simp [ReadRes.state] at hk ⊢
  | case5 b r h1 h2 r' hr =>
    intro hI
    rw [ReadBuf.fill, dif_neg h1, dif_neg h2, hr]
    have : r' = (r'.1, r.2 ++ [.data []]) := by
      simp only [loggedReader, Prod.mk.injEq] at hr
      rw [← hr.2, hr.1]
    rw [this]
    exact ⟨[.data []], rfl, by simp [ReadBuf.content, delivered, ReadRes.bytes], ⟨hI.1, hI.2, hI.3⟩,
      rfl, by simp, rfl, .inl ⟨rfl, .inr (.inr rfl)⟩⟩
  | case6 b r h1 h2 x xs r' hr ih =>
    intro hI
    rw [ReadBuf.fill, dif_neg h1, dif_neg h2, hr]
    have hr' : r' = (r'.1, r.2 ++ [.data (x :: xs)]) := by
      simp only [loggedReader, Prod.mk.injEq] at hr
      rw [← hr.2, hr.1]
    have hlen : (x :: xs).length ≤ b.inner.length - b.tail := by
      simp only [loggedReader, Prod.mk.injEq] at hr
      exact hR _ _ _ _ (Prod.ext hr.1 rfl)
    have hcap := hI.cap
    simp only [List.take_of_length_le hlen] at ih ⊢
    have hI' : ReadBuf.Inv ⟨splice b.inner b.tail (x :: xs), b.head, b.tail + (x :: xs).length, .normal⟩ := by
      have := hI.le
      constructor
      · simp only; omega
      · simp only; rw [splice_len (by omega)]; omega
      · simp only [List.length_cons]; omega
    obtain ⟨as, a1, a2, a3, a4, a5, a6, a7⟩ := ih hI'
    refine ⟨.data (x :: xs) :: as, ?_, ?_, a3, ?_, ?_, ?_, ?_⟩
    · rw [a1, hr']; simp
    · rw [a2]
      simp only [ReadBuf.content]
      rw [splice_take_drop hI.le (by omega)]
      simp [delivered, ReadRes.bytes]
    · rw [a4, splice_len (by omega)]
    · intro a ha
      cases as with
      | nil => simp at ha
      | cons y ys =>
        simp only [List.dropLast_cons_cons, List.mem_cons] at ha
        rcases ha with rfl | ha
        · exact ⟨x, xs, rfl⟩
        · exact a5 a ha
    · rw [a6, List.getLast?_cons]
      cases as.getLast? <;> simp [ReadRes.state]
    · rcases a7 with ⟨q1, q2⟩ | ⟨k, q1, q2, q3⟩
      · refine .inl ⟨q1, ?_⟩
        rcases q2 with q | q | q
        · exact .inl q
        · exact .inr (.inl (by rw [List.getLast?_cons, q]; rfl))
        · exact .inr (.inr (by rw [List.getLast?_cons, q]; rfl))
      · exact .inr ⟨k, q1, by rw [List.getLast?_cons, q2]; rfl, q3⟩

theorem ReadBuf.consume_spec {b : ReadBuf} (h : b.Inv) {n : Nat} (hn : n ≤ b.len) :
    (b.consume n).Inv ∧ (b.consume n).content = b.content.drop n ∧
      (b.consume n).inner = b.inner ∧ (b.consume n).len = b.len - n := by
  have h1 := h.le
  have h2 := h.cap
  have h3 := h.zero
  simp only [ReadBuf.len] at hn ⊢
  unfold ReadBuf.consume
  split
  · next he =>
    refine ⟨⟨Nat.le_refl _, by simp, fun _ => rfl⟩, ?_, rfl, by simp only; omega⟩
    simp only [ReadBuf.content]
    rw [List.drop_eq_nil_of_le (as := List.drop _ _)]
    · simp
    · simp; omega
  · next he =>
    refine ⟨⟨by simp only; omega, h2, by simp only; omega⟩, ?_, rfl, by simp only; omega⟩
    simp only [ReadBuf.content]
    rw [List.drop_drop]

theorem ReadBuf.read_spec {b : ReadBuf} (h : b.Inv) (n : Nat) :
    (b.read n).2.Inv ∧ (b.read n).1 ++ (b.read n).2.content = b.content ∧
      (b.read n).1.length = min n b.len ∧ (b.read n).2.inner = b.inner := by
  have hc := b.consume_spec h (n := min n b.len) (by omega)
  have h2 := h.cap
  have h1 := h.le
  simp only [ReadBuf.read]
  refine ⟨hc.1, ?_, ?_, hc.2.2.1⟩
  · rw [hc.2.1]
    have : (b.inner.drop b.head).take (min n b.len) = b.content.take (min n b.len) := by
      simp only [ReadBuf.content, ReadBuf.len]
      rw [List.drop_take, List.take_take]
      congr 1
      omega
    rw [this]
    exact List.take_append_drop _ _
  · simp [ReadBuf.len]; omega

theorem decodeFromReadBuf_spec {σ α : Type} {D : Decoder σ α} {d : σ}
    (hD : ∀ b e n, (D.decode d b e).1 = .ok n → n ≤ b.length) {b : ReadBuf} (h : b.Inv) :
    decodeFromReadBuf D d b =
      Res.step (D.decode d b.content (Eos.new b.state.isEos)) (fun s' => (s', b))
        (fun size s' => (.ok (), s', b.consume size)) ∧
    ((decodeFromReadBuf D d b).2.2 = b ∨
      ∃ n, (D.decode d b.content (Eos.new b.state.isEos)).1 = .ok n ∧ n ≤ b.len ∧
        (decodeFromReadBuf D d b).2.2 = b.consume n) := by
  have h1 := h.le
  have h2 := h.cap
  have key : decodeFromReadBuf D d b =
      Res.step (D.decode d b.content (Eos.new b.state.isEos)) (fun s' => (s', b))
        (fun size s' => (.ok (), s', b.consume size)) := by
    rw [decodeFromReadBuf, if_neg (by omega)]
    rfl
  refine ⟨key, ?_⟩
  rw [key]
  rcases hq : D.decode d b.content (Eos.new b.state.isEos) with ⟨r, d'⟩
  cases r with
  | ok n =>
    right
    refine ⟨n, rfl, ?_, rfl⟩
    rw [← b.content_length h]
    exact hD _ _ _ (by rw [hq])
  | _ => left; rfl

theorem readRun_inv {R : Reader ρ} (hR : HonestReader R) {inner : Bytes} {r : ρ} {s : ReadSys ρ}
    (h : ReadRun R inner r s) :
    s.buf.Inv ∧ s.buf.inner.length = inner.length ∧ s.out ++ s.buf.content = delivered s.reader.2 := by
  induction h with
  | new =>
    exact ⟨⟨Nat.le_refl _, by simp [ReadBuf.new], fun _ => rfl⟩, rfl, by simp [ReadBuf.new, ReadBuf.content, delivered]⟩
  | @step s t _ hst ih =>
    obtain ⟨h1, h2, h3⟩ := ih
    cases hst with
    | fill =>
      obtain ⟨as, a1, a2, a3, a4, _⟩ := fill_spec hR s.buf s.reader h1
      refine ⟨a3, by simp only; rw [a4, h2], ?_⟩
      simp only
      rw [a2, a1, ← List.append_assoc, h3]
      simp [delivered]
    | read n =>
      obtain ⟨a1, a2, a3, a4⟩ := s.buf.read_spec h1 n
      refine ⟨a1, by simp only; rw [a4, h2], ?_⟩
      simp only
      rw [List.append_assoc, a2, h3]
    | decode D d hD =>
      rcases (decodeFromReadBuf_spec hD h1).2 with q | ⟨n, _, q1, q2⟩
      · simp only [q]
        refine ⟨h1, h2, ?_⟩
        simp [tookFrom]
        exact h3
      · have hc := s.buf.consume_spec h1 q1
        simp only [q2]
        refine ⟨hc.1, by rw [hc.2.2.1, h2], ?_⟩
        rw [hc.2.1, List.append_assoc]
        have : tookFrom s.buf (s.buf.consume n) = s.buf.content.take n := by
          simp only [tookFrom]
          rw [hc.2.2.2]
          have : s.buf.len - (s.buf.len - n) = n := by omega
          rw [this]
          rfl
        rw [this, List.take_append_drop, h3]

/-! ## Write buffer -/

/-- The invariant of a write buffer. -/
structure WriteBuf.Inv (b : WriteBuf) : Prop where
  le : b.head ≤ b.tail
  cap : b.tail ≤ b.inner.length
  zero : b.head = b.tail → b.tail = 0

/-- The bytes in the buffer. -/
def WriteBuf.content (b : WriteBuf) : Bytes := (b.inner.take b.tail).drop b.head

theorem WriteBuf.content_length {b : WriteBuf} (h : b.Inv) : b.content.length = b.len := by
  have := h.cap
  simp [WriteBuf.content, WriteBuf.len]
  omega

theorem WriteBuf.consume_spec {b : WriteBuf} (h : b.Inv) {n : Nat} (hn : n ≤ b.len) :
    (b.consume n).Inv ∧ (b.consume n).content = b.content.drop n ∧
      (b.consume n).inner = b.inner ∧ (b.consume n).waker = b.waker ∧ (b.consume n).woken = b.woken ∧
      (b.consume n).state = b.state := by
  have h1 := h.le
  have h2 := h.cap
  have h3 := h.zero
  simp only [WriteBuf.len] at hn ⊢
  unfold WriteBuf.consume
  split
  · next he =>
    refine ⟨⟨Nat.le_refl _, by simp, fun _ => rfl⟩, ?_, rfl, rfl, rfl, rfl⟩
    simp only [WriteBuf.content]
    rw [List.drop_eq_nil_of_le (as := List.drop _ _)]
    · simp
    · simp; omega
  · next he =>
    refine ⟨⟨by simp only; omega, h2, by simp only; omega⟩, ?_, rfl, rfl, rfl, rfl⟩
    simp only [WriteBuf.content]
    rw [List.drop_drop]

/-- One pass of the loop of `flush`, with a writer that records its answers. -/
theorem flushLoop_spec {W : Writer ω} (hW : HonestWriter W) (b : WriteBuf)
    (w : ω × List (Bytes × WriteRes)) :
    b.Inv → ∃ as, (b.flushLoop (loggedWriter W) w).2.2.2 = w.2 ++ as ∧
      accepted as ++ (b.flushLoop (loggedWriter W) w).2.1.content = b.content ∧
      (b.flushLoop (loggedWriter W) w).2.1.Inv ∧
      (b.flushLoop (loggedWriter W) w).2.1.inner = b.inner ∧
      (b.flushLoop (loggedWriter W) w).2.1.waker = b.waker ∧
      (b.flushLoop (loggedWriter W) w).2.1.woken = b.woken ∧
      (∀ a ∈ as.dropLast, ∃ n, a.2 = .wrote (n + 1)) ∧
      (b.flushLoop (loggedWriter W) w).2.1.state = (as.getLast?.map fun a => WriteRes.state a.2).getD b.state ∧
      ((b.flushLoop (loggedWriter W) w).1 = .ok () ∧
          ((b.flushLoop (loggedWriter W) w).2.1.isEmpty = true ∨
            as.getLast?.map Prod.snd = some (.error .wouldBlock) ∨
            as.getLast?.map Prod.snd = some (.wrote 0)) ∨
        ∃ k, k ≠ .wouldBlock ∧ as.getLast?.map Prod.snd = some (.error k) ∧
          (b.flushLoop (loggedWriter W) w).1 = .err (ErrorKind.ofIo k)) := by
  induction b, w using WriteBuf.flushLoop.induct (loggedWriter W) with
  | case1 b w h =>
    intro hI
    rw [WriteBuf.flushLoop, dif_pos h]
    exact ⟨[], by simp, by simp [accepted], hI, rfl, rfl, rfl, by simp, rfl, .inl ⟨rfl, .inl h⟩⟩
  | case2 b w h1 h2 =>
    intro hI
    have := hI.cap
    have := hI.le
    omega
  | case3 b w h1 h2 w' hw =>
    intro hI
    rw [WriteBuf.flushLoop, dif_neg h1, dif_neg h2, hw]
    simp only [if_pos]
    have : w' = (w'.1, w.2 ++ [(b.content, .error .wouldBlock)]) := by
      simp only [loggedWriter, Prod.mk.injEq] at hw
      rw [← hw.2, hw.1]
      rfl
    rw [this]
    exact ⟨[(b.content, .error .wouldBlock)], rfl, by simp [WriteBuf.content, accepted, taken], ⟨hI.1, hI.2, hI.3⟩,
      by trivial, by trivial, by trivial, by simp, by trivial, .inl ⟨by trivial, .inr (.inl rfl)⟩⟩
  | case4 b w h1 h2 k w' hw hk =>
    intro hI
    rw [WriteBuf.flushLoop, dif_neg h1, dif_neg h2, hw]
    simp only [if_neg hk]
    have : w' = (w'.1, w.2 ++ [(b.content, .error k)]) := by
      simp only [loggedWriter, Prod.mk.injEq] at hw
      rw [← hw.2, hw.1]
      rfl
    rw [this]
    refine ⟨[(b.content, .error k)], rfl, by simp [WriteBuf.content, accepted, taken], ⟨hI.1, hI.2, hI.3⟩,
      by trivial, by trivial, by trivial, by simp, ?_, .inr ⟨k, hk, rfl, by trivial⟩⟩
    cases k <;> simp [WriteRes.state] at hk ⊢
  | case5 b w h1 h2 w' hw =>
    intro hI
    rw [WriteBuf.flushLoop, dif_neg h1, dif_neg h2, hw]
    have : w' = (w'.1, w.2 ++ [(b.content, .wrote 0)]) := by
      simp only [loggedWriter, Prod.mk.injEq] at hw
      rw [← hw.2, hw.1]
      rfl
    rw [this]
    exact ⟨[(b.content, .wrote 0)], rfl, by simp [WriteBuf.content, accepted, taken], ⟨hI.1, hI.2, hI.3⟩,
      rfl, rfl, rfl, by simp, rfl, .inl ⟨rfl, .inr (.inr rfl)⟩⟩
  | case6 b w h1 h2 n w' hw ih =>
    intro hI
    rw [WriteBuf.flushLoop, dif_neg h1, dif_neg h2, hw]
    have hw' : w' = (w'.1, w.2 ++ [(b.content, .wrote (n + 1))]) := by
      simp only [loggedWriter, Prod.mk.injEq] at hw
      rw [← hw.2, hw.1]
      rfl
    have hlen : n + 1 ≤ b.len := by
      rw [← b.content_length hI]
      simp only [loggedWriter, Prod.mk.injEq] at hw
      exact hW _ _ _ _ (Prod.ext hw.1 rfl)
    have hI0 : WriteBuf.Inv { b with state := .normal } := ⟨hI.1, hI.2, hI.3⟩
    have hc := WriteBuf.consume_spec hI0 (n := n + 1) hlen
    obtain ⟨as, a1, a2, a3, a4, a5, a6, a7, a8, a9⟩ := ih hc.1
    refine ⟨(b.content, .wrote (n + 1)) :: as, ?_, ?_, a3, ?_, ?_, ?_, ?_, ?_, ?_⟩
    · simp only; rw [a1, hw']; simp
    · simp only
      have : accepted ((b.content, .wrote (n + 1)) :: as) = b.content.take (n + 1) ++ accepted as := by
        simp [accepted, taken]
      rw [this, List.append_assoc, a2, hc.2.1]
      exact List.take_append_drop _ _
    · exact a4.trans hc.2.2.1
    · exact a5.trans hc.2.2.2.1
    · exact a6.trans hc.2.2.2.2.1
    · intro a ha
      cases as with
      | nil => simp at ha
      | cons y ys =>
        simp only [List.dropLast_cons_cons, List.mem_cons] at ha
        rcases ha with rfl | ha
        · exact ⟨n, rfl⟩
        · exact a7 a ha
    · simp only
      rw [a8, List.getLast?_cons, hc.2.2.2.2.2]
      cases as.getLast? <;> simp [WriteRes.state]
    · rcases a9 with ⟨q1, q2⟩ | ⟨k, q1, q2, q3⟩
      · refine .inl ⟨q1, ?_⟩
        rcases q2 with q | q | q
        · exact .inl q
        · refine .inr (.inl ?_)
          rw [List.getLast?_cons]
          cases hl : as.getLast? <;> simp [hl] at q ⊢
          exact q
        · refine .inr (.inr ?_)
          rw [List.getLast?_cons]
          cases hl : as.getLast? <;> simp [hl] at q ⊢
          exact q
      · refine .inr ⟨k, q1, ?_, q3⟩
        rw [List.getLast?_cons]
        cases hl : as.getLast? <;> simp [hl] at q2 ⊢
        exact q2

theorem WriteBuf.wake_inv {b : WriteBuf} (h : b.Inv) : b.wakeIfRoom.Inv := by
  unfold WriteBuf.wakeIfRoom
  split
  · split
    · exact ⟨h.1, h.2, h.3⟩
    · exact h
  · exact h

theorem WriteBuf.wake_eq (b : WriteBuf) : b.wakeIfRoom.inner = b.inner ∧ b.wakeIfRoom.head = b.head ∧
    b.wakeIfRoom.tail = b.tail ∧ b.wakeIfRoom.state = b.state ∧ b.wakeIfRoom.waker = b.waker := by
  unfold WriteBuf.wakeIfRoom
  split
  · split <;> exact ⟨rfl, rfl, rfl, rfl, rfl⟩
  · exact ⟨rfl, rfl, rfl, rfl, rfl⟩

/-- `flush` is the loop, followed by the wake-up when it succeeds. -/
theorem flush_eq {W : Writer ω} (b : WriteBuf) (w : ω) :
    (b.flush W w).1 = (b.flushLoop W w).1 ∧ (b.flush W w).2.2 = (b.flushLoop W w).2.2 ∧
    ((b.flush W w).2.1 = (b.flushLoop W w).2.1 ∨
      ((b.flushLoop W w).1 = .ok () ∧ (b.flush W w).2.1 = (b.flushLoop W w).2.1.wakeIfRoom)) := by
  simp only [WriteBuf.flush]
  rcases b.flushLoop W w with ⟨r, b', w'⟩
  cases r with
  | ok u => cases u; exact ⟨rfl, rfl, .inr ⟨rfl, rfl⟩⟩
  | _ => exact ⟨rfl, rfl, .inl rfl⟩

theorem flush_same {W : Writer ω} (b : WriteBuf) (w : ω) :
    (b.flush W w).2.1.inner = (b.flushLoop W w).2.1.inner ∧
    (b.flush W w).2.1.head = (b.flushLoop W w).2.1.head ∧
    (b.flush W w).2.1.tail = (b.flushLoop W w).2.1.tail ∧
    (b.flush W w).2.1.state = (b.flushLoop W w).2.1.state := by
  rcases (flush_eq (W := W) b w).2.2 with h | ⟨_, h⟩
  · rw [h]; exact ⟨rfl, rfl, rfl, rfl⟩
  · rw [h]
    obtain ⟨h1, h2, h3, h4, _⟩ := (b.flushLoop W w).2.1.wake_eq
    exact ⟨h1, h2, h3, h4⟩

theorem WriteBuf.write_spec {b : WriteBuf} (h : b.Inv) (buf : Bytes) :
    (b.write buf).2.Inv ∧ (b.write buf).2.content = b.content ++ buf.take (b.write buf).1 ∧
      (b.write buf).1 = min buf.length b.room ∧ (b.write buf).2.inner.length = b.inner.length := by
  have h1 := h.le
  have h2 := h.cap
  have h3 := h.zero
  simp only [WriteBuf.write]
  have hl : (buf.take (min buf.length b.room)).length = min buf.length b.room := by simp
  have hr : b.room = b.inner.length - b.tail := rfl
  refine ⟨⟨by simp only; omega, ?_, by simp only; omega⟩, ?_, by trivial, ?_⟩
  · simp only; rw [splice_len (by omega)]; omega
  · simp only [WriteBuf.content]
    have := splice_take_drop (inner := b.inner) (src := buf.take (min buf.length b.room)) h1 (by omega)
    rw [hl] at this
    exact this
  · rw [splice_len (by omega)]

theorem encodeToWriteBuf_spec {σ α : Type} {E : Encoder σ α} {d : σ}
    (hE : ∀ n e bs, (E.encode d n e).1 = .ok bs → bs.length ≤ n) {b : WriteBuf} (h : b.Inv) :
    (encodeToWriteBuf E d b).2.2.Inv ∧
    (encodeToWriteBuf E d b).2.2.content =
      b.content ++ Res.bytes (E.encode d b.room (Eos.new b.state.isEos)).1 ∧
    (encodeToWriteBuf E d b).2.2.inner.length = b.inner.length ∧
    (encodeToWriteBuf E d b).2.2.state = b.state := by
  have h1 := h.le
  have h2 := h.cap
  have h3 := h.zero
  rw [encodeToWriteBuf, if_neg (by omega)]
  change _ ∧ _ = b.content ++ Res.bytes (E.encode d (b.inner.length - b.tail) (Eos.new b.state.isEos)).1 ∧ _
  rcases hq : E.encode d (b.inner.length - b.tail) (Eos.new b.state.isEos) with ⟨r, d'⟩
  cases r with
  | ok bs =>
    have hl : bs.length ≤ b.inner.length - b.tail := hE _ _ _ (by rw [hq])
    simp only [Res.step, Res.bytes]
    refine ⟨⟨by simp only; omega, ?_, by simp only; omega⟩, ?_, ?_, trivial⟩
    · simp only; rw [splice_len (by omega)]; omega
    · simp only [WriteBuf.content]
      exact splice_take_drop h1 (by omega)
    · rw [splice_len (by omega)]
  | _ =>
    simp only [Res.step, Res.bytes, List.append_nil]
    exact ⟨h, trivial, trivial, trivial⟩

theorem encodeToWriteBufAsync_same {σ α : Type} {E : Encoder σ α} {d : σ} {b : WriteBuf} {k : Nat} :
    (encodeToWriteBufAsync E d b k).2.2.inner = (encodeToWriteBuf E d b).2.2.inner ∧
    (encodeToWriteBufAsync E d b k).2.2.head = (encodeToWriteBuf E d b).2.2.head ∧
    (encodeToWriteBufAsync E d b k).2.2.tail = (encodeToWriteBuf E d b).2.2.tail := by
  simp only [encodeToWriteBufAsync]
  rcases encodeToWriteBuf E d b with ⟨r, d', b'⟩
  cases r <;> exact ⟨rfl, rfl, rfl⟩

theorem writeInv_congr {b c : WriteBuf} (h : b.Inv) (h1 : c.inner = b.inner) (h2 : c.head = b.head)
    (h3 : c.tail = b.tail) : c.Inv ∧ c.content = b.content := by
  refine ⟨⟨?_, ?_, ?_⟩, ?_⟩
  · rw [h2, h3]; exact h.1
  · rw [h1, h3]; exact h.2
  · rw [h2, h3]; exact h.3
  · simp only [WriteBuf.content, h1, h2, h3]

theorem writeRun_inv {W : Writer ω} (hW : HonestWriter W) {inner : Bytes} {w : ω} {s : WriteSys ω}
    (h : WriteRun W inner w s) :
    s.buf.Inv ∧ s.buf.inner.length = inner.length ∧ accepted s.writer.2 ++ s.buf.content = s.input := by
  induction h with
  | new =>
    exact ⟨⟨Nat.le_refl _, by simp [WriteBuf.new], fun _ => rfl⟩, rfl, by simp [WriteBuf.new, WriteBuf.content, accepted]⟩
  | @step s t _ hst ih =>
    obtain ⟨h1, h2, h3⟩ := ih
    cases hst with
    | write b =>
      obtain ⟨a1, a2, a3, a4⟩ := s.buf.write_spec h1 b
      refine ⟨a1, by simp only; rw [a4, h2], ?_⟩
      simp only
      rw [a2, ← List.append_assoc, h3]
    | encode E d hE =>
      obtain ⟨a1, a2, a3, a4⟩ := encodeToWriteBuf_spec hE h1
      refine ⟨a1, by simp only; rw [a3, h2], ?_⟩
      simp only
      rw [a2, ← List.append_assoc, h3]
    | encodeAsync E d k hE =>
      obtain ⟨a1, a2, a3, a4⟩ := encodeToWriteBuf_spec hE h1
      obtain ⟨b1, b2, b3⟩ := encodeToWriteBufAsync_same (E := E) (d := d) (b := s.buf) (k := k)
      obtain ⟨c1, c2⟩ := writeInv_congr a1 b1 b2 b3
      refine ⟨c1, by simp only; rw [b1, a3, h2], ?_⟩
      simp only
      rw [c2, a2, ← List.append_assoc, h3]
    | flush =>
      obtain ⟨as, a1, a2, a3, a4, _⟩ := flushLoop_spec hW s.buf s.writer h1
      obtain ⟨b1, b2, b3, _⟩ := flush_same (W := loggedWriter W) s.buf s.writer
      obtain ⟨c1, c2⟩ := writeInv_congr a3 b1 b2 b3
      refine ⟨c1, by simp only; rw [b1, a4, h2], ?_⟩
      simp only
      rw [(flush_eq (W := loggedWriter W) s.buf s.writer).2.1, c2, a1, ← h3, ← a2]
      simp [accepted]

/-! ## Changing the reader or the writer -/

theorem fill_map {ρ' : Type} {R : Reader ρ} {R' : Reader ρ'} (h : ρ → ρ')
    (hh : ∀ r n, R'.read (h r) n = ((R.read r n).1, h (R.read r n).2)) (b : ReadBuf) (r : ρ) :
    b.fill R' (h r) = ((b.fill R r).1, (b.fill R r).2.1, h (b.fill R r).2.2) := by
  induction b, r using ReadBuf.fill.induct R with
  | case1 b r h1 => rw [ReadBuf.fill, dif_pos h1, ReadBuf.fill, dif_pos h1]
  | case2 b r h1 h2 => rw [ReadBuf.fill, dif_neg h1, dif_pos h2, ReadBuf.fill, dif_neg h1, dif_pos h2]
  | case3 b r h1 h2 r' hr =>
    rw [ReadBuf.fill, dif_neg h1, dif_neg h2, hh, ReadBuf.fill, dif_neg h1, dif_neg h2, hr]
    simp
  | case4 b r h1 h2 k r' hr hk =>
    rw [ReadBuf.fill, dif_neg h1, dif_neg h2, hh, ReadBuf.fill, dif_neg h1, dif_neg h2, hr]
    simp [hk]
  | case5 b r h1 h2 r' hr =>
    rw [ReadBuf.fill, dif_neg h1, dif_neg h2, hh, ReadBuf.fill, dif_neg h1, dif_neg h2, hr]
  | case6 b r h1 h2 x xs r' hr ih =>
    rw [ReadBuf.fill, dif_neg h1, dif_neg h2, hh, ReadBuf.fill, dif_neg h1, dif_neg h2, hr]
    exact ih

theorem flushLoop_map {ω' : Type} {W : Writer ω} {W' : Writer ω'} (h : ω → ω')
    (hh : ∀ w b, W'.write (h w) b = ((W.write w b).1, h (W.write w b).2)) (b : WriteBuf) (w : ω) :
    b.flushLoop W' (h w) = ((b.flushLoop W w).1, (b.flushLoop W w).2.1, h (b.flushLoop W w).2.2) := by
  induction b, w using WriteBuf.flushLoop.induct W with
  | case1 b r h1 => rw [WriteBuf.flushLoop, dif_pos h1, WriteBuf.flushLoop, dif_pos h1]
  | case2 b r h1 h2 =>
    rw [WriteBuf.flushLoop, dif_neg h1, dif_pos h2, WriteBuf.flushLoop, dif_neg h1, dif_pos h2]
  | case3 b r h1 h2 r' hr =>
    rw [WriteBuf.flushLoop, dif_neg h1, dif_neg h2, hh, WriteBuf.flushLoop, dif_neg h1, dif_neg h2, hr]
    simp
  | case4 b r h1 h2 k r' hr hk =>
    rw [WriteBuf.flushLoop, dif_neg h1, dif_neg h2, hh, WriteBuf.flushLoop, dif_neg h1, dif_neg h2, hr]
    simp [hk]
  | case5 b r h1 h2 r' hr =>
    rw [WriteBuf.flushLoop, dif_neg h1, dif_neg h2, hh, WriteBuf.flushLoop, dif_neg h1, dif_neg h2, hr]
  | case6 b r h1 h2 n r' hr ih =>
    rw [WriteBuf.flushLoop, dif_neg h1, dif_neg h2, hh, WriteBuf.flushLoop, dif_neg h1, dif_neg h2, hr]
    exact ih

theorem flush_map {ω' : Type} {W : Writer ω} {W' : Writer ω'} (h : ω → ω')
    (hh : ∀ w b, W'.write (h w) b = ((W.write w b).1, h (W.write w b).2)) (b : WriteBuf) (w : ω) :
    b.flush W' (h w) = ((b.flush W w).1, (b.flush W w).2.1, h (b.flush W w).2.2) := by
  simp only [WriteBuf.flush, flushLoop_map h hh]
  rcases b.flushLoop W w with ⟨r, b', w'⟩
  cases r <;> rfl

/-! ## Buffered I/O -/

section Io

variable {τ : Type}

/-- A fill of the read buffer over a stream that records its answers. -/
theorem fill_stream {T : Stream τ} (hR : HonestReader T.reader) (b : ReadBuf) (t : τ × List Event) (h : b.Inv) :
    ∃ as, (b.fill (loggedStream T).reader t).2.2.2 = t.2 ++ as.map Event.read ∧
      (b.fill (loggedStream T).reader t).2.1.Inv ∧
      (b.fill (loggedStream T).reader t).2.1.state = (as.getLast?.map ReadRes.state).getD b.state ∧
      b.fill (loggedStream T).reader t =
        ((b.fill (loggedReader T.reader) (t.1, [])).1, (b.fill (loggedReader T.reader) (t.1, [])).2.1,
          ((b.fill (loggedReader T.reader) (t.1, [])).2.2.1, t.2 ++ as.map Event.read)) ∧
      (b.fill (loggedReader T.reader) (t.1, [])).2.2.2 = as := by
  have hm := fill_map (R := loggedReader T.reader) (R' := (loggedStream T).reader)
    (fun p => (p.1, t.2 ++ p.2.map Event.read)) (fun r n => by simp [loggedReader, loggedStream]) b (t.1, [])
  simp only [List.map_nil, List.append_nil] at hm
  obtain ⟨as, a1, _, a3, _, _, a6, _⟩ := fill_spec hR b (t.1, []) h
  simp only [List.nil_append] at a1
  refine ⟨as, ?_, ?_, ?_, ?_, a1⟩
  · rw [hm]; simp only [a1]
  · rw [hm]; exact a3
  · rw [hm]; exact a6
  · rw [hm]; simp only [a1]

/-- A flush of the write buffer over a stream that records its answers. -/
theorem flush_stream {T : Stream τ} (hW : HonestWriter T.writer) (b : WriteBuf) (t : τ × List Event) (h : b.Inv) :
    ∃ as, (b.flush (loggedStream T).writer t).2.2.2 = t.2 ++ as.map Event.wrote ∧
      (b.flush (loggedStream T).writer t).2.1.Inv ∧
      (b.flush (loggedStream T).writer t).2.1.state = (as.getLast?.map fun a => WriteRes.state a.2).getD b.state ∧
      b.flush (loggedStream T).writer t =
        ((b.flush (loggedWriter T.writer) (t.1, [])).1, (b.flush (loggedWriter T.writer) (t.1, [])).2.1,
          ((b.flush (loggedWriter T.writer) (t.1, [])).2.2.1, t.2 ++ as.map Event.wrote)) ∧
      (b.flush (loggedWriter T.writer) (t.1, [])).2.2.2 = as := by
  have hm := flush_map (W := loggedWriter T.writer) (W' := (loggedStream T).writer)
    (fun p => (p.1, t.2 ++ p.2.map Event.wrote)) (fun r n => by simp [loggedWriter, loggedStream]) b (t.1, [])
  simp only [List.map_nil, List.append_nil] at hm
  obtain ⟨as, a1, _, a3, _, _, _, _, a8, _⟩ := flushLoop_spec hW b (t.1, []) h
  obtain ⟨b1, b2, b3, b4⟩ := flush_same (W := loggedWriter T.writer) b (t.1, [])
  have b5 := (flush_eq (W := loggedWriter T.writer) b (t.1, [])).2.1
  simp only [List.nil_append] at a1
  rw [← b5] at a1
  refine ⟨as, ?_, ?_, ?_, ?_, a1⟩
  · rw [hm]; simp only [a1]
  · rw [hm]; exact (writeInv_congr a3 b1 b2 b3).1
  · rw [hm]; exact b4.trans a8
  · rw [hm]; simp only [a1]

theorem reads_append (l m : List Event) : Event.reads (l ++ m) = Event.reads l ++ Event.reads m := by
  simp [Event.reads]

theorem writes_append (l m : List Event) : Event.writes (l ++ m) = Event.writes l ++ Event.writes m := by
  simp [Event.writes]

theorem reads_read (l : List ReadRes) : Event.reads (l.map Event.read) = l := by
  simp [Event.reads, List.filterMap_map]
  induction l <;> simp_all

theorem writes_read (l : List ReadRes) : Event.writes (l.map Event.read) = [] := by
  simp [Event.writes, List.filterMap_map]

theorem reads_wrote (l : List (Bytes × WriteRes)) : Event.reads (l.map Event.wrote) = [] := by
  simp [Event.reads, List.filterMap_map]

theorem writes_wrote (l : List (Bytes × WriteRes)) : Event.writes (l.map Event.wrote) = l := by
  simp [Event.writes, List.filterMap_map]
  induction l <;> simp_all

theorem last_getD {α β : Type} (f : α → β) (l m : List α) (d : β) :
    (m.getLast?.map f).getD ((l.getLast?.map f).getD d) = ((l ++ m).getLast?.map f).getD d := by
  rw [List.getLast?_append]
  cases m.getLast? <;> rfl

/-- What `BufferedIo` keeps true: both buffers are well formed, and both stream states name the last
answer in their direction. -/
structure IoInv (io : BufferedIo (τ × List Event)) : Prop where
  r : io.rbuf.Inv
  w : io.wbuf.Inv
  rs : io.rbuf.state = ((Event.reads io.stream.2).getLast?.map ReadRes.state).getD .normal
  ws : io.wbuf.state = ((Event.writes io.stream.2).getLast?.map fun a => WriteRes.state a.2).getD .normal

theorem step_id {α τ : Type} (p : Res Unit × α) (f : α → τ) :
    Res.step p f (fun _ q => (.ok (), f q)) = (p.1, f p.2) := by
  rcases p with ⟨r, q⟩
  cases r <;> rfl

/-- One `execute_io`: the answers it caused are reads followed by writes. -/
theorem executeIo_spec {T : Stream τ} (hR : HonestReader T.reader) (hW : HonestWriter T.writer)
    {io : BufferedIo (τ × List Event)} (h : IoInv io) :
    IoInv (io.executeIo (loggedStream T)).2 ∧
    ∃ as ws, (io.executeIo (loggedStream T)).2.stream.2 = io.stream.2 ++ as.map Event.read ++ ws.map Event.wrote ∧
      as = (io.rbuf.fill (loggedReader T.reader) (io.stream.1, [])).2.2.2 ∧
      (io.executeIo (loggedStream T)).2.rbuf = (io.rbuf.fill (loggedReader T.reader) (io.stream.1, [])).2.1 ∧
      (((io.rbuf.fill (loggedReader T.reader) (io.stream.1, [])).1 ≠ .ok () ∧
          (io.executeIo (loggedStream T)).1 = (io.rbuf.fill (loggedReader T.reader) (io.stream.1, [])).1 ∧
          ws = [] ∧ (io.executeIo (loggedStream T)).2.wbuf = io.wbuf) ∨
        ((io.rbuf.fill (loggedReader T.reader) (io.stream.1, [])).1 = .ok () ∧
          (io.executeIo (loggedStream T)).1 = (io.wbuf.flush (loggedWriter T.writer)
            ((io.rbuf.fill (loggedReader T.reader) (io.stream.1, [])).2.2.1, [])).1 ∧
          ws = (io.wbuf.flush (loggedWriter T.writer)
            ((io.rbuf.fill (loggedReader T.reader) (io.stream.1, [])).2.2.1, [])).2.2.2 ∧
          (io.executeIo (loggedStream T)).2.wbuf = (io.wbuf.flush (loggedWriter T.writer)
            ((io.rbuf.fill (loggedReader T.reader) (io.stream.1, [])).2.2.1, [])).2.1)) := by
  obtain ⟨as, a1, a2, a3, a4, a5⟩ := fill_stream hR io.rbuf io.stream h.r
  rw [a4] at a1 a2 a3
  simp only [BufferedIo.executeIo, a4, step_id]
  clear a4
  rcases hq : io.rbuf.fill (loggedReader T.reader) (io.stream.1, []) with ⟨res, rb, t, l⟩
  rw [hq] at a1 a2 a3 a5
  simp only at a1 a2 a3 a5
  subst a5
  have hfail : IoInv ⟨(t, io.stream.2 ++ l.map Event.read), rb, io.wbuf⟩ := by
    refine ⟨a2, h.w, ?_, ?_⟩
    · simp only
      rw [a3, h.rs, last_getD, reads_append, reads_read]
    · simp only
      rw [h.ws, writes_append, writes_read, List.append_nil]
  cases res with
  | ok u =>
    cases u
    obtain ⟨ws, w1, w2, w3, w4, w5⟩ := flush_stream hW io.wbuf (t, io.stream.2 ++ l.map Event.read) h.w
    rw [w4] at w1 w2 w3
    simp only [Res.step]
    rw [w4]
    clear w4
    simp only at w5 ⊢
    rcases hp : io.wbuf.flush (loggedWriter T.writer) (t, []) with ⟨res2, wb, t2, l2⟩
    rw [hp] at w1 w2 w3 w5
    simp only at w1 w2 w3 w5
    subst w5
    refine ⟨⟨a2, w2, ?_, ?_⟩, l, l2, by trivial, by trivial, by trivial, .inr ⟨by trivial, by trivial, by trivial, by trivial⟩⟩
    · simp only
      rw [reads_append, reads_wrote, List.append_nil]
      exact hfail.rs
    · simp only
      rw [w3, writes_append, writes_append, writes_read, List.append_nil, h.ws, last_getD, writes_wrote]
  | _ =>
    exact ⟨hfail, l, [], by simp [Res.step], rfl, rfl, .inl ⟨by simp, rfl, rfl, rfl⟩⟩

theorem ioRun_inv {T : Stream τ} (hR : HonestReader T.reader) (hW : HonestWriter T.writer) {t : τ}
    {n m : Nat} {io : BufferedIo (τ × List Event)} (h : IoRun T t n m io) : IoInv io := by
  induction h with
  | new =>
    exact ⟨⟨Nat.le_refl _, by simp [BufferedIo.new, ReadBuf.new], fun _ => rfl⟩,
      ⟨Nat.le_refl _, by simp [BufferedIo.new, WriteBuf.new], fun _ => rfl⟩, rfl, rfl⟩
  | executeIo _ ih => exact (executeIo_spec hR hW ih).1
  | @read io n _ ih =>
    refine ⟨(io.rbuf.read_spec ih.r n).1, ih.w, ?_, ih.ws⟩
    rw [← ih.rs]
    simp only [ReadBuf.read, ReadBuf.consume]
    split <;> rfl
  | @decode io σ α D d hD _ ih =>
    rcases (decodeFromReadBuf_spec hD ih.r).2 with q | ⟨n, _, q1, q2⟩
    · simp only [q]
      exact ⟨ih.r, ih.w, ih.rs, ih.ws⟩
    · simp only [q2]
      refine ⟨(io.rbuf.consume_spec ih.r q1).1, ih.w, ?_, ih.ws⟩
      rw [← ih.rs]
      simp only [ReadBuf.consume]
      split <;> rfl
  | @write io b _ ih =>
    exact ⟨ih.r, (io.wbuf.write_spec ih.w b).1, ih.rs, ih.ws⟩
  | @encode io σ α E d hE _ ih =>
    have hs := encodeToWriteBuf_spec hE ih.w
    exact ⟨ih.r, hs.1, ih.rs, by simp only; rw [hs.2.2.2, ih.ws]⟩

theorem readState_wouldBlock (a : Option ReadRes) :
    (a.map ReadRes.state).getD .normal = .wouldBlock ↔ a = some (.error .wouldBlock) := by
  rcases a with _ | ⟨_ | _⟩ | ⟨_ | _ | _⟩ <;> simp [ReadRes.state]

theorem readState_eos (a : Option ReadRes) :
    (a.map ReadRes.state).getD .normal = .eos ↔ a = some (.data []) := by
  rcases a with _ | ⟨_ | _⟩ | ⟨_ | _ | _⟩ <;> simp [ReadRes.state]

theorem writeState_wouldBlock (a : Option (Bytes × WriteRes)) :
    (a.map fun a => WriteRes.state a.2).getD .normal = .wouldBlock ↔
      a.map Prod.snd = some (.error .wouldBlock) := by
  rcases a with _ | ⟨b, ⟨_ | _⟩ | ⟨_ | _ | _⟩⟩ <;> simp [WriteRes.state]

theorem writeState_eos (a : Option (Bytes × WriteRes)) :
    (a.map fun a => WriteRes.state a.2).getD .normal = .eos ↔ a.map Prod.snd = some (.wrote 0) := by
  rcases a with _ | ⟨b, ⟨_ | _⟩ | ⟨_ | _ | _⟩⟩ <;> simp [WriteRes.state]

end Io

/-! ## Asynchronous buffers -/

theorem pollFill_spec {R : AsyncReader ρ} (hR : PollsReader R) (b : ReadBuf) (r : ρ) (l : List ReadRes) :
    ∃ as, (b.fill (loggedReader (syncReader R)) (r, l)).2.2.2 = l ++ as ∧
      b.pollFill R r =
        (if as.getLast? = some (.error .wouldBlock) then .pending
          else .ready (b.fill (loggedReader (syncReader R)) (r, l)).1,
        (b.fill (loggedReader (syncReader R)) (r, l)).2.1,
        (b.fill (loggedReader (syncReader R)) (r, l)).2.2.1) := by
  induction b, r using ReadBuf.pollFill.induct R generalizing l with
  | case1 b r h1 =>
    rw [ReadBuf.fill, dif_pos h1, ReadBuf.pollFill, dif_pos h1]
    exact ⟨[], by simp⟩
  | case2 b r h1 h2 =>
    rw [ReadBuf.fill, dif_neg h1, dif_pos h2, ReadBuf.pollFill, dif_neg h1, dif_pos h2]
    exact ⟨[], by simp⟩
  | case3 b r h1 h2 r' hr =>
    rw [ReadBuf.fill, dif_neg h1, dif_neg h2, ReadBuf.pollFill, dif_neg h1, dif_neg h2, hr]
    simp only [loggedReader, syncReader, hr]
    exact ⟨[.error .wouldBlock], by simp⟩
  | case4 b r h1 h2 r' hr =>
    rw [ReadBuf.fill, dif_neg h1, dif_neg h2, ReadBuf.pollFill, dif_neg h1, dif_neg h2, hr]
    simp only [loggedReader, syncReader, hr]
    exact ⟨[.data []], by simp⟩
  | case5 b r h1 h2 x xs r' hr ih =>
    rw [ReadBuf.fill, dif_neg h1, dif_neg h2, ReadBuf.pollFill, dif_neg h1, dif_neg h2, hr]
    obtain ⟨as, a1, a2⟩ := ih (l ++ [.data (x :: xs)])
    have hrd : (loggedReader (syncReader R)).read (r, l) (b.inner.length - b.tail) =
        (.data (x :: xs), (r', l ++ [.data (x :: xs)])) := by
      simp only [loggedReader, syncReader, hr]
    rw [hrd]
    refine ⟨.data (x :: xs) :: as, ?_, ?_⟩
    · simp only; rw [a1]; simp
    · simp only
      rw [a2]
      have : (ReadRes.data (x :: xs) :: as).getLast? = some (.error .wouldBlock) ↔
          as.getLast? = some (.error .wouldBlock) := by
        rw [List.getLast?_cons]
        cases as.getLast? <;> simp
      simp only [this]
  | case6 b r h1 h2 k r' hr =>
    rw [ReadBuf.fill, dif_neg h1, dif_neg h2, ReadBuf.pollFill, dif_neg h1, dif_neg h2, hr]
    have hk : k ≠ .wouldBlock := by
      rintro rfl
      exact hR r _ (by rw [hr])
    simp only [loggedReader, syncReader, hr, if_neg hk]
    exact ⟨[.error k], by simp [hk]⟩

theorem pollFlush_spec {W : AsyncWriter ω} (hW : PollsWriter W) (b : WriteBuf) (w : ω)
    (l : List (Bytes × WriteRes)) :
    ∃ as, (b.flushLoop (loggedWriter (syncWriter W)) (w, l)).2.2.2 = l ++ as ∧
      b.pollFlush W w =
        (if as.getLast?.map Prod.snd = some (.error .wouldBlock) then .pending
          else .ready (b.flushLoop (loggedWriter (syncWriter W)) (w, l)).1,
        (b.flushLoop (loggedWriter (syncWriter W)) (w, l)).2.1,
        (b.flushLoop (loggedWriter (syncWriter W)) (w, l)).2.2.1) := by
  induction b, w using WriteBuf.pollFlush.induct W generalizing l with
  | case1 b r h1 =>
    rw [WriteBuf.flushLoop, dif_pos h1, WriteBuf.pollFlush, dif_pos h1]
    exact ⟨[], by simp⟩
  | case2 b r h1 h2 =>
    rw [WriteBuf.flushLoop, dif_neg h1, dif_pos h2, WriteBuf.pollFlush, dif_neg h1, dif_pos h2]
    exact ⟨[], by simp⟩
  | case3 b r h1 h2 k r' hr =>
    rw [WriteBuf.flushLoop, dif_neg h1, dif_neg h2, WriteBuf.pollFlush, dif_neg h1, dif_neg h2, hr]
    have hk : k ≠ .wouldBlock := by
      rintro rfl
      exact hW r _ (by rw [hr])
    simp only [loggedWriter, syncWriter, hr, if_neg hk]
    exact ⟨[(_, .error k)], rfl, by simp [hk]⟩
  | case4 b r h1 h2 r' hr =>
    rw [WriteBuf.flushLoop, dif_neg h1, dif_neg h2, WriteBuf.pollFlush, dif_neg h1, dif_neg h2, hr]
    simp only [loggedWriter, syncWriter, hr]
    exact ⟨[(_, .wrote 0)], rfl, by simp⟩
  | case5 b r h1 h2 n r' hr ih =>
    rw [WriteBuf.flushLoop, dif_neg h1, dif_neg h2, WriteBuf.pollFlush, dif_neg h1, dif_neg h2, hr]
    obtain ⟨as, a1, a2⟩ := ih (l ++ [((b.inner.take b.tail).drop b.head, .wrote (n + 1))])
    have hrd : (loggedWriter (syncWriter W)).write (r, l) ((b.inner.take b.tail).drop b.head) =
        (.wrote (n + 1), (r', l ++ [((b.inner.take b.tail).drop b.head, .wrote (n + 1))])) := by
      simp only [loggedWriter, syncWriter, hr]
    rw [hrd]
    refine ⟨((b.inner.take b.tail).drop b.head, .wrote (n + 1)) :: as, ?_, ?_⟩
    · simp only; rw [a1]; simp
    · simp only
      rw [a2]
      have : (((b.inner.take b.tail).drop b.head, WriteRes.wrote (n + 1)) :: as).getLast?.map Prod.snd =
          some (.error .wouldBlock) ↔ as.getLast?.map Prod.snd = some (.error .wouldBlock) := by
        rw [List.getLast?_cons]
        cases as.getLast? <;> simp
      simp only [this]
  | case6 b r h1 h2 r' hr =>
    rw [WriteBuf.flushLoop, dif_neg h1, dif_neg h2, WriteBuf.pollFlush, dif_neg h1, dif_neg h2, hr]
    simp only [loggedWriter, syncWriter, hr]
    exact ⟨[(_, .error .wouldBlock)], rfl, by simp⟩

end Bytecodec
