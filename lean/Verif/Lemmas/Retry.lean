import Verif.Lemmas.Interrupted
import Verif.Lemmas.CodesIo
import Verif.Spec.Retry
/-!
# Lemmas: trying again after failures of the stream
-/
namespace Bytecodec

open Spec

variable {σ α ρ ω : Type}

theorem tries_data {R V : Reader ρ} (h : TriesReading R V) {r r' : ρ} {n : Nat} {bs : Bytes}
    (hr : R.read r n = (.data bs, r')) : V.read r n = (.data bs, r') := by
  have := h r n; rw [hr] at this; exact this

theorem tries_error {R V : Reader ρ} (h : TriesReading R V) {r r' : ρ} {n : Nat} {io : IoErr}
    (hr : R.read r n = (.error io, r')) : V.read r n = V.read r' n := by
  have := h r n; rw [hr] at this; exact this

theorem getLast?_append_none {as bs : List ReadRes} (ha : ∀ io, as.getLast? ≠ some (.error io)) :
    (∀ io, bs.getLast? ≠ some (.error io)) → ∀ io, (as ++ bs).getLast? ≠ some (.error io) := by
  intro hb io
  rw [List.getLast?_append]
  cases h : bs.getLast? with
  | none => simpa using ha io
  | some x =>
    intro hx
    simp only [Option.some_or, Option.some.injEq] at hx
    exact hb io (by rw [h, hx])

/-- One round of `decode_exact`. -/
def exactRound (D : Decoder σ α) (R : Reader ρ) (loop : σ → ρ → Option (Res α × σ × ρ)) (s : σ) (r : ρ) :
    Option (Res α × σ × ρ) :=
  match (if readSize (D.requiring s) ≠ 0 then R.read r (readSize (D.requiring s)) else (.data [], r)) with
  | (.error k, r') => some (.err (ErrorKind.ofIo k), s, r')
  | (.data bs, r') =>
    if 1024 < bs.length then some (.panic, s, r')
    else
      match D.decode s bs (Eos.new (readSize (D.requiring s) ≠ 0 && bs.isEmpty)) with
      | (.ok consumed, s') =>
        if consumed ≠ bs.length then some (.err .inconsistentState, s', r')
        else if D.isIdle s' then some ((D.finish s').1, (D.finish s').2, r')
        else loop s' r'
      | (.err k, s') => some (.err k, s', r')
      | (.panic, s') => some (.panic, s', r')
      | (.capacity, s') => some (.capacity, s', r')
      | (.diverge, s') => some (.diverge, s', r')

theorem decodeExact_rounds {D : Decoder σ α} {R : Reader ρ} {P : σ → ρ → Res α × σ × ρ → Prop}
    (h : ∀ loop, (∀ s r y, loop s r = some y → P s r y) → ∀ s r y, exactRound D R loop s r = some y → P s r y) :
    ∀ s r y, decodeExact D R s r = some y → P s r y := by
  refine decodeExact.partial_correctness D R (motive := P) ?_
  intro loop ih s r y hd
  refine h loop ih s r y ?_
  rw [← hd]
  unfold exactRound
  cases D.requiring s <;> rfl

/-- One call of `decode_exact` with a reader that fails. -/
theorem decodeExact_tries {D : Decoder σ α} {R V : Reader ρ} (h : TriesReading R V) {s s' : σ} {r r' : ρ} {y : Res α}
    {l l' : List ReadRes} (hd : decodeExact D (loggedReader R) s (r, l) = some (y, s', (r', l'))) :
    ∃ as, l' = l ++ as ∧
      ((∀ io, as.getLast? ≠ some (.error io)) ∧ decodeExact D V s r = some (y, s', r') ∨
        ∃ io, as.getLast? = some (.error io) ∧ y = .err (ErrorKind.ofIo io) ∧
          decodeExact D V s' r' = decodeExact D V s r) := by
  revert hd
  have key := decodeExact_rounds (D := D) (R := loggedReader R)
    (P := fun s r y => ∃ as, y.2.2.2 = r.2 ++ as ∧
      ((∀ io, as.getLast? ≠ some (.error io)) ∧ decodeExact D V s r.1 = some (y.1, y.2.1, y.2.2.1) ∨
        ∃ io, as.getLast? = some (.error io) ∧ y.1 = .err (ErrorKind.ofIo io) ∧
          decodeExact D V y.2.1 y.2.2.1 = decodeExact D V s r.1)) ?_
  · intro hd; exact key _ _ _ hd
  · rintro loop ih s ⟨r, l⟩ y hd
    rw [decodeExact_eq D V s r]
    unfold exactRound at hd
    have same : (∃ bs u as, (if readSize (D.requiring s) ≠ 0 then (loggedReader R).read (r, l) (readSize (D.requiring s))
          else (.data [], (r, l))) = (.data bs, (u, l ++ as)) ∧ (∀ io, as.getLast? ≠ some (.error io)) ∧
          (if readSize (D.requiring s) ≠ 0 then V.read r (readSize (D.requiring s)) else (.data [], r)) =
            (.data bs, u)) ∨
        ∃ io u, readSize (D.requiring s) ≠ 0 ∧
          (loggedReader R).read (r, l) (readSize (D.requiring s)) = (.error io, (u, l ++ [.error io])) ∧
          V.read r (readSize (D.requiring s)) = V.read u (readSize (D.requiring s)) := by
      by_cases h0 : readSize (D.requiring s) ≠ 0
      · rw [if_pos h0, if_pos h0]
        rcases hr : R.read r (readSize (D.requiring s)) with ⟨x, u⟩
        cases x with
        | data bs =>
          exact .inl ⟨bs, u, [.data bs], by simp only [loggedReader, hr], by simp, tries_data h hr⟩
        | error io => exact .inr ⟨io, u, h0, by simp only [loggedReader, hr], tries_error h hr⟩
      · rw [if_neg h0, if_neg h0]
        exact .inl ⟨[], r, [], by simp, by simp, rfl⟩
    rcases same with ⟨bs, u, as, same, has, hv⟩ | ⟨io, u, h0, h1, h2⟩
    · rw [same] at hd
      rw [hv]
      simp only at hd ⊢
      split at hd
      · next hlt => rw [if_pos hlt]; cases hd; exact ⟨as, rfl, .inl ⟨has, rfl⟩⟩
      · next hlt =>
        rw [if_neg hlt]
        rcases he : D.decode s bs (Eos.new (readSize (D.requiring s) ≠ 0 && bs.isEmpty)) with ⟨a, s'⟩
        rw [he] at hd
        cases a with
        | ok n =>
          simp only at hd ⊢
          split at hd
          · next hc => rw [if_pos hc]; cases hd; exact ⟨as, rfl, .inl ⟨has, rfl⟩⟩
          · next hc =>
            rw [if_neg hc]
            split at hd
            · next hi => rw [if_pos hi]; cases hd; exact ⟨as, rfl, .inl ⟨has, rfl⟩⟩
            · next hi =>
              rw [if_neg hi]
              obtain ⟨bs', q1, q2⟩ := ih _ _ _ hd
              refine ⟨as ++ bs', by rw [q1, List.append_assoc], ?_⟩
              rcases q2 with ⟨q2, q3⟩ | ⟨io, q2, q3⟩
              · exact .inl ⟨getLast?_append_none has q2, q3⟩
              · exact .inr ⟨io, by rw [List.getLast?_append, q2]; rfl, q3⟩
        | err _ => cases hd; exact ⟨as, rfl, .inl ⟨has, rfl⟩⟩
        | panic => cases hd; exact ⟨as, rfl, .inl ⟨has, rfl⟩⟩
        | capacity => cases hd; exact ⟨as, rfl, .inl ⟨has, rfl⟩⟩
        | diverge => cases hd; exact ⟨as, rfl, .inl ⟨has, rfl⟩⟩
    · rw [if_pos h0, h1] at hd
      cases hd
      refine ⟨_, rfl, .inr ⟨io, rfl, rfl, ?_⟩⟩
      show decodeExact D V s u = _
      rw [decodeExact_eq D V s u, if_pos h0, if_pos h0, h2]

/-- If `decode_exact` comes to an end with trying again, then so does each call. -/
theorem decodeExact_returns {D : Decoder σ α} {R V : Reader ρ} (h : TriesReading R V) {left : ρ → Nat}
    (hf : FailsFinitely R left) {s : σ} {r : ρ} {z : Res α × σ × ρ} (hd : decodeExact D V s r = some z) (l : List ReadRes) :
    ∃ y s' r' l', decodeExact D (loggedReader R) s (r, l) = some (y, s', (r', l')) ∧
      ∃ as, l' = l ++ as ∧ left r' ≤ left r ∧ ∀ io, as.getLast? = some (.error io) → left r' < left r := by
  revert l
  have key := decodeExact_rounds (D := D) (R := V)
    (P := fun s r _ => ∀ l, ∃ y s' r' l', decodeExact D (loggedReader R) s (r, l) = some (y, s', (r', l')) ∧
      ∃ as, l' = l ++ as ∧ left r' ≤ left r ∧ ∀ io, as.getLast? = some (.error io) → left r' < left r) ?_
  · exact key _ _ _ hd
  · intro loop ih s r y hd l
    rw [decodeExact_eq]
    unfold exactRound at hd
    have same : (∃ bs u as, (if readSize (D.requiring s) ≠ 0 then (loggedReader R).read (r, l) (readSize (D.requiring s))
          else (.data [], (r, l))) = (.data bs, (u, l ++ as)) ∧ (∀ io, as.getLast? ≠ some (.error io)) ∧ left u ≤ left r ∧
          (if readSize (D.requiring s) ≠ 0 then V.read r (readSize (D.requiring s)) else (.data [], r)) =
            (.data bs, u)) ∨
        ∃ io u, (if readSize (D.requiring s) ≠ 0 then (loggedReader R).read (r, l) (readSize (D.requiring s))
          else (.data [], (r, l))) = (.error io, (u, l ++ [.error io])) ∧ left u < left r := by
      by_cases h0 : readSize (D.requiring s) ≠ 0
      · rw [if_pos h0, if_pos h0]
        have hl := hf r (readSize (D.requiring s))
        rcases hr : R.read r (readSize (D.requiring s)) with ⟨x, u⟩
        rw [hr] at hl
        cases x with
        | data bs =>
          exact .inl ⟨bs, u, [.data bs], by simp only [loggedReader, hr], by simp, hl, tries_data h hr⟩
        | error io => exact .inr ⟨io, u, by simp only [loggedReader, hr], hl⟩
      · rw [if_neg h0, if_neg h0]
        exact .inl ⟨[], r, [], by simp, by simp, Nat.le_refl _, rfl⟩
    rcases same with ⟨bs, u, as, same, has, hle, hv⟩ | ⟨io, u, h1, h2⟩
    · rw [hv] at hd
      rw [same]
      simp only at hd ⊢
      split at hd
      · next hlt => rw [if_pos hlt]; exact ⟨_, _, _, _, rfl, as, rfl, hle, fun io hx => absurd hx (has io)⟩
      · next hlt =>
        rw [if_neg hlt]
        rcases he : D.decode s bs (Eos.new (readSize (D.requiring s) ≠ 0 && bs.isEmpty)) with ⟨a, s'⟩
        rw [he] at hd
        cases a with
        | ok n =>
          simp only at hd ⊢
          split at hd
          · next hc => rw [if_pos hc]; exact ⟨_, _, _, _, rfl, as, rfl, hle, fun io hx => absurd hx (has io)⟩
          · next hc =>
            rw [if_neg hc]
            split at hd
            · next hi => rw [if_pos hi]; exact ⟨_, _, _, _, rfl, as, rfl, hle, fun io hx => absurd hx (has io)⟩
            · next hi =>
              rw [if_neg hi]
              obtain ⟨y', t, q, l', q1, as', q2, q3, q4⟩ := ih _ _ _ hd (l ++ as)
              refine ⟨y', t, q, l', q1, as ++ as', by rw [q2, List.append_assoc], Nat.le_trans q3 hle, ?_⟩
              intro io hx
              rw [List.getLast?_append] at hx
              cases h' : as'.getLast? with
              | none => rw [h'] at hx; exact absurd hx (has io)
              | some x =>
                rw [h'] at hx
                simp only [Option.some_or, Option.some.injEq] at hx
                exact Nat.lt_of_lt_of_le (q4 io (by rw [h', hx])) hle
        | err _ => exact ⟨_, _, _, _, rfl, as, rfl, hle, fun io hx => absurd hx (has io)⟩
        | panic => exact ⟨_, _, _, _, rfl, as, rfl, hle, fun io hx => absurd hx (has io)⟩
        | capacity => exact ⟨_, _, _, _, rfl, as, rfl, hle, fun io hx => absurd hx (has io)⟩
        | diverge => exact ⟨_, _, _, _, rfl, as, rfl, hle, fun io hx => absurd hx (has io)⟩
    · rw [h1]
      exact ⟨_, _, _, _, rfl, [.error io], rfl, Nat.le_of_lt h2, fun _ _ => h2⟩

theorem insists_outcome {D : Decoder σ α} {R V : Reader ρ} (h : TriesReading R V) {n : Nat} {s s' : σ} {r r' : ρ}
    {y : Res α} (hi : Insists D R n s r y s' r') : decodeExact D V s r = some (y, s', r') := by
  induction hi with
  | once hd hl =>
    obtain ⟨as, q1, q2⟩ := decodeExact_tries h hd
    rw [List.nil_append] at q1
    subst q1
    rcases q2 with ⟨_, q2⟩ | ⟨io, q2, _⟩
    · exact q2
    · exact absurd q2 (hl io)
  | again hd hl _ ih =>
    obtain ⟨as, q1, q2⟩ := decodeExact_tries h hd
    rw [List.nil_append] at q1
    subst q1
    rcases q2 with ⟨q2, _⟩ | ⟨io, _, _, q2⟩
    · exact absurd hl (q2 _)
    · rw [← q2]; exact ih

theorem insists_arrives {D : Decoder σ α} {R V : Reader ρ} (h : TriesReading R V) {left : ρ → Nat}
    (hf : FailsFinitely R left) : ∀ (k : Nat) {s s' : σ} {r r' : ρ} {y : Res α}, left r ≤ k →
    decodeExact D V s r = some (y, s', r') → ∃ n, n ≤ left r ∧ Insists D R n s r y s' r' := by
  intro k
  induction k with
  | zero =>
    intro s s' r r' y hk hd
    obtain ⟨z, t, q, l, q1, as, q2, q3, q4⟩ := decodeExact_returns h hf hd []
    rw [List.nil_append] at q2; subst q2
    have hno : ∀ io, l.getLast? ≠ some (.error io) := fun io hx => by have := q4 io hx; omega
    have hi : Insists D R 0 s r z t q := .once q1 hno
    have := insists_outcome h hi
    rw [hd] at this
    cases this
    exact ⟨0, Nat.zero_le _, hi⟩
  | succ k ih =>
    intro s s' r r' y hk hd
    obtain ⟨z, t, q, l, q1, as, q2, q3, q4⟩ := decodeExact_returns h hf hd []
    rw [List.nil_append] at q2; subst q2
    by_cases hl : ∃ io, l.getLast? = some (.error io)
    · obtain ⟨io, hl⟩ := hl
      obtain ⟨as, p1, p2⟩ := decodeExact_tries h q1
      rw [List.nil_append] at p1; subst p1
      rcases p2 with ⟨p2, _⟩ | ⟨_, _, _, p2⟩
      · exact absurd hl (p2 io)
      · have hlt := q4 io hl
        obtain ⟨n, hn, hi⟩ := ih (by omega) (p2.trans hd)
        exact ⟨n + 1, by omega, .again q1 hl hi⟩
    · have hno : ∀ io, l.getLast? ≠ some (.error io) := fun io hx => hl ⟨io, hx⟩
      have hi : Insists D R 0 s r z t q := .once q1 hno
      have := insists_outcome h hi
      rw [hd] at this
      cases this
      exact ⟨0, Nat.zero_le _, hi⟩

theorem fill_tries {R V : Reader ρ} (h : TriesReading R V) :
    ∀ (n : Nat) (b : ReadBuf) (r : ρ), b.inner.length - b.tail ≤ n →
    b.fill R r = b.fill V r ∨
    ∃ io b' r', b.fill R r = (if io = .wouldBlock then .ok () else .err (ErrorKind.ofIo io), b', r') ∧
      b'.state = (if io = .wouldBlock then .wouldBlock else .error) ∧ b'.fill V r' = b.fill V r := by
  intro n
  induction n with
  | zero =>
    intro b r hn
    left
    rw [ReadBuf.fill, ReadBuf.fill]
    by_cases h1 : b.isFull
    · rw [dif_pos h1, dif_pos h1]
    · rw [dif_neg h1, dif_neg h1]
      have h2 : b.inner.length < b.tail := by
        simp only [ReadBuf.isFull, beq_iff_eq] at h1; omega
      rw [dif_pos h2, dif_pos h2]
  | succ n ih =>
    intro b r hn
    by_cases h1 : b.isFull
    · left; rw [ReadBuf.fill, ReadBuf.fill, dif_pos h1, dif_pos h1]
    · by_cases h2 : b.inner.length < b.tail
      · left; rw [ReadBuf.fill, ReadBuf.fill, dif_neg h1, dif_neg h1, dif_pos h2, dif_pos h2]
      · rw [ReadBuf.fill, dif_neg h1, dif_neg h2]
        rcases hr : R.read r (b.inner.length - b.tail) with ⟨x, r'⟩
        cases x with
        | data bs =>
          conv => enter [1, 2]; rw [ReadBuf.fill, dif_neg h1, dif_neg h2, tries_data h hr]
          conv => enter [2, 1, io, 1, b', 1, r', 2, 2, 2]; rw [ReadBuf.fill, dif_neg h1, dif_neg h2, tries_data h hr]
          cases bs with
          | nil => exact .inl rfl
          | cons x xs =>
            simp only
            apply ih
            simp only [ReadBuf.isFull, beq_iff_eq] at h1
            simp only [splice, List.length_append, List.length_take, List.length_drop, List.length_cons]
            omega
        | error io =>
          right
          have h4 := tries_error h hr
          have hb : b.fill V r = b.fill V r' := by
            rw [ReadBuf.fill, ReadBuf.fill, dif_neg h1, dif_neg h2, dif_neg h1, dif_neg h2, h4]
          by_cases hio : io = .wouldBlock
          · refine ⟨io, { b with state := .wouldBlock }, r', ?_, ?_, ?_⟩
            · simp only [if_pos hio]
            · simp only [if_pos hio]
            · rw [fill_state V b r' _ h1 h2, hb]
          · refine ⟨io, { b with state := .error }, r', ?_, ?_, ?_⟩
            · simp only [if_neg hio]
            · simp only [if_neg hio]
            · rw [fill_state V b r' _ h1 h2, hb]

theorem flushLoop_tries {W V : Writer ω} (h : TriesWriting W V) :
    ∀ (n : Nat) (b : WriteBuf) (w : ω), b.tail + 1 - b.head ≤ n →
    b.flushLoop W w = b.flushLoop V w ∨
    ∃ io b' w', b.flushLoop W w = (if io = .wouldBlock then .ok () else .err (ErrorKind.ofIo io), b', w') ∧
      b'.state = (if io = .wouldBlock then .wouldBlock else .error) ∧ b'.waker = b.waker ∧
      b'.flushLoop V w' = b.flushLoop V w := by
  intro n
  induction n with
  | zero =>
    intro b w hn
    left
    rw [WriteBuf.flushLoop, WriteBuf.flushLoop]
    by_cases h1 : b.isEmpty
    · rw [dif_pos h1, dif_pos h1]
    · rw [dif_neg h1, dif_neg h1, dif_pos (.inl (by omega)), dif_pos (.inl (by omega))]
  | succ n ih =>
    intro b w hn
    by_cases h1 : b.isEmpty
    · left; rw [WriteBuf.flushLoop, WriteBuf.flushLoop, dif_pos h1, dif_pos h1]
    · by_cases h2 : b.tail < b.head ∨ b.inner.length < b.tail
      · left; rw [WriteBuf.flushLoop, WriteBuf.flushLoop, dif_neg h1, dif_neg h1, dif_pos h2, dif_pos h2]
      · have ht := h w ((b.inner.take b.tail).drop b.head)
        rw [WriteBuf.flushLoop, dif_neg h1, dif_neg h2]
        rcases hr : W.write w ((b.inner.take b.tail).drop b.head) with ⟨x, w'⟩
        rw [hr] at ht
        cases x with
        | wrote m =>
          simp only at ht
          conv => enter [1, 2]; rw [WriteBuf.flushLoop, dif_neg h1, dif_neg h2, ht]
          conv => enter [2, 1, io, 1, b', 1, r', 2, 2, 2, 2]; rw [WriteBuf.flushLoop, dif_neg h1, dif_neg h2, ht]
          cases m with
          | zero => exact .inl rfl
          | succ m =>
            simp only
            have hc : (({ b with state := .normal } : WriteBuf).consume (m + 1)).waker = b.waker := by
              simp only [WriteBuf.consume]
              split <;> rfl
            have := ih (({ b with state := .normal } : WriteBuf).consume (m + 1)) w' (by
              simp only [WriteBuf.isEmpty, beq_iff_eq] at h1
              simp only [WriteBuf.consume]
              split <;> simp only <;> omega)
            rw [hc] at this
            exact this
        | error io =>
          right
          simp only at ht
          have hb : b.flushLoop V w = b.flushLoop V w' := by
            rw [WriteBuf.flushLoop, WriteBuf.flushLoop, dif_neg h1, dif_neg h2, dif_neg h1, dif_neg h2, ht]
          by_cases hio : io = .wouldBlock
          · refine ⟨io, { b with state := .wouldBlock }, w', ?_, ?_, rfl, ?_⟩
            · simp only [if_pos hio]
            · simp only [if_pos hio]
            · rw [flushLoop_state V b w' _ h1 h2, hb]
          · refine ⟨io, { b with state := .error }, w', ?_, ?_, rfl, ?_⟩
            · simp only [if_neg hio]
            · simp only [if_neg hio]
            · rw [flushLoop_state V b w' _ h1 h2, hb]

theorem wakeIfRoom_none {b : WriteBuf} (h : b.waker = none) : b.wakeIfRoom = b := by
  simp only [WriteBuf.wakeIfRoom, h]
  split <;> rfl

theorem flush_tries {W V : Writer ω} (h : TriesWriting W V) {b : WriteBuf} (hb : b.waker = none) (w : ω) :
    b.flush W w = b.flush V w ∨
    ∃ io b' w', b.flush W w = (if io = .wouldBlock then .ok () else .err (ErrorKind.ofIo io), b', w') ∧
      b'.state = (if io = .wouldBlock then .wouldBlock else .error) ∧ b'.waker = none ∧
      b'.flush V w' = b.flush V w := by
  rcases flushLoop_tries h _ b w (Nat.le_refl _) with h1 | ⟨io, b', w', h1, h2, h3, h4⟩
  · left; simp only [WriteBuf.flush, h1]
  · right
    rw [hb] at h3
    refine ⟨io, b', w', ?_, h2, h3, by simp only [WriteBuf.flush, h4]⟩
    simp only [WriteBuf.flush, h1]
    by_cases hio : io = .wouldBlock
    · rw [if_pos hio]; simp only [Res.step, wakeIfRoom_none h3]
    · rw [if_neg hio]; rfl

theorem flushLoop_waker (V : Writer ω) : ∀ (n : Nat) (b : WriteBuf) (w : ω), b.tail + 1 - b.head ≤ n →
    (b.flushLoop V w).2.1.waker = b.waker := by
  intro n
  induction n with
  | zero =>
    intro b w hn
    rw [WriteBuf.flushLoop]
    by_cases h1 : b.isEmpty
    · rw [dif_pos h1]
    · rw [dif_neg h1, dif_pos (.inl (by omega))]
  | succ n ih =>
    intro b w hn
    rw [WriteBuf.flushLoop]
    by_cases h1 : b.isEmpty
    · rw [dif_pos h1]
    · by_cases h2 : b.tail < b.head ∨ b.inner.length < b.tail
      · rw [dif_neg h1, dif_pos h2]
      · rw [dif_neg h1, dif_neg h2]
        rcases V.write w ((b.inner.take b.tail).drop b.head) with ⟨x, w'⟩
        cases x with
        | error io => simp only; split <;> rfl
        | wrote m =>
          cases m with
          | zero => rfl
          | succ m =>
            simp only
            rw [ih]
            · simp only [WriteBuf.consume]; split <;> rfl
            · simp only [WriteBuf.isEmpty, beq_iff_eq] at h1
              simp only [WriteBuf.consume]
              split <;> simp only <;> omega

theorem flush_noWaker {V : Writer ω} {b : WriteBuf} (hb : b.waker = none) (w : ω) : b.flush V w = b.flushLoop V w := by
  have h := flushLoop_waker V _ b w (Nat.le_refl _)
  rw [hb] at h
  rw [WriteBuf.flush]
  rcases hf : b.flushLoop V w with ⟨x, b', w'⟩
  rw [hf] at h
  cases x with
  | ok _ => simp only [Res.step, wakeIfRoom_none h]
  | _ => rfl

theorem pollFill_tries {R : AsyncReader ρ} {V : Reader ρ} (h : TriesPolling R V) :
    ∀ (n : Nat) (b : ReadBuf) (r : ρ), b.inner.length - b.tail ≤ n →
    ∃ x b' r', b.pollFill R r = (x, b', r') ∧
      (x = .ready (b.fill V r).1 ∧ (b', r') = (b.fill V r).2 ∨
        x = .pending ∧ b'.state = .wouldBlock ∧ b'.fill V r' = b.fill V r ∨
        ∃ io, x = .ready (.err (ErrorKind.ofIo io)) ∧ b'.state = .error ∧ b'.fill V r' = b.fill V r) := by
  intro n
  induction n with
  | zero =>
    intro b r hn
    rw [ReadBuf.pollFill, ReadBuf.fill]
    by_cases h1 : b.isFull
    · rw [dif_pos h1, dif_pos h1]; exact ⟨_, _, _, rfl, .inl ⟨rfl, rfl⟩⟩
    · rw [dif_neg h1, dif_neg h1]
      have h2 : b.inner.length < b.tail := by
        simp only [ReadBuf.isFull, beq_iff_eq] at h1; omega
      rw [dif_pos h2, dif_pos h2]; exact ⟨_, _, _, rfl, .inl ⟨rfl, rfl⟩⟩
  | succ n ih =>
    intro b r hn
    by_cases h1 : b.isFull
    · rw [ReadBuf.pollFill, ReadBuf.fill, dif_pos h1, dif_pos h1]; exact ⟨_, _, _, rfl, .inl ⟨rfl, rfl⟩⟩
    · by_cases h2 : b.inner.length < b.tail
      · rw [ReadBuf.pollFill, ReadBuf.fill, dif_neg h1, dif_neg h1, dif_pos h2, dif_pos h2]
        exact ⟨_, _, _, rfl, .inl ⟨rfl, rfl⟩⟩
      · have ht := h r (b.inner.length - b.tail)
        have again : ∀ r', V.read r (b.inner.length - b.tail) = V.read r' (b.inner.length - b.tail) →
            b.fill V r = b.fill V r' := by
          intro r' h4
          rw [ReadBuf.fill, ReadBuf.fill, dif_neg h1, dif_neg h2, dif_neg h1, dif_neg h2, h4]
        rw [ReadBuf.pollFill, dif_neg h1, dif_neg h2]
        rcases hr : R.pollRead r (b.inner.length - b.tail) with ⟨x, r'⟩
        rw [hr] at ht
        cases x with
        | pending =>
          refine ⟨_, _, _, rfl, .inr (.inl ⟨rfl, rfl, ?_⟩)⟩
          rw [fill_state V b r' _ h1 h2, ← again r' ht]
        | ready x =>
          cases x with
          | error io =>
            refine ⟨_, _, _, rfl, .inr (.inr ⟨io, rfl, rfl, ?_⟩)⟩
            rw [fill_state V b r' _ h1 h2, ← again r' ht]
          | data bs =>
            simp only at ht
            cases bs with
            | nil =>
              have hf : b.fill V r = (.ok (), { b with state := .eos }, r') := by
                rw [ReadBuf.fill, dif_neg h1, dif_neg h2, ht]
              rw [hf]; exact ⟨_, _, _, rfl, .inl ⟨rfl, rfl⟩⟩
            | cons x xs =>
              have hf : b.fill V r = ReadBuf.fill V { b with
                  inner := splice b.inner b.tail ((x :: xs).take (b.inner.length - b.tail))
                  state := .normal
                  tail := b.tail + (x :: xs).length } r' := by
                rw [ReadBuf.fill, dif_neg h1, dif_neg h2, ht]
              rw [hf]
              simp only
              apply ih
              simp only [ReadBuf.isFull, beq_iff_eq] at h1
              simp only [splice, List.length_append, List.length_take, List.length_drop, List.length_cons]
              omega

theorem pollFlush_tries {W : AsyncWriter ω} {V : Writer ω} (h : TriesPollingWrites W V) :
    ∀ (n : Nat) (b : WriteBuf) (w : ω), b.tail + 1 - b.head ≤ n →
    ∃ x b' w', b.pollFlush W w = (x, b', w') ∧
      (x = .ready (b.flushLoop V w).1 ∧ (b', w') = (b.flushLoop V w).2 ∨
        x = .pending ∧ b'.state = .wouldBlock ∧ b'.flushLoop V w' = b.flushLoop V w ∨
        ∃ io, x = .ready (.err (ErrorKind.ofIo io)) ∧ b'.state = .error ∧ b'.flushLoop V w' = b.flushLoop V w) := by
  intro n
  induction n with
  | zero =>
    intro b w hn
    rw [WriteBuf.pollFlush, WriteBuf.flushLoop]
    by_cases h1 : b.isEmpty
    · rw [dif_pos h1, dif_pos h1]; exact ⟨_, _, _, rfl, .inl ⟨rfl, rfl⟩⟩
    · rw [dif_neg h1, dif_neg h1, dif_pos (.inl (by omega)), dif_pos (.inl (by omega))]
      exact ⟨_, _, _, rfl, .inl ⟨rfl, rfl⟩⟩
  | succ n ih =>
    intro b w hn
    by_cases h1 : b.isEmpty
    · rw [WriteBuf.pollFlush, WriteBuf.flushLoop, dif_pos h1, dif_pos h1]; exact ⟨_, _, _, rfl, .inl ⟨rfl, rfl⟩⟩
    · by_cases h2 : b.tail < b.head ∨ b.inner.length < b.tail
      · rw [WriteBuf.pollFlush, WriteBuf.flushLoop, dif_neg h1, dif_neg h1, dif_pos h2, dif_pos h2]
        exact ⟨_, _, _, rfl, .inl ⟨rfl, rfl⟩⟩
      · have ht := h w ((b.inner.take b.tail).drop b.head)
        have again : ∀ w', V.write w ((b.inner.take b.tail).drop b.head) =
            V.write w' ((b.inner.take b.tail).drop b.head) → b.flushLoop V w = b.flushLoop V w' := by
          intro w' h4
          rw [WriteBuf.flushLoop, WriteBuf.flushLoop, dif_neg h1, dif_neg h2, dif_neg h1, dif_neg h2, h4]
        rw [WriteBuf.pollFlush, dif_neg h1, dif_neg h2]
        rcases hr : W.pollWrite w ((b.inner.take b.tail).drop b.head) with ⟨x, w'⟩
        rw [hr] at ht
        cases x with
        | pending =>
          refine ⟨_, _, _, rfl, .inr (.inl ⟨rfl, rfl, ?_⟩)⟩
          rw [flushLoop_state V b w' _ h1 h2, ← again w' ht]
        | ready x =>
          cases x with
          | error io =>
            refine ⟨_, _, _, rfl, .inr (.inr ⟨io, rfl, rfl, ?_⟩)⟩
            rw [flushLoop_state V b w' _ h1 h2, ← again w' ht]
          | wrote m =>
            simp only at ht
            cases m with
            | zero =>
              have hf : b.flushLoop V w = (.ok (), { b with state := .eos }, w') := by
                rw [WriteBuf.flushLoop, dif_neg h1, dif_neg h2, ht]
              rw [hf]; exact ⟨_, _, _, rfl, .inl ⟨rfl, rfl⟩⟩
            | succ m =>
              have hf : b.flushLoop V w = (({ b with state := .normal } : WriteBuf).consume (m + 1)).flushLoop V w' := by
                rw [WriteBuf.flushLoop, dif_neg h1, dif_neg h2, ht]
              rw [hf]
              simp only
              apply ih
              simp only [WriteBuf.isEmpty, beq_iff_eq] at h1
              simp only [WriteBuf.consume]
              split <;> simp only <;> omega

/-- What `encode_all` has lost when it fails. -/
theorem encodeAll_lost {strict : Bool} {E : Encoder σ α} {P dom enc} (h : Codes strict E P dom enc)
    {W : Writer ω} {sink : ω → Bytes} (hW : Sink W sink) :
    ∀ (n : Nat) (s : σ) (bs : Bytes) (w : ω) (k : ErrorKind) (s' : σ) (w' : ω), bs.length ≤ n → P s bs →
    encodeAll E W s w = some (.err k, s', w') →
    ∃ pre lost rest, bs = pre ++ lost ++ rest ∧ lost ≠ [] ∧ lost.length ≤ 1024 ∧ sink w' = sink w ++ pre ∧
      P s' rest := by
  intro n
  induction n with
  | zero =>
    intro s bs w k s' w' hn hp he
    have hbs : bs = [] := List.length_eq_zero_iff.1 (by omega)
    subst hbs
    obtain ⟨res, s1, w1, q1, q2⟩ := encodeAll_spec h hW 0 s [] w (Nat.le_refl _) hp
    rw [he] at q1
    cases q1
    rcases q2 with ⟨q2, _⟩ | ⟨k, pre, _, ⟨q2, q3⟩, _⟩
    · cases q2
    · exact absurd (List.prefix_nil.1 q2) q3
  | succ n ih =>
    intro s bs w k s' w' hn hp he
    rw [encodeAll] at he
    by_cases hi : E.isIdle s = true
    · rw [if_pos hi] at he; cases he
    · rw [if_neg hi] at he
      obtain ⟨s1, h1, h2, h3⟩ := h.step (cap := 1024) (e := Eos.new false) hp (by simp [Eos.new, Eos.isReached])
      rw [h1] at he
      simp only at he
      rw [if_neg (by simp; omega)] at he
      obtain ⟨res, w1, hw, hcase⟩ := writeAll_spec hW w (bs.take 1024)
      rw [hw] at he
      rcases hcase with ⟨rfl, hs⟩ | ⟨k', pre, rfl, hpre, hs, hf⟩
      · simp only at he
        by_cases hi' : E.isIdle s1 = true
        · simp only [hi', Bool.not_true, Bool.false_and, Bool.false_eq_true, if_false] at he
          rw [encodeAll, if_pos hi'] at he
          cases he
        · have hl : ¬ bs.length ≤ 1024 := fun hl => hi' (h3.2 hl)
          have hne : (bs.take 1024).isEmpty = false := by
            rw [List.isEmpty_eq_false_iff_exists_mem]
            cases bs with
            | nil => simp at hl
            | cons x xs => exact ⟨x, by simp⟩
          simp only [hne, Bool.and_false, Bool.false_eq_true, if_false] at he
          obtain ⟨pre, lost, rest, r1, r2, r3, r4, r5⟩ := ih s1 (bs.drop 1024) w1 k s' w' (by simp; omega) h2 he
          refine ⟨bs.take 1024 ++ pre, lost, rest, ?_, r2, r3, ?_, r5⟩
          · rw [List.append_assoc, List.append_assoc, ← List.append_assoc pre, ← r1, List.take_append_drop]
          · rw [r4, hs, List.append_assoc]
      · cases he
        obtain ⟨lost, hl⟩ := hpre.1
        refine ⟨pre, lost, bs.drop 1024, by rw [hl, List.take_append_drop], ?_, ?_, hs, h2⟩
        · intro hx; rw [hx, List.append_nil] at hl; exact hpre.2 hl
        · have := congrArg List.length hl
          simp only [List.length_append, List.length_take] at this
          omega

end Bytecodec
