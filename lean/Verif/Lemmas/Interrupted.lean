import Verif.Spec.Interrupted
import Verif.Model.Buf
import Verif.Lemmas.DecodeExact
/-!
# Lemmas for C73: interruptions
-/
namespace Bytecodec

open Spec

variable {σ α ω : Type}

/-- `write_all` after a call that was not interrupted. -/
def afterWrite (W : RawWriter ω) (buf : Bytes) : WriteRes → ω → Option (Res Unit × ω)
  | .error k, w => some (.err (ErrorKind.ofIo k), w)
  | .wrote n, w => if n = 0 then some (.err (ErrorKind.ofIo .other), w)
    else if buf.length < n then some (.panic, w) else writeAllRaw W w (buf.drop n)

theorem settles_writeAll {W : RawWriter ω} {w w' : ω} {buf : Bytes} {n : Nat} {r : WriteRes}
    (h : Settles W w buf n r w') (hb : buf.isEmpty = false) : writeAllRaw W w buf = afterWrite W buf r w' := by
  induction h with
  | @done w w' buf r h => rw [writeAllRaw, hb, if_neg (by simp), h]; cases r <;> rfl
  | again h _ ih => rw [writeAllRaw, hb, if_neg (by simp), h]; exact ih hb

theorem writeAllRaw_eq {W : RawWriter ω} {V : Writer ω} (h : WithoutInterruptions W V) :
    ∀ (n : Nat) (w : ω) (buf : Bytes), buf.length ≤ n → writeAllRaw W w buf = some (writeAll V w buf) := by
  intro n
  induction n with
  | zero =>
    intro w buf hn
    have : buf = [] := List.length_eq_zero_iff.1 (by omega)
    subst this
    rw [writeAllRaw, writeAll]
    rfl
  | succ n ih =>
    intro w buf hn
    cases hb : buf.isEmpty with
    | true => rw [writeAllRaw, writeAll, hb]; rfl
    | false =>
      obtain ⟨m, hs⟩ := h w buf
      rw [settles_writeAll hs hb, writeAll, hb]
      rcases V.write w buf with ⟨r, w'⟩
      cases r with
      | error k => rfl
      | wrote j =>
        simp only [Bool.false_eq_true, if_false, afterWrite]
        split
        · rfl
        · split
          · rfl
          · have : buf ≠ [] := by intro h; simp [h] at hb
            have := List.length_pos_iff.2 this
            exact ih _ _ (by simp only [List.length_drop]; omega)

theorem encodeAllRaw_le {E : Encoder σ α} {W : RawWriter ω} {V : Writer ω} (h : WithoutInterruptions W V) :
    ∀ s w r, encodeAllRaw E W s w = some r → encodeAll E V s w = some r := by
  refine encodeAllRaw.partial_correctness E W (fun s w r => encodeAll E V s w = some r) ?_
  intro rec ih s w r hr
  rw [encodeAll]
  split at hr
  · rw [if_pos ‹_›]; exact hr
  · rw [if_neg ‹_›]
    rcases he : E.encode s 1024 (Eos.new false) with ⟨x, s'⟩
    rw [he] at hr
    cases x with
    | ok bs =>
      simp only at hr ⊢
      split at hr
      · rw [if_pos ‹_›]; exact hr
      · rw [if_neg ‹_›]
        rw [writeAllRaw_eq h _ _ _ (Nat.le_refl _)] at hr
        rcases hw : writeAll V w bs with ⟨y, w'⟩
        rw [hw] at hr
        cases y with
        | ok u =>
          simp only at hr ⊢
          split at hr
          · rw [if_pos ‹_›]; exact hr
          · rw [if_neg ‹_›]; exact ih _ _ _ hr
        | _ => exact hr
    | _ => exact hr

theorem encodeAllRaw_ge {E : Encoder σ α} {W : RawWriter ω} {V : Writer ω} (h : WithoutInterruptions W V) :
    ∀ s w r, encodeAll E V s w = some r → encodeAllRaw E W s w = some r := by
  refine encodeAll.partial_correctness E V (fun s w r => encodeAllRaw E W s w = some r) ?_
  intro rec ih s w r hr
  rw [encodeAllRaw]
  split at hr
  · rw [if_pos ‹_›]; exact hr
  · rw [if_neg ‹_›]
    rcases he : E.encode s 1024 (Eos.new false) with ⟨x, s'⟩
    rw [he] at hr
    cases x with
    | ok bs =>
      simp only at hr ⊢
      split at hr
      · rw [if_pos ‹_›]; exact hr
      · rw [if_neg ‹_›]
        rw [writeAllRaw_eq h _ _ _ (Nat.le_refl _)]
        rcases hw : writeAll V w bs with ⟨y, w'⟩
        rw [hw] at hr
        cases y with
        | ok u =>
          simp only at hr ⊢
          split at hr
          · rw [if_pos ‹_›]; exact hr
          · rw [if_neg ‹_›]; exact ih _ _ _ hr
        | _ => exact hr
    | _ => exact hr

theorem encodeAllRaw_eq {E : Encoder σ α} {W : RawWriter ω} {V : Writer ω} (h : WithoutInterruptions W V)
    (s : σ) (w : ω) : encodeAllRaw E W s w = encodeAll E V s w := by
  cases h1 : encodeAll E V s w with
  | some r => exact encodeAllRaw_ge h s w r h1
  | none =>
    cases h2 : encodeAllRaw E W s w with
    | none => rfl
    | some r => rw [encodeAllRaw_le h s w r h2] at h1; cases h1

/-! ## Code that calls `write` and `read` directly -/

variable {ρ : Type}

theorem Spec.Settles.unique {W : RawWriter ω} {w u v : ω} {buf : Bytes} {m n : Nat} {x y : WriteRes}
    (h : Settles W w buf m x u) (h' : Settles W w buf n y v) : x = y ∧ u = v := by
  induction h generalizing n with
  | done h => cases h' with
    | done h' => rw [h] at h'; cases h'; exact ⟨rfl, rfl⟩
    | again h' => rw [h] at h'; cases h'
  | again h _ ih => cases h' with
    | done h' => rw [h] at h'; cases h'
    | again h' h'' => rw [h] at h'; cases h'; exact ih h''

theorem Spec.SettlesRead.unique {R : RawReader ρ} {r u v : ρ} {k m n : Nat} {x y : ReadRes}
    (h : SettlesRead R r k m x u) (h' : SettlesRead R r k n y v) : x = y ∧ u = v := by
  induction h generalizing n with
  | done h => cases h' with
    | done h' => rw [h] at h'; cases h'; exact ⟨rfl, rfl⟩
    | again h' => rw [h] at h'; cases h'
  | again h _ ih => cases h' with
    | done h' => rw [h] at h'; cases h'
    | again h' h'' => rw [h] at h'; cases h'; exact ih h''

/-- A call of `write` answers as without interruptions, or is interrupted and the next call answers so. -/
theorem direct_write {W : RawWriter ω} {V : Writer ω} (h : WithoutInterruptions W V) (w : ω) (buf : Bytes) :
    W.direct.write w buf = V.write w buf ∨
    ∃ u, W.direct.write w buf = (.error .other, u) ∧ V.write u buf = V.write w buf := by
  obtain ⟨n, hs⟩ := h w buf
  generalize hv : V.write w buf = v at hs
  obtain ⟨x, w'⟩ := v
  cases hs with
  | done hw => left; simp only [RawWriter.direct, hw]
  | @again _ u _ _ _ _ hw hs =>
    right
    refine ⟨u, by simp only [RawWriter.direct, hw], ?_⟩
    obtain ⟨n', hs'⟩ := h u buf
    obtain ⟨h1, h2⟩ := hs'.unique hs
    exact Prod.ext h1 h2

theorem direct_read {R : RawReader ρ} {V : Reader ρ} (h : ReadsWithoutInterruptions R V) (r : ρ) (k : Nat) :
    R.direct.read r k = V.read r k ∨
    ∃ u, R.direct.read r k = (.error .other, u) ∧ V.read u k = V.read r k := by
  obtain ⟨n, hs⟩ := h r k
  generalize hv : V.read r k = v at hs
  obtain ⟨x, r'⟩ := v
  cases hs with
  | done hw => left; simp only [RawReader.direct, hw]
  | @again _ u _ _ _ _ hw hs =>
    right
    refine ⟨u, by simp only [RawReader.direct, hw], ?_⟩
    obtain ⟨n', hs'⟩ := h u k
    obtain ⟨h1, h2⟩ := hs'.unique hs
    exact Prod.ext h1 h2

/-- `decode_exact`. -/
theorem decodeExact_direct {D : Decoder σ α} {R : RawReader ρ} {V : Reader ρ}
    (h : ReadsWithoutInterruptions R V) {s s' : σ} {r r' : ρ} {y : Res α}
    (hd : decodeExact D R.direct s r = some (y, s', r')) :
    decodeExact D V s r = some (y, s', r') ∨
    y = .err .other ∧ decodeExact D V s' r' = decodeExact D V s r := by
  revert hd
  have key := decodeExact.partial_correctness D R.direct
    (motive := fun s r y => decodeExact D V s r = some y ∨
      y.1 = .err .other ∧ decodeExact D V y.2.1 y.2.2 = decodeExact D V s r) ?_
  · intro hd; exact key _ _ _ hd
  · intro loop ih s r y hd
    rw [decodeExact_eq D V s r]
    have hd : (match (if readSize (D.requiring s) ≠ 0 then R.direct.read r (readSize (D.requiring s))
          else (.data [], r)) with
      | (.error k, r') => some (.err (ErrorKind.ofIo k), s, r')
      | (.data bs, r') =>
        if 1024 < bs.length then some (.panic, s, r')
        else
          match D.decode s bs (Eos.new (readSize (D.requiring s) ≠ 0 && bs.isEmpty)) with
          | (.ok consumed, s') =>
            if consumed ≠ bs.length then some (.err .inconsistentState, s', r')
            else if D.isIdle s' then some ((D.finish s').1, (D.finish s').2, r')
            else loop s' r'
          | (.err k, s') => some (.err k, s', r')
          | (.panic, s') => some (.panic, s', r')
          | (.capacity, s') => some (.capacity, s', r')
          | (.diverge, s') => some (.diverge, s', r')) = some y := by
      rw [← hd]
      cases D.requiring s <;> rfl
    have same : (if readSize (D.requiring s) ≠ 0 then R.direct.read r (readSize (D.requiring s))
          else (.data [], r)) = (if readSize (D.requiring s) ≠ 0 then V.read r (readSize (D.requiring s))
          else (.data [], r)) ∨ ∃ u, readSize (D.requiring s) ≠ 0 ∧
            R.direct.read r (readSize (D.requiring s)) = (.error .other, u) ∧
            V.read u (readSize (D.requiring s)) = V.read r (readSize (D.requiring s)) := by
      by_cases h0 : readSize (D.requiring s) ≠ 0
      · rw [if_pos h0, if_pos h0]
        rcases direct_read h r (readSize (D.requiring s)) with h1 | ⟨u, h1, h2⟩
        · exact .inl h1
        · exact .inr ⟨u, h0, h1, h2⟩
      · rw [if_neg h0, if_neg h0]; exact .inl rfl
    rcases same with same | ⟨u, h0, h1, h2⟩
    · rw [same] at hd
      generalize (if readSize (D.requiring s) ≠ 0 then V.read r (readSize (D.requiring s))
          else (.data [], r)) = p at hd ⊢
      obtain ⟨a, r'⟩ := p
      cases a with
      | error k => exact .inl hd
      | data bs =>
        simp only at hd ⊢
        split at hd
        · next hlt => rw [if_pos hlt]; exact .inl hd
        · next hlt =>
          rw [if_neg hlt]
          rcases he : D.decode s bs (Eos.new (readSize (D.requiring s) ≠ 0 && bs.isEmpty)) with ⟨a, s'⟩
          rw [he] at hd
          cases a with
          | ok n =>
            simp only at hd ⊢
            split at hd
            · next hc => rw [if_pos hc]; exact .inl hd
            · next hc =>
              rw [if_neg hc]
              split at hd
              · next hi => rw [if_pos hi]; exact .inl hd
              · next hi => rw [if_neg hi]; exact ih _ _ _ hd
          | err _ => exact .inl hd
          | panic => exact .inl hd
          | capacity => exact .inl hd
          | diverge => exact .inl hd
    · rw [if_pos h0, h1] at hd
      cases hd
      refine .inr ⟨rfl, ?_⟩
      rw [decodeExact_eq D V s u, if_pos h0, if_pos h0, h2]

/-- `fill` does not look at the state of the stream when there is something to do. -/
theorem fill_state (V : Reader ρ) (b : ReadBuf) (r : ρ) (x : StreamState) (h1 : ¬ b.isFull)
    (h2 : ¬ b.inner.length < b.tail) : ({ b with state := x } : ReadBuf).fill V r = b.fill V r := by
  have h1' : ¬ ({ b with state := x } : ReadBuf).isFull = true := h1
  rw [ReadBuf.fill, dif_neg h1', ReadBuf.fill, dif_neg h1, dif_neg h2, dif_neg h2]

/-- `fill`. -/
theorem fill_direct {R : RawReader ρ} {V : Reader ρ} (h : ReadsWithoutInterruptions R V) :
    ∀ (n : Nat) (b : ReadBuf) (r : ρ), b.inner.length - b.tail ≤ n →
    b.fill R.direct r = b.fill V r ∨
    ∃ b' r', b.fill R.direct r = (.err .other, b', r') ∧ b'.fill V r' = b.fill V r := by
  intro n
  induction n with
  | zero =>
    intro b r hn
    left
    rw [ReadBuf.fill, ReadBuf.fill]
    by_cases h1 : b.isFull
    · rw [dif_pos h1, dif_pos h1]
    · rw [dif_neg h1, dif_neg h1]
      have h2 : b.inner.length < b.tail := by
        simp only [ReadBuf.isFull, beq_iff_eq] at h1; omega
      rw [dif_pos h2, dif_pos h2]
  | succ n ih =>
    intro b r hn
    by_cases h1 : b.isFull
    · left; rw [ReadBuf.fill, ReadBuf.fill, dif_pos h1, dif_pos h1]
    · by_cases h2 : b.inner.length < b.tail
      · left; rw [ReadBuf.fill, ReadBuf.fill, dif_neg h1, dif_neg h1, dif_pos h2, dif_pos h2]
      · rw [ReadBuf.fill, dif_neg h1, dif_neg h2]
        rcases direct_read h r (b.inner.length - b.tail) with h3 | ⟨u, h3, h4⟩
        · rw [h3]
          conv => enter [1, 2]; rw [ReadBuf.fill, dif_neg h1, dif_neg h2]
          conv => enter [2, 1, b', 1, r', 2, 2]; rw [ReadBuf.fill, dif_neg h1, dif_neg h2]
          rcases hv : V.read r (b.inner.length - b.tail) with ⟨x, r'⟩
          cases x with
          | error k => exact .inl rfl
          | data bs =>
            cases bs with
            | nil => exact .inl rfl
            | cons x xs =>
              simp only
              apply ih
              simp only [ReadBuf.isFull, beq_iff_eq] at h1
              simp only [splice, List.length_append, List.length_take, List.length_drop, List.length_cons]
              omega
        · right
          rw [h3]
          refine ⟨_, _, rfl, ?_⟩
          rw [fill_state V b u _ h1 h2]
          rw [ReadBuf.fill, ReadBuf.fill, dif_neg h1, dif_neg h2, dif_neg h1, dif_neg h2, h4]

theorem flushLoop_state (V : Writer ω) (b : WriteBuf) (w : ω) (x : StreamState) (h1 : ¬ b.isEmpty)
    (h2 : ¬ (b.tail < b.head ∨ b.inner.length < b.tail)) :
    ({ b with state := x } : WriteBuf).flushLoop V w = b.flushLoop V w := by
  have h1' : ¬ ({ b with state := x } : WriteBuf).isEmpty = true := h1
  rw [WriteBuf.flushLoop, dif_neg h1', WriteBuf.flushLoop, dif_neg h1, dif_neg h2, dif_neg h2]

/-- The loop of `flush`. -/
theorem flushLoop_direct {W : RawWriter ω} {V : Writer ω} (h : WithoutInterruptions W V) :
    ∀ (n : Nat) (b : WriteBuf) (w : ω), b.tail + 1 - b.head ≤ n →
    b.flushLoop W.direct w = b.flushLoop V w ∨
    ∃ b' w', b.flushLoop W.direct w = (.err .other, b', w') ∧ b'.flushLoop V w' = b.flushLoop V w := by
  intro n
  induction n with
  | zero =>
    intro b w hn
    left
    rw [WriteBuf.flushLoop, WriteBuf.flushLoop]
    by_cases h1 : b.isEmpty
    · rw [dif_pos h1, dif_pos h1]
    · rw [dif_neg h1, dif_neg h1, dif_pos (.inl (by omega)), dif_pos (.inl (by omega))]
  | succ n ih =>
    intro b w hn
    by_cases h1 : b.isEmpty
    · left; rw [WriteBuf.flushLoop, WriteBuf.flushLoop, dif_pos h1, dif_pos h1]
    · by_cases h2 : b.tail < b.head ∨ b.inner.length < b.tail
      · left; rw [WriteBuf.flushLoop, WriteBuf.flushLoop, dif_neg h1, dif_neg h1, dif_pos h2, dif_pos h2]
      · rw [WriteBuf.flushLoop, dif_neg h1, dif_neg h2]
        rcases direct_write h w ((b.inner.take b.tail).drop b.head) with h3 | ⟨u, h3, h4⟩
        · rw [h3]
          conv => enter [1, 2]; rw [WriteBuf.flushLoop, dif_neg h1, dif_neg h2]
          conv => enter [2, 1, b', 1, r', 2, 2]; rw [WriteBuf.flushLoop, dif_neg h1, dif_neg h2]
          rcases hv : V.write w ((b.inner.take b.tail).drop b.head) with ⟨x, w'⟩
          cases x with
          | error k => exact .inl rfl
          | wrote m =>
            cases m with
            | zero => exact .inl rfl
            | succ m =>
              simp only
              apply ih
              simp only [WriteBuf.isEmpty, beq_iff_eq] at h1
              simp only [WriteBuf.consume]
              split <;> simp only <;> omega
        · right
          rw [h3]
          refine ⟨_, _, rfl, ?_⟩
          rw [flushLoop_state V b u _ h1 h2]
          rw [WriteBuf.flushLoop, WriteBuf.flushLoop, dif_neg h1, dif_neg h2, dif_neg h1, dif_neg h2, h4]

/-- `flush`. -/
theorem flush_direct {W : RawWriter ω} {V : Writer ω} (h : WithoutInterruptions W V) (b : WriteBuf) (w : ω) :
    b.flush W.direct w = b.flush V w ∨
    ∃ b' w', b.flush W.direct w = (.err .other, b', w') ∧ b'.flush V w' = b.flush V w := by
  rcases flushLoop_direct h _ b w (Nat.le_refl _) with h1 | ⟨b', w', h1, h2⟩
  · left; simp only [WriteBuf.flush, h1]
  · right
    refine ⟨b', w', by simp only [WriteBuf.flush, h1]; rfl, by simp only [WriteBuf.flush, h2]⟩

end Bytecodec
