import Verif.Spec.Requiring
import Verif.Spec.Assembled
import Verif.Lemmas.SplitSeq
/-!
# Lemmas: `requiring_bytes` is a lower bound
-/
namespace Bytecodec
open Spec

variable {σ τ α β : Type}

/-- Calls that account for at most `n` bytes and `q`. -/
def Upto (D : Decoder σ α) (s : σ) (n : Nat) (q : Bool) (t : σ) : Prop :=
  ∃ m r, Calls D s m r t ∧ m ≤ n ∧ (r = true → q = true)

theorem Upto.nil (D : Decoder σ α) (s : σ) (n : Nat) (q : Bool) : Upto D s n q s :=
  ⟨0, false, .nil s, Nat.zero_le _, by simp⟩

theorem Upto.cons {D : Decoder σ α} {s s' t : σ} {n m : Nat} {q : Bool} {b : Bytes} {e : Eos}
    (h : D.decode s b e = (.ok n, s')) (hu : Upto D s' m q t) : Upto D s (n + m) (e.isReached || q) t := by
  obtain ⟨m', r, h1, h2, h3⟩ := hu
  exact ⟨n + m', e.isReached || r, .cons b e h h1, by omega, by
    simp only [Bool.or_eq_true]
    rintro (h | h)
    · exact .inl h
    · exact .inr (h3 h)⟩

theorem Upto.mono {D : Decoder σ α} {s t : σ} {n m : Nat} {q r : Bool} (h : Upto D s n q t) (hn : n ≤ m)
    (hq : q = true → r = true) : Upto D s m r t := by
  obtain ⟨n', q', h1, h2, h3⟩ := h
  exact ⟨n', q', h1, by omega, fun h => hq (h3 h)⟩

theorem Upto.trans {D : Decoder σ α} {s t u : σ} {n m : Nat} {q r : Bool} (h : Upto D s n q t)
    (h' : Upto D t m r u) : Upto D s (n + m) (q || r) u := by
  obtain ⟨n', q', h1, h2, h3⟩ := h
  have : Upto D s (n' + m) (q' || r) u := by
    clear h2 h3
    induction h1 with
    | nil s => simpa using h'
    | cons b e hd _ ih =>
      have := Upto.cons hd (ih h')
      rwa [← Nat.add_assoc, ← Bool.or_assoc] at this
  exact this.mono (by omega) (by
    simp only [Bool.or_eq_true]
    rintro (h | h)
    · exact .inl (h3 h)
    · exact .inr h)

theorem Spec.LowerBound.upto {D : Decoder σ α} {s : σ} (h : LowerBound D s) {n q t x t'}
    (hc : Upto D s n q t) (hf : D.finish t = (.ok x, t')) :
    (∀ k, D.requiring s = .finite k → k ≤ n) ∧ (D.requiring s = .infinite → q = true) := by
  obtain ⟨m, r, h1, h2, h3⟩ := hc
  obtain ⟨k1, k2⟩ := h _ _ _ _ _ h1 hf
  exact ⟨fun k hk => Nat.le_trans (k1 k hk) h2, fun hi => h3 (k2 hi)⟩

theorem tryDecode_next_calls {D : Decoder σ α} {s t : σ} {off o : Nat} {b : Bytes} {e : Eos}
    (h : tryDecode D s off b e = .next o t) : off ≤ o ∧ Upto D s (o - off) e.isReached t := by
  rw [tryDecode] at h
  split at h
  · cases h
    exact ⟨Nat.le_refl _, .nil ..⟩
  · split at h
    · cases h
    · split at h
      · split at h <;> cases h
        next n s' hd hi =>
          refine ⟨by omega, ?_⟩
          have := Upto.cons hd (Upto.nil D _ 0 false)
          exact this.mono (by omega) (by simp)
      all_goals cases h

theorem tryDecode_ret_calls {D : Decoder σ α} {s t : σ} {off o : Nat} {b : Bytes} {e : Eos}
    (h : tryDecode D s off b e = .ret (.ok o) t) : off ≤ o ∧ Upto D s (o - off) e.isReached t := by
  rw [tryDecode] at h
  split at h
  · cases h
  · split at h
    · cases h
    · split at h
      · split at h <;> cases h
        next n s' hd hi =>
          refine ⟨by omega, ?_⟩
          have := Upto.cons hd (Upto.nil D _ 0 false)
          exact this.mono (by omega) (by simp)
      all_goals cases h

/-- Calls on a wrapper are calls on what it wraps. -/
theorem Spec.Calls.project {D : Decoder σ α} {D' : Decoder τ β} (f : τ → σ) {I : τ → Prop}
    (hs : ∀ {s b e n t}, I s → D'.decode s b e = (.ok n, t) → I t ∧ Upto D (f s) n e.isReached (f t))
    {s t : τ} {n : Nat} {q : Bool} (h : Calls D' s n q t) : I s → I t ∧ Upto D (f s) n q (f t) := by
  induction h with
  | nil s => exact fun hI => ⟨hI, .nil ..⟩
  | cons b e hd _ ih =>
    intro hI
    obtain ⟨h1, h2⟩ := hs hI hd
    obtain ⟨h3, h4⟩ := ih h1
    exact ⟨h3, h2.trans h4⟩

theorem upto_one {D : Decoder σ α} {s t : σ} {n : Nat} {b : Bytes} {e e' : Eos}
    (h : D.decode s b e = (.ok n, t)) (he : e.isReached = true → e'.isReached = true) :
    Upto D s n e'.isReached t :=
  (Upto.cons h (Upto.nil D t 0 false)).mono (Nat.le_refl _) (by simpa using he)

/-- Wrappers that keep the state and what is asked for. -/
theorem lower_wrap {D : Decoder σ α} {D' : Decoder τ β} (f : τ → σ) (I : τ → Prop)
    (hs : ∀ {s b e n t}, I s → D'.decode s b e = (.ok n, t) → I t ∧ Upto D (f s) n e.isReached (f t))
    (hf : ∀ {s x s'}, I s → D'.finish s = (.ok x, s') → ∃ y t, D.finish (f s) = (.ok y, t))
    {s : τ} (h : LowerBound D (f s)) (hI : I s) (hr : D'.requiring s = D.requiring (f s)) :
    LowerBound D' s := by
  intro n q t x t' hc hfin
  obtain ⟨h1, h2⟩ := hc.project f hs hI
  obtain ⟨y, u, h3⟩ := hf h1 hfin
  rw [hr]
  exact h.upto h2 h3

theorem lower_finite {D : Decoder σ α} {s : σ} (k : Nat) (hr : D.requiring s = .finite k)
    (h : ∀ {n q t x t'}, Calls D s n q t → D.finish t = (.ok x, t') → k ≤ n) : LowerBound D s := by
  intro n q t x t' hc hf
  rw [hr]
  exact ⟨fun k' hk => by cases hk; exact h hc hf, fun h => by cases h⟩

theorem lower_zero {D : Decoder σ α} {s : σ} (hr : D.requiring s = .finite 0) : LowerBound D s :=
  lower_finite 0 hr fun _ _ => Nat.zero_le _

/-- A measure of the state that a call reduces by at most the bytes it consumes. -/
theorem Spec.Calls.measure {D : Decoder σ α} (μ : σ → Nat)
    (hs : ∀ {s b e n t}, D.decode s b e = (.ok n, t) → μ s ≤ n + μ t)
    {s t : σ} {n : Nat} {q : Bool} (h : Calls D s n q t) : μ s ≤ n + μ t := by
  induction h with
  | nil s => omega
  | cons b e hd _ ih => have := hs hd; omega

theorem lower_copyable (s : CopyableState) : LowerBound copyableBytesDecoder s := by
  refine lower_finite _ rfl ?_
  intro n q t x t' hc hf
  have hm := hc.measure (fun s => s.bytes.length - s.offset) (by
    intro s b e n t hd
    by_cases h : s.offset ≤ s.bytes.length
    · rw [copyable_eq b e h] at hd
      split at hd
      · cases hd
      · cases hd
        simp only
        rw [splice_length (by simp; omega)]
        omega
    · omega)
  simp only [copyableBytesDecoder] at hf
  split at hf <;> cases hf
  next h => omega

theorem lower_bytes (s : BytesDecoderState) : LowerBound bytesDecoder s := by
  refine lower_finite _ rfl ?_
  intro n q t x t' hc hf
  have hm := hc.measure (fun s => s.exact) (by
    intro s b e n t hd
    obtain ⟨o, off⟩ := s
    cases o with
    | none => simp [bytesDecoder] at hd
    | some bs =>
      by_cases h : off ≤ bs.length
      · obtain ⟨u, hu, rfl⟩ := (bytes_ok h).1 hd
        rw [copyable_eq b e h] at hu
        split at hu
        · cases hu
        · cases hu
          simp only [BytesDecoderState.exact]
          rw [splice_length (by simp; omega)]
          omega
      · simp only [BytesDecoderState.exact]; omega)
  simp only [bytesDecoder] at hf
  split at hf
  · cases hf
  · omega

/-- A flag that only a call at the end of the stream sets. -/
theorem Spec.Calls.flag {D : Decoder σ α} (F : σ → Prop)
    (hs : ∀ {s b e n t}, D.decode s b e = (.ok n, t) → F t → F s ∨ e.isReached = true)
    {s t : σ} {n : Nat} {q : Bool} (h : Calls D s n q t) (ht : F t) : F s ∨ q = true := by
  induction h with
  | nil s => exact .inl ht
  | cons b e hd _ ih =>
    rcases ih ht with h | h
    · rcases hs hd h with h | h
      · exact .inl h
      · exact .inr (by simp [h])
    · exact .inr (by simp [h])

theorem lower_remaining (s : RemainingState) : LowerBound remainingBytesDecoder s := by
  intro n q t x t' hc hf
  have := hc.flag (fun s => s.eos = true) (by
    intro s b e n t hd ht
    simp only [remainingBytesDecoder] at hd
    split at hd
    · next h => exact .inl h
    · split at hd
      · split at hd
        · cases hd
        · split at hd <;> cases hd
          exact .inr ht
      · cases hd; exact .inr ht) (by
    simp only [remainingBytesDecoder] at hf
    split at hf
    · assumption
    · cases hf)
  simp only [remainingBytesDecoder]
  refine ⟨fun k hk => ?_, fun hi => ?_⟩
  · split at hk <;> cases hk
    omega
  · rcases this with h | h
    · rw [if_pos h] at hi; cases hi
    · exact h

theorem lower_padding (s : PaddingState) : LowerBound paddingDecoder s := by
  intro n q t x t' hc hf
  have := hc.flag (fun s => s.eos = true) (by
    intro s b e n t hd ht
    simp only [paddingDecoder] at hd
    split at hd
    · next h => exact .inl h
    · split at hd
      · split at hd <;> cases hd
        exact .inr ht
      · cases hd; exact .inr ht) (by
    simp only [paddingDecoder] at hf
    split at hf
    · assumption
    · cases hf)
  simp only [paddingDecoder]
  refine ⟨fun k hk => ?_, fun hi => ?_⟩
  · split at hk <;> cases hk
    omega
  · rcases this with h | h
    · rw [if_pos h] at hi; cases hi
    · exact h

theorem lower_monolithic (parse : MonolithicParser α) (s : MonoDecState α) :
    LowerBound (monolithicDecoder parse) s := by
  intro n q t x t' hc hf
  simp only [monolithicDecoder]
  refine ⟨fun k hk => ?_, fun hi => ?_⟩
  · split at hk <;> cases hk
    omega
  · split at hi <;> cases hi

theorem lower_omit {D : Decoder σ α} {s : OmitState σ} (h : LowerBound D s.inner) :
    LowerBound (omittableDecoder D) s := by
  obtain ⟨i, d⟩ := s
  cases d with
  | true => exact lower_zero (by simp [omittableDecoder])
  | false =>
    refine lower_wrap (fun s => s.inner) (fun s => s.doOmit = false) ?_ ?_ h rfl (by simp [omittableDecoder])
    · rintro ⟨i, d⟩ b e n t hI hd
      simp only at hI
      subst hI
      obtain ⟨j, hj, rfl⟩ := omit_ok.1 hd
      exact ⟨rfl, upto_one hj id⟩
    · rintro ⟨i, d⟩ x s' hI hf
      simp only at hI
      subst hI
      obtain ⟨y, j, hj, _⟩ := omit_fin.1 hf
      exact ⟨y, j, hj⟩

theorem lower_length {D : Decoder σ α} (s : LengthState σ) : LowerBound (lengthDecoder D) s := by
  refine lower_finite _ rfl ?_
  intro n q t x t' hc hf
  have hm := hc.measure (fun s => s.remaining) (by
    intro s b e n t hd
    obtain ⟨_, i, _, hn, rfl⟩ := length_ok.1 hd
    simp only
    omega)
  have := (length_fin.1 hf).1
  omega

theorem lower_maxBytes {D : Decoder σ α} {s : MaxBytesState σ} (h : LowerBound D s.inner) :
    LowerBound (maxBytesDecoder D) s := by
  refine lower_wrap (fun s => s.inner) (fun _ => True) ?_ ?_ h trivial rfl
  · intro s b e n t _ hd
    obtain ⟨_, _, _, _, i, hi, rfl⟩ := maxBytes_ok.1 hd
    exact ⟨trivial, upto_one hi id⟩
  · intro s x s' _ hf
    obtain ⟨i, hi, _⟩ := maxBytes_fin.1 hf
    exact ⟨x, i, hi⟩

theorem lower_maybeEos {D : Decoder σ α} {s : MaybeEosState σ} (h : LowerBound D s.inner) :
    LowerBound (maybeEosDecoder D) s := by
  refine lower_wrap (fun s => s.inner) (fun _ => True) ?_ ?_ h trivial rfl
  · intro s b e n t _ hd
    obtain ⟨i, hi, rfl⟩ := maybe_ok.1 hd
    refine ⟨trivial, upto_one hi ?_⟩
    rw [maybeMark]
    split
    · intro h; cases h
    · exact id
  · intro s x s' _ hf
    obtain ⟨i, hi, _⟩ := maybe_fin.1 hf
    exact ⟨x, i, hi⟩

theorem lower_slice {D : Decoder σ α} {s : SliceState σ} (h : LowerBound D s.inner) :
    LowerBound (sliceDecoder D) s := by
  refine lower_wrap (fun s => s.inner) (fun _ => True) ?_ ?_ h trivial rfl
  · intro s b e n t _ hd
    simp only [sliceDecoder] at hd
    split at hd
    · next e' he =>
      obtain ⟨m, i, hi, hd⟩ := step_ok hd
      split at hd <;> cases hd
      refine ⟨trivial, upto_one hi ?_⟩
      intro hr
      obtain ⟨c⟩ := e
      cases c with
      | finite r =>
        simp only [Eos.back] at he
        split at he <;> cases he
        simp [Eos.isReached] at hr ⊢
        omega
      | infinite => cases he; exact hr
      | unknown => cases he; exact hr
    · cases hd
  · intro s x s' _ hf
    simp only [sliceDecoder] at hf
    obtain ⟨y, i, hi, _⟩ := step_ok hf
    exact ⟨y, i, hi⟩

theorem lower_transfer {D : Decoder σ α} {D' : Decoder σ β}
    (hd : ∀ s b e n t, D'.decode s b e = (.ok n, t) → D.decode s b e = (.ok n, t))
    (hr : ∀ s, D'.requiring s = D.requiring s)
    (hf : ∀ t y s', D'.finish t = (.ok y, s') → ∃ x, D.finish t = (.ok x, s'))
    {s : σ} (h : LowerBound D s) : LowerBound D' s := by
  refine lower_wrap id (fun _ => True) ?_ ?_ h trivial (hr s)
  · intro s b e n t _ h1
    exact ⟨trivial, upto_one (hd _ _ _ _ _ h1) id⟩
  · intro s x s' _ h1
    obtain ⟨y, hy⟩ := hf _ _ _ h1
    exact ⟨y, s', hy⟩

theorem lower_peekable {D : Decoder σ α} {s : PeekState σ α} (h : LowerBound D s.inner) :
    LowerBound (peekableDecoder D) s := by
  obtain ⟨i, o⟩ := s
  cases o with
  | some y => exact lower_zero (by simp [peekableDecoder])
  | none =>
    have key : ∀ {s t : PeekState σ α} {n q}, Calls (peekableDecoder D) s n q t → s.item = none →
        t.item ≠ none → ∃ u y u', Upto D s.inner n q u ∧ D.finish u = (.ok y, u') := by
      intro s t n q hc
      induction hc with
      | nil s => intro h1 h2; exact absurd h1 h2
      | @cons s s' t n m q b e hd _ ih =>
        intro h1 h2
        obtain ⟨i, o⟩ := s
        simp only at h1
        subst h1
        obtain ⟨j, hj, ⟨_, rfl⟩ | ⟨_, y, k, hk, rfl⟩⟩ := peek_ok.1 hd
        · obtain ⟨u, y, u', g1, g2⟩ := ih rfl h2
          exact ⟨u, y, u', Upto.cons hj g1, g2⟩
        · refine ⟨j, y, k, (upto_one hj (e' := e) id).mono (by omega) (by intro h; simp [h]), hk⟩
    intro n q t x t' hc hf
    have ht : t.item ≠ none := by
      simp only [peekableDecoder] at hf
      split at hf
      · next h => rw [h]; simp
      · cases hf
    obtain ⟨u, y, u', g1, g2⟩ := key hc rfl ht
    exact h.upto g1 g2

theorem lower_pair {σ0 α0 σ1 α1 : Type} {D0 : Decoder σ0 α0} {D1 : Decoder σ1 α1}
    {s : σ0 × σ1} (h0 : LowerBound D0 s.1) (h1 : LowerBound D1 s.2) :
    LowerBound (tupleDecoder2 D0 D1) s := by
  have key : ∀ {s t n q}, Calls (tupleDecoder2 D0 D1) s n q t →
      ∃ n0 n1, n0 + n1 ≤ n ∧ Upto D0 s.1 n0 q t.1 ∧ Upto D1 s.2 n1 q t.2 := by
    intro s t n q hc
    induction hc with
    | nil s => exact ⟨0, 0, by omega, .nil .., .nil ..⟩
    | @cons s s' t n m q b e hd _ ih =>
      obtain ⟨m0, m1, g1, g2, g3⟩ := ih
      have : ∃ n0 n1, n0 + n1 ≤ n ∧ Upto D0 s.1 n0 e.isReached s'.1 ∧ Upto D1 s.2 n1 e.isReached s'.2 := by
        simp only [tupleDecoder2] at hd
        split at hd
        · next r u0 hu =>
          cases hd
          exact ⟨n, 0, by omega, (tryDecode_ret_calls hu).2, .nil ..⟩
        · next o0 u0 hu =>
          have k0 := tryDecode_next_calls hu
          split at hd
          · next r u1 hv =>
            cases hd
            have k1 := tryDecode_ret_calls hv
            exact ⟨o0, n - o0, by omega, k0.2, k1.2⟩
          · next o1 u1 hv =>
            cases hd
            have k1 := tryDecode_next_calls hv
            exact ⟨o0, _, by omega, k0.2, k1.2⟩
      obtain ⟨n0, n1, k1, k2, k3⟩ := this
      exact ⟨n0 + m0, n1 + m1, by omega, k2.trans g2, k3.trans g3⟩
  intro n q t x t' hc hf
  obtain ⟨n0, n1, g1, g2, g3⟩ := key hc
  rw [pair_fin] at hf
  obtain ⟨a1, a2⟩ := h0.upto g2 hf.1
  obtain ⟨b1, b2⟩ := h1.upto g3 hf.2
  show (∀ k, ((ByteCount.finite 0).addForDecoding (D0.requiring s.1)).addForDecoding (D1.requiring s.2) =
    .finite k → k ≤ n) ∧ (((ByteCount.finite 0).addForDecoding (D0.requiring s.1)).addForDecoding
      (D1.requiring s.2) = .infinite → q = true)
  rcases hx : D0.requiring s.1 with k0 | _ | _ <;> rcases hy : D1.requiring s.2 with k1 | _ | _ <;>
    rw [hx] at a1 a2 <;> rw [hy] at b1 b2
  all_goals refine ⟨fun k hk => ?_, fun hi => ?_⟩
  all_goals first
    | exact a2 rfl
    | exact b2 rfl
    | skip
  all_goals (try have a := a1 _ rfl)
  all_goals (try have b := b1 _ rfl)
  all_goals (try rcases k0 with _ | k0)
  all_goals (try rcases k1 with _ | k1)
  all_goals first
    | (simp [ByteCount.addForDecoding] at hk; done)
    | (simp [ByteCount.addForDecoding] at hi; done)
    | (simp [ByteCount.addForDecoding] at hk; omega)

theorem lower_andThen {σ0 α0 σ1 α1 : Type} {D0 : Decoder σ0 α0} {D1 : Decoder σ1 α1} {f : α0 → σ1}
    {s : σ0 × Option σ1} (h0 : LowerBound D0 s.1) (h1 : ∀ t, s.2 = some t → LowerBound D1 t) :
    LowerBound (andThenDecoder D0 D1 f) s := by
  obtain ⟨s0, s1⟩ := s
  cases s1 with
  | some s1 =>
    have key : ∀ {s t n q}, Calls (andThenDecoder D0 D1 f) s n q t → ∀ {s1}, s.2 = some s1 →
        ∃ t1, t.2 = some t1 ∧ Upto D1 s1 n q t1 := by
      intro s t n q hc
      induction hc with
      | nil s => intro s1 h; exact ⟨s1, h, .nil ..⟩
      | @cons s s' t n m q b e hd _ ih =>
        intro s1 h
        obtain ⟨s0, o⟩ := s
        simp only at h
        subst h
        obtain ⟨t1, rfl, ht⟩ := andThen_some.1 hd
        obtain ⟨u, g1, g2⟩ := ih rfl
        refine ⟨u, g1, ?_⟩
        rcases ht with ht | ht
        · exact (tryDecode_next_calls ht).2.trans g2
        · exact (tryDecode_ret_calls ht).2.trans g2
    intro n q t x t' hc hf
    obtain ⟨t1, g1, g2⟩ := key hc rfl
    obtain ⟨t0, o⟩ := t
    simp only at g1
    subst g1
    exact (h1 s1 rfl).upto g2 (Prod.ext (andThen_fin.1 hf).1 rfl)
  | none =>
    have key : ∀ {s t n q}, Calls (andThenDecoder D0 D1 f) s n q t → s.2 = none → t.2 ≠ none →
        ∃ u y u', Upto D0 s.1 n q u ∧ D0.finish u = (.ok y, u') := by
      intro s t n q hc
      induction hc with
      | nil s => intro h h'; exact absurd h h'
      | @cons s s' t n m q b e hd _ ih =>
        intro h h'
        obtain ⟨s0, o⟩ := s
        simp only at h
        subst h
        simp only [andThenDecoder] at hd
        split at hd
        · next r u0 hu =>
          cases hd
          obtain ⟨u, y, u', g1, g2⟩ := ih rfl h'
          exact ⟨u, y, u', (tryDecode_ret_calls hu).2.trans g1, g2⟩
        · next o0 u0 hu =>
          obtain ⟨y, u', hy, hd⟩ := step_ok hd
          have k0 := tryDecode_next_calls hu
          have : o0 ≤ n := by
            split at hd
            · next hv =>
              cases hd
              exact (tryDecode_ret_calls hv).1
            · next hv =>
              cases hd
              exact (tryDecode_next_calls hv).1
          exact ⟨u0, y, u', k0.2.mono (by omega) (by intro h; simp [h]), hy⟩
    intro n q t x t' hc hf
    obtain ⟨t0, o⟩ := t
    obtain ⟨u, y, u', g1, g2⟩ := key hc rfl (by
      cases o with
      | none => simp [andThenDecoder] at hf
      | some => simp)
    exact h0.upto g1 g2

theorem collectNLoop_calls {D : Decoder σ α} {b : Bytes} {e : Eos} :
    ∀ {m off s items}, 
      (∀ {o i is k}, (collectNLoop D b e m off s items = .ret (.ok o) i is k ∨
          collectNLoop D b e m off s items = .done o i is k) → off ≤ o ∧ (m ≠ 0 →
        (k = m ∧ Upto D s (o - off) e.isReached i) ∨
        (∃ u y u', Upto D s (o - off) e.isReached u ∧ D.finish u = (.ok y, u')))) := by
  intro m
  induction m with
  | zero =>
    intro off s items o i is k h
    rw [collectNLoop] at h
    rcases h with h | h <;> cases h
    exact ⟨Nat.le_refl _, by simp⟩
  | succ m ih =>
    intro off s items o i is k h
    rw [collectNLoop] at h
    split at h
    · split at h
      · next hu =>
        rcases h with h | h <;> cases h
        have := tryDecode_ret_calls hu
        exact ⟨this.1, fun _ => .inl ⟨rfl, this.2⟩⟩
      · next o' s' hu =>
        have k0 := tryDecode_next_calls hu
        split at h
        · next x s'' hx =>
          have := (ih h).1
          exact ⟨by omega, fun _ => .inr ⟨s', x, s'', k0.2.mono (by omega) id, hx⟩⟩
        all_goals rcases h with h | h <;> cases h
    · rcases h with h | h <;> cases h
      exact ⟨Nat.le_refl _, fun _ => .inl ⟨rfl, .nil ..⟩⟩

theorem lower_collectN {D : Decoder σ α} {s : CollectNState σ α} (h : LowerBound D s.inner) :
    LowerBound (collectNDecoder D) s := by
  by_cases hz : s.remaining = 0
  · exact lower_zero (by simp [collectNDecoder, hz])
  have key : ∀ {s t n q}, Calls (collectNDecoder D) s n q t → s.remaining ≠ 0 → t.remaining = 0 →
      ∃ u y u', Upto D s.inner n q u ∧ D.finish u = (.ok y, u') := by
    intro s t n q hc
    induction hc with
    | nil s => intro h1 h2; exact absurd h2 h1
    | @cons s s' t n m q b e hd _ ih =>
      intro h1 h2
      have hl : collectNLoop D b e s.remaining 0 s.inner s.items = .ret (.ok n) s'.inner s'.items s'.remaining ∨
          collectNLoop D b e s.remaining 0 s.inner s.items = .done n s'.inner s'.items s'.remaining := by
        simp only [collectNDecoder] at hd
        split at hd
        · next h => cases hd; exact .inl h
        · next h =>
          split at hd <;> cases hd
          exact .inr h
      rcases (collectNLoop_calls hl).2 h1 with ⟨k1, k2⟩ | ⟨u, y, u', k1, k2⟩
      · obtain ⟨u, y, u', g1, g2⟩ := ih (by omega) h2
        exact ⟨u, y, u', k2.trans g1, g2⟩
      · exact ⟨u, y, u', k1.mono (by omega) (by intro h; simp [h]), k2⟩
  intro n q t x t' hc hf
  have ht : t.remaining = 0 := by
    simp only [collectNDecoder] at hf
    split at hf
    · assumption
    · cases hf
  obtain ⟨u, y, u', g1, g2⟩ := key hc hz ht
  simp only [collectNDecoder, if_neg hz]
  exact h.upto g1 g2

end Bytecodec

namespace Bytecodec
open Spec
variable {σ τ α β : Type}

theorem calls_captured {ε : Type} {F : ε → Decoder σ α} {v : ε} {s t : ε × σ} {n : Nat} {q : Bool}
    (h : Calls (capturedDecoder F) s n q t) (hv : s.1 = v) : t.1 = v ∧ Calls (F v) s.2 n q t.2 := by
  induction h with
  | nil s => exact ⟨hv, .nil _⟩
  | @cons s s' t n m q b e hd _ ih =>
    obtain ⟨w, s⟩ := s
    cases hv
    obtain ⟨h1, h2⟩ := captured_decode.1 hd
    exact ⟨(ih h2).1, .cons b e h1 (ih h2).2⟩

theorem lower_parts {own : OwnDecoder} {D : Decoder σ α} {s₀ : σ} (hP : ∀ σ α (D : Decoder σ α) s, own σ α D s → ∀ t, Reach D s t → LowerBound D t)
    (h : AssembledWith own (fun sh => sh ≠ .collect) D s₀) :
    ∀ s, Reach D s₀ s → LowerBound D s := by
  induction h with
  | own h => exact hP _ _ _ _ h
  | copyable => exact fun s _ => lower_copyable s
  | bytes => exact fun s _ => lower_bytes s
  | remaining => exact fun s _ => lower_remaining s
  | null => exact fun s _ => lower_zero rfl
  | padding => exact fun s _ => lower_padding s
  | number f k =>
    intro s _
    refine lower_transfer (D := copyableBytesDecoder) (D' := fixDecoder f) (fun _ _ _ _ _ h => h) (fun _ => rfl) ?_ (lower_copyable s)
    intro t y s' hf
    obtain ⟨x, u, hx, h2⟩ := step_ok hf
    cases h2
    exact ⟨x, hx⟩
  | @utf8 _ D _ _ _ ih =>
    intro s hr
    refine lower_transfer (D := D) (D' := utf8Decoder D) (fun _ _ _ _ _ h => h) (fun _ => rfl) ?_ (ih s (reach_utf8 hr))
    intro t y s' hf
    obtain ⟨x, u, hx, h2⟩ := step_ok hf
    split at h2 <;> cases h2
    exact ⟨x, hx⟩
  | monolithic parse => exact fun s _ => lower_monolithic parse s
  | @map _ _ _ D _ f _ _ ih =>
    intro s hr
    refine lower_transfer (D := D) (D' := mapDecoder D f) (fun _ _ _ _ _ h => h) (fun _ => rfl) ?_ (ih s (reach_map hr))
    intro t y s' hf
    obtain ⟨x, u, hx, h2⟩ := step_ok hf
    cases h2
    exact ⟨x, hx⟩
  | @tryMap _ _ _ D _ f _ _ ih =>
    intro s hr
    refine lower_transfer (D := D) (D' := tryMapDecoder D f) (fun _ _ _ _ _ h => h) (fun _ => rfl) ?_ (ih s (reach_tryMap hr))
    intro t y s' hf
    obtain ⟨x, u, hx, h2⟩ := step_ok hf
    split at h2 <;> cases h2
    exact ⟨x, hx⟩
  | @mapErr _ _ D _ f _ _ ih =>
    intro s hr
    refine lower_transfer (D := D) (D' := mapErrDecoder D f) ?_ (fun _ => rfl) ?_ (ih s (reach_mapErr hr))
    · intro s b e n t hd
      simp only [mapErrDecoder] at hd
      rcases hx : D.decode s b e with ⟨r, u⟩
      rw [hx] at hd
      cases r <;> cases hd
      rfl
    · intro t y s' hd
      simp only [mapErrDecoder] at hd
      rcases hx : D.finish t with ⟨r, u⟩
      rw [hx] at hd
      cases r <;> cases hd
      exact ⟨_, rfl⟩
  | omittable _ _ _ ih => exact fun s hr => lower_omit (ih _ (reach_omit hr).1)
  | length _ _ _ _ _ => exact fun s _ => lower_length s
  | maxBytes _ _ _ ih => exact fun s hr => lower_maxBytes (ih _ (reach_maxBytes hr).1)
  | slice _ _ _ ih => exact fun s hr => lower_slice (ih _ (reach_slice hr))
  | peekable _ _ ih => exact fun s hr => lower_peekable (ih _ (reach_peekable hr))
  | maybeEos _ _ ih => exact fun s hr => lower_maybeEos (ih _ (reach_maybeEos hr))
  | collect h => exact absurd rfl h
  | collectN _ _ _ ih => exact fun s hr => lower_collectN (ih _ (reach_collectN hr).reach)
  | pair _ _ _ ih0 ih1 =>
    exact fun s hr => lower_pair (ih0 _ (reach_pair hr).1) (ih1 _ (reach_pair hr).2)
  | andThen f _ _ _ ih0 ih1 =>
    intro s hr
    have := reach_andThen hr
    refine lower_andThen (ih0 _ this.1) ?_
    intro t ht
    obtain ⟨x, hx⟩ := this.2 t ht
    exact ih1 x t hx
  | captured F v _ ih =>
    intro t hr
    obtain ⟨s, rfl, hs⟩ := reach_captured hr
    intro n q u x u' hc hf
    obtain ⟨h1, h2⟩ := calls_captured hc rfl
    obtain ⟨v', u⟩ := u
    cases h1
    exact ih s hs n q u x u'.2 h2 (captured_finish.1 hf).1

theorem lower_assembled {D : Decoder σ α} {s₀ : σ} (h : Assembled (fun sh => sh ≠ .collect) D s₀) :
    ∀ s, Reach D s₀ s → LowerBound D s :=
  lower_parts (fun _ _ _ _ h => h.elim) h

theorem quiet_parts {own : OwnDecoder} {D : Decoder σ α} {s₀ : σ} (hP : ∀ σ α (D : Decoder σ α) s, own σ α D s → ∀ t, Reach D s t → D.isIdle t = true → D.requiring t = .finite 0)
    (h : AssembledWith own (fun sh => sh ≠ .length) D s₀) :
    ∀ s, Reach D s₀ s → D.isIdle s = true → D.requiring s = .finite 0 := by
  induction h with
  | own h => exact hP _ _ _ _ h
  | copyable =>
    intro s _ hi
    simp_all [copyableBytesDecoder]
  | bytes =>
    intro s _ hi
    simp_all [bytesDecoder]
  | remaining =>
    intro s _ hi
    simp only [remainingBytesDecoder] at hi ⊢
    rw [if_pos hi]
  | null => exact fun s _ _ => rfl
  | padding =>
    intro s _ hi
    simp only [paddingDecoder] at hi ⊢
    rw [if_pos hi]
  | number f k =>
    intro s _ hi
    simp_all [fixDecoder, copyableBytesDecoder]
  | utf8 _ _ ih => exact fun s hr => ih s (reach_utf8 hr)
  | monolithic parse =>
    intro s _ hi
    simp only [monolithicDecoder] at hi ⊢
    rw [if_pos hi]
  | map f _ _ ih => exact fun s hr => ih s (reach_map hr)
  | tryMap f _ _ ih => exact fun s hr => ih s (reach_tryMap hr)
  | mapErr f _ _ ih => exact fun s hr => ih s (reach_mapErr hr)
  | omittable _ _ _ ih =>
    intro s hr hi
    have := ih _ (reach_omit hr).1
    simp only [omittableDecoder] at hi ⊢
    split
    · rfl
    · next h => exact this (by simpa [h] using hi)
  | length _ h => exact absurd rfl h
  | maxBytes _ _ _ ih => exact fun s hr => ih _ (reach_maxBytes hr).1
  | slice _ _ _ ih => exact fun s hr => ih _ (reach_slice hr)
  | peekable _ _ ih =>
    intro s hr hi
    simp only [peekableDecoder] at hi ⊢
    rw [if_pos hi]
  | maybeEos _ _ ih => exact fun s hr => ih _ (reach_maybeEos hr)
  | collect _ _ _ _ =>
    intro s _ hi
    simp only [collectDecoder] at hi ⊢
    rw [if_pos hi]
  | collectN _ _ _ ih =>
    intro s _ hi
    simp only [collectNDecoder, beq_iff_eq] at hi ⊢
    rw [if_pos hi]
  | pair _ _ _ ih0 ih1 =>
    intro s hr hi
    have h0 := ih0 _ (reach_pair hr).1
    have h1 := ih1 _ (reach_pair hr).2
    simp only [tupleDecoder2, Bool.and_eq_true] at hi ⊢
    rw [h0 hi.1, h1 hi.2]
    rfl
  | andThen f _ _ _ ih0 ih1 =>
    intro s hr hi
    have := reach_andThen hr
    obtain ⟨s0, o⟩ := s
    cases o with
    | none => simp [andThenDecoder] at hi
    | some t =>
      obtain ⟨x, hx⟩ := this.2 t rfl
      exact ih1 x t hx hi
  | captured F v _ ih =>
    intro t hr hi
    obtain ⟨s, rfl, hs⟩ := reach_captured hr
    exact ih s hs hi

theorem quiet_assembled {D : Decoder σ α} {s₀ : σ} (h : Assembled (fun sh => sh ≠ .length) D s₀) :
    ∀ s, Reach D s₀ s → D.isIdle s = true → D.requiring s = .finite 0 :=
  quiet_parts (fun _ _ _ _ h => h.elim) h

end Bytecodec
