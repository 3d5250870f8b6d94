import Verif.Lemmas.Requiring
import Verif.Lemmas.Adjust
/-!
# Lemmas: `requiring_bytes` is exact where the size of the item is fixed
-/
namespace Bytecodec
open Spec

variable {σ τ α β : Type}

/-- Calls that consume `n` bytes. -/
def CallsSum (D : Decoder σ α) (s : σ) (n : Nat) (t : σ) : Prop := ∃ q, Calls D s n q t

theorem CallsSum.nil (D : Decoder σ α) (s : σ) : CallsSum D s 0 s := ⟨_, .nil s⟩

theorem CallsSum.one {D : Decoder σ α} {s t : σ} {n : Nat} {b : Bytes} {e : Eos}
    (h : D.decode s b e = (.ok n, t)) : CallsSum D s n t := ⟨_, .cons (m := 0) b e h (.nil t)⟩

theorem CallsSum.trans {D : Decoder σ α} {s t u : σ} {n m : Nat} (h : CallsSum D s n t) (h' : CallsSum D t m u) :
    CallsSum D s (n + m) u := by
  obtain ⟨q, h⟩ := h
  induction h with
  | nil s => simpa using h'
  | cons b e hd _ ih =>
    obtain ⟨r, hr⟩ := ih h'
    exact ⟨_, by rw [Nat.add_assoc]; exact .cons b e hd hr⟩

theorem Spec.ExactAsk.runs {D : Decoder σ α} {s t t' : σ} {n : Nat} {x : α} (h : ExactAsk D s)
    (hc : CallsSum D s n t) (hf : D.finish t = (.ok x, t')) : D.requiring s = .finite n := by
  obtain ⟨q, hc⟩ := hc
  exact h _ _ _ _ _ hc hf

theorem tryDecode_next_runs {D : Decoder σ α} {s t : σ} {off o : Nat} {b : Bytes} {e : Eos}
    (h : tryDecode D s off b e = .next o t) : ∃ n, o = off + n ∧ CallsSum D s n t := by
  rw [tryDecode] at h
  split at h
  · cases h
    exact ⟨0, rfl, .nil ..⟩
  · split at h
    · cases h
    · split at h
      · split at h <;> cases h
        next hd _ => exact ⟨_, rfl, .one hd⟩
      all_goals cases h

theorem tryDecode_ret_runs {D : Decoder σ α} {s t : σ} {off o : Nat} {b : Bytes} {e : Eos}
    (h : tryDecode D s off b e = .ret (.ok o) t) : ∃ n, o = off + n ∧ CallsSum D s n t := by
  rw [tryDecode] at h
  split at h
  · cases h
  · split at h
    · cases h
    · split at h
      · split at h <;> cases h
        next hd _ => exact ⟨_, rfl, .one hd⟩
      all_goals cases h

theorem Spec.Calls.projectRuns {D : Decoder σ α} {D' : Decoder τ β} (f : τ → σ) {I : τ → Prop}
    (hs : ∀ {s b e n t}, I s → D'.decode s b e = (.ok n, t) → I t ∧ CallsSum D (f s) n (f t))
    {s t : τ} {n : Nat} {q : Bool} (h : Calls D' s n q t) : I s → I t ∧ CallsSum D (f s) n (f t) := by
  induction h with
  | nil s => exact fun hI => ⟨hI, .nil ..⟩
  | cons b e hd _ ih =>
    intro hI
    obtain ⟨h1, h2⟩ := hs hI hd
    obtain ⟨h3, h4⟩ := ih h1
    exact ⟨h3, h2.trans h4⟩

/-- Wrappers that keep the state and what is asked for. -/
theorem exactAsk_wrap {D : Decoder σ α} {D' : Decoder τ β} (f : τ → σ) (I : τ → Prop)
    (hs : ∀ {s b e n t}, I s → D'.decode s b e = (.ok n, t) → I t ∧ CallsSum D (f s) n (f t))
    (hf : ∀ {s x s'}, I s → D'.finish s = (.ok x, s') → ∃ y t, D.finish (f s) = (.ok y, t))
    {s : τ} (h : ExactAsk D (f s)) (hI : I s) (hr : D'.requiring s = D.requiring (f s)) :
    ExactAsk D' s := by
  intro n q t x t' hc hfin
  obtain ⟨h1, h2⟩ := hc.projectRuns f hs hI
  obtain ⟨y, u, h3⟩ := hf h1 hfin
  rw [hr]
  exact h.runs h2 h3

theorem exactAsk_transfer {D : Decoder σ α} {D' : Decoder σ β}
    (hd : ∀ s b e n t, D'.decode s b e = (.ok n, t) → D.decode s b e = (.ok n, t))
    (hr : ∀ s, D'.requiring s = D.requiring s)
    (hf : ∀ t y s', D'.finish t = (.ok y, s') → ∃ x, D.finish t = (.ok x, s'))
    {s : σ} (h : ExactAsk D s) : ExactAsk D' s := by
  refine exactAsk_wrap id (fun _ => True) ?_ ?_ h trivial (hr s)
  · intro s b e n t _ h1
    exact ⟨trivial, .one (hd _ _ _ _ _ h1)⟩
  · intro s x s' _ h1
    obtain ⟨y, hy⟩ := hf _ _ _ h1
    exact ⟨y, s', hy⟩

/-- A measure of the state that a call reduces by exactly the bytes it consumes. -/
theorem Spec.Calls.measureEq {D : Decoder σ α} (μ : σ → Nat) (I : σ → Prop)
    (hs : ∀ {s b e n t}, I s → D.decode s b e = (.ok n, t) → I t ∧ μ s = n + μ t)
    {s t : σ} {n : Nat} {q : Bool} (h : Calls D s n q t) (hI : I s) : I t ∧ μ s = n + μ t := by
  induction h with
  | nil s => exact ⟨hI, by omega⟩
  | cons b e hd _ ih =>
    have := hs hI hd
    have := ih this.1
    exact ⟨this.1, by omega⟩

theorem exactAsk_copyable {s : CopyableState} (hs : s.offset ≤ s.bytes.length) :
    ExactAsk copyableBytesDecoder s := by
  intro n q t x t' hc hf
  have hm := hc.measureEq (fun s => s.bytes.length - s.offset) (fun s => s.offset ≤ s.bytes.length) (by
    intro s b e n t h hd
    rw [copyable_eq b e h] at hd
    split at hd
    · cases hd
    · cases hd
      simp only
      rw [splice_length (by simp; omega)]
      omega) hs
  simp only [copyableBytesDecoder] at hf
  split at hf <;> cases hf
  next h =>
    show ByteCount.finite _ = _
    congr 1
    omega

theorem exactAsk_bytes {s : BytesDecoderState} (hs : ∀ b, s.bytes = some b → s.offset ≤ b.length) :
    ExactAsk bytesDecoder s := by
  intro n q t x t' hc hf
  have hm := hc.measureEq (fun s => s.exact) (fun s => ∀ b, s.bytes = some b → s.offset ≤ b.length) (by
    intro s b e n t h hd
    obtain ⟨o, off⟩ := s
    cases o with
    | none => simp [bytesDecoder] at hd
    | some bs =>
      have h := h bs rfl
      simp only at h
      obtain ⟨u, hu, rfl⟩ := (bytes_ok h).1 hd
      rw [copyable_eq b e h] at hu
      split at hu
      · cases hu
      · cases hu
        refine ⟨?_, ?_⟩
        · intro c hc
          cases hc
          simp only
          rw [splice_length (by simp; omega)]
          omega
        · simp only [BytesDecoderState.exact]
          rw [splice_length (by simp; omega)]
          omega) hs
  simp only [bytesDecoder] at hf
  split at hf
  · cases hf
  · show ByteCount.finite _ = _
    congr 1
    omega

theorem exactAsk_null : ExactAsk nullDecoder () := by
  intro n q t x t' hc _
  have := (hc.measureEq (fun _ => 0) (fun _ => True) (by
    intro s b e n t _ hd
    simp only [nullDecoder] at hd
    cases hd
    exact ⟨trivial, rfl⟩) trivial).2
  show ByteCount.finite 0 = _
  congr 1

theorem exactAsk_omit {D : Decoder σ α} {s : OmitState σ} (h : ExactAsk D s.inner) :
    ExactAsk (omittableDecoder D) s := by
  obtain ⟨i, d⟩ := s
  cases d with
  | true =>
    intro n q t x t' hc _
    have := (hc.measureEq (fun _ => 0) (fun s => s.doOmit = true) (by
      rintro ⟨i, d⟩ b e n t hI hd
      simp only at hI
      subst hI
      simp only [omittableDecoder, if_true] at hd
      cases hd
      exact ⟨rfl, rfl⟩) rfl).2
    simp only [omittableDecoder, if_true]
    congr 1
  | false =>
    refine exactAsk_wrap (fun s => s.inner) (fun s => s.doOmit = false) ?_ ?_ h rfl (by simp [omittableDecoder])
    · rintro ⟨i, d⟩ b e n t hI hd
      simp only at hI
      subst hI
      obtain ⟨j, hj, rfl⟩ := omit_ok.1 hd
      exact ⟨rfl, .one hj⟩
    · rintro ⟨i, d⟩ x s' hI hf
      simp only at hI
      subst hI
      obtain ⟨y, j, hj, _⟩ := omit_fin.1 hf
      exact ⟨y, j, hj⟩

theorem exactAsk_length {D : Decoder σ α} (s : LengthState σ) : ExactAsk (lengthDecoder D) s := by
  intro n q t x t' hc hf
  have hm := (hc.measureEq (fun s => s.remaining) (fun _ => True) (by
    intro s b e n t _ hd
    obtain ⟨_, i, _, hn, rfl⟩ := length_ok.1 hd
    simp only
    exact ⟨trivial, by omega⟩) trivial).2
  have := (length_fin.1 hf).1
  show ByteCount.finite _ = _
  congr 1
  omega

theorem exactAsk_maxBytes {D : Decoder σ α} {s : MaxBytesState σ} (h : ExactAsk D s.inner) :
    ExactAsk (maxBytesDecoder D) s := by
  refine exactAsk_wrap (fun s => s.inner) (fun _ => True) ?_ ?_ h trivial rfl
  · intro s b e n t _ hd
    obtain ⟨_, _, _, _, i, hi, rfl⟩ := maxBytes_ok.1 hd
    exact ⟨trivial, .one hi⟩
  · intro s x s' _ hf
    obtain ⟨i, hi, _⟩ := maxBytes_fin.1 hf
    exact ⟨x, i, hi⟩

theorem exactAsk_maybeEos {D : Decoder σ α} {s : MaybeEosState σ} (h : ExactAsk D s.inner) :
    ExactAsk (maybeEosDecoder D) s := by
  refine exactAsk_wrap (fun s => s.inner) (fun _ => True) ?_ ?_ h trivial rfl
  · intro s b e n t _ hd
    obtain ⟨i, hi, rfl⟩ := maybe_ok.1 hd
    exact ⟨trivial, .one hi⟩
  · intro s x s' _ hf
    obtain ⟨i, hi, _⟩ := maybe_fin.1 hf
    exact ⟨x, i, hi⟩

theorem exactAsk_slice {D : Decoder σ α} {s : SliceState σ} (h : ExactAsk D s.inner) :
    ExactAsk (sliceDecoder D) s := by
  refine exactAsk_wrap (fun s => s.inner) (fun _ => True) ?_ ?_ h trivial rfl
  · intro s b e n t _ hd
    simp only [sliceDecoder] at hd
    split at hd
    · obtain ⟨m, i, hi, hd⟩ := step_ok hd
      split at hd <;> cases hd
      exact ⟨trivial, .one hi⟩
    · cases hd
  · intro s x s' _ hf
    simp only [sliceDecoder] at hf
    obtain ⟨y, i, hi, _⟩ := step_ok hf
    exact ⟨y, i, hi⟩

theorem exactAsk_peekable {D : Decoder σ α} {s : PeekState σ α} (h : ExactAsk D s.inner) :
    ExactAsk (peekableDecoder D) s := by
  have full : ∀ {s t : PeekState σ α} {n q}, Calls (peekableDecoder D) s n q t → s.item.isSome = true →
      n = 0 := by
    intro s t n q hc hi
    have := (hc.measureEq (fun _ => 0) (fun s => s.item.isSome = true) (by
      intro s b e n t hI hd
      simp only [peekableDecoder] at hd
      split at hd
      · next h => simp_all
      · cases hd; exact ⟨hI, rfl⟩) hi).2
    omega
  obtain ⟨i, o⟩ := s
  cases o with
  | some y =>
    intro n q t x t' hc hf
    rw [full hc rfl]
    rfl
  | none =>
    have key : ∀ {s t : PeekState σ α} {n q}, Calls (peekableDecoder D) s n q t → s.item = none →
        t.item ≠ none → ∃ u y u', CallsSum D s.inner n u ∧ D.finish u = (.ok y, u') := by
      intro s t n q hc
      induction hc with
      | nil s => intro h1 h2; exact absurd h1 h2
      | @cons s s' t n m q b e hd hc ih =>
        intro h1 h2
        obtain ⟨i, o⟩ := s
        simp only at h1
        subst h1
        obtain ⟨j, hj, ⟨_, rfl⟩ | ⟨_, y, k, hk, rfl⟩⟩ := peek_ok.1 hd
        · obtain ⟨u, y, u', g1, g2⟩ := ih rfl h2
          exact ⟨u, y, u', (CallsSum.one hj).trans g1, g2⟩
        · rw [full hc rfl]
          exact ⟨j, y, k, .one hj, hk⟩
    intro n q t x t' hc hf
    have ht : t.item ≠ none := by
      simp only [peekableDecoder] at hf
      split at hf
      · next h => rw [h]; simp
      · cases hf
    obtain ⟨u, y, u', g1, g2⟩ := key hc rfl ht
    exact h.runs g1 g2

theorem exactAsk_pair {σ0 α0 σ1 α1 : Type} {D0 : Decoder σ0 α0} {D1 : Decoder σ1 α1}
    {s : σ0 × σ1} (h0 : ExactAsk D0 s.1) (h1 : ExactAsk D1 s.2) :
    ExactAsk (tupleDecoder2 D0 D1) s := by
  have key : ∀ {s t n q}, Calls (tupleDecoder2 D0 D1) s n q t →
      ∃ n0 n1, n = n0 + n1 ∧ CallsSum D0 s.1 n0 t.1 ∧ CallsSum D1 s.2 n1 t.2 := by
    intro s t n q hc
    induction hc with
    | nil s => exact ⟨0, 0, by omega, .nil .., .nil ..⟩
    | @cons s s' t n m q b e hd _ ih =>
      obtain ⟨m0, m1, g1, g2, g3⟩ := ih
      have : ∃ n0 n1, n = n0 + n1 ∧ CallsSum D0 s.1 n0 s'.1 ∧ CallsSum D1 s.2 n1 s'.2 := by
        simp only [tupleDecoder2] at hd
        split at hd
        · next r u0 hu =>
          cases hd
          obtain ⟨k, rfl, hk⟩ := tryDecode_ret_runs hu
          exact ⟨k, 0, by omega, hk, .nil ..⟩
        · next o0 u0 hu =>
          obtain ⟨k, rfl, hk⟩ := tryDecode_next_runs hu
          split at hd
          · next r u1 hv =>
            cases hd
            obtain ⟨l, rfl, hl⟩ := tryDecode_ret_runs hv
            exact ⟨k, l, by omega, hk, hl⟩
          · next o1 u1 hv =>
            cases hd
            obtain ⟨l, rfl, hl⟩ := tryDecode_next_runs hv
            exact ⟨k, l, by omega, hk, hl⟩
      obtain ⟨n0, n1, k1, k2, k3⟩ := this
      exact ⟨n0 + m0, n1 + m1, by omega, k2.trans g2, k3.trans g3⟩
  intro n q t x t' hc hf
  obtain ⟨n0, n1, rfl, g2, g3⟩ := key hc
  rw [pair_fin] at hf
  show ((ByteCount.finite 0).addForDecoding (D0.requiring s.1)).addForDecoding (D1.requiring s.2) = _
  rw [h0.runs g2 hf.1, h1.runs g3 hf.2]
  rcases n0 with _ | n0 <;> rcases n1 with _ | n1 <;> simp [ByteCount.addForDecoding]

theorem exactAsk_parts {own : OwnDecoder} {D : Decoder σ α} {s₀ : σ}
    (hP : ∀ σ α (D : Decoder σ α) s, own σ α D s → ∀ t, Reach D s t → ExactAsk D t)
    (h : AssembledWith own Shape.fixedSize D s₀) :
    ∀ s, Reach D s₀ s → ExactAsk D s := by
  induction h with
  | own h => exact hP _ _ _ _ h
  | copyable => exact fun s hr => exactAsk_copyable (reach_copyable_bound (Nat.zero_le _) hr)
  | bytes =>
    exact fun s hr => exactAsk_bytes (reach_bytes_bound (by intro b hb; exact Nat.zero_le _) hr)
  | remaining h => exact h.elim
  | null => exact fun s _ => exactAsk_null
  | padding _ h => exact h.elim
  | number f k =>
    intro s hr
    refine exactAsk_transfer (D := copyableBytesDecoder) (D' := fixDecoder f) (fun _ _ _ _ _ h => h) (fun _ => rfl) ?_
      (exactAsk_copyable (reach_copyable_bound (Nat.zero_le _) (reach_fix hr)))
    intro t y s' hf
    obtain ⟨x, u, hx, h2⟩ := step_ok hf
    cases h2
    exact ⟨x, hx⟩
  | @utf8 _ D _ _ _ ih =>
    intro s hr
    refine exactAsk_transfer (D := D) (D' := utf8Decoder D) (fun _ _ _ _ _ h => h) (fun _ => rfl) ?_ (ih s (reach_utf8 hr))
    intro t y s' hf
    obtain ⟨x, u, hx, h2⟩ := step_ok hf
    split at h2 <;> cases h2
    exact ⟨x, hx⟩
  | monolithic _ h => exact h.elim
  | @map _ _ _ D _ f _ _ ih =>
    intro s hr
    refine exactAsk_transfer (D := D) (D' := mapDecoder D f) (fun _ _ _ _ _ h => h) (fun _ => rfl) ?_ (ih s (reach_map hr))
    intro t y s' hf
    obtain ⟨x, u, hx, h2⟩ := step_ok hf
    cases h2
    exact ⟨x, hx⟩
  | @tryMap _ _ _ D _ f _ _ ih =>
    intro s hr
    refine exactAsk_transfer (D := D) (D' := tryMapDecoder D f) (fun _ _ _ _ _ h => h) (fun _ => rfl) ?_ (ih s (reach_tryMap hr))
    intro t y s' hf
    obtain ⟨x, u, hx, h2⟩ := step_ok hf
    split at h2 <;> cases h2
    exact ⟨x, hx⟩
  | @mapErr _ _ D _ f _ _ ih =>
    intro s hr
    refine exactAsk_transfer (D := D) (D' := mapErrDecoder D f) ?_ (fun _ => rfl) ?_ (ih s (reach_mapErr hr))
    · intro s b e n t hd
      simp only [mapErrDecoder] at hd
      rcases hx : D.decode s b e with ⟨r, u⟩
      rw [hx] at hd
      cases r <;> cases hd
      rfl
    · intro t y s' hd
      simp only [mapErrDecoder] at hd
      rcases hx : D.finish t with ⟨r, u⟩
      rw [hx] at hd
      cases r <;> cases hd
      exact ⟨_, rfl⟩
  | omittable _ _ _ ih => exact fun s hr => exactAsk_omit (ih _ (reach_omit hr).1)
  | length _ _ _ _ _ => exact fun s _ => exactAsk_length s
  | maxBytes _ _ _ ih => exact fun s hr => exactAsk_maxBytes (ih _ (reach_maxBytes hr).1)
  | slice _ _ _ ih => exact fun s hr => exactAsk_slice (ih _ (reach_slice hr))
  | peekable _ _ ih => exact fun s hr => exactAsk_peekable (ih _ (reach_peekable hr))
  | maybeEos _ _ ih => exact fun s hr => exactAsk_maybeEos (ih _ (reach_maybeEos hr))
  | collect h => exact h.elim
  | collectN _ h => exact h.elim
  | pair _ _ _ ih0 ih1 =>
    exact fun s hr => exactAsk_pair (ih0 _ (reach_pair hr).1) (ih1 _ (reach_pair hr).2)
  | andThen _ h => exact h.elim
  | captured F v _ ih =>
    intro t hr
    obtain ⟨s, rfl, hs⟩ := reach_captured hr
    intro n q u x u' hc hf
    obtain ⟨h1, h2⟩ := calls_captured hc rfl
    obtain ⟨v', u⟩ := u
    cases h1
    exact ih s hs n q u x u'.2 h2 (captured_finish.1 hf).1

theorem end_parts {own : OwnDecoder} {D : Decoder σ α} {s₀ : σ}
    (hP : ∀ σ α (D : Decoder σ α) s, own σ α D s → ∀ t, Reach D s t → D.isIdle t = false →
      D.requiring t = .infinite)
    (h : AssembledWith own Shape.toTheEnd D s₀) :
    ∀ s, Reach D s₀ s → D.isIdle s = false → D.requiring s = .infinite := by
  induction h with
  | own h => exact hP _ _ _ _ h
  | copyable _ h => exact h.elim
  | bytes _ h => exact h.elim
  | remaining =>
    intro s _ hi
    simp only [remainingBytesDecoder] at hi ⊢
    rw [hi]
    rfl
  | null h => exact h.elim
  | padding =>
    intro s _ hi
    simp only [paddingDecoder] at hi ⊢
    rw [hi]
    rfl
  | number f k h => exact h.elim
  | utf8 _ _ ih => exact fun s hr => ih s (reach_utf8 hr)
  | monolithic _ h => exact h.elim
  | map f _ _ ih => exact fun s hr => ih s (reach_map hr)
  | tryMap f _ _ ih => exact fun s hr => ih s (reach_tryMap hr)
  | mapErr f _ _ ih => exact fun s hr => ih s (reach_mapErr hr)
  | omittable _ _ _ ih =>
    intro s hr hi
    have := ih _ (reach_omit hr).1
    simp only [omittableDecoder] at hi ⊢
    split
    · next h => rw [h] at hi; simp at hi
    · next h => exact this (by simpa [h] using hi)
  | length _ h => exact h.elim
  | maxBytes _ _ _ ih => exact fun s hr => ih _ (reach_maxBytes hr).1
  | slice _ _ _ ih => exact fun s hr => ih _ (reach_slice hr)
  | peekable h => exact h.elim
  | maybeEos _ _ ih => exact fun s hr => ih _ (reach_maybeEos hr)
  | collect h => exact h.elim
  | collectN _ h => exact h.elim
  | pair h => exact h.elim
  | andThen _ h => exact h.elim
  | captured F v _ ih =>
    intro t hr
    obtain ⟨s, rfl, hs⟩ := reach_captured hr
    exact ih s hs

end Bytecodec
