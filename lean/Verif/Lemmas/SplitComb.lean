import Verif.Lemmas.Split
/-!
# The splitting law for the combinators
-/
namespace Bytecodec

open Spec

set_option linter.unusedSimpArgs false

variable {σ α β : Type}

theorem step_id_ok {γ : Type} {p : Res α × σ} {k : α → σ → Res γ × σ} {y : γ} {s' : σ}
    (hk : ∀ a s y s', k a s = (.ok y, s') → s = s') (h : Res.step p id k = (.ok y, s')) :
    ∃ x, p = (.ok x, s') := by
  obtain ⟨a, s, h1, h2⟩ := step_ok h
  rw [hk a s y s' h2] at h1
  exact ⟨a, h1⟩

theorem splits_fix (p : Bool) (f : Bytes → α) :
    Splits p (fixDecoder f) (fun s => s.offset ≤ s.bytes.length) := by
  refine (splits_copyable p).transfer (fun _ _ _ _ _ => Iff.rfl) (fun _ => rfl) ?_
  intro t y s' h
  exact step_id_ok (by rintro a s y s' h; cases h; rfl) h

theorem splits_utf8 {p : Bool} {D : Decoder σ Bytes} {I : σ → Prop} (h : Splits p D I) :
    Splits p (utf8Decoder D) I := by
  refine h.transfer (fun _ _ _ _ _ => Iff.rfl) (fun _ => rfl) ?_
  intro t y s' h
  refine step_id_ok ?_ h
  intro a s y s' h
  split at h <;> cases h
  rfl

theorem splits_map {p : Bool} {D : Decoder σ α} {I : σ → Prop} (f : α → β) (h : Splits p D I) :
    Splits p (mapDecoder D f) I := by
  refine h.transfer (fun _ _ _ _ _ => Iff.rfl) (fun _ => rfl) ?_
  intro t y s' h
  exact step_id_ok (by rintro a s y s' h; cases h; rfl) h

theorem splits_tryMap {p : Bool} {D : Decoder σ α} {I : σ → Prop} (f : α → Except ErrorKind β)
    (h : Splits p D I) : Splits p (tryMapDecoder D f) I := by
  refine h.transfer (fun _ _ _ _ _ => Iff.rfl) (fun _ => rfl) ?_
  intro t y s' h
  refine step_id_ok ?_ h
  intro a s y s' h
  split at h <;> cases h
  rfl

theorem mapErr_ok_iff {f : ErrorKind → ErrorKind} {r : Res α} {x : α} :
    r.mapErr f = .ok x ↔ r = .ok x := by
  cases r <;> simp [Res.mapErr]

theorem splits_mapErr {p : Bool} {D : Decoder σ α} {I : σ → Prop} (f : ErrorKind → ErrorKind)
    (h : Splits p D I) : Splits p (mapErrDecoder D f) I := by
  refine h.transfer ?_ (fun _ => rfl) ?_
  · intro s b e n t
    simp only [mapErrDecoder, Prod.mk.injEq, mapErr_ok_iff]
    constructor
    · rintro ⟨h1, h2⟩; exact Prod.ext h1 h2
    · intro h; rw [h]; exact ⟨rfl, rfl⟩
  · intro t y s' h
    simp only [mapErrDecoder, Prod.mk.injEq, mapErr_ok_iff] at h
    exact ⟨y, Prod.ext_iff.2 h⟩

/-! ## `Omittable` -/

theorem omit_ok {D : Decoder σ α} {i : σ} {b : Bytes} {e : Eos} {n : Nat} {t : OmitState σ} :
    (omittableDecoder D).decode ⟨i, false⟩ b e = (.ok n, t) ↔
      ∃ j, D.decode i b e = (.ok n, j) ∧ t = ⟨j, false⟩ := by
  simp only [omittableDecoder]
  rw [if_neg (by simp)]
  constructor
  · intro h
    obtain ⟨a, j, h1, h2⟩ := step_ok h
    cases h2
    exact ⟨j, h1, rfl⟩
  · rintro ⟨j, h1, rfl⟩
    rw [h1]; rfl

theorem omit_fin {D : Decoder σ α} {i : σ} {y : Option α} {t : OmitState σ} :
    (omittableDecoder D).finish ⟨i, false⟩ = (.ok y, t) ↔
      ∃ x j, D.finish i = (.ok x, j) ∧ t = ⟨j, false⟩ ∧ y = some x := by
  simp only [omittableDecoder]
  rw [if_neg (by simp)]
  constructor
  · intro h
    obtain ⟨a, j, h1, h2⟩ := step_ok h
    cases h2
    exact ⟨a, j, h1, rfl, rfl⟩
  · rintro ⟨x, j, h1, rfl, rfl⟩
    rw [h1]; rfl

theorem splits_omit {p : Bool} {D : Decoder σ α} {I : σ → Prop} (h : Splits p D I) :
    Splits p (omittableDecoder D) (fun s => I s.inner) := by
  have busy : ∀ {i d}, (omittableDecoder D).isIdle ⟨i, d⟩ = false → d = false ∧ D.isIdle i = false := by
    intro i d hs
    simpa [omittableDecoder] using hs
  have idle : ∀ {i}, (omittableDecoder D).isIdle ⟨i, false⟩ = D.isIdle i := by
    intro i; simp [omittableDecoder]
  apply Splits.of_busy
  · intro s b e n t x s' hI hs hd ht hf
    obtain ⟨i, d⟩ := s
    obtain ⟨rfl, hs'⟩ := busy hs
    obtain ⟨j, hj, rfl⟩ := omit_ok.1 hd
    obtain ⟨y, k, hk, rfl, rfl⟩ := omit_fin.1 hf
    exact h.bound hI ((item_busy hs').2 ⟨hj, idle ▸ ht, hk⟩)
  · intro s b e n t x s' hI hs hd ht hf
    obtain ⟨i, d⟩ := s
    obtain ⟨rfl, hs'⟩ := busy hs
    obtain ⟨j, hj, rfl⟩ := omit_ok.1 hd
    obtain ⟨y, k, hk, rfl, rfl⟩ := omit_fin.1 hf
    exact h.again hI ((item_busy hs').2 ⟨hj, idle ▸ ht, hk⟩)
  · intro s x s' hI hs hf
    obtain ⟨i, d⟩ := s
    cases d with
    | true => simp [omittableDecoder] at hf; rw [← hf.2]; exact hI
    | false =>
      obtain ⟨y, k, hk, rfl, rfl⟩ := omit_fin.1 hf
      exact h.again hI ((item_quiet (b := []) (e := Eos.new false) (idle ▸ hs)).2 ⟨rfl, rfl, hk⟩)
  · intro s a b e e1 n t x s' hI hs hd ht hf he hne
    obtain ⟨i, d⟩ := s
    cases d with
    | true =>
      simp [omittableDecoder] at hd ⊢
      exact ⟨hd.1.symm, hd.2.symm⟩
    | false =>
      obtain ⟨j, hj, rfl⟩ := omit_ok.1 hd
      obtain ⟨y, k, hk, rfl, rfl⟩ := omit_fin.1 hf
      obtain ⟨h1, h2, h3⟩ := h.quiet hI (idle ▸ hs) hj (idle ▸ ht) hk he hne
      exact ⟨h1, by rw [h2], omit_ok.2 ⟨_, h3, rfl⟩⟩
  · intro s a b e e1 n t x s' hI hs hd ht hf he hne
    obtain ⟨i, d⟩ := s
    obtain ⟨rfl, hs'⟩ := busy hs
    obtain ⟨j, hj, rfl⟩ := omit_ok.1 hd
    obtain ⟨y, k, hk, rfl, rfl⟩ := omit_fin.1 hf
    rcases h.split hI ((item_busy hs').2 ⟨hj, idle ▸ ht, hk⟩) he hne with h1 | ⟨h1, h2, s1, h3, h4, h5⟩
    · left; rw [item_busy hs'] at h1; exact omit_ok.2 ⟨_, h1.1, rfl⟩
    · right
      rw [tryDecode_ret_iff hs'] at h3
      rw [item_busy h3.2] at h5
      exact ⟨h1, h2, ⟨s1, false⟩, omit_ok.2 ⟨_, h3.1, rfl⟩, idle.trans h3.2, h4,
        omit_ok.2 ⟨_, h5.1, rfl⟩⟩

/-! ## `Length` -/

theorem length_ok {D : Decoder σ α} {s t : LengthState σ} {b : Bytes} {e : Eos} {n : Nat} :
    (lengthDecoder D).decode s b e = (.ok n, t) ↔
      (∀ r, e.remaining = .finite r → r + b.length < 2 ^ 64 ∧
        s.remaining - min b.length s.remaining ≤ r + b.length) ∧
      ∃ i, D.decode s.inner (b.take s.remaining) ⟨.finite (s.remaining - min b.length s.remaining)⟩
          = (.ok n, i) ∧ n ≤ s.remaining ∧ t = ⟨i, s.expected, s.remaining - n⟩ := by
  have ht : b.take (min b.length s.remaining) = b.take s.remaining := by
    rcases Nat.le_total b.length s.remaining with h1 | h1
    · rw [Nat.min_eq_left h1, List.take_of_length_le h1, List.take_of_length_le (Nat.le_refl _)]
    · rw [Nat.min_eq_right h1]
  have go : ∀ {p : Res Nat × σ}, Res.step p (fun i => { s with inner := i }) (fun size i =>
          if s.remaining < size then ((.panic : Res Nat), { s with inner := i })
          else (.ok size, { s with inner := i, remaining := s.remaining - size })) = (.ok n, t) ↔
        ∃ i, p = (.ok n, i) ∧ n ≤ s.remaining ∧ t = ⟨i, s.expected, s.remaining - n⟩ := by
    intro p
    constructor
    · intro h
      obtain ⟨a, i, h1, h2⟩ := step_ok h
      split at h2 <;> cases h2
      exact ⟨i, h1, by omega, rfl⟩
    · rintro ⟨i, rfl, h1, rfl⟩
      simp only [Res.step]
      rw [if_neg (by omega)]
  simp only [lengthDecoder, Eos.remainingBytes, Eos.withRemainingBytes, ht]
  cases hc : e.remaining with
  | finite r =>
    simp only [ByteCount.toU64, ByteCount.finite.injEq, forall_eq']
    by_cases h1 : 2 ^ 64 ≤ r + b.length
    · rw [if_pos h1]
      constructor
      · intro h; cases h
      · rintro ⟨h, _⟩; omega
    · rw [if_neg h1]
      by_cases h2 : r + b.length < s.remaining - min b.length s.remaining
      · rw [if_pos h2]
        constructor
        · intro h; cases h
        · rintro ⟨h, _⟩; omega
      · rw [if_neg h2, go]
        constructor
        · intro h; exact ⟨by omega, h⟩
        · exact fun h => h.2
  | infinite => simp only [ByteCount.toU64]; rw [go]; simp
  | unknown => simp only [ByteCount.toU64]; rw [go]; simp

theorem length_fin {D : Decoder σ α} {s t : LengthState σ} {x : α} :
    (lengthDecoder D).finish s = (.ok x, t) ↔
      s.remaining = 0 ∧ ∃ i, D.finish s.inner = (.ok x, i) ∧ t = ⟨i, s.expected, s.expected⟩ := by
  simp only [lengthDecoder]
  by_cases h : s.remaining = 0
  · rw [if_pos h]
    constructor
    · intro h1
      obtain ⟨a, i, h2, h3⟩ := step_ok h1
      cases h3
      exact ⟨h, i, h2, rfl⟩
    · rintro ⟨_, i, h1, rfl⟩
      rw [h1]; rfl
  · rw [if_neg h]
    constructor
    · intro h; cases h
    · rintro ⟨h1, _⟩; contradiction

theorem eosShift_zero (k : Nat) : (⟨.finite k⟩ : Eos) = eosShift ⟨.finite 0⟩ k := by
  simp [eosShift]

theorem splits_length (p : Bool) {q : Bool} {D : Decoder σ α} {I : σ → Prop} (h : Splits q D I) :
    Splits p (lengthDecoder D) (fun s => I s.inner) := by
  have idle : ∀ {s}, (lengthDecoder D).isIdle s = D.isIdle s.inner := fun {s} => rfl
  apply Splits.of_busy
  · intro s b e n t x s' hI hs hd ht hf
    replace hs : D.isIdle s.inner = false := hs
    obtain ⟨_, i, hi, hn, rfl⟩ := length_ok.1 hd
    obtain ⟨h0, j, hj, rfl⟩ := length_fin.1 hf
    have := h.bound hI ((item_busy hs).2 ⟨hi, ht, hj⟩)
    simp at this
    omega
  · intro s b e n t x s' hI hs hd ht hf
    replace hs : D.isIdle s.inner = false := hs
    obtain ⟨_, i, hi, hn, rfl⟩ := length_ok.1 hd
    obtain ⟨h0, j, hj, rfl⟩ := length_fin.1 hf
    exact h.again hI ((item_busy hs).2 ⟨hi, ht, hj⟩)
  · intro s x s' hI hs hf
    replace hs : D.isIdle s.inner = true := hs
    obtain ⟨h0, j, hj, rfl⟩ := length_fin.1 hf
    exact h.again hI ((item_quiet (b := []) (e := Eos.new false) hs).2 ⟨rfl, rfl, hj⟩)
  · intro s a b e e1 n t x s' hI hs hd ht hf he hne
    replace hs : D.isIdle s.inner = true := hs
    obtain ⟨hr, i, hi, hn, rfl⟩ := length_ok.1 hd
    obtain ⟨h0, j, hj, rfl⟩ := length_fin.1 hf
    simp only at h0
    have hq := h.quiet (a := []) (b := (a ++ b).take s.remaining) (e1 := Eos.new false) hI hs hi ht hj
      (.inl rfl) rfl
    obtain ⟨rfl, rfl, _⟩ := hq
    have hz : s.remaining = 0 := by omega
    obtain ⟨si, se, sr⟩ := s
    simp only at hz hi ⊢
    subst hz
    refine ⟨trivial, rfl, ?_⟩
    rw [length_ok]
    simp only at hi ⊢
    simp only [List.take_zero, Nat.min_zero, Nat.sub_self] at hi ⊢
    refine ⟨?_, si, hi, Nat.le_refl _, rfl⟩
    intro r hr'
    rcases he with rfl | rfl
    · simp [Eos.new] at hr'
    · obtain ⟨m, hm, rfl⟩ := eosShift_sum hr'
      have := (hr m hm).1
      simp only [List.length_append] at this
      omega
  · intro s a b e e1 n t x s' hI hs hd ht hf he hne
    replace hs : D.isIdle s.inner = false := hs
    obtain ⟨hr, i, hi, hn, rfl⟩ := length_ok.1 hd
    obtain ⟨h0, j, hj, rfl⟩ := length_fin.1 hf
    simp only at h0
    have hn' : n = s.remaining := by omega
    subst hn'
    have hb := h.bound hI ((item_busy hs).2 ⟨hi, ht, hj⟩)
    simp only [List.length_take, List.length_append] at hb
    have hr1 : ∀ r, e1.remaining = .finite r → r + a.length < 2 ^ 64 ∧ b.length ≤ r := by
      intro r hr'
      rcases he with rfl | rfl
      · simp [Eos.new] at hr'
      · obtain ⟨m, hm, rfl⟩ := eosShift_sum hr'
        have := hr m hm
        simp only [List.length_append] at this
        omega
    by_cases hc : s.remaining ≤ a.length
    · left
      rw [length_ok]
      refine ⟨?_, i, ?_, Nat.le_refl _, rfl⟩
      · intro r hr'
        have := hr1 r hr'
        omega
      · rw [List.take_append_of_le_length hc, List.length_append] at hi
        have e1 : min (a.length + b.length) s.remaining = s.remaining := by omega
        have e2 : min a.length s.remaining = s.remaining := by omega
        rw [e1] at hi
        rw [e2]
        exact hi
    · right
      have e1' : (a ++ b).take s.remaining = a ++ b.take (s.remaining - a.length) := by
        rw [List.take_append, List.take_of_length_le (by omega)]
      have e2 : s.remaining - min (a ++ b).length s.remaining = 0 := by
        simp only [List.length_append]; omega
      rw [e1', e2] at hi
      have e3 : (b.take (s.remaining - a.length)).length = s.remaining - a.length := by
        simp; omega
      have hne' : (⟨.finite (s.remaining - a.length)⟩ : Eos).isReached = false := by
        simp [Eos.isReached]; omega
      have hs2 := h.split (a := a) (e1 := ⟨.finite (s.remaining - a.length)⟩) hI
        ((item_busy hs).2 ⟨hi, ht, hj⟩) (.inr (by rw [e3]; exact eosShift_zero _)) hne'
      rcases hs2 with h1 | ⟨h1, h2, s1, h3, h4, h5⟩
      · have := h.bound hI h1
        omega
      · rw [tryDecode_ret_iff hs] at h3
        rw [item_busy h3.2] at h5
        refine ⟨?_, h2, ⟨s1, s.expected, s.remaining - a.length⟩, ?_, h3.2, h4, ?_⟩
        · rintro _ rfl; simp at hb; omega
        · rw [length_ok]
          refine ⟨?_, s1, ?_, h2, rfl⟩
          · intro r hr'
            have := hr1 r hr'
            omega
          · rw [List.take_of_length_le (by omega), Nat.min_eq_left (by omega)]
            exact h3.1
        · rw [length_ok]
          refine ⟨?_, i, ?_, by simp, by simp⟩
          · intro r hr'
            have := hr r hr'
            simp only [List.length_append] at this ⊢
            omega
          · simp only
            have e5 : s.remaining - a.length - min b.length (s.remaining - a.length) = 0 := by omega
            rw [e5]
            exact h5.1

/-! ## `MaxBytes` -/

theorem maxBytes_ok {D : Decoder σ α} {s t : MaxBytesState σ} {b : Bytes} {e : Eos} {n : Nat} :
    (maxBytesDecoder D).decode s b e = (.ok n, t) ↔
      e.remaining ≠ .infinite ∧ s.consumed ≤ s.max ∧ b.length ≤ s.max - s.consumed ∧
      (∀ r, e.remaining = .finite r → b.length + r < 2 ^ 64 ∧ b.length + r ≤ s.max - s.consumed) ∧
      ∃ i, D.decode s.inner b e = (.ok n, i) ∧ t = ⟨i, s.consumed + n, s.max⟩ := by
  have go : ∀ {p : Res Nat × σ}, Res.step p (fun i => { s with inner := i }) (fun size i =>
          ((.ok size : Res Nat), { s with inner := i, consumed := s.consumed + size })) = (.ok n, t) ↔
        ∃ i, p = (.ok n, i) ∧ t = ⟨i, s.consumed + n, s.max⟩ := by
    intro p
    constructor
    · intro h
      obtain ⟨a, i, h1, h2⟩ := step_ok h
      cases h2
      exact ⟨i, h1, rfl⟩
    · rintro ⟨i, rfl, rfl⟩
      rfl
  simp only [maxBytesDecoder, Eos.remainingBytes]
  cases hc : e.remaining with
  | infinite => simp
  | unknown =>
    simp only
    by_cases h1 : s.max < s.consumed
    · rw [if_pos h1]
      constructor
      · intro h; cases h
      · rintro ⟨_, h, _⟩; omega
    · rw [if_neg h1]
      by_cases h2 : b.length ≤ s.max - s.consumed
      · rw [if_pos h2, go]
        constructor
        · intro h; exact ⟨by simp, by omega, h2, by simp, h⟩
        · exact fun h => h.2.2.2.2
      · rw [if_neg h2]
        constructor
        · intro h; cases h
        · rintro ⟨_, _, h, _⟩; omega
  | finite r =>
    simp only
    by_cases h1 : s.max < s.consumed
    · rw [if_pos h1]
      constructor
      · intro h; cases h
      · rintro ⟨_, h, _⟩; omega
    · rw [if_neg h1]
      by_cases h3 : 2 ^ 64 ≤ b.length + r
      · rw [if_pos h3]
        constructor
        · intro h; cases h
        · rintro ⟨_, _, _, h, _⟩; have := h r rfl; omega
      · rw [if_neg h3]
        by_cases h2 : b.length + r ≤ s.max - s.consumed
        · rw [if_pos h2, go]
          constructor
          · intro h
            refine ⟨by simp, by omega, by omega, ?_, h⟩
            intro r' hr'; cases hr'; omega
          · exact fun h => h.2.2.2.2
        · rw [if_neg h2]
          constructor
          · intro h; cases h
          · rintro ⟨_, _, _, h, _⟩; have := h r rfl; omega

theorem maxBytes_fin {D : Decoder σ α} {s t : MaxBytesState σ} {x : α} :
    (maxBytesDecoder D).finish s = (.ok x, t) ↔
      ∃ i, D.finish s.inner = (.ok x, i) ∧ t = ⟨i, 0, s.max⟩ := by
  simp only [maxBytesDecoder]
  constructor
  · intro h1
    obtain ⟨a, i, h2, h3⟩ := step_ok h1
    cases h3
    exact ⟨i, h2, rfl⟩
  · rintro ⟨i, h1, rfl⟩
    rw [h1]; rfl

theorem splits_maxBytes {p : Bool} {D : Decoder σ α} {I : σ → Prop} (h : Splits p D I) :
    Splits p (maxBytesDecoder D) (fun s => I s.inner) := by
  have earlier : ∀ {s : MaxBytesState σ} {a b : Bytes} {e e1 : Eos}, Earlier e1 e b.length →
      e.remaining ≠ .infinite ∧ s.consumed ≤ s.max ∧ (a ++ b).length ≤ s.max - s.consumed ∧
      (∀ r, e.remaining = .finite r → (a ++ b).length + r < 2 ^ 64 ∧
        (a ++ b).length + r ≤ s.max - s.consumed) →
      e1.remaining ≠ .infinite ∧ s.consumed ≤ s.max ∧ a.length ≤ s.max - s.consumed ∧
      (∀ r, e1.remaining = .finite r → a.length + r < 2 ^ 64 ∧ a.length + r ≤ s.max - s.consumed) := by
    intro s a b e e1 he hc
    obtain ⟨h1, h2, h3, h4⟩ := hc
    simp only [List.length_append] at h3 h4
    refine ⟨?_, h2, by omega, ?_⟩
    · rcases he with rfl | rfl
      · simp [Eos.new]
      · obtain ⟨c⟩ := e
        cases c <;> simp_all [eosShift]
    · intro r hr
      rcases he with rfl | rfl
      · simp [Eos.new] at hr
      · obtain ⟨m, hm, rfl⟩ := eosShift_sum hr
        have := h4 m hm
        omega
  apply Splits.of_busy
  · intro s b e n t x s' hI hs hd ht hf
    replace hs : D.isIdle s.inner = false := hs
    obtain ⟨_, _, _, _, i, hi, rfl⟩ := maxBytes_ok.1 hd
    obtain ⟨j, hj, rfl⟩ := maxBytes_fin.1 hf
    exact h.bound hI ((item_busy hs).2 ⟨hi, ht, hj⟩)
  · intro s b e n t x s' hI hs hd ht hf
    replace hs : D.isIdle s.inner = false := hs
    obtain ⟨_, _, _, _, i, hi, rfl⟩ := maxBytes_ok.1 hd
    obtain ⟨j, hj, rfl⟩ := maxBytes_fin.1 hf
    exact h.again hI ((item_busy hs).2 ⟨hi, ht, hj⟩)
  · intro s x s' hI hs hf
    replace hs : D.isIdle s.inner = true := hs
    obtain ⟨j, hj, rfl⟩ := maxBytes_fin.1 hf
    exact h.again hI ((item_quiet (b := []) (e := Eos.new false) hs).2 ⟨rfl, rfl, hj⟩)
  · intro s a b e e1 n t x s' hI hs hd ht hf he hne
    replace hs : D.isIdle s.inner = true := hs
    obtain ⟨c1, c2, c3, c4, i, hi, rfl⟩ := maxBytes_ok.1 hd
    obtain ⟨j, hj, rfl⟩ := maxBytes_fin.1 hf
    obtain ⟨rfl, rfl, h3⟩ := h.quiet hI hs hi ht hj he hne
    refine ⟨rfl, rfl, ?_⟩
    rw [maxBytes_ok]
    obtain ⟨d1, d2, d3, d4⟩ := earlier he ⟨c1, c2, c3, c4⟩
    exact ⟨d1, d2, d3, d4, _, h3, rfl⟩
  · intro s a b e e1 n t x s' hI hs hd ht hf he hne
    replace hs : D.isIdle s.inner = false := hs
    obtain ⟨c1, c2, c3, c4, i, hi, rfl⟩ := maxBytes_ok.1 hd
    obtain ⟨j, hj, rfl⟩ := maxBytes_fin.1 hf
    obtain ⟨d1, d2, d3, d4⟩ := earlier he ⟨c1, c2, c3, c4⟩
    rcases h.split hI ((item_busy hs).2 ⟨hi, ht, hj⟩) he hne with h1 | ⟨h1, h2, s1, h3, h4, h5⟩
    · left
      rw [item_busy hs] at h1
      exact maxBytes_ok.2 ⟨d1, d2, d3, d4, i, h1.1, rfl⟩
    · right
      rw [tryDecode_ret_iff hs] at h3
      rw [item_busy h3.2] at h5
      simp only [List.length_append] at c3 c4
      refine ⟨h1, h2, ⟨s1, s.consumed + a.length, s.max⟩,
        maxBytes_ok.2 ⟨d1, d2, d3, d4, s1, h3.1, rfl⟩, h3.2, h4, maxBytes_ok.2 ⟨c1, ?_, ?_, ?_, i, h5.1, ?_⟩⟩
      · simp only; omega
      · simp only; omega
      · intro r hr
        have := c4 r hr
        simp only
        omega
      · simp only [MaxBytesState.mk.injEq, and_true, true_and]
        omega

/-! ## `Peekable` -/

theorem peek_ok {D : Decoder σ α} {i : σ} {t : PeekState σ α} {b : Bytes} {e : Eos} {n : Nat} :
    (peekableDecoder D).decode ⟨i, none⟩ b e = (.ok n, t) ↔
      ∃ j, D.decode i b e = (.ok n, j) ∧ ((D.isIdle j = false ∧ t = ⟨j, none⟩) ∨
        (D.isIdle j = true ∧ ∃ x k, D.finish j = (.ok x, k) ∧ t = ⟨k, some x⟩)) := by
  simp only [peekableDecoder]
  rw [if_pos (by simp)]
  constructor
  · intro h
    obtain ⟨a, j, h1, h2⟩ := step_ok h
    split at h2
    · next hi =>
      obtain ⟨x, k, h3, h4⟩ := step_ok h2
      cases h4
      exact ⟨j, h1, .inr ⟨hi, x, k, h3, rfl⟩⟩
    · next hi =>
      cases h2
      exact ⟨j, h1, .inl ⟨by simpa using hi, rfl⟩⟩
  · rintro ⟨j, h1, h2⟩
    rw [h1]
    simp only [Res.step]
    rcases h2 with ⟨hi, rfl⟩ | ⟨hi, x, k, h3, rfl⟩
    · rw [if_neg (by simp [hi])]
    · rw [if_pos hi, h3]

theorem splits_peekable {p : Bool} {D : Decoder σ α} {I : σ → Prop} (h : Splits p D I) :
    Splits p (peekableDecoder D) (fun s => I s.inner) := by
  have busy : ∀ {s : PeekState σ α}, (peekableDecoder D).isIdle s = false → ∃ i, s = ⟨i, none⟩ := by
    intro s hs
    obtain ⟨i, o⟩ := s
    cases o <;> simp [peekableDecoder] at hs
    exact ⟨i, rfl⟩
  have fin : ∀ {s s' : PeekState σ α} {x}, (peekableDecoder D).finish s = (.ok x, s') →
      s' = ⟨s.inner, none⟩ := by
    intro s s' x hf
    simp only [peekableDecoder] at hf
    split at hf <;> cases hf
    rfl
  have quietItem : ∀ {i j b e n x k}, D.isIdle i = true → D.decode i b e = (.ok n, j) →
      D.isIdle j = true → D.finish j = (.ok x, k) → I i → n = 0 ∧ j = i := by
    intro i j b e n x k h1 h2 h3 h4 hI
    have := h.quiet (a := []) (b := b) (e1 := Eos.new false) hI h1 h2 h3 h4 (.inl rfl) rfl
    exact ⟨this.1, this.2.1⟩
  apply Splits.of_busy
  · intro s b e n t x s' hI hs hd ht hf
    obtain ⟨i, rfl⟩ := busy hs
    obtain ⟨j, hj, hc⟩ := peek_ok.1 hd
    rcases hc with ⟨_, rfl⟩ | ⟨hi, y, k, hk, rfl⟩
    · cases ht
    · cases hq : D.isIdle i with
      | true => have := quietItem hq hj hi hk hI; omega
      | false => exact h.bound hI ((item_busy hq).2 ⟨hj, hi, hk⟩)
  · intro s b e n t x s' hI hs hd ht hf
    obtain ⟨i, rfl⟩ := busy hs
    obtain ⟨j, hj, hc⟩ := peek_ok.1 hd
    rw [fin hf]
    rcases hc with ⟨_, rfl⟩ | ⟨hi, y, k, hk, rfl⟩
    · cases ht
    · cases hq : D.isIdle i with
      | true =>
        obtain ⟨_, rfl⟩ := quietItem hq hj hi hk hI
        exact h.again hI ((item_quiet (b := []) (e := Eos.new false) hq).2 ⟨rfl, rfl, hk⟩)
      | false => exact h.again hI ((item_busy hq).2 ⟨hj, hi, hk⟩)
  · intro s x s' hI hs hf
    rw [fin hf]
    exact hI
  · intro s a b e e1 n t x s' hI hs hd ht hf he hne
    obtain ⟨i, o⟩ := s
    cases o with
    | none => cases hs
    | some y =>
      simp [peekableDecoder] at hd ⊢
      exact ⟨hd.1.symm, hd.2.symm⟩
  · intro s a b e e1 n t x s' hI hs hd ht hf he hne
    obtain ⟨i, rfl⟩ := busy hs
    obtain ⟨j, hj, hc⟩ := peek_ok.1 hd
    rcases hc with ⟨_, rfl⟩ | ⟨hi, y, k, hk, rfl⟩
    · cases ht
    · cases hq : D.isIdle i with
      | true =>
        left
        obtain ⟨rfl, rfl, h3⟩ := h.quiet hI hq hj hi hk he hne
        exact peek_ok.2 ⟨_, h3, .inr ⟨hi, y, k, hk, rfl⟩⟩
      | false =>
        rcases h.split hI ((item_busy hq).2 ⟨hj, hi, hk⟩) he hne with h1 | ⟨h1, h2, s1, h3, h4, h5⟩
        · left
          rw [item_busy hq] at h1
          exact peek_ok.2 ⟨_, h1.1, .inr ⟨hi, y, k, hk, rfl⟩⟩
        · right
          rw [tryDecode_ret_iff hq] at h3
          rw [item_busy h3.2] at h5
          exact ⟨h1, h2, ⟨s1, none⟩, peek_ok.2 ⟨_, h3.1, .inl ⟨h3.2, rfl⟩⟩, rfl, h4,
            peek_ok.2 ⟨_, h5.1, .inr ⟨hi, y, k, hk, rfl⟩⟩⟩

/-! ## `MaybeEos` -/

/-- The marker `MaybeEos` passes on. -/
def maybeMark (started : Bool) (b : Bytes) (e : Eos) : Eos :=
  if !started && b.isEmpty && e.isReached then Eos.new false else e

theorem maybe_ok {D : Decoder σ α} {s t : MaybeEosState σ} {b : Bytes} {e : Eos} {n : Nat} :
    (maybeEosDecoder D).decode s b e = (.ok n, t) ↔
      ∃ i, D.decode s.inner b (maybeMark s.started b e) = (.ok n, i) ∧
        t = ⟨i, if n ≠ 0 then true else s.started⟩ := by
  simp only [maybeEosDecoder, maybeMark]
  constructor
  · intro h
    obtain ⟨a, i, h1, h2⟩ := step_ok h
    cases h2
    exact ⟨i, h1, rfl⟩
  · rintro ⟨i, h1, rfl⟩
    rw [h1]; rfl

theorem maybe_fin {D : Decoder σ α} {s t : MaybeEosState σ} {x : α} :
    (maybeEosDecoder D).finish s = (.ok x, t) ↔
      ∃ i, D.finish s.inner = (.ok x, i) ∧ t = ⟨i, false⟩ := by
  simp only [maybeEosDecoder]
  constructor
  · intro h
    obtain ⟨a, i, h1, h2⟩ := step_ok h
    cases h2
    exact ⟨i, h1, rfl⟩
  · rintro ⟨i, h1, rfl⟩
    rw [h1]; rfl

theorem maybeMark_not_reached {st : Bool} {b : Bytes} {e : Eos} (h : e.isReached = false) :
    maybeMark st b e = e := by
  simp [maybeMark, h]

theorem eosShift_id (e : Eos) : eosShift e 0 = e := by
  obtain ⟨c⟩ := e
  cases c <;> rfl

theorem splits_maybeEos {p : Bool} {D : Decoder σ α} {I : σ → Prop} (h : Splits p D I) :
    Splits p (maybeEosDecoder D) (fun s => I s.inner) := by
  apply Splits.of_busy
  · intro s b e n t x s' hI hs hd ht hf
    replace hs : D.isIdle s.inner = false := hs
    obtain ⟨i, hi, rfl⟩ := maybe_ok.1 hd
    obtain ⟨j, hj, rfl⟩ := maybe_fin.1 hf
    exact h.bound hI ((item_busy hs).2 ⟨hi, ht, hj⟩)
  · intro s b e n t x s' hI hs hd ht hf
    replace hs : D.isIdle s.inner = false := hs
    obtain ⟨i, hi, rfl⟩ := maybe_ok.1 hd
    obtain ⟨j, hj, rfl⟩ := maybe_fin.1 hf
    exact h.again hI ((item_busy hs).2 ⟨hi, ht, hj⟩)
  · intro s x s' hI hs hf
    replace hs : D.isIdle s.inner = true := hs
    obtain ⟨j, hj, rfl⟩ := maybe_fin.1 hf
    exact h.again hI ((item_quiet (b := []) (e := Eos.new false) hs).2 ⟨rfl, rfl, hj⟩)
  · intro s a b e e1 n t x s' hI hs hd ht hf he hne
    replace hs : D.isIdle s.inner = true := hs
    obtain ⟨i, hi, rfl⟩ := maybe_ok.1 hd
    obtain ⟨j, hj, rfl⟩ := maybe_fin.1 hf
    by_cases hm : (!s.started && (a ++ b).isEmpty && e.isReached) = true
    · have hab : a = [] ∧ b = [] := by simp at hm; exact ⟨hm.1.2.1, hm.1.2.2⟩
      obtain ⟨rfl, rfl⟩ := hab
      have he1 : e1 = Eos.new false := by
        rcases he with h | h
        · exact h
        · simp only [List.length_nil, eosShift_id] at h
          rw [h] at hne
          simp [hne] at hm
      rw [maybeMark, if_pos hm] at hi
      obtain ⟨rfl, rfl, h3⟩ := h.quiet (a := []) (b := []) hI hs hi ht hj (.inl he1) hne
      refine ⟨rfl, rfl, maybe_ok.2 ⟨_, ?_, rfl⟩⟩
      rw [maybeMark_not_reached hne]
      exact h3
    · rw [maybeMark, if_neg hm] at hi
      obtain ⟨rfl, rfl, h3⟩ := h.quiet hI hs hi ht hj he hne
      refine ⟨rfl, rfl, maybe_ok.2 ⟨_, ?_, rfl⟩⟩
      rw [maybeMark_not_reached hne]
      exact h3
  · intro s a b e e1 n t x s' hI hs hd ht hf he hne
    replace hs : D.isIdle s.inner = false := hs
    obtain ⟨i, hi, rfl⟩ := maybe_ok.1 hd
    obtain ⟨j, hj, rfl⟩ := maybe_fin.1 hf
    by_cases hm : (!s.started && (a ++ b).isEmpty && e.isReached) = true
    · left
      have hab : a = [] ∧ b = [] := by simp at hm; exact ⟨hm.1.2.1, hm.1.2.2⟩
      obtain ⟨rfl, rfl⟩ := hab
      have he1 : e1 = Eos.new false := by
        rcases he with h | h
        · exact h
        · simp only [List.length_nil, eosShift_id] at h
          rw [h] at hne
          simp [hne] at hm
      rw [maybeMark, if_pos hm] at hi
      rw [maybe_ok, maybeMark_not_reached hne, he1]
      exact ⟨i, hi, rfl⟩
    · rw [maybeMark, if_neg hm] at hi
      rcases h.split hI ((item_busy hs).2 ⟨hi, ht, hj⟩) he hne with h1 | ⟨h1, h2, s1, h3, h4, h5⟩
      · left
        rw [item_busy hs] at h1
        rw [maybe_ok, maybeMark_not_reached hne]
        exact ⟨i, h1.1, rfl⟩
      · right
        rw [tryDecode_ret_iff hs] at h3
        rw [item_busy h3.2] at h5
        refine ⟨h1, h2, ⟨s1, if a.length ≠ 0 then true else s.started⟩, ?_, h3.2, h4, ?_⟩
        · rw [maybe_ok, maybeMark_not_reached hne]
          exact ⟨s1, h3.1, rfl⟩
        · rw [maybe_ok]
          refine ⟨i, ?_, ?_⟩
          · have : maybeMark (if a.length ≠ 0 then true else s.started) b e = e := by
              rw [maybeMark, if_neg]
              intro hc
              apply hm
              by_cases ha : a.length = 0
              · have ha : a = [] := List.eq_nil_of_length_eq_zero ha
                subst ha
                simpa using hc
              · simp [ha] at hc
            simp only
            rw [this]
            exact h5.1
          · by_cases ha : a.length = 0
            · simp [ha]
            · have : n ≠ 0 := by omega
              simp [ha, this]

end Bytecodec
