import Verif.Lemmas.Trace
import Verif.Lemmas.Reach
import Verif.Lemmas.Feed
import Verif.Model.Bytes
import Verif.Model.DecCombinator
/-! # Lemmas: histories with byte counts -/
namespace Bytecodec

open Spec

variable {σ α : Type}

theorem tally_remaining {s : RemainingState} {c f : Nat}
    (h : Tally remainingBytesDecoder noSet .new s c f) : s.buf.length = c := by
  induction h with
  | new => rfl
  | @decoded s s' c f n b e _ he hd ih =>
    simp only [remainingBytesDecoder] at hd
    split at hd
    · cases hd; simpa using ih
    · split at hd
      · split at hd
        · cases hd
        · split at hd
          · cases hd
          · cases hd; simp [ih]
      · cases hd; simp [ih]
  | @failed s s' c f b e r _ he hd hr ih =>
    simp only [remainingBytesDecoder] at hd
    split at hd
    · cases hd; exact (hr _ rfl).elim
    · split at hd
      · split at hd
        · cases hd; exact ih
        · split at hd
          · cases hd; exact ih
          · cases hd; exact (hr _ rfl).elim
      · cases hd; exact (hr _ rfl).elim
  | @item s s' c f x _ hf ih =>
    simp only [remainingBytesDecoder] at hf
    split at hf
    · cases hf; rfl
    · cases hf
  | @refused s s' c f r _ hf hr ih =>
    simp only [remainingBytesDecoder] at hf
    split at hf
    · cases hf; exact (hr _ rfl).elim
    · cases hf; exact ih
  | set _ hs _ => exact hs.elim

/-! ## Length -/

theorem length_cases (D : Decoder σ α) (s : LengthState σ) (b : Bytes) (e : Eos) :
    ((lengthDecoder D).decode s b e = (.panic, s) ∧ ∃ r, e.remaining = .finite r ∧ 2 ^ 64 ≤ r + b.length) ∨
    ((lengthDecoder D).decode s b e = (.err .unexpectedEos, s) ∧
      ∃ r, e.remaining = .finite r ∧ r + b.length < s.remaining - min b.length s.remaining) ∨
    ((∀ r, e.remaining = .finite r → s.remaining - min b.length s.remaining ≤ r + b.length) ∧
      ∃ r i, D.decode s.inner (b.take (min b.length s.remaining))
          (Eos.withRemainingBytes (.finite (s.remaining - min b.length s.remaining))) = (r, i) ∧
        ((∃ m, r = .ok m ∧ m ≤ s.remaining ∧
            (lengthDecoder D).decode s b e = (.ok m, ⟨i, s.expected, s.remaining - m⟩)) ∨
          (∃ m, r = .ok m ∧ s.remaining < m ∧
            (lengthDecoder D).decode s b e = (.panic, ⟨i, s.expected, s.remaining⟩)) ∨
          ((∀ m, r ≠ .ok m) ∧ (lengthDecoder D).decode s b e = (r, ⟨i, s.expected, s.remaining⟩)))) := by
  have go : ∀ q : Res Nat × LengthState σ, q = Res.step (D.decode s.inner (b.take (min b.length s.remaining))
          (Eos.withRemainingBytes (.finite (s.remaining - min b.length s.remaining))))
        (fun i => { s with inner := i }) (fun size i =>
          if s.remaining < size then (.panic, { s with inner := i })
          else (.ok size, { s with inner := i, remaining := s.remaining - size })) →
      ∃ r i, D.decode s.inner (b.take (min b.length s.remaining))
          (Eos.withRemainingBytes (.finite (s.remaining - min b.length s.remaining))) = (r, i) ∧
        ((∃ m, r = .ok m ∧ m ≤ s.remaining ∧ q = (.ok m, ⟨i, s.expected, s.remaining - m⟩)) ∨
          (∃ m, r = .ok m ∧ s.remaining < m ∧ q = (.panic, ⟨i, s.expected, s.remaining⟩)) ∨
          ((∀ m, r ≠ .ok m) ∧ q = (r, ⟨i, s.expected, s.remaining⟩))) := by
    rintro q rfl
    rcases D.decode s.inner (b.take (min b.length s.remaining))
      (Eos.withRemainingBytes (.finite (s.remaining - min b.length s.remaining))) with ⟨r, i⟩
    refine ⟨r, i, rfl, ?_⟩
    cases r with
    | ok m =>
      simp only [Res.step]
      by_cases h : s.remaining < m
      · exact .inr (.inl ⟨m, rfl, h, by rw [if_pos h]⟩)
      · exact .inl ⟨m, rfl, by omega, by rw [if_neg h]⟩
    | _ => exact .inr (.inr ⟨by simp, rfl⟩)
  rcases hr : e.remaining with n | _ | _
  · by_cases h1 : 2 ^ 64 ≤ n + b.length
    · refine .inl ⟨?_, n, rfl, h1⟩
      simp only [lengthDecoder, Eos.remainingBytes, hr, ByteCount.toU64]
      rw [if_pos h1]
    · by_cases h2 : n + b.length < s.remaining - min b.length s.remaining
      · refine .inr (.inl ⟨?_, n, rfl, h2⟩)
        simp only [lengthDecoder, Eos.remainingBytes, hr, ByteCount.toU64]
        rw [if_neg h1, if_pos h2]
      · refine .inr (.inr ⟨fun r hr => by cases hr; omega, go _ ?_⟩)
        simp only [lengthDecoder, Eos.remainingBytes, hr, ByteCount.toU64]
        rw [if_neg h1, if_neg h2]
  · refine .inr (.inr ⟨fun r hr => (by cases hr), go _ ?_⟩)
    simp only [lengthDecoder, Eos.remainingBytes, hr, ByteCount.toU64]
  · refine .inr (.inr ⟨fun r hr => (by cases hr), go _ ?_⟩)
    simp only [lengthDecoder, Eos.remainingBytes, hr, ByteCount.toU64]

theorem length_finish (D : Decoder σ α) (s : LengthState σ) :
    (s.remaining = 0 ∧ (lengthDecoder D).finish s = ((D.finish s.inner).1, ⟨(D.finish s.inner).2, s.expected, s.expected⟩)) ∨
    (s.remaining ≠ 0 ∧ (lengthDecoder D).finish s = (.err .incompleteDecoding, s)) := by
  simp only [lengthDecoder]
  split
  · next h =>
    refine .inl ⟨h, ?_⟩
    rcases D.finish s.inner with ⟨r, i⟩
    cases r <;> rfl
  · next h => exact .inr ⟨h, rfl⟩

theorem tally_length {D : Decoder σ α} {i : σ} {n : Nat} {s : LengthState σ} {c f : Nat}
    (h : Tally (lengthDecoder D) noSet (.new i n) s c f) :
    ∃ k, k ≤ f ∧ s.expected = n ∧ s.remaining ≤ n ∧ c + s.remaining = (k + 1) * n := by
  induction h with
  | new => exact ⟨0, Nat.le_refl _, rfl, Nat.le_refl _, by simp [LengthState.new]⟩
  | @decoded s s' c f m b e _ he hd ih =>
    obtain ⟨k, h1, h2, h3, h4⟩ := ih
    rcases length_cases D s b e with ⟨h, _⟩ | ⟨h, _⟩ | ⟨_, r, i', _, ⟨m', _, hm, h⟩ | ⟨m', _, _, h⟩ | ⟨hr, h⟩⟩ <;>
      rw [h] at hd
    · cases hd
    · cases hd
    · cases hd
      exact ⟨k, h1, h2, by simp only; omega, by simp only; omega⟩
    · cases hd
    · cases hd
      exact ⟨k, h1, h2, h3, (hr _ rfl).elim⟩
  | @failed s s' c f b e r _ he hd hr ih =>
    obtain ⟨k, h1, h2, h3, h4⟩ := ih
    rcases length_cases D s b e with ⟨h, _⟩ | ⟨h, _⟩ | ⟨_, r', i', _, ⟨m', _, hm, h⟩ | ⟨m', _, _, h⟩ | ⟨hr', h⟩⟩ <;>
      rw [h] at hd <;> cases hd
    · exact ⟨k, h1, h2, h3, h4⟩
    · exact ⟨k, h1, h2, h3, h4⟩
    · exact (hr _ rfl).elim
    · exact ⟨k, h1, h2, h3, h4⟩
    · exact ⟨k, h1, h2, h3, h4⟩
  | @item s s' c f x _ hf ih =>
    obtain ⟨k, h1, h2, h3, h4⟩ := ih
    rcases length_finish D s with ⟨h0, h⟩ | ⟨h0, h⟩
    · rw [h] at hf
      have := congrArg Prod.snd hf
      simp only at this
      subst this
      exact ⟨0, Nat.le_refl _, h2, by simp [h2], by simp [h2]⟩
    · rw [h] at hf; cases hf
  | @refused s s' c f r _ hf hr ih =>
    obtain ⟨k, h1, h2, h3, h4⟩ := ih
    rcases length_finish D s with ⟨h0, h⟩ | ⟨h0, h⟩
    · rw [h] at hf
      have := congrArg Prod.snd hf
      simp only at this
      subst this
      refine ⟨k + 1, by omega, h2, by simp [h2], ?_⟩
      simp only [h2]
      rw [h0, Nat.add_zero] at h4
      rw [h4, Nat.add_mul (k + 1) 1 n, Nat.one_mul]
    · rw [h] at hf; cases hf
      exact ⟨k, by omega, h2, h3, h4⟩
  | set _ hs _ => exact hs.elim

/-! ## The caller's loop -/

theorem Spec.Schedule.sane {chunks : List (Bytes × Eos)} {b : Bytes} {e : Eos} (h : Schedule chunks b e)
    (he : EosSane e b.length) : ∀ c ∈ chunks, EosSane c.2 c.1.length := by
  induction h with
  | last b e => intro c hc; rw [List.mem_singleton] at hc; subst hc; exact he
  | @cons chunks rest e c ec hec _ ih =>
    rw [List.length_append] at he
    intro d hd
    rcases List.mem_cons.1 hd with rfl | hd
    · rcases hec with rfl | rfl
      · exact EosSane.newFalse
      · intro n hn
        rcases e with ⟨m | _ | _⟩ <;> simp only [eosShift, ByteCount.finite.injEq, reduceCtorEq] at hn
        have := he m rfl
        simp only
        omega
    · exact ih (he.mono (by omega)) d hd

theorem Spec.Schedule.total {chunks : List (Bytes × Eos)} {b : Bytes} {e : Eos} (h : Schedule chunks b e) :
    (chunks.map fun c => c.1.length).sum = b.length := by
  induction h with
  | last b e => simp
  | cons c ec _ _ ih => simp [ih]

/-- What the caller's loop does, as a history. -/
theorem feed_tally {D : Decoder σ α} {set : σ → σ → Prop} {s₀ : σ} : ∀ {chunks : List (Bytes × Eos)} {s s' : σ}
    {c f m : Nat} {x : α}, (∀ d ∈ chunks, EosSane d.2 d.1.length) → Tally D set s₀ s c f →
    feed D s chunks = some (m, x, s') → ∃ t, Tally D set s₀ t (c + m) f ∧ D.finish t = (.ok x, s') := by
  intro chunks
  induction chunks with
  | nil =>
    intro s s' c f m x _ ht hf
    rw [feed.eq_def] at hf
    split at hf
    · rcases hq : D.finish s with ⟨r, t⟩
      rw [hq] at hf
      cases r with
      | ok y => cases hf; exact ⟨s, ht, hq⟩
      | _ => cases hf
    · cases hf
  | cons d rest ih =>
    intro s s' c f m x he ht hf
    obtain ⟨b, e⟩ := d
    rw [feed.eq_def] at hf
    split at hf
    · rcases hq : D.finish s with ⟨r, t⟩
      rw [hq] at hf
      cases r with
      | ok y => cases hf; exact ⟨s, ht, hq⟩
      | _ => cases hf
    · simp only at hf
      rcases hq : D.decode s b e with ⟨r, t⟩
      rw [hq] at hf
      cases r with
      | ok n =>
        simp only at hf
        split at hf
        · cases hr : feed D t rest with
          | none => rw [hr] at hf; cases hf
          | some r =>
            obtain ⟨m', x', t'⟩ := r
            rw [hr] at hf
            cases hf
            rw [← Nat.add_assoc]
            exact ih (fun d hd => he d (List.mem_cons_of_mem _ hd))
              (.decoded ht (he _ List.mem_cons_self) hq) hr
        · cases hf
      | _ => cases hf

/-- The caller's loop does not consume more than there is. -/
theorem feed_total {D : Decoder σ α} {s₀ : σ} (hs : SafeFrom D s₀) : ∀ {chunks : List (Bytes × Eos)} {s s' : σ}
    {m : Nat} {x : α}, (∀ d ∈ chunks, EosSane d.2 d.1.length) → Reach D s₀ s →
    feed D s chunks = some (m, x, s') → m ≤ (chunks.map fun c => c.1.length).sum := by
  intro chunks
  induction chunks with
  | nil =>
    intro s s' m x _ ht hf
    rw [feed.eq_def] at hf
    split at hf
    · rcases hq : D.finish s with ⟨r, t⟩
      rw [hq] at hf
      cases r with
      | ok y => cases hf; simp
      | _ => cases hf
    · cases hf
  | cons d rest ih =>
    intro s s' m x he ht hf
    obtain ⟨b, e⟩ := d
    rw [feed.eq_def] at hf
    split at hf
    · rcases hq : D.finish s with ⟨r, t⟩
      rw [hq] at hf
      cases r with
      | ok y => cases hf; simp
      | _ => cases hf
    · simp only at hf
      rcases hq : D.decode s b e with ⟨r, t⟩
      rw [hq] at hf
      cases r with
      | ok n =>
        simp only at hf
        split at hf
        · cases hr : feed D t rest with
          | none => rw [hr] at hf; cases hf
          | some r =>
            obtain ⟨m', x', t'⟩ := r
            rw [hr] at hf
            cases hf
            have h1 := ((hs s ht).1 b e (he _ List.mem_cons_self)).2 n (by rw [hq])
            have h2 := ht.decode b e (he _ List.mem_cons_self)
            rw [hq] at h2
            have h3 := ih (fun d hd => he d (List.mem_cons_of_mem _ hd)) h2 hr
            simp only [List.map_cons, List.sum_cons]
            omega
        · cases hf
      | _ => cases hf

/-! ## MaxBytes -/

theorem maxBytes_cases (D : Decoder σ α) (s : MaxBytesState σ) (b : Bytes) (e : Eos) :
    ((maxBytesDecoder D).decode s b e = (.err .invalidInput, s) ∧
      (e.remaining = .infinite ∨ e.remaining = .unknown ∧ s.consumed ≤ s.max ∧ s.max < s.consumed + b.length ∨
        ∃ r, e.remaining = .finite r ∧ s.consumed ≤ s.max ∧ s.max < s.consumed + (b.length + r))) ∨
    ((maxBytesDecoder D).decode s b e = (.panic, s) ∧
      (s.max < s.consumed ∨ ∃ r, e.remaining = .finite r ∧ 2 ^ 64 ≤ b.length + r)) ∨
    (s.consumed + b.length ≤ s.max ∧ e.remaining ≠ .infinite ∧
      (∀ r, e.remaining = .finite r → s.consumed + (b.length + r) ≤ s.max ∧ b.length + r < 2 ^ 64) ∧
      (maxBytesDecoder D).decode s b e = ((D.decode s.inner b e).1,
        ⟨(D.decode s.inner b e).2, match (D.decode s.inner b e).1 with
          | .ok m => s.consumed + m
          | _ => s.consumed, s.max⟩)) := by
  have go : Res.step (D.decode s.inner b e) (fun i => { s with inner := i }) (fun size i =>
        ((.ok size : Res Nat), { s with inner := i, consumed := s.consumed + size })) =
      ((D.decode s.inner b e).1, ⟨(D.decode s.inner b e).2, match (D.decode s.inner b e).1 with
          | .ok m => s.consumed + m
          | _ => s.consumed, s.max⟩) := by
    rcases D.decode s.inner b e with ⟨r, i⟩
    cases r <;> rfl
  rcases hr : e.remaining with n | _ | _
  · by_cases h1 : s.max < s.consumed
    · refine .inr (.inl ⟨?_, .inl h1⟩)
      simp only [maxBytesDecoder, Eos.remainingBytes, hr]
      rw [if_pos h1]
    · by_cases h2 : 2 ^ 64 ≤ b.length + n
      · refine .inr (.inl ⟨?_, .inr ⟨n, rfl, h2⟩⟩)
        simp only [maxBytesDecoder, Eos.remainingBytes, hr]
        rw [if_neg h1, if_pos h2]
      · by_cases h3 : b.length + n ≤ s.max - s.consumed
        · refine .inr (.inr ⟨by omega, by simp, fun r h => by cases h; omega, ?_⟩)
          simp only [maxBytesDecoder, Eos.remainingBytes, hr]
          rw [if_neg h1, if_neg h2, if_pos h3, go]
        · refine .inl ⟨?_, .inr (.inr ⟨n, rfl, by omega, by omega⟩)⟩
          simp only [maxBytesDecoder, Eos.remainingBytes, hr]
          rw [if_neg h1, if_neg h2, if_neg h3]
  · refine .inl ⟨?_, .inl rfl⟩
    simp only [maxBytesDecoder, Eos.remainingBytes, hr]
  · by_cases h1 : s.max < s.consumed
    · refine .inr (.inl ⟨?_, .inl h1⟩)
      simp only [maxBytesDecoder, Eos.remainingBytes, hr]
      rw [if_pos h1]
    · by_cases h3 : b.length ≤ s.max - s.consumed
      · refine .inr (.inr ⟨by omega, by simp, fun r h => (by cases h), ?_⟩)
        simp only [maxBytesDecoder, Eos.remainingBytes, hr]
        rw [if_neg h1, if_pos h3, go]
      · refine .inl ⟨?_, .inr (.inl ⟨rfl, by omega, by omega⟩)⟩
        simp only [maxBytesDecoder, Eos.remainingBytes, hr]
        rw [if_neg h1, if_neg h3]

theorem maxBytes_finish (D : Decoder σ α) (s : MaxBytesState σ) :
    (maxBytesDecoder D).finish s = ((D.finish s.inner).1, ⟨(D.finish s.inner).2, 0, s.max⟩) := by
  simp only [maxBytesDecoder]
  rcases D.finish s.inner with ⟨r, i⟩
  cases r <;> rfl

theorem tally_maxBytes {D : Decoder σ α} {i : σ} {n : Nat} (hD : SafeFrom D i) {s : MaxBytesState σ} {c f : Nat}
    (h : Tally (maxBytesDecoder D) maxSet (.new i n) s c f) :
    Reach D i s.inner ∧ s.consumed ≤ s.max ∧ (f = 0 → s.consumed = c) := by
  induction h with
  | new => exact ⟨.refl, by simp [MaxBytesState.new], fun _ => rfl⟩
  | @decoded s s' c f m b e _ he hd ih =>
    obtain ⟨h1, h2, h3⟩ := ih
    rcases maxBytes_cases D s b e with ⟨h, _⟩ | ⟨h, _⟩ | ⟨hb, _, _, h⟩ <;> rw [h] at hd
    · cases hd
    · cases hd
    · have hr := h1.decode b e he
      have hle := ((hD _ h1).1 b e he).2 m (congrArg Prod.fst hd)
      have e1 := congrArg Prod.fst hd
      have e2 := congrArg Prod.snd hd
      simp only at e1 e2
      rw [e1] at e2
      subst e2
      exact ⟨hr, by simp only; omega, fun hf => by simp only [h3 hf]⟩
  | @failed s s' c f b e r _ he hd hnr ih =>
    obtain ⟨h1, h2, h3⟩ := ih
    rcases maxBytes_cases D s b e with ⟨h, _⟩ | ⟨h, _⟩ | ⟨hb, _, _, h⟩ <;> rw [h] at hd
    · cases hd; exact ⟨h1, h2, h3⟩
    · cases hd; exact ⟨h1, h2, h3⟩
    · have hr := h1.decode b e he
      have e1 := congrArg Prod.fst hd
      have e2 := congrArg Prod.snd hd
      simp only at e1 e2
      rw [e1] at e2
      subst e2
      cases r with
      | ok m => exact (hnr m rfl).elim
      | _ => exact ⟨hr, h2, h3⟩
  | @item s s' c f x _ hf ih =>
    rw [maxBytes_finish] at hf
    have e2 := congrArg Prod.snd hf
    simp only at e2
    subst e2
    exact ⟨ih.1.finish, by simp, fun _ => rfl⟩
  | @refused s s' c f r _ hf hr ih =>
    rw [maxBytes_finish] at hf
    have e2 := congrArg Prod.snd hf
    simp only at e2
    subst e2
    exact ⟨ih.1.finish, by simp, by omega⟩
  | @set s s' c f _ hs ih =>
    obtain ⟨m, hm⟩ := hs
    simp only [MaxBytesState.setMaxBytes] at hm
    split at hm
    · next h => cases hm; exact ⟨ih.1, h, ih.2.2⟩
    · cases hm

/-! ## MaybeEos -/

theorem tally_maybeEos {D : Decoder σ α} {i : σ} {s : MaybeEosState σ} {c f : Nat}
    (h : Tally (maybeEosDecoder D) noSet (.new i) s c f) : f = 0 → (s.started = true ↔ c ≠ 0) := by
  induction h with
  | new => intro _; simp [MaybeEosState.new]
  | @decoded s s' c f m b e _ he hd ih =>
    intro hf
    have ih := ih hf
    simp only [maybeEosDecoder] at hd
    rcases hq : D.decode s.inner b (if !s.started && b.isEmpty && e.isReached then Eos.new false else e)
      with ⟨r, i'⟩
    rw [hq] at hd
    cases r with
    | ok k =>
      simp only [Res.step] at hd
      cases hd
      by_cases hm : m = 0
      · subst hm; simpa using ih
      · simp [hm]
    | _ => cases hd
  | @failed s s' c f b e r _ he hd hnr ih =>
    intro hf
    have ih := ih hf
    simp only [maybeEosDecoder] at hd
    rcases hq : D.decode s.inner b (if !s.started && b.isEmpty && e.isReached then Eos.new false else e)
      with ⟨r, i'⟩
    rw [hq] at hd
    cases r with
    | ok k => simp only [Res.step] at hd; cases hd; exact (hnr _ rfl).elim
    | _ => cases hd; exact ih
  | @item s s' c f x _ hf ih =>
    intro _
    simp only [maybeEosDecoder] at hf
    rcases hq : D.finish s.inner with ⟨r, i'⟩
    rw [hq] at hf
    cases r <;> cases hf
    simp
  | refused _ _ _ _ => intro h; omega
  | set _ hs _ => exact hs.elim

end Bytecodec
