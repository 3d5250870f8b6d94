import Verif.Spec.Kinds
import Verif.Lemmas.Captured
/-!
# Lemmas for C57: error kinds of decoders
-/
namespace Bytecodec

open Spec

variable {σ α β : Type} {len : Bool} {K : ErrorKind → Prop}

/-- The decoder fails with the expected kinds only. -/
structure Kinded (len : Bool) (K : ErrorKind → Prop) (D : Decoder σ α) : Prop where
  decode : ∀ s b e k s', D.decode s b e = (.err k, s') → DecodeKind len K e k
  finish : ∀ s k s', D.finish s = (.err k, s') → FinishKind len K (D.isIdle s) k

theorem step_err {τ : Type} {p : Res α × σ} {w : σ → τ} {c : α → σ → Res β × τ} {k : ErrorKind} {t : τ}
    (h : Res.step p w c = (.err k, t)) :
    (∃ s, p = (.err k, s)) ∨ ∃ x s, p = (.ok x, s) ∧ c x s = (.err k, t) := by
  obtain ⟨r, s⟩ := p
  cases r with
  | ok x => exact .inr ⟨x, s, rfl, h⟩
  | err k' => cases congrArg Prod.fst h; exact .inl ⟨s, rfl⟩
  | panic => cases congrArg Prod.fst h
  | capacity => cases congrArg Prod.fst h
  | diverge => cases congrArg Prod.fst h

theorem Spec.DecodeKind.mono {e e' : Eos} {k : ErrorKind} (h : DecodeKind len K e' k)
    (he : e'.isReached = true → e.isReached = true) : DecodeKind len K e k := by
  rcases h with h | h | h | ⟨h, h' | h'⟩ | h
  · exact .inl h
  · exact .inr (.inl h)
  · exact .inr (.inr (.inl h))
  · exact .inr (.inr (.inr (.inl ⟨h, .inl (he h')⟩)))
  · exact .inr (.inr (.inr (.inl ⟨h, .inr h'⟩)))
  · exact .inr (.inr (.inr (.inr h)))

/-- A kind that `finish_decoding` of an idle decoder fails with is one for `decode`. -/
theorem Spec.FinishKind.decode {e : Eos} {k : ErrorKind} (h : FinishKind len K true k) : DecodeKind len K e k := by
  rcases h with h | h | h | ⟨h, h' | h'⟩
  · exact .inl h
  · exact .inr (.inl h)
  · exact .inr (.inr (.inl h))
  · cases h'
  · exact .inr (.inr (.inr (.inr ⟨h, h'⟩)))

theorem Spec.FinishKind.mono {i i' : Bool} {k : ErrorKind} (h : FinishKind len K i' k)
    (hi : i' = false → i = false) : FinishKind len K i k := by
  rcases h with h | h | h | ⟨h, h' | h'⟩
  · exact .inl h
  · exact .inr (.inl h)
  · exact .inr (.inr (.inl h))
  · exact .inr (.inr (.inr ⟨h, .inl (hi h')⟩))
  · exact .inr (.inr (.inr ⟨h, .inr h'⟩))

theorem kinded_copyable : Kinded len K copyableBytesDecoder where
  decode := by
    intro s b e k s' h
    simp only [copyableBytesDecoder] at h
    split at h
    · cases congrArg Prod.fst h
    · split at h
      · cases congrArg Prod.fst h
        exact .inr (.inr (.inr (.inl ⟨rfl, .inl (by simp_all)⟩)))
      · cases congrArg Prod.fst h
  finish := by
    intro s k s' h
    simp only [copyableBytesDecoder] at h
    split at h
    · cases congrArg Prod.fst h
    · cases congrArg Prod.fst h
      exact .inr (.inr (.inr ⟨rfl, .inl (by simp_all [copyableBytesDecoder])⟩))

theorem kinded_bytes : Kinded len K bytesDecoder where
  decode := by
    intro s b e k s' h
    simp only [bytesDecoder] at h
    split at h
    · cases congrArg Prod.fst h
      exact .inr (.inr (.inl rfl))
    · split at h
      · cases congrArg Prod.fst h
      · split at h
        · next hc =>
          cases congrArg Prod.fst h
          exact .inr (.inr (.inr (.inl ⟨rfl, .inl hc.2⟩)))
        · cases congrArg Prod.fst h
  finish := by
    intro s k s' h
    simp only [bytesDecoder] at h
    split at h
    · cases congrArg Prod.fst h
      exact .inr (.inr (.inr ⟨rfl, .inl (by simp_all [bytesDecoder])⟩))
    · split at h
      · cases congrArg Prod.fst h
        exact .inr (.inr (.inl rfl))
      · cases congrArg Prod.fst h

theorem kinded_remaining : Kinded len K remainingBytesDecoder where
  decode := by
    intro s b e k s' h
    simp only [remainingBytesDecoder] at h
    repeat' split at h
    all_goals cases congrArg Prod.fst h
  finish := by
    intro s k s' h
    simp only [remainingBytesDecoder] at h
    split at h
    · cases congrArg Prod.fst h
    · cases congrArg Prod.fst h
      exact .inr (.inr (.inr ⟨rfl, .inl (by simp_all [remainingBytesDecoder])⟩))

theorem kinded_null : Kinded len K nullDecoder where
  decode := by intro s b e k s' h; cases congrArg Prod.fst h
  finish := by intro s k s' h; cases congrArg Prod.fst h

theorem kinded_padding : Kinded len K paddingDecoder where
  decode := by
    intro s b e k s' h
    simp only [paddingDecoder] at h
    repeat' split at h
    all_goals cases congrArg Prod.fst h
    exact .inr (.inl rfl)
  finish := by
    intro s k s' h
    simp only [paddingDecoder] at h
    split at h
    · cases congrArg Prod.fst h
    · cases congrArg Prod.fst h
      exact .inr (.inr (.inr ⟨rfl, .inl (by simp_all [paddingDecoder])⟩))

theorem kinded_monolithic {parse : MonolithicParser α} (hp : ∀ a b k, (parse a b).1 = .err k → K k) :
    Kinded len K (monolithicDecoder parse) where
  decode := by
    intro s b e k s' h
    simp only [monolithicDecoder] at h
    split at h
    · cases hq : parse s.buf b with
      | mk r n =>
        rw [hq] at h
        cases r <;> cases congrArg Prod.fst h
        exact .inl (hp s.buf b k (by rw [hq]))
    · cases congrArg Prod.fst h
  finish := by
    intro s k s' h
    simp only [monolithicDecoder] at h
    split at h
    · cases congrArg Prod.fst h
    · cases congrArg Prod.fst h
      exact .inr (.inr (.inr ⟨rfl, .inl (by simp_all [monolithicDecoder])⟩))

theorem kinded_map {D : Decoder σ α} (h : Kinded len K D) (f : α → β) : Kinded len K (mapDecoder D f) where
  decode := h.decode
  finish := by
    intro s k s' hf
    rcases step_err hf with ⟨t, h1⟩ | ⟨x, t, h1, h2⟩
    · exact h.finish s k t h1
    · cases congrArg Prod.fst h2

theorem kinded_number (f : Bytes → α) : Kinded len K (fixDecoder f) := kinded_map kinded_copyable f

theorem kinded_tryMap {D : Decoder σ α} (h : Kinded len K D) {f : α → Except ErrorKind β}
    (hK : ∀ x k, f x = .error k → K k) : Kinded len K (tryMapDecoder D f) where
  decode := h.decode
  finish := by
    intro s k s' hf
    rcases step_err hf with ⟨t, h1⟩ | ⟨x, t, h1, h2⟩
    · exact h.finish s k t h1
    · cases hx : f x with
      | ok y => rw [hx] at h2; cases congrArg Prod.fst h2
      | error k' => rw [hx] at h2; cases congrArg Prod.fst h2; exact .inl (hK x k hx)

theorem kinded_utf8 {D : Decoder σ Bytes} (h : Kinded len K D) : Kinded len K (utf8Decoder D) where
  decode := h.decode
  finish := by
    intro s k s' hf
    rcases step_err hf with ⟨t, h1⟩ | ⟨x, t, h1, h2⟩
    · exact h.finish s k t h1
    · cases hx : fromUtf8 x with
      | some y => rw [hx] at h2; cases congrArg Prod.fst h2
      | none => rw [hx] at h2; cases congrArg Prod.fst h2; exact .inr (.inl rfl)

theorem mapErr_err {r : Res α} {f : ErrorKind → ErrorKind} {k : ErrorKind} (h : r.mapErr f = .err k) :
    ∃ k', f k' = k := by
  cases r with
  | err k' => cases h; exact ⟨k', rfl⟩
  | _ => cases h

theorem kinded_mapErr {D : Decoder σ α} {f : ErrorKind → ErrorKind} (hK : ∀ k, K (f k)) :
    Kinded len K (mapErrDecoder D f) where
  decode := by
    intro s b e k s' h
    obtain ⟨k', rfl⟩ := mapErr_err (congrArg Prod.fst h)
    exact .inl (hK k')
  finish := by
    intro s k s' h
    obtain ⟨k', rfl⟩ := mapErr_err (congrArg Prod.fst h)
    exact .inl (hK k')

theorem kinded_omittable {D : Decoder σ α} (h : Kinded len K D) : Kinded len K (omittableDecoder D) where
  decode := by
    intro s b e k s' hd
    simp only [omittableDecoder] at hd
    split at hd
    · cases congrArg Prod.fst hd
    · rcases step_err hd with ⟨t, h1⟩ | ⟨x, t, h1, h2⟩
      · exact h.decode _ _ _ _ _ h1
      · cases congrArg Prod.fst h2
  finish := by
    intro s k s' hf
    simp only [omittableDecoder] at hf
    split at hf
    · cases congrArg Prod.fst hf
    · rcases step_err hf with ⟨t, h1⟩ | ⟨x, t, h1, h2⟩
      · exact (h.finish _ _ _ h1).mono (by intro hi; simp_all [omittableDecoder])
      · cases congrArg Prod.fst h2

theorem kinded_length {D : Decoder σ α} (hl : len = true) (h : Kinded len K D) : Kinded len K (lengthDecoder D) where
  decode := by
    intro s b e k s' hd
    have hgo : ∀ {c e'}, Res.step (D.decode s.inner (b.take c) e')
        (fun i => { s with inner := i }) (fun size i =>
          if s.remaining < size then (.panic, { s with inner := i })
          else (.ok size, { s with inner := i, remaining := s.remaining - size })) = ((.err k : Res Nat), s') →
        DecodeKind len K e k := by
      intro c e' hg
      rcases step_err hg with ⟨t, h1⟩ | ⟨x, t, h1, h2⟩
      · rcases h.decode _ _ _ _ _ h1 with h | h | h | h | h
        · exact .inl h
        · exact .inr (.inl h)
        · exact .inr (.inr (.inl h))
        · exact .inr (.inr (.inr (.inl ⟨h.1, .inr hl⟩)))
        · exact .inr (.inr (.inr (.inr h)))
      · split at h2 <;> cases congrArg Prod.fst h2
    simp only [lengthDecoder] at hd
    split at hd
    · split at hd
      · cases congrArg Prod.fst hd
      · split at hd
        · cases congrArg Prod.fst hd
          exact .inr (.inr (.inr (.inl ⟨rfl, .inr hl⟩)))
        · exact hgo hd
    · exact hgo hd
  finish := by
    intro s k s' hf
    simp only [lengthDecoder] at hf
    split at hf
    · rcases step_err hf with ⟨t, h1⟩ | ⟨x, t, h1, h2⟩
      · exact h.finish _ _ _ h1
      · cases congrArg Prod.fst h2
    · cases congrArg Prod.fst hf
      exact .inr (.inr (.inr ⟨rfl, .inr hl⟩))

theorem kinded_maxBytes {D : Decoder σ α} (h : Kinded len K D) : Kinded len K (maxBytesDecoder D) where
  decode := by
    intro s b e k s' hd
    have hgo : Res.step (D.decode s.inner b e) (fun i => { s with inner := i }) (fun size i =>
        (.ok size, { s with inner := i, consumed := s.consumed + size })) = ((.err k : Res Nat), s') →
        DecodeKind len K e k := by
      intro hg
      rcases step_err hg with ⟨t, h1⟩ | ⟨x, t, h1, h2⟩
      · exact h.decode _ _ _ _ _ h1
      · cases congrArg Prod.fst h2
    simp only [maxBytesDecoder] at hd
    repeat' split at hd
    all_goals first
      | exact hgo hd
      | (cases congrArg Prod.fst hd; done)
      | (cases congrArg Prod.fst hd; exact .inr (.inl rfl))
  finish := by
    intro s k s' hf
    rcases step_err hf with ⟨t, h1⟩ | ⟨x, t, h1, h2⟩
    · exact h.finish _ _ _ h1
    · cases congrArg Prod.fst h2

theorem back_reached_imp {e e' : Eos} {n : Nat} (h : e.back n = .ok e') (he : e'.isReached = true) :
    e.isReached = true := by
  obtain ⟨r⟩ := e
  cases r with
  | finite m =>
    simp only [Eos.back] at h
    split at h
    · cases h
      simp only [Eos.isReached, beq_iff_eq, ByteCount.finite.injEq] at he ⊢
      omega
    · cases h
  | infinite => cases h; exact he
  | unknown => cases h; exact he

theorem kinded_slice {D : Decoder σ α} (h : Kinded len K D) : Kinded len K (sliceDecoder D) where
  decode := by
    intro s b e k s' hd
    simp only [sliceDecoder] at hd
    split at hd
    · next e' hb =>
      rcases step_err hd with ⟨t, h1⟩ | ⟨x, t, h1, h2⟩
      · exact (h.decode _ _ _ _ _ h1).mono (back_reached_imp hb)
      · split at h2 <;> cases congrArg Prod.fst h2
    · cases congrArg Prod.fst hd
  finish := by
    intro s k s' hf
    rcases step_err hf with ⟨t, h1⟩ | ⟨x, t, h1, h2⟩
    · exact h.finish _ _ _ h1
    · cases congrArg Prod.fst h2

theorem kinded_peekable {D : Decoder σ α} (h : Kinded len K D) : Kinded len K (peekableDecoder D) where
  decode := by
    intro s b e k s' hd
    simp only [peekableDecoder] at hd
    split at hd
    · rcases step_err hd with ⟨t, h1⟩ | ⟨x, t, h1, h2⟩
      · exact h.decode _ _ _ _ _ h1
      · split at h2
        · next hi =>
          rcases step_err h2 with ⟨u, h3⟩ | ⟨y, u, h3, h4⟩
          · have := h.finish _ _ _ h3
            rw [hi] at this
            exact this.decode
          · cases congrArg Prod.fst h4
        · cases congrArg Prod.fst h2
    · cases congrArg Prod.fst hd
  finish := by
    intro s k s' h
    simp only [peekableDecoder] at h
    split at h
    · cases congrArg Prod.fst h
    · cases congrArg Prod.fst h
      exact .inr (.inr (.inr ⟨rfl, .inl (by simp_all [peekableDecoder])⟩))

theorem kinded_maybeEos {D : Decoder σ α} (h : Kinded len K D) : Kinded len K (maybeEosDecoder D) where
  decode := by
    intro s b e k s' hd
    simp only [maybeEosDecoder] at hd
    rcases step_err hd with ⟨t, h1⟩ | ⟨x, t, h1, h2⟩
    · refine (h.decode _ _ _ _ _ h1).mono fun he => ?_
      split at he
      · cases he
      · exact he
    · cases congrArg Prod.fst h2
  finish := by
    intro s k s' hf
    rcases step_err hf with ⟨t, h1⟩ | ⟨x, t, h1, h2⟩
    · exact h.finish _ _ _ h1
    · cases congrArg Prod.fst h2

theorem tryDecode_kind {D : Decoder σ α} (h : Kinded len K D) {s s' : σ} {o : Nat} {b : Bytes} {e : Eos}
    {k : ErrorKind} (hd : tryDecode D s o b e = .ret (.err k) s') : DecodeKind len K e k := by
  unfold tryDecode at hd
  split at hd
  · cases hd
  · split at hd
    · cases hd
    · split at hd
      · split at hd <;> cases hd
      · cases hd; exact h.decode _ _ _ _ _ ‹_›
      all_goals cases hd

theorem tryDecode_next_idle {D : Decoder σ α} {s s' : σ} {o o' : Nat} {b : Bytes} {e : Eos}
    (hd : tryDecode D s o b e = .next o' s') : D.isIdle s' = true := by
  unfold tryDecode at hd
  split at hd
  · cases hd; assumption
  · split at hd
    · cases hd
    · split at hd
      · split at hd
        · cases hd; assumption
        · cases hd
      all_goals cases hd

theorem Kinded.finish_idle {D : Decoder σ α} (h : Kinded len K D) {s s' : σ} {k : ErrorKind} {e : Eos}
    (hi : D.isIdle s = true) (hf : D.finish s = (.err k, s')) : DecodeKind len K e k := by
  have := h.finish _ _ _ hf
  rw [hi] at this
  exact this.decode

theorem kinded_pair {σ0 α0 σ1 α1 : Type} {D0 : Decoder σ0 α0} {D1 : Decoder σ1 α1} (h0 : Kinded len K D0)
    (h1 : Kinded len K D1) : Kinded len K (tupleDecoder2 D0 D1) where
  decode := by
    intro s b e k s' hd
    simp only [tupleDecoder2] at hd
    split at hd
    · cases hd; exact tryDecode_kind h0 ‹_›
    · split at hd
      · cases hd; exact tryDecode_kind h1 ‹_›
      · cases congrArg Prod.fst hd
  finish := by
    intro s k s' hf
    rcases step_err hf with ⟨t, a⟩ | ⟨x, t, a, b⟩
    · exact (h0.finish _ _ _ a).mono (by intro hi; simp [tupleDecoder2, hi])
    · rcases step_err b with ⟨t, a⟩ | ⟨x, t, a, b⟩
      · exact (h1.finish _ _ _ a).mono (by intro hi; simp [tupleDecoder2, hi])
      · cases congrArg Prod.fst b

theorem kinded_andThen {σ0 α0 σ1 α1 : Type} {D0 : Decoder σ0 α0} {D1 : Decoder σ1 α1} (f : α0 → σ1)
    (h0 : Kinded len K D0) (h1 : Kinded len K D1) : Kinded len K (andThenDecoder D0 D1 f) where
  decode := by
    intro s b e k s' hd
    have second : ∀ {j : σ0} {o : Nat} {u : σ1}, (match tryDecode D1 u o b e with
        | .ret r s1' => (r, (j, some s1'))
        | .next offset s1' => (.ok offset, (j, some s1'))) = ((.err k : Res Nat), s') → DecodeKind len K e k := by
      intro j o u hm
      split at hm
      · cases hm; exact tryDecode_kind h1 ‹_›
      · cases congrArg Prod.fst hm
    obtain ⟨i, it⟩ := s
    cases it with
    | some u => exact second hd
    | none =>
      simp only [andThenDecoder] at hd
      split at hd
      · cases hd; exact tryDecode_kind h0 ‹_›
      · next ht =>
        rcases step_err hd with ⟨t, a⟩ | ⟨x, t, a, b⟩
        · exact h0.finish_idle (tryDecode_next_idle ht) a
        · exact second b
  finish := by
    intro s k s' hf
    obtain ⟨i, it⟩ := s
    cases it with
    | none =>
      cases congrArg Prod.fst hf
      exact .inr (.inr (.inr ⟨rfl, .inl rfl⟩))
    | some u =>
      have hf1 := congrArg Prod.fst hf
      simp only [andThenDecoder] at hf1
      exact h1.finish u k (D1.finish u).2 (Prod.ext hf1 rfl)

theorem collectLoop_kind {D : Decoder σ α} (h : Kinded len K D) (b : Bytes) (e : Eos) :
    ∀ (o : Nat) (s : σ) (items : List α) (r : LoopExit σ α), collectLoop D b e o s items = some r →
      ∀ k s' items', r = .ret (.err k) s' items' → DecodeKind len K e k := by
  apply collectLoop.partial_correctness D b e
  intro loop ih o s items r hr k s' items' he
  subst he
  split at hr
  · split at hr
    · cases hr; exact tryDecode_kind h ‹_›
    · next ht =>
      split at hr
      · exact ih _ _ _ _ hr _ _ _ rfl
      · cases hr; exact h.finish_idle (tryDecode_next_idle ht) ‹_›
      all_goals cases hr
  · cases hr

theorem kinded_collect {D : Decoder σ α} (h : Kinded len K D) : Kinded len K (collectDecoder D) where
  decode := by
    intro s b e k s' hd
    simp only [collectDecoder] at hd
    split at hd
    · cases congrArg Prod.fst hd
    · split at hd
      · cases congrArg Prod.fst hd
      · next hl =>
        cases congrArg Prod.fst hd
        exact collectLoop_kind h b e _ _ _ _ hl _ _ _ rfl
      · cases congrArg Prod.fst hd
  finish := by
    intro s k s' h
    simp only [collectDecoder] at h
    split at h
    · cases congrArg Prod.fst h
    · cases congrArg Prod.fst h
      exact .inr (.inr (.inr ⟨rfl, .inl (by simp_all [collectDecoder])⟩))

theorem collectNLoop_kind {D : Decoder σ α} (h : Kinded len K D) (b : Bytes) (e : Eos) :
    ∀ (n o : Nat) (s : σ) (items : List α) (k : ErrorKind) (s' : σ) (items' : List α) (n' : Nat),
      collectNLoop D b e n o s items = .ret (.err k) s' items' n' → DecodeKind len K e k := by
  intro n
  induction n with
  | zero => intro o s items k s' items' n' hr; cases hr
  | succ n ih =>
    intro o s items k s' items' n' hr
    simp only [collectNLoop] at hr
    split at hr
    · split at hr
      · cases hr; exact tryDecode_kind h ‹_›
      · next ht =>
        split at hr
        · exact ih _ _ _ _ _ _ _ hr
        · cases hr; exact h.finish_idle (tryDecode_next_idle ht) ‹_›
        all_goals cases hr
    · cases hr

theorem kinded_collectN {D : Decoder σ α} (h : Kinded len K D) : Kinded len K (collectNDecoder D) where
  decode := by
    intro s b e k s' hd
    simp only [collectNDecoder] at hd
    split at hd
    · next hl =>
      cases congrArg Prod.fst hd
      exact collectNLoop_kind h b e _ _ _ _ _ _ _ _ hl
    · split at hd
      · next hc =>
        cases congrArg Prod.fst hd
        exact .inr (.inr (.inr (.inl ⟨rfl, .inl hc.2⟩)))
      · cases congrArg Prod.fst hd
  finish := by
    intro s k s' h
    simp only [collectNDecoder] at h
    split at h
    · cases congrArg Prod.fst h
    · cases congrArg Prod.fst h
      exact .inr (.inr (.inr ⟨rfl, .inl (by simp_all [collectNDecoder])⟩))

theorem kinded_captured {ε : Type} {F : ε → Decoder σ α} (h : ∀ x, Kinded len K (F x)) :
    Kinded len K (capturedDecoder F) where
  decode := fun s b e k s' hd => (h s.1).decode s.2 b e k s'.2 (captured_decode.1 hd).1
  finish := fun s k s' hd => (h s.1).finish s.2 k s'.2 (captured_finish.1 hd).1

theorem parts_kinded {own : (σ α : Type) → Decoder σ α → Prop}
    (hP : ∀ σ α (D : Decoder σ α), own σ α D → Kinded len K D)
    {D : Decoder σ α} (h : RaisingWith own len K D) : Kinded len K D := by
  induction h with
  | own h => exact hP _ _ _ h
  | copyable => exact kinded_copyable
  | bytes => exact kinded_bytes
  | remaining => exact kinded_remaining
  | null => exact kinded_null
  | padding => exact kinded_padding
  | number f => exact kinded_number f
  | utf8 _ ih => exact kinded_utf8 ih
  | monolithic parse hp => exact kinded_monolithic hp
  | map f _ ih => exact kinded_map ih f
  | tryMap f hK _ ih => exact kinded_tryMap ih hK
  | mapErr f hK => exact kinded_mapErr hK
  | omittable _ ih => exact kinded_omittable ih
  | length hl _ ih => exact kinded_length hl ih
  | maxBytes _ ih => exact kinded_maxBytes ih
  | slice _ ih => exact kinded_slice ih
  | peekable _ ih => exact kinded_peekable ih
  | maybeEos _ ih => exact kinded_maybeEos ih
  | collect _ ih => exact kinded_collect ih
  | collectN _ ih => exact kinded_collectN ih
  | pair _ _ ih0 ih1 => exact kinded_pair ih0 ih1
  | andThen f _ _ ih0 ih1 => exact kinded_andThen f ih0 ih1
  | captured F _ ih => exact kinded_captured ih

theorem Spec.Raising.kinded {D : Decoder σ α} (h : Raising len K D) : Kinded len K D :=
  parts_kinded (fun _ _ _ h => h.elim) h

end Bytecodec
