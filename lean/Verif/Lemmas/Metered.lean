import Verif.Spec.Metered
import Verif.Lemmas.Reach
import Verif.Lemmas.Safe
/-!
# Lemmas: how often the innermost decoders are called for an item

The argument keeps an account: `R s t φ` says that at most `φ` calls of innermost decoders have been made that were not yet
handed out with an item. A call of `decode` pays `a`, and `b` for each byte; a call of `finish_decoding` pays `a`.
-/
namespace Bytecodec

open Spec

variable {σ τ α β : Type}

/-- If the first outcome is a success, the second is one too, and the two are related. -/
def LeadsTo {α β σ τ : Type} (R : α → β → σ → τ → Prop) (p : Res α × σ) (q : Res β × τ) : Prop :=
  ∀ x s, p = (.ok x, s) → ∃ y t, q = (.ok y, t) ∧ R x y s t

section
variable {α β γ δ σ τ σ' τ' : Type} {R : α → β → σ → τ → Prop}

theorem LeadsTo.ok {x : α} {y : β} {s : σ} {t : τ} (h : R x y s t) : LeadsTo R (.ok x, s) (.ok y, t) := by
  intro x' s' hp
  cases hp
  exact ⟨_, _, rfl, h⟩

theorem LeadsTo.fail {r : Res α} {s : σ} {q : Res β × τ} (h : r.isOk = false) : LeadsTo R (r, s) q := by
  intro x' s' hp
  cases hp
  cases h

theorem LeadsTo.step {S : γ → δ → σ' → τ' → Prop} {p : Res α × σ} {q : Res β × τ} (h : LeadsTo R p q) {w : σ → σ'}
    {w' : τ → τ'} {k : α → σ → Res γ × σ'} {k' : β → τ → Res δ × τ'}
    (hk : ∀ x y s t, R x y s t → LeadsTo S (k x s) (k' y t)) : LeadsTo S (Res.step p w k) (Res.step q w' k') := by
  obtain ⟨r, s⟩ := p
  cases r with
  | ok x =>
    obtain ⟨y, t, rfl, hr⟩ := h x s rfl
    exact hk x y s t hr
  | _ => exact .fail rfl

theorem LeadsTo.mono {S : α → β → σ → τ → Prop} {p : Res α × σ} {q : Res β × τ} (h : LeadsTo R p q)
    (hs : ∀ x y s t, R x y s t → S x y s t) : LeadsTo S p q := by
  intro x s hp
  obtain ⟨y, t, hq, hr⟩ := h x s hp
  exact ⟨y, t, hq, hs _ _ _ _ hr⟩

end

/-- The accounts are in order. -/
structure Meter (a b : Nat) (D : Decoder σ α) (M : Decoder τ (α × Nat)) (R : σ → τ → Nat → Prop) : Prop where
  mono : ∀ {s t φ φ'}, R s t φ → φ ≤ φ' → R s t φ'
  idle : ∀ {s t φ}, R s t φ → D.isIdle s = M.isIdle t
  req : ∀ {s t φ}, R s t φ → D.requiring s = M.requiring t
  decode : ∀ {s t φ}, R s t φ → ∀ buf e, EosSane e buf.length →
    LeadsTo (fun m m' s' t' => m' = m ∧ R s' t' (φ + a + b * m)) (D.decode s buf e) (M.decode t buf e)
  finish : ∀ {s t φ}, R s t φ →
    LeadsTo (fun x y s' t' => y.1 = x ∧ ∃ φ', y.2 + φ' ≤ φ + a ∧ R s' t' φ') (D.finish s) (M.finish t)

/-- States with accounts in order. -/
def Accounted (a b : Nat) (D : Decoder σ α) (M : Decoder τ (α × Nat)) (s : σ) (t : τ) (φ : Nat) : Prop :=
  ∃ R, Meter a b D M R ∧ R s t φ

theorem meter_accounted (a b : Nat) (D : Decoder σ α) (M : Decoder τ (α × Nat)) :
    Meter a b D M (Accounted a b D M) where
  mono := fun ⟨R, h, hr⟩ hle => ⟨R, h, h.mono hr hle⟩
  idle := fun ⟨_, h, hr⟩ => h.idle hr
  req := fun ⟨_, h, hr⟩ => h.req hr
  decode := fun ⟨R, h, hr⟩ b e hs => (h.decode hr b e hs).mono fun _ _ _ _ h' => ⟨h'.1, R, h, h'.2⟩
  finish := fun ⟨R, h, hr⟩ => (h.finish hr).mono fun _ _ _ _ h' =>
    ⟨h'.1, h'.2.elim fun φ' h'' => ⟨φ', h''.1, R, h, h''.2⟩⟩

variable {a b : Nat} {D : Decoder σ α} {M : Decoder τ (α × Nat)} {R : σ → τ → Nat → Prop}

theorem Meter.weaken (h : Meter a b D M R) {a' b' : Nat} (ha : a ≤ a') (hb : b ≤ b') : Meter a' b' D M R where
  mono := h.mono
  idle := h.idle
  req := h.req
  decode := fun hr buf e hs => (h.decode hr buf e hs).mono fun m _ _ _ h' =>
    ⟨h'.1, h.mono h'.2 (by have := Nat.mul_le_mul_right m hb; omega)⟩
  finish := fun hr => (h.finish hr).mono fun _ _ _ _ h' =>
    ⟨h'.1, h'.2.elim fun φ' h'' => ⟨φ', by have := h''.1; omega, h''.2⟩⟩

theorem meter_leaf (D : Decoder σ α) : Meter 1 0 D (meteredLeaf D) (fun s t φ => t.1 = s ∧ t.2 ≤ φ) where
  mono := fun h hle => ⟨h.1, Nat.le_trans h.2 hle⟩
  idle := by rintro s ⟨t, c⟩ φ ⟨rfl, h⟩; rfl
  req := by rintro s ⟨t, c⟩ φ ⟨rfl, h⟩; rfl
  decode := by
    rintro s ⟨t, c⟩ φ ⟨rfl, h⟩ buf e _ m s' hp
    refine ⟨m, (s', c + 1), ?_, rfl, rfl, by dsimp only at h ⊢; omega⟩
    dsimp only at hp
    simp only [meteredLeaf, hp]
  finish := by
    rintro s ⟨t, c⟩ φ ⟨rfl, h⟩ x s' hp
    refine ⟨(x, c + 1), (s', 0), ?_, rfl, 0, by dsimp only at h ⊢; omega, rfl, Nat.le_refl _⟩
    dsimp only at hp
    simp only [meteredLeaf, hp, Res.step]

/-! ## Mapping combinators -/

theorem meter_map (h : Meter a b D M R) (f : α → β) :
    Meter a b (mapDecoder D f) (mapDecoder M fun p => (f p.1, p.2)) R where
  mono := h.mono
  idle := h.idle
  req := h.req
  decode := h.decode
  finish := fun hr => (h.finish hr).step fun _ _ _ _ h' => .ok ⟨congrArg f h'.1, h'.2⟩

theorem meter_tryMap (h : Meter a b D M R) (f : α → Except ErrorKind β) :
    Meter a b (tryMapDecoder D f) (tryMapDecoder M fun p => (f p.1).map fun y => (y, p.2)) R where
  mono := h.mono
  idle := h.idle
  req := h.req
  decode := h.decode
  finish := fun hr => (h.finish hr).step fun x y _ _ h' => by
    dsimp only
    rw [h'.1]
    cases f x with
    | ok z => exact .ok ⟨rfl, h'.2⟩
    | error k => exact .fail rfl

theorem meter_utf8 {D : Decoder σ Bytes} {M : Decoder τ (Bytes × Nat)} (h : Meter a b D M R) :
    Meter a b (utf8Decoder D) (tryMapDecoder M fun p => match fromUtf8 p.1 with
          | some x => .ok (x, p.2)
          | none => .error .invalidInput) R where
  mono := h.mono
  idle := h.idle
  req := h.req
  decode := h.decode
  finish := fun hr => (h.finish hr).step fun x y _ _ h' => by
    dsimp only
    rw [h'.1]
    cases fromUtf8 x with
    | some z => exact .ok ⟨rfl, h'.2⟩
    | none => exact .fail rfl

theorem LeadsTo.mapErr {S : α → β → σ → τ → Prop} {p : Res α × σ} {q : Res β × τ} (h : LeadsTo S p q)
    (f : ErrorKind → ErrorKind) : LeadsTo S (p.1.mapErr f, p.2) (q.1.mapErr f, q.2) := by
  obtain ⟨r, s⟩ := p
  cases r with
  | ok x =>
    obtain ⟨y, t, rfl, hr⟩ := h x s rfl
    exact .ok hr
  | _ => exact .fail rfl

theorem meter_mapErr (h : Meter a b D M R) (f : ErrorKind → ErrorKind) :
    Meter a b (mapErrDecoder D f) (mapErrDecoder M f) R where
  mono := h.mono
  idle := h.idle
  req := h.req
  decode := fun hr buf e hs => (h.decode hr buf e hs).mapErr f
  finish := fun hr => (h.finish hr).mapErr f

theorem meter_omittable (h : Meter a b D M R) :
    Meter a b (omittableDecoder D)
      (mapDecoder (omittableDecoder M) fun o => (o.map Prod.fst, (o.map Prod.snd).getD 0))
      (fun s t φ => s.doOmit = t.doOmit ∧ R s.inner t.inner φ) where
  mono := fun hr hle => ⟨hr.1, h.mono hr.2 hle⟩
  idle := fun hr => by simp only [omittableDecoder, mapDecoder, hr.1, h.idle hr.2]
  req := fun hr => by simp only [omittableDecoder, mapDecoder, hr.1, h.req hr.2]
  decode := by
    rintro s t φ ⟨ho, hr⟩ buf e hs
    obtain ⟨s, o⟩ := s
    obtain ⟨t, o'⟩ := t
    cases ho
    cases o
    · exact (h.decode hr buf e hs).step fun _ _ _ _ h' => .ok ⟨h'.1, rfl, h'.2⟩
    · exact .ok ⟨rfl, rfl, h.mono hr (by omega)⟩
  finish := by
    rintro s t φ ⟨ho, hr⟩
    obtain ⟨s, o⟩ := s
    obtain ⟨t, o'⟩ := t
    cases ho
    cases o
    · intro x u hp
      cases hf : D.finish s with
      | mk r i =>
        cases r with
        | ok y =>
          obtain ⟨z, t', hz, h1, φ', h2, h3⟩ := h.finish hr y i hf
          simp only [omittableDecoder, Bool.false_eq_true, if_false, hf, Res.step] at hp
          cases hp
          refine ⟨_, _, by simp only [omittableDecoder, mapDecoder, Bool.false_eq_true, if_false, hz, Res.step]; rfl,
            ?_, φ', ?_, rfl, h3⟩
          · simp [h1]
          · simpa using h2
        | _ => simp only [omittableDecoder, Bool.false_eq_true, if_false, hf, Res.step] at hp; cases hp
    · exact .ok ⟨rfl, φ, by simp, rfl, hr⟩

/-! ## Limits, and the like -/

theorem meter_length (h : Meter a b D M R) :
    Meter a b (lengthDecoder D) (lengthDecoder M)
      (fun s t φ => R s.inner t.inner φ ∧ s.remaining = t.remaining ∧ s.expected = t.expected ∧
        s.remaining ≤ s.expected ∧ s.expected < 2 ^ 64) where
  mono := fun hr hle => ⟨h.mono hr.1 hle, hr.2⟩
  idle := fun hr => h.idle hr.1
  req := fun hr => by simp only [lengthDecoder, hr.2.1]
  decode := by
    rintro ⟨s, x, r⟩ ⟨t, x', r'⟩ φ ⟨hr, h1, h2, h3, h4⟩ buf e hs
    dsimp only at hr h1 h2 h3 h4
    subst h1 h2
    have hsane : EosSane (Eos.withRemainingBytes (.finite (r - min buf.length r)))
        (buf.take (min buf.length r)).length := by
      intro k hk
      simp only [Eos.withRemainingBytes, ByteCount.finite.injEq] at hk
      simp only [List.length_take]
      omega
    have go := (h.decode hr _ _ hsane)
    simp only [lengthDecoder]
    have key := go.step (S := fun m m' s' t' => m' = m ∧ (R s'.inner t'.inner (φ + a + b * m) ∧
        s'.remaining = t'.remaining ∧ s'.expected = t'.expected ∧ s'.remaining ≤ s'.expected ∧ s'.expected < 2 ^ 64))
      (w := fun i => (⟨i, x, r⟩ : LengthState σ)) (w' := fun i => (⟨i, x, r⟩ : LengthState τ))
      (k := fun size i => if r < size then (.panic, ⟨i, x, r⟩) else (.ok size, ⟨i, x, r - size⟩))
      (k' := fun size i => if r < size then (.panic, ⟨i, x, r⟩) else (.ok size, ⟨i, x, r - size⟩)) (by
        rintro m _ s' t' ⟨rfl, h'⟩
        split
        · exact .fail rfl
        · exact .ok ⟨rfl, h', rfl, rfl, by dsimp only; omega, h4⟩)
    split
    · split
      · exact .fail rfl
      · split
        · exact .fail rfl
        · exact key
    · exact key
  finish := by
    rintro ⟨s, x, r⟩ ⟨t, x', r'⟩ φ ⟨hr, h1, h2, h3, h4⟩
    dsimp only at hr h1 h2 h3 h4
    subst h1 h2
    simp only [lengthDecoder]
    split
    · exact (h.finish hr).step fun _ _ _ _ h' =>
        .ok ⟨h'.1, h'.2.elim fun φ' h'' => ⟨φ', h''.1, h''.2, rfl, rfl, Nat.le_refl _, h4⟩⟩
    · exact .fail rfl

theorem meter_maxBytes (h : Meter a b D M R) :
    Meter a b (maxBytesDecoder D) (maxBytesDecoder M)
      (fun s t φ => R s.inner t.inner φ ∧ s.consumed = t.consumed ∧ s.max = t.max) where
  mono := fun hr hle => ⟨h.mono hr.1 hle, hr.2⟩
  idle := fun hr => h.idle hr.1
  req := fun hr => h.req hr.1
  decode := by
    rintro ⟨s, x, r⟩ ⟨t, x', r'⟩ φ ⟨hr, h1, h2⟩ buf e hs
    dsimp only at hr h1 h2
    subst h1 h2
    have key := (h.decode hr buf e hs).step (S := fun m m' s' t' => m' = m ∧ (R s'.inner t'.inner (φ + a + b * m) ∧
        s'.consumed = t'.consumed ∧ s'.max = t'.max))
      (w := fun i => (⟨i, x, r⟩ : MaxBytesState σ)) (w' := fun i => (⟨i, x, r⟩ : MaxBytesState τ))
      (k := fun size i => (.ok size, ⟨i, x + size, r⟩)) (k' := fun size i => (.ok size, ⟨i, x + size, r⟩)) (by
        rintro m _ s' t' ⟨rfl, h'⟩
        exact .ok ⟨rfl, h', rfl, rfl⟩)
    simp only [maxBytesDecoder]
    split
    · exact .fail rfl
    · split
      · exact .fail rfl
      · split
        · exact key
        · exact .fail rfl
    · split
      · exact .fail rfl
      · split
        · exact .fail rfl
        · split
          · exact key
          · exact .fail rfl
  finish := by
    rintro ⟨s, x, r⟩ ⟨t, x', r'⟩ φ ⟨hr, h1, h2⟩
    dsimp only at hr h1 h2
    subst h1 h2
    exact (h.finish hr).step fun _ _ _ _ h' =>
      .ok ⟨h'.1, h'.2.elim fun φ' h'' => ⟨φ', h''.1, h''.2, rfl, rfl⟩⟩

theorem meter_slice (h : Meter a b D M R) :
    Meter a b (sliceDecoder D) (sliceDecoder M)
      (fun s t φ => R s.inner t.inner φ ∧ s.consumable = t.consumable) where
  mono := fun hr hle => ⟨h.mono hr.1 hle, hr.2⟩
  idle := fun hr => h.idle hr.1
  req := fun hr => h.req hr.1
  decode := by
    rintro ⟨s, x⟩ ⟨t, x'⟩ φ ⟨hr, h1⟩ buf e hs
    dsimp only at hr h1
    subst h1
    simp only [sliceDecoder]
    cases hb : e.back (buf.length - min buf.length x) with
    | ok e' =>
      have hsane : EosSane e' (buf.take (min buf.length x)).length :=
        back_sane hb (hs.mono (by simp only [List.length_take]; omega))
      refine (h.decode hr _ _ hsane).step ?_
      rintro m _ s' t' ⟨rfl, h'⟩
      split
      · exact .fail rfl
      · exact .ok ⟨rfl, h', rfl⟩
    | _ => exact .fail rfl
  finish := by
    rintro ⟨s, x⟩ ⟨t, x'⟩ φ ⟨hr, h1⟩
    dsimp only at hr h1
    subst h1
    exact (h.finish hr).step fun _ _ _ _ h' =>
      .ok ⟨h'.1, h'.2.elim fun φ' h'' => ⟨φ', h''.1, h''.2, rfl⟩⟩

theorem meter_maybeEos (h : Meter a b D M R) :
    Meter a b (maybeEosDecoder D) (maybeEosDecoder M)
      (fun s t φ => R s.inner t.inner φ ∧ s.started = t.started) where
  mono := fun hr hle => ⟨h.mono hr.1 hle, hr.2⟩
  idle := fun hr => h.idle hr.1
  req := fun hr => h.req hr.1
  decode := by
    rintro ⟨s, x⟩ ⟨t, x'⟩ φ ⟨hr, h1⟩ buf e hs
    dsimp only at hr h1
    subst h1
    simp only [maybeEosDecoder]
    have hsane : EosSane (if (!x && buf.isEmpty && e.isReached) = true then Eos.new false else e) buf.length := by
      split
      · exact .newFalse
      · exact hs
    refine (h.decode hr _ _ hsane).step ?_
    rintro m _ s' t' ⟨rfl, h'⟩
    exact .ok ⟨rfl, h', rfl⟩
  finish := by
    rintro ⟨s, x⟩ ⟨t, x'⟩ φ ⟨hr, h1⟩
    exact (h.finish hr).step fun _ _ _ _ h' =>
      .ok ⟨h'.1, h'.2.elim fun φ' h'' => ⟨φ', h''.1, h''.2, rfl⟩⟩

/-- The item that `peekable` holds is already paid for, up to a `finish_decoding`. -/
def peekAccount (a : Nat) (R : σ → τ → Nat → Prop) (s : PeekState σ α) (t : PeekState τ (α × Nat)) (φ : Nat) : Prop :=
  match s.item, t.item with
  | none, none => R s.inner t.inner φ
  | some x, some y => y.1 = x ∧ ∃ φ', y.2 + φ' ≤ φ + a ∧ R s.inner t.inner φ'
  | _, _ => False

theorem meter_peekable (h : Meter a b D M R) :
    Meter a b (peekableDecoder D) (peekableDecoder M) (peekAccount a R) where
  mono := by
    rintro ⟨s, x⟩ ⟨t, y⟩ φ φ' hr hle
    cases x <;> cases y <;> simp only [peekAccount] at hr ⊢
    · exact h.mono hr hle
    · obtain ⟨h1, φ1, h2, h3⟩ := hr
      exact ⟨h1, φ1, by omega, h3⟩
  idle := by
    rintro ⟨s, x⟩ ⟨t, y⟩ φ hr
    cases x <;> cases y <;> simp only [peekAccount] at hr <;> first | rfl | cases hr
  req := by
    rintro ⟨s, x⟩ ⟨t, y⟩ φ hr
    cases x <;> cases y <;> simp only [peekAccount] at hr
    · simp only [peekableDecoder, Option.isSome_none, Bool.false_eq_true, if_false, h.req hr]
    · rfl
  decode := by
    rintro ⟨s, x⟩ ⟨t, y⟩ φ hr buf e hs
    cases x <;> cases y <;> simp only [peekAccount] at hr
    · simp only [peekableDecoder, Option.isNone_none, if_true]
      refine (h.decode hr buf e hs).step ?_
      rintro m _ s' t' ⟨rfl, h'⟩
      rw [h.idle h']
      split
      · refine (h.finish h').step ?_
        rintro x y s'' t'' h''
        exact .ok ⟨rfl, h''⟩
      · exact .ok ⟨rfl, h'⟩
    · simp only [peekableDecoder, Option.isNone_some, Bool.false_eq_true, if_false]
      obtain ⟨h1, φ1, h2, h3⟩ := hr
      exact .ok ⟨rfl, h1, φ1, by omega, h3⟩
  finish := by
    rintro ⟨s, x⟩ ⟨t, y⟩ φ hr
    cases x <;> cases y <;> simp only [peekAccount] at hr
    · exact .fail rfl
    · obtain ⟨h1, φ1, h2, h3⟩ := hr
      exact .ok ⟨h1, φ1, h2, h3⟩

theorem meter_captured {ε : Type} {F : ε → Decoder σ α} {G : ε → Decoder τ (α × Nat)} {R : ε → σ → τ → Nat → Prop}
    {P : ε → Prop} (h : ∀ x, P x → Meter a b (F x) (G x) (R x)) :
    Meter a b (capturedDecoder F) (capturedDecoder G) (fun s t φ => s.1 = t.1 ∧ P s.1 ∧ R s.1 s.2 t.2 φ) where
  mono := fun hr hle => ⟨hr.1, hr.2.1, (h _ hr.2.1).mono hr.2.2 hle⟩
  idle := by rintro ⟨x, s⟩ ⟨x', t⟩ φ ⟨h1, h2, h3⟩; cases h1; exact (h _ h2).idle h3
  req := by rintro ⟨x, s⟩ ⟨x', t⟩ φ ⟨h1, h2, h3⟩; cases h1; exact (h _ h2).req h3
  decode := by
    rintro ⟨x, s⟩ ⟨x', t⟩ φ ⟨h1, h2, h3⟩ buf e hs m s' hp
    cases h1
    simp only [capturedDecoder] at hp
    cases hd : (F x).decode s buf e with
    | mk r i =>
      rw [hd] at hp
      cases hp
      obtain ⟨y, t', h4, h5, h6⟩ := (h _ h2).decode h3 buf e hs m i hd
      exact ⟨y, (x, t'), by simp only [capturedDecoder]; rw [h4]; rfl, h5, rfl, h2, h6⟩
  finish := by
    rintro ⟨x, s⟩ ⟨x', t⟩ φ ⟨h1, h2, h3⟩ m s' hp
    cases h1
    simp only [capturedDecoder] at hp
    cases hd : (F x).finish s with
    | mk r i =>
      rw [hd] at hp
      cases hp
      obtain ⟨y, t', h4, h5, φ', h6, h7⟩ := (h _ h2).finish h3 m i hd
      exact ⟨y, (x, t'), by simp only [capturedDecoder]; rw [h4]; rfl, h5, φ', h6, rfl, h2, h7⟩

/-! ## Several decoders -/

/-- What the macro `bytecodec_try_decode!` does to the account. -/
inductive FlowPays (a b : Nat) (R : σ → τ → Nat → Prop) (φ o : Nat) : Flow Nat σ → Flow Nat τ → Prop
  | next (j : Nat) {s : σ} {t : τ} : R s t (φ + a + b * j) → FlowPays a b R φ o (.next (o + j) s) (.next (o + j) t)
  | ret (j : Nat) {s : σ} {t : τ} : R s t (φ + a + b * j) →
      FlowPays a b R φ o (.ret (.ok (o + j)) s) (.ret (.ok (o + j)) t)
  | fail {r : Res Nat} {s : σ} {q : Flow Nat τ} : r.isOk = false → FlowPays a b R φ o (.ret r s) q

theorem Meter.tryDecode (h : Meter a b D M R) {s : σ} {t : τ} {φ : Nat} (hr : R s t φ) {o : Nat} {buf : Bytes} {e : Eos}
    (hs : EosSane e buf.length) : FlowPays a b R φ o (tryDecode D s o buf e) (tryDecode M t o buf e) := by
  simp only [Bytecodec.tryDecode]
  rw [← h.idle hr]
  split
  · exact .next 0 (h.mono hr (by omega))
  · split
    · exact .fail rfl
    · cases hd : D.decode s (buf.drop o) e with
      | mk r s' =>
        cases r with
        | ok m =>
          obtain ⟨_, t', h1, rfl, h2⟩ := h.decode hr (buf.drop o) e hs.drop m s' hd
          rw [h1]
          dsimp only
          rw [← h.idle h2]
          split
          · exact .next _ h2
          · exact .ret _ h2
        | _ => exact .fail rfl

theorem meter_pair {σ0 τ0 α0 σ1 τ1 α1 : Type} {D0 : Decoder σ0 α0} {M0 : Decoder τ0 (α0 × Nat)}
    {D1 : Decoder σ1 α1} {M1 : Decoder τ1 (α1 × Nat)} {a0 a1 b : Nat} {R0 : σ0 → τ0 → Nat → Prop}
    {R1 : σ1 → τ1 → Nat → Prop} (h0 : Meter a0 b D0 M0 R0) (h1 : Meter a1 b D1 M1 R1) :
    Meter (a0 + a1) b (tupleDecoder2 D0 D1)
      (mapDecoder (tupleDecoder2 M0 M1) fun p => ((p.1.1, p.2.1), p.1.2 + p.2.2))
      (fun s t φ => ∃ φ0 φ1, φ0 + φ1 ≤ φ ∧ R0 s.1 t.1 φ0 ∧ R1 s.2 t.2 φ1) where
  mono := fun ⟨φ0, φ1, h, hr⟩ hle => ⟨φ0, φ1, Nat.le_trans h hle, hr⟩
  idle := fun ⟨φ0, φ1, h, hr⟩ => by simp only [tupleDecoder2, mapDecoder, h0.idle hr.1, h1.idle hr.2]
  req := fun ⟨φ0, φ1, h, hr⟩ => by simp only [tupleDecoder2, mapDecoder, h0.req hr.1, h1.req hr.2]
  decode := by
    rintro ⟨s0, s1⟩ ⟨t0, t1⟩ φ ⟨φ0, φ1, h, hr0, hr1⟩ buf e hs
    simp only [tupleDecoder2, mapDecoder]
    have ht0 := h0.tryDecode hr0 (o := 0) hs
    dsimp only at ht0 hr1
    generalize tryDecode D0 s0 0 buf e = p0 at ht0 ⊢
    generalize tryDecode M0 t0 0 buf e = q0 at ht0 ⊢
    cases ht0 with
    | fail hf => exact .fail hf
    | ret j h2 =>
      refine .ok ⟨rfl, _, _, ?_, h2, hr1⟩
      rw [Nat.zero_add]; omega
    | next j h2 =>
      dsimp only
      have ht1 := h1.tryDecode hr1 (o := 0 + j) hs
      generalize tryDecode D1 s1 (0 + j) buf e = p1 at ht1 ⊢
      generalize tryDecode M1 t1 (0 + j) buf e = q1 at ht1 ⊢
      cases ht1 with
      | fail hf => exact .fail hf
      | ret j' h3 => exact .ok ⟨rfl, _, _, by rw [Nat.zero_add, Nat.mul_add]; omega, h2, h3⟩
      | next j' h3 => exact .ok ⟨rfl, _, _, by rw [Nat.zero_add, Nat.mul_add]; omega, h2, h3⟩
  finish := by
    rintro ⟨s0, s1⟩ ⟨t0, t1⟩ φ ⟨φ0, φ1, h, hr0, hr1⟩ x u hp
    simp only [tupleDecoder2] at hp
    cases hd0 : D0.finish s0 with
    | mk r0 i0 =>
      rw [hd0] at hp
      cases r0 with
      | ok x0 =>
        simp only [Res.step] at hp
        cases hd1 : D1.finish s1 with
        | mk r1 i1 =>
          rw [hd1] at hp
          cases r1 with
          | ok x1 =>
            cases hp
            obtain ⟨y0, t0', h2, rfl, φ0', h3, h4⟩ := h0.finish hr0 x0 i0 hd0
            obtain ⟨y1, t1', h5, rfl, φ1', h6, h7⟩ := h1.finish hr1 x1 i1 hd1
            dsimp only at h2 h5
            refine ⟨_, _, by simp only [mapDecoder, tupleDecoder2, h2, h5, Res.step]; rfl, rfl, φ0' + φ1', ?_,
              φ0', φ1', Nat.le_refl _, h4, h7⟩
            dsimp only
            omega
          | _ => cases hp
      | _ => cases hp

/-- The item of the first decoder is paid for up to a `finish_decoding`. -/
def andThenAccount {σ0 τ0 σ1 τ1 : Type} (a0 : Nat) (R0 : σ0 → τ0 → Nat → Prop) (R1 : σ1 → τ1 → Nat → Prop)
    (s : σ0 × Option σ1) (t : τ0 × Option (Nat × τ1)) (φ : Nat) : Prop :=
  match s.2, t.2 with
  | none, none => R0 s.1 t.1 φ
  | some s1, some t1 => ∃ φ0 φ1, φ0 + t1.1 + φ1 ≤ φ + a0 ∧ R0 s.1 t.1 φ0 ∧ R1 s1 t1.2 φ1
  | _, _ => False

/-- Keep the count beside the state. -/
def flowBeside {ε σ : Type} (c : ε) : Flow Nat σ → Flow Nat (ε × σ)
  | .next o t => .next o (c, t)
  | .ret r t => .ret r (c, t)

theorem tryDecode_addCount {τ1 α1 : Type} (M1 : Decoder τ1 (α1 × Nat)) (c : Nat) (t : τ1) (o : Nat) (buf : Bytes) (e : Eos) :
    tryDecode (capturedDecoder fun c => mapDecoder M1 fun p => (p.1, c + p.2)) (c, t) o buf e =
      flowBeside c (tryDecode M1 t o buf e) := by
  simp only [tryDecode, capturedDecoder, mapDecoder]
  by_cases hi : M1.isIdle t = true
  · simp [hi, flowBeside]
  · by_cases ho : buf.length < o
    · simp only [if_neg hi, if_pos ho, flowBeside]
    · simp only [if_neg hi, if_neg ho]
      cases hd : M1.decode t (buf.drop o) e with
      | mk r t' =>
        cases r with
        | ok m =>
          simp only [Prod.map, id]
          by_cases hi' : M1.isIdle t' = true
          · simp [hi', flowBeside]
          · simp [hi', flowBeside]
        | _ => rfl

/-- What the second decoder of `and_then` does. -/
def secondOut {σ0 σ1 : Type} (s0 : σ0) : Flow Nat σ1 → Res Nat × (σ0 × Option σ1)
  | .ret r s1 => (r, (s0, some s1))
  | .next o s1 => (.ok o, (s0, some s1))

theorem andThen_decode_some {σ0 α0 σ1 α1 : Type} (D0 : Decoder σ0 α0) (D1 : Decoder σ1 α1) (f : α0 → σ1) (s0 : σ0)
    (s1 : σ1) (buf : Bytes) (e : Eos) :
    (andThenDecoder D0 D1 f).decode (s0, some s1) buf e = secondOut s0 (tryDecode D1 s1 0 buf e) := by
  simp only [andThenDecoder]
  cases tryDecode D1 s1 0 buf e <;> rfl

theorem andThen_decode_none {σ0 α0 σ1 α1 : Type} (D0 : Decoder σ0 α0) (D1 : Decoder σ1 α1) (f : α0 → σ1) (s0 : σ0)
    (buf : Bytes) (e : Eos) :
    (andThenDecoder D0 D1 f).decode (s0, none) buf e =
      match tryDecode D0 s0 0 buf e with
      | .ret r s0 => (r, (s0, none))
      | .next o s0 => Res.step (D0.finish s0) (fun s0' => (s0', none)) fun x s0' =>
          secondOut s0' (tryDecode D1 (f x) o buf e) := by
  simp only [andThenDecoder]
  cases tryDecode D0 s0 0 buf e with
  | ret r s => rfl
  | next o s =>
    dsimp only
    cases D0.finish s with
    | mk r s' =>
      cases r with
      | ok x => simp only [Res.step]; cases tryDecode D1 (f x) o buf e <;> rfl
      | _ => rfl

theorem meter_andThen {σ0 τ0 α0 σ1 τ1 α1 : Type} {D0 : Decoder σ0 α0} {M0 : Decoder τ0 (α0 × Nat)}
    {D1 : Decoder σ1 α1} {M1 : Decoder τ1 (α1 × Nat)} {a0 a1 b : Nat} {R0 : σ0 → τ0 → Nat → Prop}
    {R1 : σ1 → τ1 → Nat → Prop} (h0 : Meter a0 b D0 M0 R0) (h1 : Meter a1 b D1 M1 R1) {f : α0 → σ1} {g : α0 → τ1}
    (hfg : ∀ x, R1 (f x) (g x) 0) :
    Meter (a0 + a1) b (andThenDecoder D0 D1 f)
      (andThenDecoder M0 (capturedDecoder fun c => mapDecoder M1 fun p => (p.1, c + p.2)) fun p => (p.2, g p.1))
      (andThenAccount a0 R0 R1) where
  mono := by
    rintro ⟨s0, s1⟩ ⟨t0, t1⟩ φ φ' hr hle
    cases s1 <;> cases t1 <;> simp only [andThenAccount] at hr ⊢
    · exact h0.mono hr hle
    · obtain ⟨φ0, φ1, h2, h3⟩ := hr
      exact ⟨φ0, φ1, by omega, h3⟩
  idle := by
    rintro ⟨s0, s1⟩ ⟨t0, t1⟩ φ hr
    cases s1 <;> cases t1 <;> simp only [andThenAccount] at hr
    · rfl
    · obtain ⟨φ0, φ1, h2, h3, h4⟩ := hr
      exact h1.idle h4
  req := by
    rintro ⟨s0, s1⟩ ⟨t0, t1⟩ φ hr
    cases s1 <;> cases t1 <;> simp only [andThenAccount] at hr
    · exact h0.req hr
    · obtain ⟨φ0, φ1, h2, h3, h4⟩ := hr
      exact h1.req h4
  decode := by
    have second : ∀ {s0 t0 s1 c t1 φ φ0 φ1 o buf e}, EosSane e buf.length → φ0 + c + φ1 ≤ φ + a0 + a0 + b * o → R0 s0 t0 φ0 →
        R1 s1 t1 φ1 →
        LeadsTo (fun m m' s' t' => m' = m ∧ andThenAccount a0 R0 R1 s' t' (φ + (a0 + a1) + b * m))
          (secondOut s0 (tryDecode D1 s1 o buf e))
          (secondOut t0
            (tryDecode (capturedDecoder fun c => mapDecoder M1 fun p => (p.1, c + p.2)) (c, t1) o buf e)) := by
      intro s0 t0 s1 c t1 φ φ0 φ1 o buf e hs hle hr0 hr1
      rw [tryDecode_addCount]
      have ht := h1.tryDecode hr1 (o := o) hs
      generalize tryDecode D1 s1 o buf e = p at ht ⊢
      generalize tryDecode M1 t1 o buf e = q at ht ⊢
      cases ht with
      | fail hf => exact .fail hf
      | ret j h2 => exact .ok ⟨rfl, _, _, by rw [Nat.mul_add]; dsimp only; omega, hr0, h2⟩
      | next j h2 => exact .ok ⟨rfl, _, _, by rw [Nat.mul_add]; dsimp only; omega, hr0, h2⟩
    rintro ⟨s0, s1⟩ ⟨t0, t1⟩ φ hr buf e hs
    cases s1 <;> cases t1 <;> simp only [andThenAccount] at hr
    · rw [andThen_decode_none, andThen_decode_none]
      have ht := h0.tryDecode hr (o := 0) hs
      generalize tryDecode D0 s0 0 buf e = p at ht ⊢
      generalize tryDecode M0 t0 0 buf e = q at ht ⊢
      cases ht with
      | fail hf => exact .fail hf
      | ret j h2 =>
        refine .ok ⟨rfl, ?_⟩
        simp only [andThenAccount, Nat.zero_add]
        exact h0.mono h2 (by omega)
      | next j h2 =>
        refine (h0.finish h2).step ?_
        rintro x y s0' t0' ⟨rfl, φ', h3, h4⟩
        refine second (c := y.2) (o := 0 + j) (φ := φ) hs ?_ h4 (hfg y.1)
        rw [Nat.zero_add]
        omega
    · obtain ⟨φ0, φ1, h2, h3, h4⟩ := hr
      rw [andThen_decode_some, andThen_decode_some]
      exact second (φ := φ) (o := 0) hs (by omega) h3 h4
  finish := by
    rintro ⟨s0, s1⟩ ⟨t0, t1⟩ φ hr
    cases s1 <;> cases t1 <;> simp only [andThenAccount] at hr
    · exact .fail rfl
    · rename_i s1 t1
      obtain ⟨φ0, φ1, h2, h3, h4⟩ := hr
      obtain ⟨c, t1⟩ := t1
      intro x u hp
      simp only [andThenDecoder] at hp
      cases hd : D1.finish s1 with
      | mk r i =>
        rw [hd] at hp
        cases hp
        obtain ⟨y, t', h5, rfl, φ', h6, h7⟩ := h1.finish h4 x i hd
        dsimp only at h5
        refine ⟨(y.1, c + y.2), (t0, none), by simp only [andThenDecoder, capturedDecoder, mapDecoder, h5, Res.step]; rfl, rfl,
          φ0, ?_, h3⟩
        dsimp only at h2 ⊢
        omega

/-! ## Collections -/

theorem countSum_append (l : List (α × Nat)) (x : α × Nat) : countSum (l ++ [x]) = countSum l + x.2 := by
  simp [countSum]

/-- What the loops of `collect` and `collectn` do to the account: at most the price of `p` calls (of `a` each), and that of
the bytes. -/
def LoopPays (a b p : Nat) (P : σ → Prop) (R : σ → τ → Nat → Prop) (Φ o : Nat) (items : List α) (s : σ) (o' : Nat)
    (items' : List (α × Nat)) (t : τ) : Prop :=
  P s ∧ items'.map Prod.fst = items ∧ o ≤ o' ∧ ∃ φ, R s t φ ∧ countSum items' + φ ≤ Φ + a * p + b * (o' - o)

/-- An item of at least one byte. -/
theorem Meter.round (h : Meter a b D M R) {s₀ : σ} (hp : Productive D s₀) {s : σ} {t : τ} {φ : Nat} (hr : R s t φ)
    (hi : ReachItem D s₀ s) {o : Nat} {buf : Bytes} {e : Eos} (ho : o < buf.length) (hs : EosSane e buf.length) :
    (∃ o' s' x s'' t' y t'', Bytecodec.tryDecode D s o buf e = .next o' s' ∧ D.finish s' = (.ok x, s'') ∧
      Bytecodec.tryDecode M t o buf e = .next o' t' ∧ M.finish t' = (.ok y, t'') ∧ o < o' ∧ y.1 = x ∧ ReachItem D s₀ s'' ∧
      ∃ φ', y.2 + φ' ≤ φ + a + b * (o' - o) + a ∧ R s'' t'' φ') ∨
    (∃ o' s' t', Bytecodec.tryDecode D s o buf e = .ret (.ok o') s' ∧ Bytecodec.tryDecode M t o buf e = .ret (.ok o') t' ∧
      o ≤ o' ∧ ReachItem D s₀ s' ∧ R s' t' (φ + a + b * (o' - o))) ∨
    (∃ r s', Bytecodec.tryDecode D s o buf e = .ret r s' ∧ r.isOk = false) ∨
    (∃ o' s' r s'', Bytecodec.tryDecode D s o buf e = .next o' s' ∧ D.finish s' = (r, s'') ∧ r.isOk = false) := by
  have hprod := hp s hi
  cases hidle : D.isIdle s with
  | true =>
    refine .inr (.inr (.inr ⟨o, s, (D.finish s).1, (D.finish s).2, ?_, rfl, hprod.1 hidle⟩))
    simp [Bytecodec.tryDecode, hidle]
  | false =>
    have hb : buf.drop o ≠ [] := by
      intro h0
      have := congrArg List.length h0
      simp only [List.length_drop, List.length_nil] at this
      omega
    have hidle' : M.isIdle t = false := by rw [← h.idle hr]; exact hidle
    have hlt : ¬ buf.length < o := by omega
    have hreach := ReachItem.decode (D := D) (buf.drop o) e hi hs.drop hidle
    have hitem := ReachItem.item (D := D) (buf.drop o) e hi hs.drop hidle
    have hpos := hprod.2 (buf.drop o) e hb hs.drop hidle
    have hdec := h.decode hr (buf.drop o) e hs.drop
    simp only [Bytecodec.tryDecode, hidle, hidle', Bool.false_eq_true, if_false, hlt]
    cases hd : D.decode s (buf.drop o) e with
    | mk r s' =>
      rw [hd] at hreach hitem hpos hdec
      cases r with
      | ok m =>
        obtain ⟨m', t', h1, hm, h2⟩ := hdec m s' rfl
        subst m'
        rw [h1]
        dsimp only at hreach hitem hpos ⊢
        rw [← h.idle h2]
        cases hi' : D.isIdle s' with
        | false =>
          refine .inr (.inl ⟨_, _, _, rfl, rfl, by omega, hreach (by simp [hi']), ?_⟩)
          rw [Nat.add_sub_cancel_left]
          exact h2
        | true =>
          rw [hi'] at hitem
          have hitem := hitem rfl
          simp only [if_true]
          cases hf : D.finish s' with
          | mk r s'' =>
            cases r with
            | ok x =>
              obtain ⟨y, t'', h3, h4, φ', h5, h6⟩ := h.finish h2 x s'' hf
              have hm : m ≠ 0 := by
                rintro rfl
                have := hpos rfl hi'
                rw [hf] at this
                cases this
              rw [hf] at hitem
              refine .inl ⟨_, _, x, s'', _, y, t'', rfl, hf, rfl, h3, by omega, h4, hitem, φ', ?_, h6⟩
              rw [Nat.add_sub_cancel_left]
              exact h5
            | _ => exact .inr (.inr (.inr ⟨_, _, _, _, rfl, hf, rfl⟩))
      | _ => exact .inr (.inr (.inl ⟨_, _, rfl, rfl⟩))

theorem meter_loop (h : Meter a b D M R) {s₀ : σ} (hp : Productive D s₀) {buf : Bytes} {e : Eos}
    (hs : EosSane e buf.length) : ∀ (k o : Nat), buf.length - o = k → ∀ (s : σ) (t : τ) (φ : Nat) (items : List (α × Nat)),
      R s t φ → ReachItem D s₀ s →
      (∀ o' s' l, collectLoop D buf e o s (items.map Prod.fst) = some (.done o' s' l) →
        ∃ t' l', collectLoop M buf e o t items = some (.done o' t' l') ∧
          LoopPays a (2 * a + b) 1 (ReachItem D s₀) R (countSum items + φ) o l s' o' l' t') ∧
      (∀ o' s' l, collectLoop D buf e o s (items.map Prod.fst) = some (.ret (.ok o') s' l) →
        ∃ t' l', collectLoop M buf e o t items = some (.ret (.ok o') t' l') ∧
          LoopPays a (2 * a + b) 1 (ReachItem D s₀) R (countSum items + φ) o l s' o' l' t') := by
  intro k
  induction k using Nat.strongRecOn with
  | _ k ih =>
    intro o hk s t φ items hr hi
    rw [collectLoop.eq_1 D, collectLoop.eq_1 M]
    by_cases ho : o < buf.length
    · simp only [if_pos ho]
      rcases h.round hp hr hi ho hs with ⟨o', s', x, s'', t', y, t'', h1, h2, h3, h4, h5, rfl, h7, φ', h8, h9⟩ |
        ⟨o', s', t', h1, h2, h3, h4, h5⟩ | ⟨r, s', h1, h2⟩ | ⟨o', s', r, s'', h1, h2, h3⟩
      · rw [h1, h3]
        simp only [h2, h4]
        have := ih (buf.length - o') (by omega) o' rfl s'' t'' φ' (items ++ [y]) h9 h7
        rw [List.map_append, List.map_cons, List.map_nil] at this
        have lift : ∀ {l : List α} {s' o''} {l' : List (α × Nat)} {t'},
            LoopPays a (2 * a + b) 1 (ReachItem D s₀) R (countSum (items ++ [y]) + φ') o' l s' o'' l' t' →
            LoopPays a (2 * a + b) 1 (ReachItem D s₀) R (countSum items + φ) o l s' o'' l' t' := by
          rintro l s' o'' l' t' ⟨g1, g2, g3, φ1, g4, g5⟩
          refine ⟨g1, g2, by omega, φ1, g4, ?_⟩
          rw [countSum_append] at g5
          obtain ⟨j, rfl⟩ : ∃ j, o' = o + (j + 1) := ⟨o' - o - 1, by omega⟩
          obtain ⟨i, rfl⟩ : ∃ i, o'' = o + (j + 1) + i := ⟨o'' - (o + (j + 1)), by omega⟩
          have e1 : o + (j + 1) - o = j + 1 := by omega
          have e2 : o + (j + 1) + i - (o + (j + 1)) = i := by omega
          have e3 : o + (j + 1) + i - o = (j + 1) + i := by omega
          rw [e1] at h8
          rw [e2] at g5
          rw [e3]
          simp only [Nat.mul_add, Nat.add_mul, Nat.mul_one] at g5 h8 ⊢
          omega
        constructor
        · intro o'' u l hl
          obtain ⟨t1, l', g1, g2⟩ := this.1 o'' u l hl
          exact ⟨t1, l', g1, lift g2⟩
        · intro o'' u l hl
          obtain ⟨t1, l', g1, g2⟩ := this.2 o'' u l hl
          exact ⟨t1, l', g1, lift g2⟩
      · rw [h1, h2]
        constructor
        · intro _ _ _ hl; cases hl
        · intro _ _ _ hl
          cases hl
          refine ⟨t', items, rfl, h4, rfl, h3, _, h5, ?_⟩
          simp only [Nat.add_mul, Nat.mul_one]
          omega
      · rw [h1]
        constructor
        · intro _ _ _ hl; cases hl
        · intro _ _ _ hl
          cases hl
          cases h2
      · rw [h1]
        simp only [h2]
        cases r with
        | ok x => cases h3
        | _ => constructor <;> intro _ _ _ hl <;> cases hl
    · simp only [if_neg ho]
      constructor
      · intro _ _ _ hl
        cases hl
        exact ⟨t, items, rfl, hi, rfl, Nat.le_refl _, φ, hr, by omega⟩
      · intro _ _ _ hl
        cases hl

theorem meter_collect (h : Meter a b D M R) {s₀ : σ} (hp : Productive D s₀) :
    Meter a (2 * a + b) (collectDecoder D) (mapDecoder (collectDecoder M) fun l => (l.map Prod.fst, countSum l))
      (fun s t φ => ReachItem D s₀ s.inner ∧ s.eos = t.eos ∧ t.items.map Prod.fst = s.items ∧
        ∃ φ', R s.inner t.inner φ' ∧ countSum t.items + φ' ≤ φ) where
  mono := fun ⟨h1, h2, h3, φ', h4, h5⟩ hle => ⟨h1, h2, h3, φ', h4, Nat.le_trans h5 hle⟩
  idle := fun hr => hr.2.1
  req := fun ⟨h1, h2, h3, φ', h4, h5⟩ => by simp only [collectDecoder, mapDecoder, h2, h.req h4]
  decode := by
    rintro ⟨s, l, eos⟩ ⟨t, l', eos'⟩ φ ⟨h1, h2, h3, φ', h4, h5⟩ buf e hs
    dsimp only at h1 h2 h3 h4 h5
    subst h2 h3
    simp only [collectDecoder, mapDecoder]
    split
    · exact .ok ⟨rfl, h1, rfl, rfl, φ', h4, by dsimp only; omega⟩
    · have key := meter_loop h hp hs _ 0 rfl s t φ' l' h4 h1
      cases hl : collectLoop D buf e 0 s (l'.map Prod.fst) with
      | none => exact .fail rfl
      | some x =>
        cases x with
        | done o' s' l =>
          obtain ⟨t1, l1, g1, g2, g3, g4, φ1, g5, g6⟩ := key.1 _ _ _ hl
          rw [g1]
          refine .ok ⟨rfl, g2, rfl, g3, φ1, g5, ?_⟩
          simp only [Nat.sub_zero, Nat.mul_one] at g6
          dsimp only
          omega
        | ret r s' l =>
          cases r with
          | ok o' =>
            obtain ⟨t1, l1, g1, g2, g3, g4, φ1, g5, g6⟩ := key.2 _ _ _ hl
            rw [g1]
            refine .ok ⟨rfl, g2, rfl, g3, φ1, g5, ?_⟩
            simp only [Nat.sub_zero, Nat.mul_one] at g6
            dsimp only
            omega
          | _ => exact .fail rfl
  finish := by
    rintro ⟨s, l, eos⟩ ⟨t, l', eos'⟩ φ ⟨h1, h2, h3, φ', h4, h5⟩
    dsimp only at h1 h2 h3 h4 h5
    subst h2 h3
    simp only [collectDecoder, mapDecoder]
    cases eos
    · exact .fail rfl
    · exact .ok ⟨rfl, φ', by dsimp only; omega, h1, rfl, rfl, φ', h4, by simp [countSum]⟩

theorem meter_loopN (h : Meter a b D M R) {s₀ : σ} (hp : Productive D s₀) {buf : Bytes} {e : Eos}
    (hs : EosSane e buf.length) : ∀ (n o : Nat) (s : σ) (t : τ) (φ : Nat) (items : List (α × Nat)),
      R s t φ → ReachItem D s₀ s →
      (∀ o' s' l n', collectNLoop D buf e n o s (items.map Prod.fst) = .done o' s' l n' →
        ∃ t' l', collectNLoop M buf e n o t items = .done o' t' l' n' ∧
          LoopPays a (2 * a + b) 1 (ReachItem D s₀) R (countSum items + φ) o l s' o' l' t') ∧
      (∀ o' s' l n', collectNLoop D buf e n o s (items.map Prod.fst) = .ret (.ok o') s' l n' →
        ∃ t' l', collectNLoop M buf e n o t items = .ret (.ok o') t' l' n' ∧
          LoopPays a (2 * a + b) 1 (ReachItem D s₀) R (countSum items + φ) o l s' o' l' t') := by
  intro n
  induction n with
  | zero =>
    intro o s t φ items hr hi
    constructor
    · intro _ _ _ _ hl
      cases hl
      exact ⟨t, items, rfl, hi, rfl, Nat.le_refl _, φ, hr, by omega⟩
    · intro _ _ _ _ hl
      cases hl
  | succ n ih =>
    intro o s t φ items hr hi
    simp only [Bytecodec.collectNLoop]
    by_cases ho : o < buf.length
    · simp only [if_pos ho]
      rcases h.round hp hr hi ho hs with ⟨o', s', x, s'', t', y, t'', h1, h2, h3, h4, h5, rfl, h7, φ', h8, h9⟩ |
        ⟨o', s', t', h1, h2, h3, h4, h5⟩ | ⟨r, s', h1, h2⟩ | ⟨o', s', r, s'', h1, h2, h3⟩
      · rw [h1, h3]
        simp only [h2, h4]
        have := ih o' s'' t'' φ' (items ++ [y]) h9 h7
        rw [List.map_append, List.map_cons, List.map_nil] at this
        have lift : ∀ {l : List α} {s' o''} {l' : List (α × Nat)} {t'},
            LoopPays a (2 * a + b) 1 (ReachItem D s₀) R (countSum (items ++ [y]) + φ') o' l s' o'' l' t' →
            LoopPays a (2 * a + b) 1 (ReachItem D s₀) R (countSum items + φ) o l s' o'' l' t' := by
          rintro l s' o'' l' t' ⟨g1, g2, g3, φ1, g4, g5⟩
          refine ⟨g1, g2, by omega, φ1, g4, ?_⟩
          rw [countSum_append] at g5
          obtain ⟨j, rfl⟩ : ∃ j, o' = o + (j + 1) := ⟨o' - o - 1, by omega⟩
          obtain ⟨i, rfl⟩ : ∃ i, o'' = o + (j + 1) + i := ⟨o'' - (o + (j + 1)), by omega⟩
          have e1 : o + (j + 1) - o = j + 1 := by omega
          have e2 : o + (j + 1) + i - (o + (j + 1)) = i := by omega
          have e3 : o + (j + 1) + i - o = (j + 1) + i := by omega
          rw [e1] at h8
          rw [e2] at g5
          rw [e3]
          simp only [Nat.mul_add, Nat.add_mul, Nat.mul_one] at g5 h8 ⊢
          omega
        constructor
        · intro o'' u l n' hl
          obtain ⟨t1, l', g1, g2⟩ := this.1 o'' u l n' hl
          exact ⟨t1, l', g1, lift g2⟩
        · intro o'' u l n' hl
          obtain ⟨t1, l', g1, g2⟩ := this.2 o'' u l n' hl
          exact ⟨t1, l', g1, lift g2⟩
      · rw [h1, h2]
        constructor
        · intro _ _ _ _ hl; cases hl
        · intro _ _ _ _ hl
          cases hl
          refine ⟨t', items, rfl, h4, rfl, h3, _, h5, ?_⟩
          simp only [Nat.add_mul, Nat.mul_one]
          omega
      · rw [h1]
        constructor
        · intro _ _ _ _ hl; cases hl
        · intro _ _ _ _ hl
          cases hl
          cases h2
      · rw [h1]
        simp only [h2]
        cases r with
        | ok x => cases h3
        | _ => constructor <;> intro _ _ _ _ hl <;> cases hl
    · simp only [if_neg ho]
      constructor
      · intro _ _ _ _ hl
        cases hl
        exact ⟨t, items, rfl, hi, rfl, Nat.le_refl _, φ, hr, by omega⟩
      · intro _ _ _ _ hl
        cases hl

/-- `collectn`, given what its loop does to the account. -/
theorem meter_collectN_of {a' b' : Nat} {P : σ → Prop} {Q : Nat → Prop} (hQ : Q 0) {p : Nat}
    (ha : a * p ≤ a')
    (hreq : ∀ {s t φ}, R s t φ → D.requiring s = M.requiring t)
    (key : ∀ {buf : Bytes} {e : Eos}, EosSane e buf.length → ∀ (n : Nat) (s : σ) (t : τ) (φ : Nat) (items : List (α × Nat)),
      R s t φ → P s → Q n →
      (∀ o' s' l n', collectNLoop D buf e n 0 s (items.map Prod.fst) = .done o' s' l n' → Q n' ∧
        ∃ t' l', collectNLoop M buf e n 0 t items = .done o' t' l' n' ∧
          LoopPays a b' p P R (countSum items + φ) 0 l s' o' l' t') ∧
      (∀ o' s' l n', collectNLoop D buf e n 0 s (items.map Prod.fst) = .ret (.ok o') s' l n' → Q n' ∧
        ∃ t' l', collectNLoop M buf e n 0 t items = .ret (.ok o') t' l' n' ∧
          LoopPays a b' p P R (countSum items + φ) 0 l s' o' l' t')) :
    Meter a' b' (collectNDecoder D) (mapDecoder (collectNDecoder M) fun l => (l.map Prod.fst, countSum l))
      (fun s t φ => P s.inner ∧ Q s.remaining ∧ s.remaining = t.remaining ∧ t.items.map Prod.fst = s.items ∧
        ∃ φ', R s.inner t.inner φ' ∧ countSum t.items + φ' ≤ φ) where
  mono := fun ⟨h1, h0, h2, h3, φ', h4, h5⟩ hle => ⟨h1, h0, h2, h3, φ', h4, Nat.le_trans h5 hle⟩
  idle := fun ⟨h1, h0, h2, h3, φ', h4, h5⟩ => by simp only [collectNDecoder, mapDecoder, h2]
  req := fun ⟨h1, h0, h2, h3, φ', h4, h5⟩ => by simp only [collectNDecoder, mapDecoder, h2, hreq h4]
  decode := by
    rintro ⟨s, n, l⟩ ⟨t, n', l'⟩ φ ⟨h1, h0, h2, h3, φ', h4, h5⟩ buf e hs
    dsimp only at h0 h1 h2 h3 h4 h5
    subst h2 h3
    simp only [collectNDecoder, mapDecoder]
    have key := key hs n s t φ' l' h4 h1 h0
    cases hl : collectNLoop D buf e n 0 s (l'.map Prod.fst) with
    | done o' s' l n' =>
      obtain ⟨g0, t1, l1, g1, g2, g3, g4, φ1, g5, g6⟩ := key.1 _ _ _ _ hl
      rw [g1]
      dsimp only
      split
      · exact .fail rfl
      · refine .ok ⟨rfl, g2, g0, rfl, g3, φ1, g5, ?_⟩
        rw [Nat.sub_zero] at g6
        dsimp only
        omega
    | ret r s' l n' =>
      cases r with
      | ok o' =>
        obtain ⟨g0, t1, l1, g1, g2, g3, g4, φ1, g5, g6⟩ := key.2 _ _ _ _ hl
        rw [g1]
        refine .ok ⟨rfl, g2, g0, rfl, g3, φ1, g5, ?_⟩
        rw [Nat.sub_zero] at g6
        dsimp only
        omega
      | _ => exact .fail rfl
  finish := by
    rintro ⟨s, n, l⟩ ⟨t, n', l'⟩ φ ⟨h1, h0, h2, h3, φ', h4, h5⟩
    dsimp only at h0 h1 h2 h3 h4 h5
    subst h2 h3
    simp only [collectNDecoder, mapDecoder]
    split
    · rename_i hn
      exact .ok ⟨rfl, φ', by dsimp only; omega, h1, h0, rfl, rfl, φ', h4, by simp [countSum]⟩
    · exact .fail rfl

theorem meter_collectN (h : Meter a b D M R) {s₀ : σ} (hp : Productive D s₀) :
    Meter a (2 * a + b) (collectNDecoder D) (mapDecoder (collectNDecoder M) fun l => (l.map Prod.fst, countSum l))
      (fun s t φ => ReachItem D s₀ s.inner ∧ True ∧ s.remaining = t.remaining ∧ t.items.map Prod.fst = s.items ∧
        ∃ φ', R s.inner t.inner φ' ∧ countSum t.items + φ' ≤ φ) :=
  meter_collectN_of (a := a) (P := ReachItem D s₀) (Q := fun _ => True) trivial (p := 1) (by omega) h.req
    fun hs n s t φ items hr hi _ =>
      ⟨fun _ _ _ _ hl => ⟨trivial, (meter_loopN h hp hs n 0 s t φ items hr hi).1 _ _ _ _ hl⟩,
        fun _ _ _ _ hl => ⟨trivial, (meter_loopN h hp hs n 0 s t φ items hr hi).2 _ _ _ _ hl⟩⟩

theorem meter_loopN_any (h : Meter a b D M R) {buf : Bytes} {e : Eos}
    (hs : EosSane e buf.length) : ∀ (n o : Nat) (s : σ) (t : τ) (φ : Nat) (items : List (α × Nat)), R s t φ →
      (∀ o' s' l n', collectNLoop D buf e n o s (items.map Prod.fst) = .done o' s' l n' → n' ≤ n ∧
        ∃ t' l', collectNLoop M buf e n o t items = .done o' t' l' n' ∧
          LoopPays a b (2 * n) (fun _ => True) R (countSum items + φ) o l s' o' l' t') ∧
      (∀ o' s' l n', collectNLoop D buf e n o s (items.map Prod.fst) = .ret (.ok o') s' l n' → n' ≤ n ∧
        ∃ t' l', collectNLoop M buf e n o t items = .ret (.ok o') t' l' n' ∧
          LoopPays a b (2 * n) (fun _ => True) R (countSum items + φ) o l s' o' l' t') := by
  intro n
  induction n with
  | zero =>
    intro o s t φ items hr
    constructor
    · intro _ _ _ _ hl
      cases hl
      exact ⟨Nat.le_refl _, t, items, rfl, trivial, rfl, Nat.le_refl _, φ, hr, by omega⟩
    · intro _ _ _ _ hl
      cases hl
  | succ n ih =>
    intro o s t φ items hr
    simp only [Bytecodec.collectNLoop]
    by_cases ho : o < buf.length
    · simp only [if_pos ho]
      have ht := h.tryDecode hr (o := o) hs
      generalize Bytecodec.tryDecode D s o buf e = p at ht ⊢
      generalize Bytecodec.tryDecode M t o buf e = q at ht ⊢
      cases ht with
      | fail hf =>
        constructor
        · intro _ _ _ _ hl; cases hl
        · intro _ _ _ _ hl; cases hl; cases hf
      | ret j h1 =>
        constructor
        · intro _ _ _ _ hl; cases hl
        · intro _ _ _ _ hl
          cases hl
          refine ⟨Nat.le_refl _, _, items, rfl, trivial, rfl, by omega, _, h1, ?_⟩
          rw [Nat.add_sub_cancel_left]
          simp only [Nat.mul_add]
          omega
      | next j h1 =>
        rename_i s' t'
        dsimp only
        cases hf : D.finish s' with
        | mk r s'' =>
          cases r with
          | ok x =>
            obtain ⟨y, t'', h3, rfl, φ', h5, h6⟩ := h.finish h1 x s'' hf
            rw [h3]
            have := ih (o + j) s'' t'' φ' (items ++ [y]) h6
            rw [List.map_append, List.map_cons, List.map_nil] at this
            have lift : ∀ {l : List α} {s' o''} {l' : List (α × Nat)} {t'},
                LoopPays a b (2 * n) (fun _ => True) R (countSum (items ++ [y]) + φ') (o + j) l s' o'' l' t' →
                LoopPays a b (2 * (n + 1)) (fun _ => True) R (countSum items + φ) o l s' o'' l' t' := by
              rintro l s' o'' l' t' ⟨g1, g2, g3, φ1, g4, g5⟩
              refine ⟨g1, g2, by omega, φ1, g4, ?_⟩
              rw [countSum_append] at g5
              obtain ⟨i, rfl⟩ : ∃ i, o'' = o + j + i := ⟨o'' - (o + j), by omega⟩
              have e2 : o + j + i - (o + j) = i := by omega
              have e3 : o + j + i - o = j + i := by omega
              rw [e2] at g5
              rw [e3]
              simp only [Nat.mul_add, Nat.mul_one] at g5 ⊢
              omega
            constructor
            · intro o'' u l n' hl
              obtain ⟨g0, t1, l', g1, g2⟩ := this.1 o'' u l n' hl
              exact ⟨by omega, t1, l', g1, lift g2⟩
            · intro o'' u l n' hl
              obtain ⟨g0, t1, l', g1, g2⟩ := this.2 o'' u l n' hl
              exact ⟨by omega, t1, l', g1, lift g2⟩
          | _ => constructor <;> intro _ _ _ _ hl <;> cases hl
    · simp only [if_neg ho]
      constructor
      · intro _ _ _ _ hl
        cases hl
        exact ⟨Nat.le_refl _, t, items, rfl, trivial, rfl, Nat.le_refl _, φ, hr, by omega⟩
      · intro _ _ _ _ hl
        cases hl

theorem meter_collectN_any (h : Meter a b D M R) (n : Nat) :
    Meter (a + 2 * a * n) b (collectNDecoder D) (mapDecoder (collectNDecoder M) fun l => (l.map Prod.fst, countSum l))
      (fun s t φ => True ∧ s.remaining ≤ n ∧ s.remaining = t.remaining ∧ t.items.map Prod.fst = s.items ∧
        ∃ φ', R s.inner t.inner φ' ∧ countSum t.items + φ' ≤ φ) :=
  meter_collectN_of (a := a) (P := fun _ => True) (Q := fun k => k ≤ n) (Nat.zero_le _) (p := 2 * n)
    (by rw [Nat.mul_left_comm, Nat.mul_assoc]; omega) h.req
    fun hs k s t φ items hr _ hk => by
      have grow : ∀ {l : List α} {s' o''} {l' : List (α × Nat)} {t'},
          LoopPays a b (2 * k) (fun _ => True) R (countSum items + φ) 0 l s' o'' l' t' →
          LoopPays a b (2 * n) (fun _ => True) R (countSum items + φ) 0 l s' o'' l' t' := by
        rintro l s' o'' l' t' ⟨g1, g2, g3, φ1, g4, g5⟩
        refine ⟨g1, g2, g3, φ1, g4, ?_⟩
        have := Nat.mul_le_mul_left a (Nat.mul_le_mul_left 2 hk)
        omega
      have := meter_loopN_any h hs k 0 s t φ items hr
      constructor
      · intro o' s' l n' hl
        obtain ⟨g0, t', l', g1, g2⟩ := this.1 _ _ _ _ hl
        exact ⟨Nat.le_trans g0 hk, t', l', g1, grow g2⟩
      · intro o' s' l n' hl
        obtain ⟨g0, t', l', g1, g2⟩ := this.2 _ _ _ _ hl
        exact ⟨Nat.le_trans g0 hk, t', l', g1, grow g2⟩

/-! ## All of them -/

theorem metered_accounted {σ τ α : Type} {a b : Nat} {D : Decoder σ α} {s : σ} {M : Decoder τ (α × Nat)} {t : τ}
    (h : Metered a b D s M t) : Accounted a b D M s t 0 := by
  induction h with
  | leaf D s => exact ⟨_, meter_leaf D, rfl, Nat.le_refl _⟩
  | weaken ha hb _ ih => exact ⟨_, (meter_accounted _ _ _ _).weaken ha hb, ih⟩
  | map f _ ih => exact ⟨_, meter_map (meter_accounted _ _ _ _) f, ih⟩
  | tryMap f _ ih => exact ⟨_, meter_tryMap (meter_accounted _ _ _ _) f, ih⟩
  | utf8 _ ih => exact ⟨_, meter_utf8 (meter_accounted _ _ _ _), ih⟩
  | mapErr f _ ih => exact ⟨_, meter_mapErr (meter_accounted _ _ _ _) f, ih⟩
  | omittable skip _ ih => exact ⟨_, meter_omittable (meter_accounted _ _ _ _), rfl, ih⟩
  | length n hn _ ih => exact ⟨_, meter_length (meter_accounted _ _ _ _), ih, rfl, rfl, Nat.le_refl _, hn⟩
  | maxBytes n _ ih => exact ⟨_, meter_maxBytes (meter_accounted _ _ _ _), ih, rfl, rfl⟩
  | slice n _ ih => exact ⟨_, meter_slice (meter_accounted _ _ _ _), ih, rfl⟩
  | peekable _ ih => exact ⟨_, meter_peekable (meter_accounted _ _ _ _), ih⟩
  | maybeEos _ ih => exact ⟨_, meter_maybeEos (meter_accounted _ _ _ _), ih, rfl⟩
  | pair _ _ ih0 ih1 =>
    exact ⟨_, meter_pair (meter_accounted _ _ _ _) (meter_accounted _ _ _ _), 0, 0, Nat.le_refl _, ih0, ih1⟩
  | andThen f g _ _ ih0 ih1 =>
    exact ⟨_, meter_andThen (meter_accounted _ _ _ _) (meter_accounted _ _ _ _) ih1, ih0⟩
  | captured F G x _ ih =>
    exact ⟨_, meter_captured (R := fun x => Accounted _ _ (F x) (G x)) (P := fun _ => True)
      (fun x _ => meter_accounted _ _ _ _), rfl, trivial, ih⟩
  | collect hp _ ih => exact ⟨_, meter_collect (meter_accounted _ _ _ _) hp, .refl, rfl, rfl, 0, ih, Nat.le_refl _⟩
  | collectN n hp _ ih =>
    exact ⟨_, meter_collectN (meter_accounted _ _ _ _) hp, .refl, trivial, rfl, rfl, 0, ih, Nat.le_refl _⟩
  | collectNAny n _ ih =>
    exact ⟨_, meter_collectN_any (meter_accounted _ _ _ _) n, trivial, Nat.le_refl _, rfl, rfl, 0, ih, Nat.le_refl _⟩

end Bytecodec
