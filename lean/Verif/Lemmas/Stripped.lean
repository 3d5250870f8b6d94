import Verif.Spec.Stripped
import Verif.Spec.Decode
import Verif.Model.Io
/-!
# Lemmas: taking out limits and checks does not change calls that succeed (decoders)
-/
namespace Bytecodec

open Spec

variable {σ τ α β : Type}

/-- If the first outcome is a success, the second is the same success, with a related state. -/
def Leads (R : σ → τ → Prop) (p : Res α × σ) (q : Res α × τ) : Prop :=
  ∀ x s, p = (.ok x, s) → ∃ t, q = (.ok x, t) ∧ R s t

theorem Leads.ok {R : σ → τ → Prop} {r : Res α} {s : σ} {t : τ} (h : R s t) : Leads R (r, s) (r, t) := by
  intro x s' hp
  cases hp
  exact ⟨_, rfl, h⟩

theorem Leads.err {R : σ → τ → Prop} {k : ErrorKind} {s : σ} {q : Res α × τ} : Leads R (.err k, s) q := by
  intro x s' hp
  cases hp

theorem Leads.panic {R : σ → τ → Prop} {s : σ} {q : Res α × τ} : Leads R (.panic, s) q := by
  intro x s' hp
  cases hp

theorem Leads.ite {R : σ → τ → Prop} {p p' : Res α × σ} {q q' : Res α × τ} (c : Prop) [Decidable c]
    (h : Leads R p q) (h' : Leads R p' q') : Leads R (if c then p else p') (if c then q else q') := by
  split <;> assumption

theorem Leads.step {σ' τ' : Type} {R : σ → τ → Prop} {S : σ' → τ' → Prop} {p : Res α × σ} {q : Res α × τ}
    (h : Leads R p q) {w : σ → σ'} {w' : τ → τ'} {k : α → σ → Res β × σ'} {k' : α → τ → Res β × τ'}
    (hk : ∀ x s t, R s t → Leads S (k x s) (k' x t)) :
    Leads S (Res.step p w k) (Res.step q w' k') := by
  obtain ⟨r, s⟩ := p
  cases r with
  | ok x =>
    obtain ⟨t, rfl, hr⟩ := h x s rfl
    exact hk x s t hr
  | _ => intro y u hp; cases hp

/-- A simulation of the successful calls of a decoder by another one. -/
structure Retains (D : Decoder σ α) (D' : Decoder τ α) (R : σ → τ → Prop) : Prop where
  idle : ∀ {s t}, R s t → D.isIdle s = D'.isIdle t
  req : ∀ {s t}, R s t → D.requiring s = D'.requiring t
  decode : ∀ {s t}, R s t → ∀ b e, Leads R (D.decode s b e) (D'.decode t b e)
  finish : ∀ {s t}, R s t → Leads R (D.finish s) (D'.finish t)

/-- States related by some simulation. -/
def Kept (D : Decoder σ α) (D' : Decoder τ α) (s : σ) (t : τ) : Prop := ∃ R, Retains D D' R ∧ R s t

theorem Leads.mono {R S : σ → τ → Prop} {p : Res α × σ} {q : Res α × τ} (h : Leads R p q)
    (hs : ∀ s t, R s t → S s t) : Leads S p q := by
  intro x s hp
  obtain ⟨t, hq, hr⟩ := h x s hp
  exact ⟨t, hq, hs _ _ hr⟩

theorem retains_kept (D : Decoder σ α) (D' : Decoder τ α) : Retains D D' (Kept D D') where
  idle := fun ⟨_, h, hr⟩ => h.idle hr
  req := fun ⟨_, h, hr⟩ => h.req hr
  decode := fun ⟨R, h, hr⟩ b e => (h.decode hr b e).mono fun _ _ h' => ⟨R, h, h'⟩
  finish := fun ⟨R, h, hr⟩ => (h.finish hr).mono fun _ _ h' => ⟨R, h, h'⟩

theorem Retains.kept {D : Decoder σ α} {D' : Decoder τ α} {R} (h : Retains D D' R) {s t} (hr : R s t) : Kept D D' s t :=
  ⟨R, h, hr⟩

theorem retains_refl (D : Decoder σ α) : Retains D D Eq where
  idle := by rintro s _ rfl; rfl
  req := by rintro s _ rfl; rfl
  decode := by rintro s _ rfl b e x t h; exact ⟨t, h, rfl⟩
  finish := by rintro s _ rfl x t h; exact ⟨t, h, rfl⟩

/-! ## What is taken out -/

theorem retains_dropMaxBytes {D : Decoder σ α} {D' : Decoder τ α} {R} (h : Retains D D' R) :
    Retains (maxBytesDecoder D) D' (fun s t => R s.inner t) where
  idle := fun hr => h.idle hr
  req := fun hr => h.req hr
  decode := by
    intro s t hr b e x u hp
    have go : ∀ {p : Res Nat × MaxBytesState σ}, p = Res.step (D.decode s.inner b e) (fun i => { s with inner := i })
        (fun size i => (.ok size, { s with inner := i, consumed := s.consumed + size })) →
        p = (.ok x, u) → ∃ t', D'.decode t b e = (.ok x, t') ∧ R u.inner t' := by
      intro p hp1 hp2
      rw [hp2] at hp1
      cases hd : D.decode s.inner b e with
      | mk r i =>
        rw [hd] at hp1
        cases r with
        | ok n =>
          simp only [Res.step] at hp1
          obtain ⟨t', h1, h2⟩ := h.decode hr b e n i hd
          cases hp1
          exact ⟨t', h1, h2⟩
        | _ => cases hp1
    simp only [maxBytesDecoder] at hp
    split at hp
    · cases hp
    · split at hp
      · cases hp
      · split at hp
        · exact go rfl hp
        · cases hp
    · split at hp
      · cases hp
      · split at hp
        · cases hp
        · split at hp
          · exact go rfl hp
          · cases hp
  finish := by
    intro s t hr x u hp
    simp only [maxBytesDecoder] at hp
    cases hd : D.finish s.inner with
    | mk r i =>
      rw [hd] at hp
      cases r with
      | ok n =>
        obtain ⟨t', h1, h2⟩ := h.finish hr n i hd
        cases hp
        exact ⟨t', h1, h2⟩
      | _ => cases hp

theorem retains_dropCheck {D : Decoder σ α} {D' : Decoder τ α} {R} (h : Retains D D' R) {f : α → Except ErrorKind α}
    (hf : Checks f) : Retains (tryMapDecoder D f) D' R where
  idle := h.idle
  req := h.req
  decode := h.decode
  finish := by
    intro s t hr x u hp
    simp only [tryMapDecoder] at hp
    cases hd : D.finish s with
    | mk r i =>
      rw [hd] at hp
      cases r with
      | ok y =>
        simp only [Res.step] at hp
        cases hy : f y with
        | ok z =>
          rw [hy] at hp
          have := hf y z hy
          subst this
          obtain ⟨t', h1, h2⟩ := h.finish hr z i hd
          cases hp
          exact ⟨t', h1, h2⟩
        | error k => rw [hy] at hp; cases hp
      | _ => cases hp

theorem retains_dropMapErr {D : Decoder σ α} {D' : Decoder τ α} {R} (h : Retains D D' R) (f : ErrorKind → ErrorKind) :
    Retains (mapErrDecoder D f) D' R where
  idle := h.idle
  req := h.req
  decode := by
    intro s t hr b e x u hp
    refine h.decode hr b e x u ?_
    simp only [mapErrDecoder] at hp
    cases hd : D.decode s b e with
    | mk r i =>
      rw [hd] at hp
      cases r <;> simp_all [Res.mapErr]
  finish := by
    intro s t hr x u hp
    refine h.finish hr x u ?_
    simp only [mapErrDecoder] at hp
    cases hd : D.finish s with
    | mk r i =>
      rw [hd] at hp
      cases r <;> simp_all [Res.mapErr]

/-! ## Mapping combinators -/

theorem retains_map {D : Decoder σ α} {D' : Decoder τ α} {R} (h : Retains D D' R) (f : α → β) :
    Retains (mapDecoder D f) (mapDecoder D' f) R where
  idle := h.idle
  req := h.req
  decode := h.decode
  finish := fun hr => Leads.step (h.finish hr) fun _ _ _ h => .ok h

theorem retains_tryMap {D : Decoder σ α} {D' : Decoder τ α} {R} (h : Retains D D' R) (f : α → Except ErrorKind β) :
    Retains (tryMapDecoder D f) (tryMapDecoder D' f) R where
  idle := h.idle
  req := h.req
  decode := h.decode
  finish := fun hr => Leads.step (h.finish hr) fun x _ _ h => by
    cases f x <;> exact .ok h

theorem retains_utf8 {D : Decoder σ Bytes} {D' : Decoder τ Bytes} {R} (h : Retains D D' R) :
    Retains (utf8Decoder D) (utf8Decoder D') R where
  idle := h.idle
  req := h.req
  decode := h.decode
  finish := fun hr => Leads.step (h.finish hr) fun x _ _ h => by
    cases fromUtf8 x <;> exact .ok h

theorem retains_mapErr {D : Decoder σ α} {D' : Decoder τ α} {R} (h : Retains D D' R) (f : ErrorKind → ErrorKind) :
    Retains (mapErrDecoder D f) (mapErrDecoder D' f) R where
  idle := h.idle
  req := h.req
  decode := by
    intro s t hr b e x u hp
    obtain ⟨t', h1, h2⟩ := (retains_dropMapErr h f).decode hr b e x u hp
    exact ⟨t', by simp only [mapErrDecoder, h1, Res.mapErr], h2⟩
  finish := by
    intro s t hr x u hp
    obtain ⟨t', h1, h2⟩ := (retains_dropMapErr h f).finish hr x u hp
    exact ⟨t', by simp only [mapErrDecoder, h1, Res.mapErr], h2⟩

theorem retains_omittable {D : Decoder σ α} {D' : Decoder τ α} {R} (h : Retains D D' R) :
    Retains (omittableDecoder D) (omittableDecoder D') (fun s t => R s.inner t.inner ∧ s.doOmit = t.doOmit) where
  idle := by rintro ⟨s, o⟩ ⟨t, o'⟩ ⟨h1, h2⟩; simp only at h1 h2; simp only [omittableDecoder, h.idle h1, h2]
  req := by rintro ⟨s, o⟩ ⟨t, o'⟩ ⟨h1, h2⟩; simp only at h1 h2; simp only [omittableDecoder, h.req h1, h2]
  decode := by
    rintro ⟨s, o⟩ ⟨t, o'⟩ ⟨h1, h2⟩ b e
    simp only at h1 h2
    subst h2
    exact Leads.ite _ (.ok ⟨h1, rfl⟩) (Leads.step (h.decode h1 b e) fun _ _ _ h => .ok ⟨h, rfl⟩)
  finish := by
    rintro ⟨s, o⟩ ⟨t, o'⟩ ⟨h1, h2⟩
    simp only at h1 h2
    subst h2
    exact Leads.ite _ (.ok ⟨h1, rfl⟩) (Leads.step (h.finish h1) fun _ _ _ h => .ok ⟨h, rfl⟩)

/-! ## Limits -/

theorem retains_length {D : Decoder σ α} {D' : Decoder τ α} {R} (h : Retains D D' R) :
    Retains (lengthDecoder D) (lengthDecoder D')
      (fun s t => R s.inner t.inner ∧ s.expected = t.expected ∧ s.remaining = t.remaining) where
  idle := by rintro ⟨s, x, r⟩ ⟨t, x', r'⟩ ⟨h1, h2, h3⟩; exact h.idle h1
  req := by rintro ⟨s, x, r⟩ ⟨t, x', r'⟩ ⟨h1, h2, h3⟩; simp only at h3; simp only [lengthDecoder, h3]
  decode := by
    rintro ⟨s, x, r⟩ ⟨t, x', r'⟩ ⟨h1, h2, h3⟩ b e
    simp only at h1 h2 h3
    subst h2 h3
    simp only [lengthDecoder]
    have go := Leads.step (R := R)
      (S := fun s t : LengthState _ => R s.inner t.inner ∧ s.expected = t.expected ∧ s.remaining = t.remaining)
      (h.decode h1 (b.take (min b.length r)) (Eos.withRemainingBytes (.finite (r - min b.length r))))
      (w := fun i => ⟨i, x, r⟩) (w' := fun i => ⟨i, x, r⟩)
      (k := fun size i => if r < size then (.panic, ⟨i, x, r⟩) else (.ok size, ⟨i, x, r - size⟩))
      (k' := fun size i => if r < size then (.panic, ⟨i, x, r⟩) else (.ok size, ⟨i, x, r - size⟩))
      (fun _ _ _ h => Leads.ite _ (.ok ⟨h, rfl, rfl⟩) (.ok ⟨h, rfl, rfl⟩))
    cases e.remainingBytes.toU64 with
    | none => exact go
    | some k => exact Leads.ite _ .panic (Leads.ite _ .err go)
  finish := by
    rintro ⟨s, x, r⟩ ⟨t, x', r'⟩ ⟨h1, h2, h3⟩
    simp only at h1 h2 h3
    subst h2 h3
    exact Leads.ite _ (Leads.step (h.finish h1) fun _ _ _ h => .ok ⟨h, rfl, rfl⟩) .err

theorem retains_maxBytes {D : Decoder σ α} {D' : Decoder τ α} {R} (h : Retains D D' R) :
    Retains (maxBytesDecoder D) (maxBytesDecoder D')
      (fun s t => R s.inner t.inner ∧ s.consumed = t.consumed ∧ s.max = t.max) where
  idle := by rintro ⟨s, x, r⟩ ⟨t, x', r'⟩ ⟨h1, h2, h3⟩; exact h.idle h1
  req := by rintro ⟨s, x, r⟩ ⟨t, x', r'⟩ ⟨h1, h2, h3⟩; exact h.req h1
  decode := by
    rintro ⟨s, c, m⟩ ⟨t, c', m'⟩ ⟨h1, h2, h3⟩ b e
    simp only at h1 h2 h3
    subst h2 h3
    simp only [maxBytesDecoder]
    have go := Leads.step (R := R)
      (S := fun s t : MaxBytesState _ => R s.inner t.inner ∧ s.consumed = t.consumed ∧ s.max = t.max)
      (h.decode h1 b e)
      (w := fun i => ⟨i, c, m⟩) (w' := fun i => ⟨i, c, m⟩)
      (k := fun size i => (Res.ok size, ⟨i, c + size, m⟩)) (k' := fun size i => (Res.ok size, ⟨i, c + size, m⟩))
      (fun _ _ _ h => .ok ⟨h, rfl, rfl⟩)
    cases e.remainingBytes with
    | infinite => exact .err
    | unknown => exact Leads.ite _ .panic (Leads.ite _ go .err)
    | finite k => exact Leads.ite _ .panic (Leads.ite _ .panic (Leads.ite _ go .err))
  finish := by
    rintro ⟨s, c, m⟩ ⟨t, c', m'⟩ ⟨h1, h2, h3⟩
    simp only at h1 h2 h3
    subst h2 h3
    exact Leads.step (h.finish h1) fun _ _ _ h => .ok ⟨h, rfl, rfl⟩

theorem retains_slice {D : Decoder σ α} {D' : Decoder τ α} {R} (h : Retains D D' R) :
    Retains (sliceDecoder D) (sliceDecoder D') (fun s t => R s.inner t.inner ∧ s.consumable = t.consumable) where
  idle := by rintro ⟨s, x⟩ ⟨t, x'⟩ ⟨h1, h2⟩; exact h.idle h1
  req := by rintro ⟨s, x⟩ ⟨t, x'⟩ ⟨h1, h2⟩; exact h.req h1
  decode := by
    rintro ⟨s, x⟩ ⟨t, x'⟩ ⟨h1, h2⟩ b e
    simp only at h1 h2
    subst h2
    simp only [sliceDecoder]
    cases e.back (b.length - min b.length x) with
    | ok e' =>
      exact Leads.step (h.decode h1 _ _) fun _ _ _ h => Leads.ite _ .panic (.ok ⟨h, rfl⟩)
    | _ => exact .panic
  finish := by
    rintro ⟨s, x⟩ ⟨t, x'⟩ ⟨h1, h2⟩
    simp only at h1 h2
    subst h2
    exact Leads.step (h.finish h1) fun _ _ _ h => .ok ⟨h, rfl⟩

/-! ## `Peekable`, `MaybeEos` -/

theorem retains_peekable {D : Decoder σ α} {D' : Decoder τ α} {R} (h : Retains D D' R) :
    Retains (peekableDecoder D) (peekableDecoder D') (fun s t => R s.inner t.inner ∧ s.item = t.item) where
  idle := by rintro ⟨s, x⟩ ⟨t, x'⟩ ⟨h1, h2⟩; simp only at h2; simp only [peekableDecoder, h2]
  req := by rintro ⟨s, x⟩ ⟨t, x'⟩ ⟨h1, h2⟩; simp only at h1 h2; simp only [peekableDecoder, h2, h.req h1]
  decode := by
    rintro ⟨s, x⟩ ⟨t, x'⟩ ⟨h1, h2⟩ b e
    simp only at h1 h2
    subst h2
    refine Leads.ite _ (Leads.step (h.decode h1 b e) fun _ i j hij => ?_) (.ok ⟨h1, rfl⟩)
    rw [h.idle hij]
    exact Leads.ite _ (Leads.step (h.finish hij) fun _ _ _ h => .ok ⟨h, rfl⟩) (.ok ⟨hij, rfl⟩)
  finish := by
    rintro ⟨s, x⟩ ⟨t, x'⟩ ⟨h1, h2⟩
    simp only at h1 h2
    subst h2
    cases x <;> exact .ok ⟨h1, rfl⟩

theorem retains_maybeEos {D : Decoder σ α} {D' : Decoder τ α} {R} (h : Retains D D' R) :
    Retains (maybeEosDecoder D) (maybeEosDecoder D') (fun s t => R s.inner t.inner ∧ s.started = t.started) where
  idle := by rintro ⟨s, x⟩ ⟨t, x'⟩ ⟨h1, h2⟩; exact h.idle h1
  req := by rintro ⟨s, x⟩ ⟨t, x'⟩ ⟨h1, h2⟩; exact h.req h1
  decode := by
    rintro ⟨s, x⟩ ⟨t, x'⟩ ⟨h1, h2⟩ b e
    simp only at h1 h2
    subst h2
    exact Leads.step (h.decode h1 _ _) fun _ _ _ h => .ok ⟨h, rfl⟩
  finish := by
    rintro ⟨s, x⟩ ⟨t, x'⟩ ⟨h1, h2⟩
    exact Leads.step (h.finish h1) fun _ _ _ h => .ok ⟨h, rfl⟩

/-! ## `bytecodec_try_decode!`, pairs, `AndThen` -/

/-- The same for the exits of the macros. -/
inductive LeadsF {ω : Type} (R : σ → τ → Prop) : Flow ω σ → Flow ω τ → Prop
  | next (o : ω) {s : σ} {t : τ} : R s t → LeadsF R (.next o s) (.next o t)
  | ret (o : ω) {s : σ} {t : τ} : R s t → LeadsF R (.ret (.ok o) s) (.ret (.ok o) t)
  | fail (r : Res ω) {s : σ} {q : Flow ω τ} : (∀ x, r ≠ .ok x) → LeadsF R (.ret r s) q

theorem Leads.fail {R : σ → τ → Prop} {r : Res α} (h : ∀ x, r ≠ .ok x) {s : σ} {q : Res α × τ} : Leads R (r, s) q := by
  intro x s' hp
  cases hp
  exact absurd rfl (h x)

theorem Retains.tryDecode {D : Decoder σ α} {D' : Decoder τ α} {R} (h : Retains D D' R) {s : σ} {t : τ} (hr : R s t)
    (o b e) : LeadsF R (tryDecode D s o b e) (tryDecode D' t o b e) := by
  unfold Bytecodec.tryDecode
  rw [← h.idle hr]
  split
  · exact .next _ hr
  · split
    · exact .fail _ (by simp)
    · cases hd : D.decode s (b.drop o) e with
      | mk r s' =>
        cases r with
        | ok n =>
          obtain ⟨t', h1, hr'⟩ := h.decode hr _ _ _ _ hd
          rw [h1]
          simp only
          rw [← h.idle hr']
          split
          · exact .next _ hr'
          · exact .ret _ hr'
        | _ => exact .fail _ (by simp)

theorem retains_pair {σ0 τ0 α0 σ1 τ1 α1 : Type} {D0 : Decoder σ0 α0} {D0' : Decoder τ0 α0} {D1 : Decoder σ1 α1}
    {D1' : Decoder τ1 α1} {R0 R1} (h0 : Retains D0 D0' R0) (h1 : Retains D1 D1' R1) :
    Retains (tupleDecoder2 D0 D1) (tupleDecoder2 D0' D1') (fun s t => R0 s.1 t.1 ∧ R1 s.2 t.2) where
  idle := by rintro ⟨s, x⟩ ⟨t, x'⟩ ⟨r0, r1⟩; simp only [tupleDecoder2, h0.idle r0, h1.idle r1]
  req := by rintro ⟨s, x⟩ ⟨t, x'⟩ ⟨r0, r1⟩; simp only [tupleDecoder2, h0.req r0, h1.req r1]
  decode := by
    rintro ⟨s0, s1⟩ ⟨t0, t1⟩ ⟨r0, r1⟩ b e
    simp only at r0 r1
    simp only [tupleDecoder2]
    have a := h0.tryDecode r0 0 b e
    generalize tryDecode D0 s0 0 b e = p at a
    generalize tryDecode D0' t0 0 b e = q at a
    cases a with
    | ret o hr => exact .ok ⟨hr, r1⟩
    | fail r hf => exact .fail hf
    | next o hr =>
      simp only
      have a := h1.tryDecode r1 o b e
      generalize tryDecode D1 s1 o b e = p at a
      generalize tryDecode D1' t1 o b e = q at a
      cases a with
      | ret o hr' => exact .ok ⟨hr, hr'⟩
      | fail r hf => exact .fail hf
      | next o hr' => exact .ok ⟨hr, hr'⟩
  finish := by
    rintro ⟨s0, s1⟩ ⟨t0, t1⟩ ⟨r0, r1⟩
    exact Leads.step (h0.finish r0) fun _ _ _ h =>
      Leads.step (h1.finish r1) fun _ _ _ h' => .ok ⟨h, h'⟩

/-- Related second parts of `and_then`. -/
inductive LeadsO (R : σ → τ → Prop) : Option σ → Option τ → Prop
  | none : LeadsO R none none
  | some {s : σ} {t : τ} : R s t → LeadsO R (some s) (some t)

theorem retains_andThen {σ0 τ0 α0 σ1 τ1 α1 : Type} {D0 : Decoder σ0 α0} {D0' : Decoder τ0 α0} {D1 : Decoder σ1 α1}
    {D1' : Decoder τ1 α1} {R0 R1} {f : α0 → σ1} {f' : α0 → τ1} (h0 : Retains D0 D0' R0) (h1 : Retains D1 D1' R1)
    (hf : ∀ x, R1 (f x) (f' x)) :
    Retains (andThenDecoder D0 D1 f) (andThenDecoder D0' D1' f') (fun s t => R0 s.1 t.1 ∧ LeadsO R1 s.2 t.2) where
  idle := by
    rintro ⟨s, x⟩ ⟨t, x'⟩ ⟨r0, r1⟩
    simp only at r1
    cases r1 with
    | none => rfl
    | some hr => exact h1.idle hr
  req := by
    rintro ⟨s, x⟩ ⟨t, x'⟩ ⟨r0, r1⟩
    simp only at r1
    cases r1 with
    | none => exact h0.req r0
    | some hr => exact h1.req hr
  decode := by
    rintro ⟨s0, s1⟩ ⟨t0, t1⟩ ⟨r0, r1⟩ b e
    simp only at r0 r1
    have second : ∀ {u0 v0 u1 v1} (o : Nat), R0 u0 v0 → R1 u1 v1 →
        Leads (fun s t => R0 s.1 t.1 ∧ LeadsO R1 s.2 t.2)
          (match tryDecode D1 u1 o b e with
            | .ret r s1' => (r, (u0, some s1'))
            | .next offset s1' => (.ok offset, (u0, some s1')))
          (match tryDecode D1' v1 o b e with
            | .ret r s1' => (r, (v0, some s1'))
            | .next offset s1' => (.ok offset, (v0, some s1'))) := by
      intro u0 v0 u1 v1 o q0 q1
      have a := h1.tryDecode q1 o b e
      generalize tryDecode D1 u1 o b e = p at a
      generalize tryDecode D1' v1 o b e = q at a
      cases a with
      | ret r hr => exact .ok ⟨q0, .some hr⟩
      | fail r hf => exact .fail hf
      | next o hr => exact .ok ⟨q0, .some hr⟩
    simp only [andThenDecoder]
    cases r1 with
    | some hr => exact second 0 r0 hr
    | none =>
      simp only
      have a := h0.tryDecode r0 0 b e
      generalize tryDecode D0 s0 0 b e = p at a
      generalize tryDecode D0' t0 0 b e = q at a
      cases a with
      | ret r hr => exact .ok ⟨hr, .none⟩
      | fail r hf => exact .fail hf
      | next o hr =>
        exact Leads.step (h0.finish hr) fun x _ _ h => second o h (hf x)
  finish := by
    rintro ⟨s0, s1⟩ ⟨t0, t1⟩ ⟨r0, r1⟩
    simp only at r0 r1
    cases r1 with
    | none => exact .err
    | @some u v hr =>
      intro x w hp
      simp only [andThenDecoder] at hp ⊢
      cases hd : D1.finish u with
      | mk r i =>
        rw [hd] at hp
        cases r with
        | ok y =>
          obtain ⟨t', k1, k2⟩ := h1.finish hr y i hd
          cases hp
          exact ⟨(t0, none), by rw [k1], r0, .none⟩
        | _ => cases hp

/-! ## `Collect`, `CollectN` -/

/-- The same for the exits of the loop of `collectn`. -/
inductive LeadsN (R : σ → τ → Prop) : LoopExitN σ α → LoopExitN τ α → Prop
  | done (o : Nat) {s : σ} {t : τ} (items : List α) (n : Nat) : R s t → LeadsN R (.done o s items n) (.done o t items n)
  | ret (o : Nat) {s : σ} {t : τ} (items : List α) (n : Nat) : R s t →
      LeadsN R (.ret (.ok o) s items n) (.ret (.ok o) t items n)
  | fail (r : Res Nat) {s : σ} (items : List α) (n : Nat) {q : LoopExitN τ α} : (∀ x, r ≠ .ok x) →
      LeadsN R (.ret r s items n) q

theorem Retains.collectNLoop {D : Decoder σ α} {D' : Decoder τ α} {R} (h : Retains D D' R) (b : Bytes) (e : Eos) :
    ∀ (n o : Nat) (items : List α) {s : σ} {t : τ}, R s t →
      LeadsN R (collectNLoop D b e n o s items) (collectNLoop D' b e n o t items) := by
  intro n
  induction n with
  | zero => intro o items s t hr; exact .done _ _ _ hr
  | succ n ih =>
    intro o items s t hr
    simp only [Bytecodec.collectNLoop]
    split
    · have a := h.tryDecode hr o b e
      generalize Bytecodec.tryDecode D s o b e = p at a
      generalize Bytecodec.tryDecode D' t o b e = q at a
      cases a with
      | ret r hr' => exact .ret _ _ _ hr'
      | fail r hf => exact .fail _ _ _ hf
      | @next o' u v hr' =>
        simp only
        cases hd : D.finish u with
        | mk r i =>
          cases r with
          | ok x =>
            obtain ⟨t', k1, k2⟩ := h.finish hr' x i hd
            rw [k1]
            exact ih _ _ k2
          | _ => exact .fail _ _ _ (by simp)
    · exact .done _ _ _ hr

theorem retains_collectN {D : Decoder σ α} {D' : Decoder τ α} {R} (h : Retains D D' R) :
    Retains (collectNDecoder D) (collectNDecoder D')
      (fun s t => R s.inner t.inner ∧ s.remaining = t.remaining ∧ s.items = t.items) where
  idle := by rintro ⟨s, sr, si⟩ ⟨t, tr, ti⟩ ⟨h1, h2, h3⟩; simp only at h2; subst h2; rfl
  req := by
    rintro ⟨s, sr, si⟩ ⟨t, tr, ti⟩ ⟨h1, h2, h3⟩
    simp only at h1 h2
    subst h2
    simp only [collectNDecoder, h.req h1]
  decode := by
    rintro ⟨s, sr, si⟩ ⟨t, tr, ti⟩ ⟨h1, h2, h3⟩ b e
    simp only at h1 h2 h3
    subst h2 h3
    simp only [collectNDecoder]
    have a := h.collectNLoop b e sr 0 si h1
    generalize collectNLoop D b e sr 0 s si = p at a
    generalize collectNLoop D' b e sr 0 t si = q at a
    cases a with
    | ret r items n hr => exact .ok ⟨hr, rfl, rfl⟩
    | fail r items n hf => exact .fail hf
    | done o items n hr => exact Leads.ite _ .err (.ok ⟨hr, rfl, rfl⟩)
  finish := by
    rintro ⟨s, sr, si⟩ ⟨t, tr, ti⟩ ⟨h1, h2, h3⟩
    simp only at h1 h2 h3
    subst h2 h3
    exact Leads.ite _ (.ok ⟨h1, rfl, rfl⟩) .err

/-- The same for the exits of the loop of `collect`. -/
inductive LeadsL (R : σ → τ → Prop) : LoopExit σ α → Option (LoopExit τ α) → Prop
  | done (o : Nat) {s : σ} {t : τ} (items : List α) : R s t → LeadsL R (.done o s items) (some (.done o t items))
  | ret (o : Nat) {s : σ} {t : τ} (items : List α) : R s t →
      LeadsL R (.ret (.ok o) s items) (some (.ret (.ok o) t items))
  | fail (r : Res Nat) {s : σ} (items : List α) {q : Option (LoopExit τ α)} : (∀ x, r ≠ .ok x) →
      LeadsL R (.ret r s items) q

theorem Retains.collectLoop {D : Decoder σ α} {D' : Decoder τ α} {R} (h : Retains D D' R) (b : Bytes) (e : Eos) :
    ∀ (o : Nat) (s : σ) (items : List α) (x : LoopExit σ α), collectLoop D b e o s items = some x →
      ∀ t, R s t → LeadsL R x (collectLoop D' b e o t items) := by
  apply collectLoop.partial_correctness D b e
    (motive := fun o s items x => ∀ t, R s t → LeadsL R x (Bytecodec.collectLoop D' b e o t items))
  intro loop ih o s items x heq t hr
  rw [Bytecodec.collectLoop]
  split at heq
  · next hlt =>
    rw [if_pos hlt]
    have a := h.tryDecode hr o b e
    generalize Bytecodec.tryDecode D s o b e = p at a heq
    generalize Bytecodec.tryDecode D' t o b e = q at a
    cases a with
    | ret r hr' => cases heq; exact .ret _ _ hr'
    | fail r hf => cases heq; exact .fail _ _ hf
    | @next o' u v hr' =>
      simp only at heq ⊢
      cases hd : D.finish u with
      | mk r i =>
        rw [hd] at heq
        cases r with
        | ok x =>
          obtain ⟨t', k1, k2⟩ := h.finish hr' x i hd
          rw [k1]
          exact ih _ _ _ _ heq _ k2
        | _ => cases heq; exact .fail _ _ (by simp)
  · next hlt =>
    rw [if_neg hlt]
    cases heq
    exact .done _ _ hr

theorem retains_collect {D : Decoder σ α} {D' : Decoder τ α} {R} (h : Retains D D' R) :
    Retains (collectDecoder D) (collectDecoder D')
      (fun s t => R s.inner t.inner ∧ s.items = t.items ∧ s.eos = t.eos) where
  idle := by rintro ⟨s, si, se⟩ ⟨t, ti, te⟩ ⟨h1, h2, h3⟩; exact h3
  req := by
    rintro ⟨s, si, se⟩ ⟨t, ti, te⟩ ⟨h1, h2, h3⟩
    simp only at h1 h3
    subst h3
    simp only [collectDecoder, h.req h1]
  decode := by
    rintro ⟨s, si, se⟩ ⟨t, ti, te⟩ ⟨h1, h2, h3⟩ b e
    simp only at h1 h2 h3
    subst h2 h3
    refine Leads.ite _ (.ok ⟨h1, rfl, rfl⟩) ?_
    simp only
    cases hp : Bytecodec.collectLoop D b e 0 s si with
    | some x =>
      have a := h.collectLoop b e _ _ _ _ hp t h1
      generalize Bytecodec.collectLoop D' b e 0 t si = q at a
      cases a with
      | done o items hr => exact .ok ⟨hr, rfl, rfl⟩
      | ret o items hr => exact .ok ⟨hr, rfl, rfl⟩
      | fail r items hf => exact .fail hf
    | none => exact .fail (by simp)
  finish := by
    rintro ⟨s, si, se⟩ ⟨t, ti, te⟩ ⟨h1, h2, h3⟩
    simp only at h1 h2 h3
    subst h2 h3
    exact Leads.ite _ (.ok ⟨h1, rfl, rfl⟩) .err

theorem retains_captured {ε : Type} {F : ε → Decoder σ α} {F' : ε → Decoder τ α} {x : ε}
    {R : σ → τ → Prop} (h : Retains (F x) (F' x) R) :
    Retains (capturedDecoder F) (capturedDecoder F') fun s t => s.1 = x ∧ t.1 = x ∧ R s.2 t.2 where
  idle := by rintro ⟨_, s⟩ ⟨_, t⟩ ⟨rfl, ht, hr⟩; cases ht; exact h.idle hr
  req := by rintro ⟨_, s⟩ ⟨_, t⟩ ⟨rfl, ht, hr⟩; cases ht; exact h.req hr
  decode := by
    rintro ⟨y, s⟩ ⟨_, t⟩ ⟨rfl, ht, hr⟩ b e n u hp
    cases ht
    simp only [capturedDecoder] at hp ⊢
    cases hd : (F y).decode s b e with
    | mk r i =>
      rw [hd] at hp
      cases hp
      obtain ⟨t', k1, k2⟩ := h.decode hr b e _ _ hd
      exact ⟨(y, t'), by rw [k1]; rfl, rfl, rfl, k2⟩
  finish := by
    rintro ⟨y, s⟩ ⟨_, t⟩ ⟨rfl, ht, hr⟩ n u hp
    cases ht
    simp only [capturedDecoder] at hp ⊢
    cases hd : (F y).finish s with
    | mk r i =>
      rw [hd] at hp
      cases hp
      obtain ⟨t', k1, k2⟩ := h.finish hr _ _ hd
      exact ⟨(y, t'), by rw [k1]; rfl, rfl, rfl, k2⟩

/-! ## Compositions -/

theorem stripped_kept {D : Decoder σ α} {s : σ} {D' : Decoder τ α} {t : τ} (h : Stripped D s D' t) :
    Kept D D' s t := by
  induction h with
  | same => exact (retains_refl _).kept rfl
  | maxBytes n _ ih => exact (retains_dropMaxBytes (retains_kept _ _)).kept ih
  | check f hf _ ih => exact (retains_dropCheck (retains_kept _ _) hf).kept ih
  | mapErr f _ ih => exact (retains_dropMapErr (retains_kept _ _) f).kept ih
  | keepMaxBytes n _ ih => exact (retains_maxBytes (retains_kept _ _)).kept ⟨ih, rfl, rfl⟩
  | keepMapErr f _ ih => exact (retains_mapErr (retains_kept _ _) f).kept ih
  | utf8 _ ih => exact (retains_utf8 (retains_kept _ _)).kept ih
  | map f _ ih => exact (retains_map (retains_kept _ _) f).kept ih
  | tryMap f _ ih => exact (retains_tryMap (retains_kept _ _) f).kept ih
  | omittable d _ ih => exact (retains_omittable (retains_kept _ _)).kept ⟨ih, rfl⟩
  | length n _ ih => exact (retains_length (retains_kept _ _)).kept ⟨ih, rfl, rfl⟩
  | slice n _ ih => exact (retains_slice (retains_kept _ _)).kept ⟨ih, rfl⟩
  | peekable _ ih => exact (retains_peekable (retains_kept _ _)).kept ⟨ih, rfl⟩
  | maybeEos _ ih => exact (retains_maybeEos (retains_kept _ _)).kept ⟨ih, rfl⟩
  | collect _ ih => exact (retains_collect (retains_kept _ _)).kept ⟨ih, rfl, rfl⟩
  | collectN n _ ih => exact (retains_collectN (retains_kept _ _)).kept ⟨ih, rfl, rfl⟩
  | pair _ _ ih0 ih1 => exact (retains_pair (retains_kept _ _) (retains_kept _ _)).kept ⟨ih0, ih1⟩
  | andThen f f' _ _ ih0 ih1 => exact (retains_andThen (retains_kept _ _) (retains_kept _ _) ih1).kept ⟨ih0, .none⟩
  | captured F F' x _ ih => exact (retains_captured (retains_kept _ _)).kept ⟨rfl, rfl, ih⟩

/-! ## What callers see -/

theorem Retains.observe {D : Decoder σ α} {D' : Decoder τ α} {R} (h : Retains D D' R) {s : σ} {t : τ} (hr : R s t)
    (calls : List Call) (hok : ∀ o ∈ observe D s calls, o.answer.isOk = true) :
    observe D' t calls = observe D s calls := by
  induction calls generalizing s t with
  | nil => rfl
  | cons c cs ih =>
    simp only [Spec.observe, List.mem_cons, forall_eq_or_imp] at hok
    obtain ⟨h1, h2⟩ := hok
    have key : callAnswer D s c = callAnswer D' t c ∧ R (callState D s c) (callState D' t c) := by
      cases c with
      | decode b e =>
        simp only [callAnswer, callState] at h1 ⊢
        cases hd : D.decode s b e with
        | mk r i =>
          rw [hd] at h1
          cases r with
          | ok n =>
            obtain ⟨t', k1, k2⟩ := h.decode hr b e n i hd
            rw [k1]
            exact ⟨rfl, k2⟩
          | _ => cases h1
      | finish =>
        simp only [callAnswer, callState] at h1 ⊢
        cases hd : D.finish s with
        | mk r i =>
          rw [hd] at h1
          cases r with
          | ok n =>
            obtain ⟨t', k1, k2⟩ := h.finish hr n i hd
            rw [k1]
            exact ⟨rfl, k2⟩
          | _ => cases h1
    simp only [Spec.observe]
    rw [← key.1, ← h.idle key.2, ← h.req key.2, ih key.2 h2]

theorem Retains.feed {D : Decoder σ α} {D' : Decoder τ α} {R} (h : Retains D D' R) : ∀ (chunks : List (Bytes × Eos))
    {s : σ} {t : τ} {n : Nat} {x : α} {s' : σ}, R s t → feed D s chunks = some (n, x, s') →
    ∃ t', feed D' t chunks = some (n, x, t') ∧ R s' t' := by
  intro chunks
  induction chunks with
  | nil =>
    intro s t n x s' hr hf
    rw [Spec.feed] at hf ⊢
    rw [← h.idle hr]
    split at hf
    · next hi =>
      rw [if_pos hi]
      split at hf
      · next y u hd =>
        cases hf
        obtain ⟨t', k1, k2⟩ := h.finish hr _ _ hd
        rw [k1]
        exact ⟨_, rfl, k2⟩
      · cases hf
    · cases hf
  | cons c rest ih =>
    intro s t n x s' hr hf
    obtain ⟨b, e⟩ := c
    rw [Spec.feed] at hf ⊢
    rw [← h.idle hr]
    split at hf
    · next hi =>
      rw [if_pos hi]
      split at hf
      · next y u hd =>
        cases hf
        obtain ⟨t', k1, k2⟩ := h.finish hr _ _ hd
        rw [k1]
        exact ⟨_, rfl, k2⟩
      · cases hf
    · next hi =>
      rw [if_neg hi]
      simp only at hf ⊢
      split at hf
      · next m u hd =>
        obtain ⟨t', k1, k2⟩ := h.decode hr _ _ _ _ hd
        rw [k1]
        simp only
        rw [← h.idle k2]
        split at hf
        · next hc =>
          rw [if_pos hc]
          rw [Option.map_eq_some_iff] at hf
          obtain ⟨⟨m', y, v⟩, hf1, hf2⟩ := hf
          cases hf2
          obtain ⟨t'', k3, k4⟩ := ih k2 hf1
          exact ⟨t'', by rw [k3]; rfl, k4⟩
        · cases hf
      · cases hf

theorem Retains.decodeFromBytes {D : Decoder σ α} {D' : Decoder τ α} {R} (h : Retains D D' R) {s : σ} {t : τ} (hr : R s t)
    (b : Bytes) : Leads R (decodeFromBytes D s b) (decodeFromBytes D' t b) := by
  refine Leads.step (h.decode hr b _) fun n i j hij => ?_
  exact Leads.ite _ (h.finish hij) (.ok hij)

/-- The same for the outcome of `decode_exact`: the reader is the same afterwards. -/
def LeadsR {ρ : Type} (R : σ → τ → Prop) (p : Res α × σ × ρ) (q : Option (Res α × τ × ρ)) : Prop :=
  ∀ x s r, p = (.ok x, s, r) → ∃ t, q = some (.ok x, t, r) ∧ R s t

theorem Retains.decodeExact {ρ : Type} {D : Decoder σ α} {D' : Decoder τ α} {R} (h : Retains D D' R) (Rd : Reader ρ) :
    ∀ (s : σ) (r : ρ) (x : Res α × σ × ρ), decodeExact D Rd s r = some x →
      ∀ t, R s t → LeadsR R x (decodeExact D' Rd t r) := by
  apply decodeExact.partial_correctness D Rd
    (motive := fun s r x => ∀ t, R s t → LeadsR R x (Bytecodec.decodeExact D' Rd t r))
  intro loop ih s r x heq t hr
  rw [Bytecodec.decodeExact, ← h.req hr]
  generalize D.requiring s = q at heq ⊢
  cases q
  all_goals simp only at heq ⊢
  case' finite n => generalize (if min n 1024 ≠ 0 then Rd.read r (min n 1024) else (.data [], r)) = p at heq ⊢
  case' infinite => generalize (if 1024 ≠ 0 then Rd.read r 1024 else (.data [], r)) = p at heq ⊢
  case' unknown => generalize (if 1 ≠ 0 then Rd.read r 1 else (.data [], r)) = p at heq ⊢
  all_goals
    obtain ⟨a, r'⟩ := p
    cases a with
    | error k => cases heq; intro x s r hx; cases hx
    | data bs =>
      simp only at heq ⊢
      split at heq
      · next hlt => cases heq; intro x s r hx; cases hx
      · next hlt =>
        rw [if_neg hlt]
        split at heq
        · next n s' hd =>
          obtain ⟨t', h2, hr'⟩ := h.decode hr bs _ _ _ hd
          rw [h2]
          simp only at heq ⊢
          rw [← h.idle hr']
          split at heq
          · next hc => cases heq; intro x s r hx; cases hx
          · next hc =>
            rw [if_neg hc]
            split at heq
            · next hi =>
              rw [if_pos hi]
              cases heq
              intro x u v hx
              cases hf : D.finish s' with
              | mk a i =>
                rw [hf] at hx
                cases hx
                obtain ⟨t'', k1, k2⟩ := h.finish hr' _ _ hf
                exact ⟨t'', by rw [k1], k2⟩
            · next hi =>
              rw [if_neg hi]
              exact ih _ _ _ heq _ hr'
        all_goals (cases heq; intro x s r hx; cases hx)

end Bytecodec
