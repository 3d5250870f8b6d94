import Verif.Spec.Interchange
/-!
# Lemmas: decoders that are alike can be exchanged in every composition
-/
namespace Bytecodec

open Spec

variable {σ τ α β : Type}

/-- Two outcomes that agree, with related states. -/
def Meet (R : σ → τ → Prop) (p : Res α × σ) (q : Res α × τ) : Prop := p.1 = q.1 ∧ R p.2 q.2

theorem Meet.mk {R : σ → τ → Prop} {r : Res α} {s : σ} {t : τ} (h : R s t) : Meet R (r, s) (r, t) := ⟨rfl, h⟩

theorem Meet.ite {R : σ → τ → Prop} {p p' : Res α × σ} {q q' : Res α × τ} (c : Prop) [Decidable c]
    (h : Meet R p q) (h' : Meet R p' q') : Meet R (if c then p else p') (if c then q else q') := by
  split <;> assumption

theorem Meet.step {σ' τ' : Type} {R : σ → τ → Prop} {S : σ' → τ' → Prop} {p : Res α × σ} {q : Res α × τ}
    (h : Meet R p q) {w : σ → σ'} {w' : τ → τ'} {k : α → σ → Res β × σ'} {k' : α → τ → Res β × τ'}
    (hw : ∀ s t, R s t → S (w s) (w' t)) (hk : ∀ x s t, R s t → Meet S (k x s) (k' x t)) :
    Meet S (Res.step p w k) (Res.step q w' k') := by
  obtain ⟨r, s⟩ := p
  obtain ⟨r', t⟩ := q
  obtain ⟨h1, h2⟩ := h
  simp only at h1 h2
  subst h1
  cases r with
  | ok x => exact hk x s t h2
  | _ => exact ⟨rfl, hw _ _ h2⟩

theorem Meet.elim {R : σ → τ → Prop} {p : Res α × σ} {q : Res α × τ} (h : Meet R p q) :
    ∃ r s t, p = (r, s) ∧ q = (r, t) ∧ R s t := by
  obtain ⟨r, s⟩ := p
  obtain ⟨r', t⟩ := q
  obtain ⟨h1, h2⟩ := h
  simp only at h1 h2
  subst h1
  exact ⟨_, _, _, rfl, rfl, h2⟩

/-- A bisimulation between two decoders. -/
structure Sim (D : Decoder σ α) (D' : Decoder τ α) (R : σ → τ → Prop) : Prop where
  idle : ∀ {s t}, R s t → D.isIdle s = D'.isIdle t
  req : ∀ {s t}, R s t → D.requiring s = D'.requiring t
  decode : ∀ {s t}, R s t → ∀ b e, Meet R (D.decode s b e) (D'.decode t b e)
  finish : ∀ {s t}, R s t → Meet R (D.finish s) (D'.finish t)

theorem Sim.alike {D : Decoder σ α} {D' : Decoder τ α} {R : σ → τ → Prop} (h : Sim D D' R) {s : σ} {t : τ}
    (hr : R s t) : Alike D s D' t := by
  refine ⟨h.idle hr, h.req hr, fun calls => ?_⟩
  induction calls generalizing s t with
  | nil => rfl
  | cons c cs ih =>
    have key : callAnswer D s c = callAnswer D' t c ∧ R (callState D s c) (callState D' t c) := by
      cases c with
      | decode b e =>
        obtain ⟨h1, h2⟩ := h.decode hr b e
        exact ⟨by simp only [callAnswer, h1], h2⟩
      | finish =>
        obtain ⟨h1, h2⟩ := h.finish hr
        exact ⟨by simp only [callAnswer, h1], h2⟩
    simp only [Spec.observe]
    rw [key.1, h.idle key.2, h.req key.2, ih key.2]

/-- States that are alike. -/
def AlikeStates (D : Decoder σ α) (D' : Decoder τ α) (s : σ) (t : τ) : Prop := Alike D s D' t

theorem sim_alike (D : Decoder σ α) (D' : Decoder τ α) : Sim D D' (AlikeStates D D') where
  idle := fun h => h.1
  req := fun h => h.2.1
  decode := by
    intro s t h b e
    have h1 : ∀ cs, observe D s (.decode b e :: cs) = observe D' t (.decode b e :: cs) := fun cs => h.2.2 _
    simp only [observe] at h1
    have h2 := h1 []
    injection h2 with h3 _
    injection h3 with h4 h5 h6
    injection h4 with h7
    refine ⟨h7, h5, h6, fun calls => ?_⟩
    have h8 := h1 calls
    injection h8
  finish := by
    intro s t h
    have h1 : ∀ cs, observe D s (.finish :: cs) = observe D' t (.finish :: cs) := fun cs => h.2.2 _
    simp only [observe] at h1
    have h2 := h1 []
    injection h2 with h3 _
    injection h3 with h4 h5 h6
    injection h4 with h7
    refine ⟨h7, h5, h6, fun calls => ?_⟩
    have h8 := h1 calls
    injection h8

theorem Spec.Alike.refl (D : Decoder σ α) (s : σ) : Alike D s D s := ⟨rfl, rfl, fun _ => rfl⟩

theorem Spec.Alike.symm {D : Decoder σ α} {s : σ} {D' : Decoder τ α} {t : τ} (h : Alike D s D' t) : Alike D' t D s :=
  ⟨h.1.symm, h.2.1.symm, fun c => (h.2.2 c).symm⟩

theorem Spec.Alike.trans {υ : Type} {D : Decoder σ α} {s : σ} {D' : Decoder τ α} {t : τ} {D'' : Decoder υ α} {u : υ}
    (h : Alike D s D' t) (h' : Alike D' t D'' u) : Alike D s D'' u :=
  ⟨h.1.trans h'.1, h.2.1.trans h'.2.1, fun c => (h.2.2 c).trans (h'.2.2 c)⟩

/-! ## Mapping combinators -/

theorem sim_map {D : Decoder σ α} {D' : Decoder τ α} {R} (h : Sim D D' R) (f : α → β) :
    Sim (mapDecoder D f) (mapDecoder D' f) R where
  idle := h.idle
  req := h.req
  decode := h.decode
  finish := fun hr => Meet.step (h.finish hr) (fun _ _ h => h) fun _ _ _ h => .mk h

theorem sim_tryMap {D : Decoder σ α} {D' : Decoder τ α} {R} (h : Sim D D' R) (f : α → Except ErrorKind β) :
    Sim (tryMapDecoder D f) (tryMapDecoder D' f) R where
  idle := h.idle
  req := h.req
  decode := h.decode
  finish := fun hr => Meet.step (h.finish hr) (fun _ _ h => h) fun x _ _ h => by
    cases f x <;> exact .mk h

theorem sim_utf8 {D : Decoder σ Bytes} {D' : Decoder τ Bytes} {R} (h : Sim D D' R) :
    Sim (utf8Decoder D) (utf8Decoder D') R where
  idle := h.idle
  req := h.req
  decode := h.decode
  finish := fun hr => Meet.step (h.finish hr) (fun _ _ h => h) fun x _ _ h => by
    cases fromUtf8 x <;> exact .mk h

theorem sim_mapErr {D : Decoder σ α} {D' : Decoder τ α} {R} (h : Sim D D' R) (f : ErrorKind → ErrorKind) :
    Sim (mapErrDecoder D f) (mapErrDecoder D' f) R where
  idle := h.idle
  req := h.req
  decode := fun hr b e => ⟨by simp only [mapErrDecoder, (h.decode hr b e).1], (h.decode hr b e).2⟩
  finish := fun hr => ⟨by simp only [mapErrDecoder, (h.finish hr).1], (h.finish hr).2⟩

theorem sim_omittable {D : Decoder σ α} {D' : Decoder τ α} {R} (h : Sim D D' R) :
    Sim (omittableDecoder D) (omittableDecoder D') (fun s t => R s.inner t.inner ∧ s.doOmit = t.doOmit) where
  idle := by rintro ⟨s, o⟩ ⟨t, o'⟩ ⟨h1, h2⟩; simp only at h1 h2; simp only [omittableDecoder, h.idle h1, h2]
  req := by rintro ⟨s, o⟩ ⟨t, o'⟩ ⟨h1, h2⟩; simp only at h1 h2; simp only [omittableDecoder, h.req h1, h2]
  decode := by
    rintro ⟨s, o⟩ ⟨t, o'⟩ ⟨h1, h2⟩ b e
    simp only at h1 h2
    subst h2
    exact Meet.ite _ (.mk ⟨h1, rfl⟩) (Meet.step (h.decode h1 b e) (fun _ _ h => ⟨h, rfl⟩) fun _ _ _ h => .mk ⟨h, rfl⟩)
  finish := by
    rintro ⟨s, o⟩ ⟨t, o'⟩ ⟨h1, h2⟩
    simp only at h1 h2
    subst h2
    exact Meet.ite _ (.mk ⟨h1, rfl⟩) (Meet.step (h.finish h1) (fun _ _ h => ⟨h, rfl⟩) fun _ _ _ h => .mk ⟨h, rfl⟩)

/-! ## Limits -/

theorem sim_length {D : Decoder σ α} {D' : Decoder τ α} {R} (h : Sim D D' R) :
    Sim (lengthDecoder D) (lengthDecoder D')
      (fun s t => R s.inner t.inner ∧ s.expected = t.expected ∧ s.remaining = t.remaining) where
  idle := by rintro ⟨s, x, r⟩ ⟨t, x', r'⟩ ⟨h1, h2, h3⟩; exact h.idle h1
  req := by rintro ⟨s, x, r⟩ ⟨t, x', r'⟩ ⟨h1, h2, h3⟩; simp only at h3; simp only [lengthDecoder, h3]
  decode := by
    rintro ⟨s, x, r⟩ ⟨t, x', r'⟩ ⟨h1, h2, h3⟩ b e
    simp only at h1 h2 h3
    subst h2 h3
    simp only [lengthDecoder]
    have go := Meet.step (R := R)
      (S := fun s t : LengthState _ => R s.inner t.inner ∧ s.expected = t.expected ∧ s.remaining = t.remaining)
      (h.decode h1 (b.take (min b.length r)) (Eos.withRemainingBytes (.finite (r - min b.length r))))
      (w := fun i => ⟨i, x, r⟩) (w' := fun i => ⟨i, x, r⟩)
      (k := fun size i => if r < size then (.panic, ⟨i, x, r⟩) else (.ok size, ⟨i, x, r - size⟩))
      (k' := fun size i => if r < size then (.panic, ⟨i, x, r⟩) else (.ok size, ⟨i, x, r - size⟩))
      (fun _ _ h => ⟨h, rfl, rfl⟩)
      (fun _ _ _ h => Meet.ite _ (.mk ⟨h, rfl, rfl⟩) (.mk ⟨h, rfl, rfl⟩))
    cases e.remainingBytes.toU64 with
    | none => exact go
    | some k => exact Meet.ite _ (.mk ⟨h1, rfl, rfl⟩) (Meet.ite _ (.mk ⟨h1, rfl, rfl⟩) go)
  finish := by
    rintro ⟨s, x, r⟩ ⟨t, x', r'⟩ ⟨h1, h2, h3⟩
    simp only at h1 h2 h3
    subst h2 h3
    exact Meet.ite _ (Meet.step (h.finish h1) (fun _ _ h => ⟨h, rfl, rfl⟩) fun _ _ _ h => .mk ⟨h, rfl, rfl⟩)
      (.mk ⟨h1, rfl, rfl⟩)

theorem sim_maxBytes {D : Decoder σ α} {D' : Decoder τ α} {R} (h : Sim D D' R) :
    Sim (maxBytesDecoder D) (maxBytesDecoder D')
      (fun s t => R s.inner t.inner ∧ s.consumed = t.consumed ∧ s.max = t.max) where
  idle := by rintro ⟨s, x, r⟩ ⟨t, x', r'⟩ ⟨h1, h2, h3⟩; exact h.idle h1
  req := by rintro ⟨s, x, r⟩ ⟨t, x', r'⟩ ⟨h1, h2, h3⟩; exact h.req h1
  decode := by
    rintro ⟨s, c, m⟩ ⟨t, c', m'⟩ ⟨h1, h2, h3⟩ b e
    simp only at h1 h2 h3
    subst h2 h3
    simp only [maxBytesDecoder]
    have go := Meet.step (R := R)
      (S := fun s t : MaxBytesState _ => R s.inner t.inner ∧ s.consumed = t.consumed ∧ s.max = t.max)
      (h.decode h1 b e)
      (w := fun i => ⟨i, c, m⟩) (w' := fun i => ⟨i, c, m⟩)
      (k := fun size i => (Res.ok size, ⟨i, c + size, m⟩)) (k' := fun size i => (Res.ok size, ⟨i, c + size, m⟩))
      (fun _ _ h => ⟨h, rfl, rfl⟩) (fun _ _ _ h => .mk ⟨h, rfl, rfl⟩)
    cases e.remainingBytes with
    | infinite => exact .mk ⟨h1, rfl, rfl⟩
    | unknown => exact Meet.ite _ (.mk ⟨h1, rfl, rfl⟩) (Meet.ite _ go (.mk ⟨h1, rfl, rfl⟩))
    | finite k =>
      exact Meet.ite _ (.mk ⟨h1, rfl, rfl⟩) (Meet.ite _ (.mk ⟨h1, rfl, rfl⟩) (Meet.ite _ go (.mk ⟨h1, rfl, rfl⟩)))
  finish := by
    rintro ⟨s, c, m⟩ ⟨t, c', m'⟩ ⟨h1, h2, h3⟩
    simp only at h1 h2 h3
    subst h2 h3
    exact Meet.step (h.finish h1) (fun _ _ h => ⟨h, rfl, rfl⟩) fun _ _ _ h => .mk ⟨h, rfl, rfl⟩

theorem sim_slice {D : Decoder σ α} {D' : Decoder τ α} {R} (h : Sim D D' R) :
    Sim (sliceDecoder D) (sliceDecoder D') (fun s t => R s.inner t.inner ∧ s.consumable = t.consumable) where
  idle := by rintro ⟨s, x⟩ ⟨t, x'⟩ ⟨h1, h2⟩; exact h.idle h1
  req := by rintro ⟨s, x⟩ ⟨t, x'⟩ ⟨h1, h2⟩; exact h.req h1
  decode := by
    rintro ⟨s, x⟩ ⟨t, x'⟩ ⟨h1, h2⟩ b e
    simp only at h1 h2
    subst h2
    simp only [sliceDecoder]
    cases e.back (b.length - min b.length x) with
    | ok e' =>
      exact Meet.step (h.decode h1 _ _) (fun _ _ h => ⟨h, rfl⟩) fun _ _ _ h =>
        Meet.ite _ (.mk ⟨h, rfl⟩) (.mk ⟨h, rfl⟩)
    | _ => exact .mk ⟨h1, rfl⟩
  finish := by
    rintro ⟨s, x⟩ ⟨t, x'⟩ ⟨h1, h2⟩
    simp only at h1 h2
    subst h2
    exact Meet.step (h.finish h1) (fun _ _ h => ⟨h, rfl⟩) fun _ _ _ h => .mk ⟨h, rfl⟩

/-! ## `Peekable`, `MaybeEos` -/

theorem sim_peekable {D : Decoder σ α} {D' : Decoder τ α} {R} (h : Sim D D' R) :
    Sim (peekableDecoder D) (peekableDecoder D') (fun s t => R s.inner t.inner ∧ s.item = t.item) where
  idle := by rintro ⟨s, x⟩ ⟨t, x'⟩ ⟨h1, h2⟩; simp only at h2; simp only [peekableDecoder, h2]
  req := by rintro ⟨s, x⟩ ⟨t, x'⟩ ⟨h1, h2⟩; simp only at h1 h2; simp only [peekableDecoder, h2, h.req h1]
  decode := by
    rintro ⟨s, x⟩ ⟨t, x'⟩ ⟨h1, h2⟩ b e
    simp only at h1 h2
    subst h2
    refine Meet.ite _ (Meet.step (h.decode h1 b e) (fun _ _ h => ⟨h, rfl⟩) fun _ i j hij => ?_) (.mk ⟨h1, rfl⟩)
    rw [h.idle hij]
    exact Meet.ite _ (Meet.step (h.finish hij) (fun _ _ h => ⟨h, rfl⟩) fun _ _ _ h => .mk ⟨h, rfl⟩) (.mk ⟨hij, rfl⟩)
  finish := by
    rintro ⟨s, x⟩ ⟨t, x'⟩ ⟨h1, h2⟩
    simp only at h1 h2
    subst h2
    cases x <;> exact .mk ⟨h1, rfl⟩

theorem sim_maybeEos {D : Decoder σ α} {D' : Decoder τ α} {R} (h : Sim D D' R) :
    Sim (maybeEosDecoder D) (maybeEosDecoder D') (fun s t => R s.inner t.inner ∧ s.started = t.started) where
  idle := by rintro ⟨s, x⟩ ⟨t, x'⟩ ⟨h1, h2⟩; exact h.idle h1
  req := by rintro ⟨s, x⟩ ⟨t, x'⟩ ⟨h1, h2⟩; exact h.req h1
  decode := by
    rintro ⟨s, x⟩ ⟨t, x'⟩ ⟨h1, h2⟩ b e
    simp only at h1 h2
    subst h2
    exact Meet.step (h.decode h1 _ _) (fun _ _ h => ⟨h, rfl⟩) fun _ _ _ h => .mk ⟨h, rfl⟩
  finish := by
    rintro ⟨s, x⟩ ⟨t, x'⟩ ⟨h1, h2⟩
    exact Meet.step (h.finish h1) (fun _ _ h => ⟨h, rfl⟩) fun _ _ _ h => .mk ⟨h, rfl⟩

/-! ## `bytecodec_try_decode!`, pairs, `AndThen` -/

/-- Two exits of the macros that agree, with related states. -/
inductive MeetF {ω : Type} (R : σ → τ → Prop) : Flow ω σ → Flow ω τ → Prop
  | next (o : ω) {s : σ} {t : τ} : R s t → MeetF R (.next o s) (.next o t)
  | ret (r : Res ω) {s : σ} {t : τ} : R s t → MeetF R (.ret r s) (.ret r t)

theorem Sim.tryDecode {D : Decoder σ α} {D' : Decoder τ α} {R} (h : Sim D D' R) {s : σ} {t : τ} (hr : R s t) (o b e) :
    MeetF R (tryDecode D s o b e) (tryDecode D' t o b e) := by
  unfold Bytecodec.tryDecode
  rw [← h.idle hr]
  split
  · exact .next _ hr
  · split
    · exact .ret _ hr
    · obtain ⟨r, s', t', h1, h2, hr'⟩ := (h.decode hr (b.drop o) e).elim
      rw [h1, h2]
      cases r with
      | ok n =>
        simp only
        rw [← h.idle hr']
        split
        · exact .next _ hr'
        · exact .ret _ hr'
      | _ => exact .ret _ hr'

theorem sim_pair {σ0 τ0 α0 σ1 τ1 α1 : Type} {D0 : Decoder σ0 α0} {D0' : Decoder τ0 α0} {D1 : Decoder σ1 α1}
    {D1' : Decoder τ1 α1} {R0 R1} (h0 : Sim D0 D0' R0) (h1 : Sim D1 D1' R1) :
    Sim (tupleDecoder2 D0 D1) (tupleDecoder2 D0' D1') (fun s t => R0 s.1 t.1 ∧ R1 s.2 t.2) where
  idle := by rintro ⟨s, x⟩ ⟨t, x'⟩ ⟨r0, r1⟩; simp only [tupleDecoder2, h0.idle r0, h1.idle r1]
  req := by rintro ⟨s, x⟩ ⟨t, x'⟩ ⟨r0, r1⟩; simp only [tupleDecoder2, h0.req r0, h1.req r1]
  decode := by
    rintro ⟨s0, s1⟩ ⟨t0, t1⟩ ⟨r0, r1⟩ b e
    simp only at r0 r1
    simp only [tupleDecoder2]
    have a := h0.tryDecode r0 0 b e
    generalize tryDecode D0 s0 0 b e = p at a
    generalize tryDecode D0' t0 0 b e = q at a
    cases a with
    | ret r hr => exact .mk ⟨hr, r1⟩
    | next o hr =>
      simp only
      have a := h1.tryDecode r1 o b e
      generalize tryDecode D1 s1 o b e = p at a
      generalize tryDecode D1' t1 o b e = q at a
      cases a with
      | ret r hr' => exact .mk ⟨hr, hr'⟩
      | next o hr' => exact .mk ⟨hr, hr'⟩
  finish := by
    rintro ⟨s0, s1⟩ ⟨t0, t1⟩ ⟨r0, r1⟩
    exact Meet.step (h0.finish r0) (fun _ _ h => ⟨h, r1⟩) fun _ _ _ h =>
      Meet.step (h1.finish r1) (fun _ _ h' => ⟨h, h'⟩) fun _ _ _ h' => .mk ⟨h, h'⟩

/-- Related second parts of `and_then`. -/
inductive MeetO (R : σ → τ → Prop) : Option σ → Option τ → Prop
  | none : MeetO R none none
  | some {s : σ} {t : τ} : R s t → MeetO R (some s) (some t)

theorem sim_andThen {σ0 τ0 α0 σ1 τ1 α1 : Type} {D0 : Decoder σ0 α0} {D0' : Decoder τ0 α0} {D1 : Decoder σ1 α1}
    {D1' : Decoder τ1 α1} {R0 R1} {f : α0 → σ1} {f' : α0 → τ1} (h0 : Sim D0 D0' R0) (h1 : Sim D1 D1' R1)
    (hf : ∀ x, R1 (f x) (f' x)) :
    Sim (andThenDecoder D0 D1 f) (andThenDecoder D0' D1' f') (fun s t => R0 s.1 t.1 ∧ MeetO R1 s.2 t.2) where
  idle := by
    rintro ⟨s, x⟩ ⟨t, x'⟩ ⟨r0, r1⟩
    simp only at r1
    cases r1 with
    | none => rfl
    | some hr => exact h1.idle hr
  req := by
    rintro ⟨s, x⟩ ⟨t, x'⟩ ⟨r0, r1⟩
    simp only at r1
    cases r1 with
    | none => exact h0.req r0
    | some hr => exact h1.req hr
  decode := by
    rintro ⟨s0, s1⟩ ⟨t0, t1⟩ ⟨r0, r1⟩ b e
    simp only at r0 r1
    have second : ∀ {u0 v0 u1 v1} (o : Nat), R0 u0 v0 → R1 u1 v1 →
        Meet (fun s t => R0 s.1 t.1 ∧ MeetO R1 s.2 t.2)
          (match tryDecode D1 u1 o b e with
            | .ret r s1' => (r, (u0, some s1'))
            | .next offset s1' => (.ok offset, (u0, some s1')))
          (match tryDecode D1' v1 o b e with
            | .ret r s1' => (r, (v0, some s1'))
            | .next offset s1' => (.ok offset, (v0, some s1'))) := by
      intro u0 v0 u1 v1 o q0 q1
      have a := h1.tryDecode q1 o b e
      generalize tryDecode D1 u1 o b e = p at a
      generalize tryDecode D1' v1 o b e = q at a
      cases a with
      | ret r hr => exact .mk ⟨q0, .some hr⟩
      | next o hr => exact .mk ⟨q0, .some hr⟩
    simp only [andThenDecoder]
    cases r1 with
    | some hr => exact second 0 r0 hr
    | none =>
      simp only
      have a := h0.tryDecode r0 0 b e
      generalize tryDecode D0 s0 0 b e = p at a
      generalize tryDecode D0' t0 0 b e = q at a
      cases a with
      | ret r hr => exact .mk ⟨hr, .none⟩
      | next o hr =>
        exact Meet.step (h0.finish hr) (fun _ _ h => ⟨h, .none⟩) fun x _ _ h => second o h (hf x)
  finish := by
    rintro ⟨s0, s1⟩ ⟨t0, t1⟩ ⟨r0, r1⟩
    simp only at r0 r1
    cases r1 with
    | none => exact .mk ⟨r0, .none⟩
    | some hr => exact ⟨(h1.finish hr).1, r0, .none⟩

/-! ## `Collect`, `CollectN` -/

/-- Two exits of the loop of `collectn` that agree. -/
inductive MeetN (R : σ → τ → Prop) : LoopExitN σ α → LoopExitN τ α → Prop
  | done (o : Nat) {s : σ} {t : τ} (items : List α) (n : Nat) : R s t → MeetN R (.done o s items n) (.done o t items n)
  | ret (r : Res Nat) {s : σ} {t : τ} (items : List α) (n : Nat) : R s t →
      MeetN R (.ret r s items n) (.ret r t items n)

theorem Sim.collectNLoop {D : Decoder σ α} {D' : Decoder τ α} {R} (h : Sim D D' R) (b : Bytes) (e : Eos) :
    ∀ (n o : Nat) (items : List α) {s : σ} {t : τ}, R s t →
      MeetN R (collectNLoop D b e n o s items) (collectNLoop D' b e n o t items) := by
  intro n
  induction n with
  | zero => intro o items s t hr; exact .done _ _ _ hr
  | succ n ih =>
    intro o items s t hr
    simp only [Bytecodec.collectNLoop]
    split
    · have a := h.tryDecode hr o b e
      generalize Bytecodec.tryDecode D s o b e = p at a
      generalize Bytecodec.tryDecode D' t o b e = q at a
      cases a with
      | ret r hr' => exact .ret _ _ _ hr'
      | next o' hr' =>
        simp only
        obtain ⟨r, u, v, h1, h2, h3⟩ := (h.finish hr').elim
        rw [h1, h2]
        cases r with
        | ok x => exact ih _ _ h3
        | _ => exact .ret _ _ _ h3
    · exact .done _ _ _ hr

theorem sim_collectN {D : Decoder σ α} {D' : Decoder τ α} {R} (h : Sim D D' R) : Sim (collectNDecoder D) (collectNDecoder D')
    (fun s t => R s.inner t.inner ∧ s.remaining = t.remaining ∧ s.items = t.items) where
  idle := by rintro ⟨s, sr, si⟩ ⟨t, tr, ti⟩ ⟨h1, h2, h3⟩; simp only at h2; subst h2; rfl
  req := by
    rintro ⟨s, sr, si⟩ ⟨t, tr, ti⟩ ⟨h1, h2, h3⟩
    simp only at h1 h2
    subst h2
    simp only [collectNDecoder, h.req h1]
  decode := by
    rintro ⟨s, sr, si⟩ ⟨t, tr, ti⟩ ⟨h1, h2, h3⟩ b e
    simp only at h1 h2 h3
    subst h2 h3
    simp only [collectNDecoder]
    have a := h.collectNLoop b e sr 0 si h1
    generalize collectNLoop D b e sr 0 s si = p at a
    generalize collectNLoop D' b e sr 0 t si = q at a
    cases a with
    | ret r items n hr => exact ⟨rfl, hr, rfl, rfl⟩
    | done o items n hr => exact Meet.ite _ (.mk ⟨hr, rfl, rfl⟩) (.mk ⟨hr, rfl, rfl⟩)
  finish := by
    rintro ⟨s, sr, si⟩ ⟨t, tr, ti⟩ ⟨h1, h2, h3⟩
    simp only at h1 h2 h3
    subst h2 h3
    exact Meet.ite _ (.mk ⟨h1, rfl, rfl⟩) (.mk ⟨h1, rfl, rfl⟩)

/-- Two exits of the loop of `collect` that agree. -/
inductive MeetL (R : σ → τ → Prop) : LoopExit σ α → LoopExit τ α → Prop
  | done (o : Nat) {s : σ} {t : τ} (items : List α) : R s t → MeetL R (.done o s items) (.done o t items)
  | ret (r : Res Nat) {s : σ} {t : τ} (items : List α) : R s t → MeetL R (.ret r s items) (.ret r t items)

theorem Sim.collectLoop_some {D : Decoder σ α} {D' : Decoder τ α} {R} (h : Sim D D' R) (b : Bytes) (e : Eos) :
    ∀ (o : Nat) (s : σ) (items : List α) (x : LoopExit σ α), collectLoop D b e o s items = some x →
      ∀ t, R s t → ∃ y, collectLoop D' b e o t items = some y ∧ MeetL R x y := by
  apply collectLoop.partial_correctness D b e
    (motive := fun o s items x => ∀ t, R s t → ∃ y, collectLoop D' b e o t items = some y ∧ MeetL R x y)
  intro loop ih o s items x heq t hr
  rw [collectLoop]
  split at heq
  · next hlt =>
    rw [if_pos hlt]
    have a := h.tryDecode hr o b e
    generalize Bytecodec.tryDecode D s o b e = p at a heq
    generalize Bytecodec.tryDecode D' t o b e = q at a
    cases a with
    | ret r hr' => cases heq; exact ⟨_, rfl, .ret _ _ hr'⟩
    | next o' hr' =>
      simp only at heq ⊢
      obtain ⟨r, u, v, h1, h2, h3⟩ := (h.finish hr').elim
      rw [h1] at heq
      rw [h2]
      cases r with
      | ok x => exact ih _ _ _ _ heq _ h3
      | _ => cases heq; exact ⟨_, rfl, .ret _ _ h3⟩
  · next hlt =>
    rw [if_neg hlt]
    cases heq
    exact ⟨_, rfl, .done _ _ hr⟩

theorem Sim.flip {D : Decoder σ α} {D' : Decoder τ α} {R} (h : Sim D D' R) : Sim D' D (fun t s => R s t) where
  idle := fun hr => (h.idle hr).symm
  req := fun hr => (h.req hr).symm
  decode := fun hr b e => ⟨(h.decode hr b e).1.symm, (h.decode hr b e).2⟩
  finish := fun hr => ⟨(h.finish hr).1.symm, (h.finish hr).2⟩

theorem sim_collect {D : Decoder σ α} {D' : Decoder τ α} {R} (h : Sim D D' R) : Sim (collectDecoder D) (collectDecoder D')
    (fun s t => R s.inner t.inner ∧ s.items = t.items ∧ s.eos = t.eos) where
  idle := by rintro ⟨s, si, se⟩ ⟨t, ti, te⟩ ⟨h1, h2, h3⟩; exact h3
  req := by
    rintro ⟨s, si, se⟩ ⟨t, ti, te⟩ ⟨h1, h2, h3⟩
    simp only at h1 h3
    subst h3
    simp only [collectDecoder, h.req h1]
  decode := by
    rintro ⟨s, si, se⟩ ⟨t, ti, te⟩ ⟨h1, h2, h3⟩ b e
    simp only at h1 h2 h3
    subst h2 h3
    refine Meet.ite _ (.mk ⟨h1, rfl, rfl⟩) ?_
    simp only
    cases hp : collectLoop D b e 0 s si with
    | some x =>
      obtain ⟨y, hy, a⟩ := h.collectLoop_some b e _ _ _ _ hp t h1
      rw [hy]
      cases a with
      | done o items hr => exact .mk ⟨hr, rfl, rfl⟩
      | ret r items hr => exact .mk ⟨hr, rfl, rfl⟩
    | none =>
      cases hq : collectLoop D' b e 0 t si with
      | none => exact .mk ⟨h1, rfl, rfl⟩
      | some y =>
        obtain ⟨x, hx, _⟩ := h.flip.collectLoop_some b e _ _ _ _ hq s h1
        rw [hp] at hx
        cases hx
  finish := by
    rintro ⟨s, si, se⟩ ⟨t, ti, te⟩ ⟨h1, h2, h3⟩
    simp only at h1 h2 h3
    subst h2 h3
    exact Meet.ite _ (.mk ⟨h1, rfl, rfl⟩) (.mk ⟨h1, rfl, rfl⟩)

theorem sim_captured {ε ε' : Type} {F : ε → Decoder σ α} {F' : ε' → Decoder τ α} {x : ε} {x' : ε'}
    {R : σ → τ → Prop} (h : Sim (F x) (F' x') R) :
    Sim (capturedDecoder F) (capturedDecoder F') fun s t => s.1 = x ∧ t.1 = x' ∧ R s.2 t.2 where
  idle := by rintro ⟨_, s⟩ ⟨_, t⟩ ⟨rfl, rfl, hr⟩; exact h.idle hr
  req := by rintro ⟨_, s⟩ ⟨_, t⟩ ⟨rfl, rfl, hr⟩; exact h.req hr
  decode := by
    rintro ⟨_, s⟩ ⟨_, t⟩ ⟨rfl, rfl, hr⟩ b e
    obtain ⟨h1, h2⟩ := h.decode hr b e
    exact ⟨h1, rfl, rfl, h2⟩
  finish := by
    rintro ⟨_, s⟩ ⟨_, t⟩ ⟨rfl, rfl, hr⟩
    obtain ⟨h1, h2⟩ := h.finish hr
    exact ⟨h1, rfl, rfl, h2⟩

/-- The decoder under a captured value answers as that decoder. -/
theorem sim_capture {ε : Type} (F : ε → Decoder σ α) (x : ε) :
    Sim (capturedDecoder F) (F x) fun s t => s = (x, t) where
  idle := by rintro _ t rfl; rfl
  req := by rintro _ t rfl; rfl
  decode := by rintro _ t rfl b e; exact ⟨rfl, rfl⟩
  finish := by rintro _ t rfl; exact ⟨rfl, rfl⟩

/-! ## Compositions -/

theorem exchanged_alike {D : Decoder σ α} {s : σ} {D' : Decoder τ α} {t : τ} (h : Exchanged D s D' t) :
    Alike D s D' t := by
  induction h with
  | part h => exact h
  | utf8 _ ih => exact (sim_utf8 (sim_alike _ _)).alike ih
  | map f _ ih => exact (sim_map (sim_alike _ _) f).alike ih
  | tryMap f _ ih => exact (sim_tryMap (sim_alike _ _) f).alike ih
  | mapErr f _ ih => exact (sim_mapErr (sim_alike _ _) f).alike ih
  | omittable d _ ih => exact (sim_omittable (sim_alike _ _)).alike ⟨ih, rfl⟩
  | length n _ ih => exact (sim_length (sim_alike _ _)).alike ⟨ih, rfl, rfl⟩
  | maxBytes n _ ih => exact (sim_maxBytes (sim_alike _ _)).alike ⟨ih, rfl, rfl⟩
  | slice n _ ih => exact (sim_slice (sim_alike _ _)).alike ⟨ih, rfl⟩
  | peekable _ ih => exact (sim_peekable (sim_alike _ _)).alike ⟨ih, rfl⟩
  | maybeEos _ ih => exact (sim_maybeEos (sim_alike _ _)).alike ⟨ih, rfl⟩
  | collect _ ih => exact (sim_collect (sim_alike _ _)).alike ⟨ih, rfl, rfl⟩
  | collectN n _ ih => exact (sim_collectN (sim_alike _ _)).alike ⟨ih, rfl, rfl⟩
  | pair _ _ ih0 ih1 => exact (sim_pair (sim_alike _ _) (sim_alike _ _)).alike ⟨ih0, ih1⟩
  | andThen f f' _ _ ih0 ih1 => exact (sim_andThen (sim_alike _ _) (sim_alike _ _) ih1).alike ⟨ih0, .none⟩
  | captured F F' x _ ih => exact (sim_captured (sim_alike _ _)).alike ⟨rfl, rfl, ih⟩

end Bytecodec
