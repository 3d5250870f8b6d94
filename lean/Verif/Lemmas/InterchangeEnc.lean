import Verif.Lemmas.Interchange
/-!
# Lemmas: encoders that are alike can be exchanged in every composition
-/
namespace Bytecodec

open Spec

variable {σ τ α β : Type}

/-- A bisimulation between two encoders. -/
structure SimE (E : Encoder σ α) (E' : Encoder τ α) (R : σ → τ → Prop) : Prop where
  idle : ∀ {s t}, R s t → E.isIdle s = E'.isIdle t
  req : ∀ {s t}, R s t → E.requiring s = E'.requiring t
  encode : ∀ {s t}, R s t → ∀ cap e, Meet R (E.encode s cap e) (E'.encode t cap e)
  start : ∀ {s t}, R s t → ∀ x, Meet R (E.start s x) (E'.start t x)

theorem SimE.alike {E : Encoder σ α} {E' : Encoder τ α} {R : σ → τ → Prop} (h : SimE E E' R) {s : σ} {t : τ}
    (hr : R s t) : AlikeE E s E' t := by
  refine ⟨h.idle hr, h.req hr, fun calls => ?_⟩
  induction calls generalizing s t with
  | nil => rfl
  | cons c cs ih =>
    have key : ecallAnswer E s c = ecallAnswer E' t c ∧ R (ecallState E s c) (ecallState E' t c) := by
      cases c with
      | start x =>
        obtain ⟨h1, h2⟩ := h.start hr x
        exact ⟨by simp only [ecallAnswer, h1], h2⟩
      | encode cap e =>
        obtain ⟨h1, h2⟩ := h.encode hr cap e
        exact ⟨by simp only [ecallAnswer, h1], h2⟩
    simp only [Spec.observeE]
    rw [key.1, h.idle key.2, h.req key.2, ih key.2]

/-- States that are alike. -/
def AlikeStatesE (E : Encoder σ α) (E' : Encoder τ α) (s : σ) (t : τ) : Prop := AlikeE E s E' t

theorem simE_alike (E : Encoder σ α) (E' : Encoder τ α) : SimE E E' (AlikeStatesE E E') where
  idle := fun h => h.1
  req := fun h => h.2.1
  encode := by
    intro s t h cap e
    have h1 : ∀ cs, observeE E s (.encode cap e :: cs) = observeE E' t (.encode cap e :: cs) := fun cs => h.2.2 _
    simp only [observeE] at h1
    have h2 := h1 []
    injection h2 with h3 _
    injection h3 with h4 h5 h6
    injection h4 with h7
    refine ⟨h7, h5, h6, fun calls => ?_⟩
    have h8 := h1 calls
    injection h8
  start := by
    intro s t h x
    have h1 : ∀ cs, observeE E s (.start x :: cs) = observeE E' t (.start x :: cs) := fun cs => h.2.2 _
    simp only [observeE] at h1
    have h2 := h1 []
    injection h2 with h3 _
    injection h3 with h4 h5 h6
    injection h4 with h7
    refine ⟨h7, h5, h6, fun calls => ?_⟩
    have h8 := h1 calls
    injection h8

theorem Spec.AlikeE.refl (E : Encoder σ α) (s : σ) : AlikeE E s E s := ⟨rfl, rfl, fun _ => rfl⟩

theorem Spec.AlikeE.symm {E : Encoder σ α} {s : σ} {E' : Encoder τ α} {t : τ} (h : AlikeE E s E' t) :
    AlikeE E' t E s :=
  ⟨h.1.symm, h.2.1.symm, fun c => (h.2.2 c).symm⟩

theorem Spec.AlikeE.trans {υ : Type} {E : Encoder σ α} {s : σ} {E' : Encoder τ α} {t : τ} {E'' : Encoder υ α} {u : υ}
    (h : AlikeE E s E' t) (h' : AlikeE E' t E'' u) : AlikeE E s E'' u :=
  ⟨h.1.trans h'.1, h.2.1.trans h'.2.1, fun c => (h.2.2 c).trans (h'.2.2 c)⟩

theorem SimE.flip {E : Encoder σ α} {E' : Encoder τ α} {R} (h : SimE E E' R) : SimE E' E (fun t s => R s t) where
  idle := fun hr => (h.idle hr).symm
  req := fun hr => (h.req hr).symm
  encode := fun hr b e => ⟨(h.encode hr b e).1.symm, (h.encode hr b e).2⟩
  start := fun hr x => ⟨(h.start hr x).1.symm, (h.start hr x).2⟩

/-! ## Mapping combinators -/

theorem simE_mapErr {E : Encoder σ α} {E' : Encoder τ α} {R} (h : SimE E E' R) (f : ErrorKind → ErrorKind) :
    SimE (mapErrEncoder E f) (mapErrEncoder E' f) R where
  idle := h.idle
  req := h.req
  encode := fun hr cap e => ⟨by simp only [mapErrEncoder, (h.encode hr cap e).1], (h.encode hr cap e).2⟩
  start := fun hr x => ⟨by simp only [mapErrEncoder, (h.start hr x).1], (h.start hr x).2⟩

theorem simE_mapFrom {E : Encoder σ α} {E' : Encoder τ α} {R} (h : SimE E E' R) (f : β → α) :
    SimE (mapFromEncoder E f) (mapFromEncoder E' f) R where
  idle := h.idle
  req := h.req
  encode := h.encode
  start := fun hr x => h.start hr (f x)

theorem simE_tryMapFrom {E : Encoder σ α} {E' : Encoder τ α} {R} (h : SimE E E' R) (f : β → Except ErrorKind α) :
    SimE (tryMapFromEncoder E f) (tryMapFromEncoder E' f) R where
  idle := h.idle
  req := h.req
  encode := h.encode
  start := fun hr x => by
    simp only [tryMapFromEncoder]
    cases f x with
    | ok y => exact h.start hr y
    | error k => exact ⟨rfl, hr⟩

theorem simE_optional {E : Encoder σ α} {E' : Encoder τ α} {R} (h : SimE E E' R) :
    SimE (optionalEncoder E) (optionalEncoder E') R where
  idle := h.idle
  req := h.req
  encode := h.encode
  start := fun hr x => by
    cases x with
    | some y => exact h.start hr y
    | none => exact ⟨rfl, hr⟩

/-! ## Limits -/

theorem simE_maxBytes {E : Encoder σ α} {E' : Encoder τ α} {R} (h : SimE E E' R) :
    SimE (maxBytesEncoder E) (maxBytesEncoder E')
      (fun s t => R s.inner t.inner ∧ s.consumed = t.consumed ∧ s.max = t.max) where
  idle := by rintro ⟨s, sx, sr⟩ ⟨t, tx, tr⟩ ⟨h1, h2, h3⟩; exact h.idle h1
  req := by rintro ⟨s, sx, sr⟩ ⟨t, tx, tr⟩ ⟨h1, h2, h3⟩; exact h.req h1
  encode := by
    rintro ⟨s, sx, sr⟩ ⟨t, tx, tr⟩ ⟨h1, h2, h3⟩ cap e
    simp only at h1 h2 h3
    subst h2 h3
    refine Meet.step (h.encode h1 cap e) (fun _ _ h => ⟨h, rfl, rfl⟩) fun bs i j hij => ?_
    simp only [h.idle hij]
    exact Meet.ite _ (.mk ⟨hij, rfl, rfl⟩) (Meet.ite _ (.mk ⟨hij, rfl, rfl⟩) (.mk ⟨hij, rfl, rfl⟩))
  start := by
    rintro ⟨s, sx, sr⟩ ⟨t, tx, tr⟩ ⟨h1, h2, h3⟩ x
    simp only at h1 h2 h3
    subst h2 h3
    exact Meet.step (h.start h1 x) (fun _ _ h => ⟨h, rfl, rfl⟩) fun _ _ _ h => .mk ⟨h, rfl, rfl⟩

theorem simE_length {E : Encoder σ α} {E' : Encoder τ α} {R} (h : SimE E E' R) :
    SimE (lengthEncoder E).toEncoder (lengthEncoder E').toEncoder
      (fun s t => R s.inner t.inner ∧ s.expected = t.expected ∧ s.remaining = t.remaining) where
  idle := by rintro ⟨s, sx, sr⟩ ⟨t, tx, tr⟩ ⟨h1, h2, h3⟩; simp only at h3; subst h3; rfl
  req := by rintro ⟨s, sx, sr⟩ ⟨t, tx, tr⟩ ⟨h1, h2, h3⟩; simp only at h3; subst h3; rfl
  encode := by
    rintro ⟨s, sx, sr⟩ ⟨t, tx, tr⟩ ⟨h1, h2, h3⟩ cap e
    simp only at h1 h2 h3
    subst h2 h3
    refine Meet.ite _ (.mk ⟨h1, rfl, rfl⟩) ?_
    refine Meet.step (h.encode h1 _ _) (fun _ _ h => ⟨h, rfl, rfl⟩) fun bs i j hij => ?_
    simp only [h.idle hij]
    exact Meet.ite _ (.mk ⟨hij, rfl, rfl⟩) (Meet.ite _ (.mk ⟨hij, rfl, rfl⟩) (.mk ⟨hij, rfl, rfl⟩))
  start := by
    rintro ⟨s, sx, sr⟩ ⟨t, tx, tr⟩ ⟨h1, h2, h3⟩ x
    simp only at h1 h2 h3
    subst h2 h3
    exact Meet.ite _ (Meet.step (h.start h1 x) (fun _ _ h => ⟨h, rfl, rfl⟩) fun _ _ _ h => .mk ⟨h, rfl, rfl⟩)
      (.mk ⟨h1, rfl, rfl⟩)

theorem simE_slice {E : Encoder σ α} {E' : Encoder τ α} {R} (h : SimE E E' R) :
    SimE (sliceEncoder E) (sliceEncoder E') (fun s t => R s.inner t.inner ∧ s.consumable = t.consumable) where
  idle := by rintro ⟨s, x⟩ ⟨t, x'⟩ ⟨h1, h2⟩; exact h.idle h1
  req := by rintro ⟨s, x⟩ ⟨t, x'⟩ ⟨h1, h2⟩; exact h.req h1
  encode := by
    rintro ⟨s, x⟩ ⟨t, x'⟩ ⟨h1, h2⟩ cap e
    simp only at h1 h2
    subst h2
    simp only [sliceEncoder]
    cases e.back (cap - min cap x) with
    | ok e' =>
      exact Meet.step (h.encode h1 _ _) (fun _ _ h => ⟨h, rfl⟩) fun _ _ _ h =>
        Meet.ite _ (.mk ⟨h, rfl⟩) (.mk ⟨h, rfl⟩)
    | _ => exact .mk ⟨h1, rfl⟩
  start := by
    rintro ⟨s, x⟩ ⟨t, x'⟩ ⟨h1, h2⟩ y
    simp only at h1 h2
    subst h2
    exact Meet.step (h.start h1 y) (fun _ _ h => ⟨h, rfl⟩) fun _ _ _ h => .mk ⟨h, rfl⟩

/-! ## `Last` -/

theorem simE_last {E : Encoder σ α} {E' : Encoder τ α} {R} (h : SimE E E' R) :
    SimE (lastEncoder E) (lastEncoder E') (fun s t => R s.inner t.inner ∧ s.item = t.item) where
  idle := by rintro ⟨s, x⟩ ⟨t, x'⟩ ⟨h1, h2⟩; simp only at h1 h2; simp only [lastEncoder, h2, h.idle h1]
  req := by rintro ⟨s, x⟩ ⟨t, x'⟩ ⟨h1, h2⟩; simp only at h1 h2; simp only [lastEncoder, h2, h.req h1]
  encode := by
    rintro ⟨s, x⟩ ⟨t, x'⟩ ⟨h1, h2⟩ cap e
    simp only at h1 h2
    subst h2
    have enc : ∀ (y : Option α) {u : σ} {v : τ}, R u v →
        Meet (fun s t : LastState _ α => R s.inner t.inner ∧ s.item = t.item)
          (Res.step (E.encode u cap e) (fun i => (⟨i, y⟩ : LastState σ α)) fun bs i => (.ok bs, ⟨i, y⟩))
          (Res.step (E'.encode v cap e) (fun i => (⟨i, y⟩ : LastState τ α)) fun bs i => (.ok bs, ⟨i, y⟩)) :=
      fun y _ _ hr => Meet.step (h.encode hr cap e) (fun _ _ h => ⟨h, rfl⟩) fun _ _ _ h => .mk ⟨h, rfl⟩
    simp only [lastEncoder, h.idle h1]
    refine Meet.ite _ ?_ (enc _ h1)
    cases x with
    | none => exact enc _ h1
    | some x => exact Meet.step (h.start h1 x) (fun _ _ h => ⟨h, rfl⟩) fun _ _ _ h => enc _ h
  start := fun _ x => x.elim

/-! ## Pairs -/

theorem SimE.tryEncode {E : Encoder σ α} {E' : Encoder τ α} {R} (h : SimE E E' R) {s : σ} {t : τ} (hr : R s t)
    (out cap e) : MeetF R (tryEncode E s out cap e) (tryEncode E' t out cap e) := by
  unfold Bytecodec.tryEncode
  rw [← h.idle hr]
  split
  · exact .next _ hr
  · split
    · exact .ret _ hr
    · obtain ⟨r, s', t', h1, h2, hr'⟩ := (h.encode hr (cap - out.length) e).elim
      rw [h1, h2]
      cases r with
      | ok n =>
        simp only
        rw [← h.idle hr']
        split
        · exact .next _ hr'
        · exact .ret _ hr'
      | _ => exact .ret _ hr'

theorem simE_pair {σ0 τ0 α0 σ1 τ1 α1 : Type} {E0 : Encoder σ0 α0} {E0' : Encoder τ0 α0} {E1 : Encoder σ1 α1}
    {E1' : Encoder τ1 α1} {R0 R1} (h0 : SimE E0 E0' R0) (h1 : SimE E1 E1' R1) :
    SimE (tupleEncoder2 E0 E1) (tupleEncoder2 E0' E1') (fun s t => R0 s.1 t.1 ∧ R1 s.2 t.2) where
  idle := by rintro ⟨s, x⟩ ⟨t, x'⟩ ⟨r0, r1⟩; simp only [tupleEncoder2, h0.idle r0, h1.idle r1]
  req := by rintro ⟨s, x⟩ ⟨t, x'⟩ ⟨r0, r1⟩; simp only [tupleEncoder2, h0.req r0, h1.req r1]
  encode := by
    rintro ⟨s0, s1⟩ ⟨t0, t1⟩ ⟨r0, r1⟩ cap e
    simp only at r0 r1
    simp only [tupleEncoder2]
    have a := h0.tryEncode r0 [] cap e
    generalize Bytecodec.tryEncode E0 s0 [] cap e = p at a
    generalize Bytecodec.tryEncode E0' t0 [] cap e = q at a
    cases a with
    | ret r hr => exact .mk ⟨hr, r1⟩
    | next o hr =>
      simp only
      have a := h1.tryEncode r1 o cap e
      generalize Bytecodec.tryEncode E1 s1 o cap e = p at a
      generalize Bytecodec.tryEncode E1' t1 o cap e = q at a
      cases a with
      | ret r hr' => exact .mk ⟨hr, hr'⟩
      | next o hr' => exact .mk ⟨hr, hr'⟩
  start := by
    rintro ⟨s0, s1⟩ ⟨t0, t1⟩ ⟨r0, r1⟩ x
    exact Meet.step (h0.start r0 x.1) (fun _ _ h => ⟨h, r1⟩) fun _ _ _ h =>
      Meet.step (h1.start r1 x.2) (fun _ _ h' => ⟨h, h'⟩) fun _ _ _ h' => .mk ⟨h, h'⟩

/-! ## `Repeat` -/

/-- Two ends of the inner loop of `repeat` that agree. -/
inductive MeetS (R : σ → τ → Prop) : Started σ α → Started τ α → Prop
  | busy {s : σ} {t : τ} (rest : List α) : R s t → MeetS R (.busy s rest) (.busy t rest)
  | exhausted {s : σ} {t : τ} : R s t → MeetS R (.exhausted s) (.exhausted t)
  | failed (r : Res Unit) {s : σ} {t : τ} (rest : List α) : R s t → MeetS R (.failed r s rest) (.failed r t rest)

theorem SimE.startNext {E : Encoder σ α} {E' : Encoder τ α} {R} (h : SimE E E' R) : ∀ (xs : List α) {s : σ} {t : τ},
    R s t → MeetS R (startNext E s xs) (startNext E' t xs) := by
  intro xs
  induction xs with
  | nil =>
    intro s t hr
    simp only [Bytecodec.startNext, h.idle hr]
    split
    · exact .exhausted hr
    · exact .busy _ hr
  | cons x xs ih =>
    intro s t hr
    simp only [Bytecodec.startNext, h.idle hr]
    split
    · obtain ⟨r, s', t', h1, h2, hr'⟩ := (h.start hr x).elim
      rw [h1, h2]
      cases r with
      | ok u => exact ih hr'
      | _ => exact .failed _ _ hr'
    · exact .busy _ hr

theorem SimE.repeatLoop {E : Encoder σ α} {E' : Encoder τ α} {R} (h : SimE E E' R) (cap : Nat) (e : Eos) :
    ∀ (k : Nat) (out : Bytes) (items : Option (List α)) {s : σ} {t : τ}, cap + 1 - out.length ≤ k → R s t →
    Meet (fun (s : RepeatState σ α) (t : RepeatState τ α) => R s.inner t.inner ∧ s.items = t.items)
      (repeatLoop E cap e out s items) (repeatLoop E' cap e out t items) := by
  intro k
  induction k with
  | zero =>
    intro out items s t hk hr
    have a := h.startNext (items.getD []) hr
    rw [Bytecodec.repeatLoop, Bytecodec.repeatLoop]
    generalize Bytecodec.startNext E s (items.getD []) = p at a
    generalize Bytecodec.startNext E' t (items.getD []) = q at a
    cases a with
    | exhausted hr' => exact ⟨rfl, hr', rfl⟩
    | failed r rest hr' => exact ⟨rfl, hr', rfl⟩
    | busy rest hr' =>
      simp only
      rw [if_pos (by omega), if_pos (by omega)]
      exact ⟨rfl, hr', rfl⟩
  | succ k ih =>
    intro out items s t hk hr
    have a := h.startNext (items.getD []) hr
    rw [Bytecodec.repeatLoop, Bytecodec.repeatLoop]
    generalize Bytecodec.startNext E s (items.getD []) = p at a
    generalize Bytecodec.startNext E' t (items.getD []) = q at a
    cases a with
    | exhausted hr' => exact ⟨rfl, hr', rfl⟩
    | failed r rest hr' => exact ⟨rfl, hr', rfl⟩
    | @busy s1 t1 rest hr' =>
      simp only
      split
      · exact ⟨rfl, hr', rfl⟩
      · obtain ⟨r, s', t', h1, h2, hr''⟩ := (h.encode hr' (cap - out.length) e).elim
        rw [h1, h2]
        cases r with
        | ok bs =>
          simp only
          split
          · exact ⟨rfl, hr'', rfl⟩
          · exact ih _ _ (by simp only [List.length_append]; omega) hr''
        | _ => exact ⟨rfl, hr'', rfl⟩

theorem simE_repeat {E : Encoder σ α} {E' : Encoder τ α} {R} (h : SimE E E' R) :
    SimE (repeatEncoder E) (repeatEncoder E') (fun s t => R s.inner t.inner ∧ s.items = t.items) where
  idle := by rintro ⟨s, x⟩ ⟨t, x'⟩ ⟨h1, h2⟩; simp only at h2; simp only [repeatEncoder, h2]
  req := by rintro ⟨s, x⟩ ⟨t, x'⟩ ⟨h1, h2⟩; simp only at h2; simp only [repeatEncoder, h2]
  encode := by
    rintro ⟨s, x⟩ ⟨t, x'⟩ ⟨h1, h2⟩ cap e
    simp only at h1 h2
    subst h2
    exact h.repeatLoop cap e _ _ _ (Nat.le_refl _) h1
  start := by
    rintro ⟨s, x⟩ ⟨t, x'⟩ ⟨h1, h2⟩ xs
    simp only at h1 h2
    subst h2
    exact Meet.ite _ (.mk ⟨h1, rfl⟩) (.mk ⟨h1, rfl⟩)

/-! ## `encode_all`, `encode_into_bytes`, `PreEncode` -/

/-- Two results of `encode_all` that agree: the same answer, and the same things written. -/
def MeetW {ω : Type} (R : σ → τ → Prop) (p : Res Unit × σ × ω) (q : Res Unit × τ × ω) : Prop :=
  p.1 = q.1 ∧ R p.2.1 q.2.1 ∧ p.2.2 = q.2.2

theorem SimE.encodeAll_some {ω : Type} {E : Encoder σ α} {E' : Encoder τ α} {R} (h : SimE E E' R) (W : Writer ω) :
    ∀ (s : σ) (w : ω) (x : Res Unit × σ × ω), encodeAll E W s w = some x →
      ∀ t, R s t → ∃ y, encodeAll E' W t w = some y ∧ MeetW R x y := by
  apply encodeAll.partial_correctness E W
    (motive := fun s w x => ∀ t, R s t → ∃ y, encodeAll E' W t w = some y ∧ MeetW R x y)
  intro loop ih s w x heq t hr
  rw [encodeAll, ← h.idle hr]
  split at heq
  · next hi =>
    rw [if_pos hi]
    cases heq
    exact ⟨_, rfl, rfl, hr, rfl⟩
  · next hi =>
    rw [if_neg hi]
    obtain ⟨r, s', t', h1, h2, hr'⟩ := (h.encode hr 1024 (Eos.new false)).elim
    rw [h1] at heq
    rw [h2]
    cases r with
    | ok bs =>
      simp only at heq ⊢
      split at heq
      · next hlt =>
        rw [if_pos hlt]
        cases heq
        exact ⟨_, rfl, rfl, hr', rfl⟩
      · next hlt =>
        rw [if_neg hlt]
        generalize writeAll W w bs = p at heq
        obtain ⟨r, w'⟩ := p
        cases r with
        | ok u =>
          simp only at heq ⊢
          rw [← h.idle hr']
          split at heq
          · next hc =>
            rw [if_pos hc]
            cases heq
            exact ⟨_, rfl, rfl, hr', rfl⟩
          · next hc =>
            rw [if_neg hc]
            exact ih _ _ _ heq _ hr'
        | _ => cases heq; exact ⟨_, rfl, rfl, hr', rfl⟩
    | _ => cases heq; exact ⟨_, rfl, rfl, hr', rfl⟩

theorem SimE.encodeAll_none {ω : Type} {E : Encoder σ α} {E' : Encoder τ α} {R} (h : SimE E E' R) (W : Writer ω)
    {s : σ} {t : τ} {w : ω} (hr : R s t) (hn : encodeAll E W s w = none) : encodeAll E' W t w = none := by
  cases hq : encodeAll E' W t w with
  | none => rfl
  | some y =>
    obtain ⟨x, hx, _⟩ := h.flip.encodeAll_some W _ _ _ hq s hr
    rw [hn] at hx
    cases hx

theorem SimE.encodeIntoBytes {E : Encoder σ α} {E' : Encoder τ α} {R} (h : SimE E E' R) {s : σ} {t : τ} (hr : R s t)
    (x : α) : Meet R (encodeIntoBytes E s x) (encodeIntoBytes E' t x) := by
  refine Meet.step (h.start hr x) (fun _ _ h => h) fun _ i j hij => ?_
  rw [← h.req hij]
  cases E.requiring i with
  | finite size =>
    refine Meet.ite _ (.mk hij) (Meet.step (h.encode hij _ _) (fun _ _ h => h) fun bs u v huv => ?_)
    rw [← h.idle huv]
    exact Meet.ite _ (.mk huv) (.mk huv)
  | infinite => exact .mk hij
  | unknown =>
    simp only
    cases hp : encodeAll E vecWriter i [] with
    | none => rw [h.encodeAll_none vecWriter hij hp]; exact .mk hij
    | some p =>
      obtain ⟨⟨r', t', w'⟩, hq, h1, h2, h3⟩ := h.encodeAll_some vecWriter _ _ _ hp _ hij
      obtain ⟨r, s', w⟩ := p
      simp only at h1 h2 h3
      subst h1 h3
      rw [hq]
      exact Meet.step (.mk h2) (fun _ _ h => h) fun _ _ _ h => .mk h

theorem simE_preEncode {E : Encoder σ α} {E' : Encoder τ α} {R} (h : SimE E E' R) :
    SimE (preEncodeEncoder E).toEncoder (preEncodeEncoder E').toEncoder
      (fun s t => R s.inner t.inner ∧ s.preEncoded = t.preEncoded) where
  idle := by rintro ⟨s, x⟩ ⟨t, x'⟩ ⟨h1, h2⟩; simp only at h2; simp only [preEncodeEncoder, h2]
  req := by rintro ⟨s, x⟩ ⟨t, x'⟩ ⟨h1, h2⟩; simp only at h2; simp only [preEncodeEncoder, h2]
  encode := by
    rintro ⟨s, x⟩ ⟨t, x'⟩ ⟨h1, h2⟩ cap e
    simp only at h1 h2
    subst h2
    refine Meet.step (R := Eq) ⟨rfl, rfl⟩ (fun _ _ h => ⟨h1, h⟩) fun _ u v huv => ?_
    exact .mk ⟨h1, huv⟩
  start := by
    rintro ⟨s, x⟩ ⟨t, x'⟩ ⟨h1, h2⟩ y
    simp only at h1 h2
    subst h2
    refine Meet.step (h.encodeIntoBytes h1 y) (fun _ _ h => ⟨h, rfl⟩) fun b i j hij => ?_
    refine Meet.step (R := Eq) ⟨rfl, rfl⟩ (fun _ _ h => ⟨hij, h⟩) fun _ u v huv => ?_
    exact .mk ⟨hij, huv⟩

/-! ## Compositions -/

theorem exchangedE_alike {E : Encoder σ α} {s : σ} {E' : Encoder τ α} {t : τ} (h : ExchangedE E s E' t) :
    AlikeE E s E' t := by
  induction h with
  | part h => exact h
  | mapErr f _ ih => exact (simE_mapErr (simE_alike _ _) f).alike ih
  | mapFrom f _ ih => exact (simE_mapFrom (simE_alike _ _) f).alike ih
  | tryMapFrom f _ ih => exact (simE_tryMapFrom (simE_alike _ _) f).alike ih
  | «repeat» _ ih => exact (simE_repeat (simE_alike _ _)).alike ⟨ih, rfl⟩
  | optional _ ih => exact (simE_optional (simE_alike _ _)).alike ih
  | length n _ ih => exact (simE_length (simE_alike _ _)).alike ⟨ih, rfl, rfl⟩
  | maxBytes n _ ih => exact (simE_maxBytes (simE_alike _ _)).alike ⟨ih, rfl, rfl⟩
  | preEncode _ ih => exact (simE_preEncode (simE_alike _ _)).alike ⟨ih, rfl⟩
  | slice n _ ih => exact (simE_slice (simE_alike _ _)).alike ⟨ih, rfl⟩
  | last x _ ih => exact (simE_last (simE_alike _ _)).alike ⟨ih, rfl⟩
  | pair _ _ ih0 ih1 => exact (simE_pair (simE_alike _ _) (simE_alike _ _)).alike ⟨ih0, ih1⟩

/-! ## Callers of decoders -/

theorem Sim.decodeFromBytes {D : Decoder σ α} {D' : Decoder τ α} {R} (h : Sim D D' R) {s : σ} {t : τ} (hr : R s t)
    (b : Bytes) : Meet R (decodeFromBytes D s b) (decodeFromBytes D' t b) := by
  refine Meet.step (h.decode hr b _) (fun _ _ h => h) fun n i j hij => ?_
  exact Meet.ite _ (h.finish hij) (.mk hij)

/-- Two results of `decode_exact` that agree. -/
def MeetR {ρ : Type} (R : σ → τ → Prop) (p : Res α × σ × ρ) (q : Res α × τ × ρ) : Prop :=
  p.1 = q.1 ∧ R p.2.1 q.2.1 ∧ p.2.2 = q.2.2

theorem Sim.decodeExact_some {ρ : Type} {D : Decoder σ α} {D' : Decoder τ α} {R} (h : Sim D D' R) (Rd : Reader ρ) :
    ∀ (s : σ) (r : ρ) (x : Res α × σ × ρ), decodeExact D Rd s r = some x →
      ∀ t, R s t → ∃ y, decodeExact D' Rd t r = some y ∧ MeetR R x y := by
  apply decodeExact.partial_correctness D Rd
    (motive := fun s r x => ∀ t, R s t → ∃ y, decodeExact D' Rd t r = some y ∧ MeetR R x y)
  intro loop ih s r x heq t hr
  rw [decodeExact, ← h.req hr]
  generalize D.requiring s = q at heq ⊢
  cases q
  all_goals simp only at heq ⊢
  case' finite n => generalize (if min n 1024 ≠ 0 then Rd.read r (min n 1024) else (.data [], r)) = p at heq ⊢
  case' infinite => generalize (if 1024 ≠ 0 then Rd.read r 1024 else (.data [], r)) = p at heq ⊢
  case' unknown => generalize (if 1 ≠ 0 then Rd.read r 1 else (.data [], r)) = p at heq ⊢
  all_goals
    obtain ⟨a, r'⟩ := p
    cases a with
    | error k => cases heq; exact ⟨_, rfl, rfl, hr, rfl⟩
    | data bs =>
      simp only at heq ⊢
      split at heq
      · next hlt =>
        rw [if_pos hlt]
        cases heq
        exact ⟨_, rfl, rfl, hr, rfl⟩
      · next hlt =>
        rw [if_neg hlt]
        obtain ⟨a, s', t', h1, h2, hr'⟩ := (h.decode hr bs _).elim
        rw [h1] at heq
        rw [h2]
        cases a with
        | ok n =>
          simp only at heq ⊢
          rw [← h.idle hr']
          split at heq
          · next hc =>
            rw [if_pos hc]
            cases heq
            exact ⟨_, rfl, rfl, hr', rfl⟩
          · next hc =>
            rw [if_neg hc]
            split at heq
            · next hi =>
              rw [if_pos hi]
              cases heq
              exact ⟨_, rfl, (h.finish hr').1, (h.finish hr').2, rfl⟩
            · next hi =>
              rw [if_neg hi]
              exact ih _ _ _ heq _ hr'
        | _ => cases heq; exact ⟨_, rfl, rfl, hr', rfl⟩

theorem Sim.decodeExact_none {ρ : Type} {D : Decoder σ α} {D' : Decoder τ α} {R} (h : Sim D D' R) (Rd : Reader ρ)
    {s : σ} {t : τ} {r : ρ} (hr : R s t) (hn : decodeExact D Rd s r = none) : decodeExact D' Rd t r = none := by
  cases hq : decodeExact D' Rd t r with
  | none => rfl
  | some y =>
    obtain ⟨x, hx, _⟩ := h.flip.decodeExact_some Rd _ _ _ hq s hr
    rw [hn] at hx
    cases hx

end Bytecodec
