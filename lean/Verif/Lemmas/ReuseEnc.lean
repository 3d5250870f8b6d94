import Verif.Lemmas.Reuse
/-!
# Lemmas for C56: encoders are as new after each item
-/
namespace Bytecodec

open Spec

variable {σ α β : Type}

/-- States that a caller cannot tell apart. -/
structure BisimE (E : Encoder σ α) (R : σ → σ → Prop) : Prop where
  idle : ∀ {s t}, R s t → E.isIdle s = E.isIdle t
  req : ∀ {s t}, R s t → E.requiring s = E.requiring t
  encode : ∀ {s t}, R s t → ∀ cap e, Agree R (E.encode s cap e) (E.encode t cap e)
  start : ∀ {s t}, R s t → ∀ x, Agree R (E.start s x) (E.start t x)

theorem BisimE.observe {E : Encoder σ α} {R : σ → σ → Prop} (h : BisimE E R) : ∀ (calls : List (ECall α)) {s t : σ},
    R s t → observeE E s calls = observeE E t calls := by
  intro calls
  induction calls with
  | nil => intros; rfl
  | cons c cs ih =>
    intro s t hr
    have key : ecallAnswer E s c = ecallAnswer E t c ∧ R (ecallState E s c) (ecallState E t c) := by
      cases c with
      | start x =>
        obtain ⟨h1, h2⟩ := h.start hr x
        exact ⟨by simp only [ecallAnswer, h1], h2⟩
      | encode cap e =>
        obtain ⟨h1, h2⟩ := h.encode hr cap e
        exact ⟨by simp only [ecallAnswer, h1], h2⟩
    simp only [Spec.observeE]
    rw [key.1, h.idle key.2, h.req key.2, ih key.2]

theorem bisimE_eq (E : Encoder σ α) : BisimE E Eq where
  idle := by rintro _ _ rfl; rfl
  req := by rintro _ _ rfl; rfl
  encode := by rintro _ _ rfl _ _; exact ⟨rfl, rfl⟩
  start := by rintro _ _ rfl _; exact ⟨rfl, rfl⟩

/-- Not being able to tell states apart is preserved by calls. -/
theorem bisimE_same (E : Encoder σ α) : BisimE E (SameE E) := by
  have key : ∀ {s t}, SameE E s t → ∀ c, ecallAnswer E s c = ecallAnswer E t c ∧
      SameE E (ecallState E s c) (ecallState E t c) := by
    rintro s t ⟨_, _, h⟩ c
    have h1 := h [c]
    simp only [Spec.observeE, List.cons.injEq, ESeen.mk.injEq, and_true] at h1
    refine ⟨h1.1, h1.2.1, h1.2.2, fun cs => ?_⟩
    have h2 := h (c :: cs)
    simp only [Spec.observeE, List.cons.injEq] at h2
    exact h2.2
  refine ⟨fun h => h.1, fun h => h.2.1, fun h cap e => ?_, fun h x => ?_⟩
  · have := key h (.encode cap e)
    simp only [ecallAnswer, EAnswer.encode.injEq] at this
    exact this
  · have := key h (.start x)
    simp only [ecallAnswer, EAnswer.start.injEq] at this
    exact this

/-- After an item the encoder cannot be told apart from a new one. -/
structure RenewsE (E : Encoder σ α) (s₀ : σ) (R : σ → σ → Prop) : Prop where
  bisim : BisimE E R
  idle0 : E.isIdle s₀ = true
  fresh : ∀ s, Ran E s₀ s → E.isIdle s = true → R s s₀
  busy : ∀ s x s', Ran E s₀ s → E.isIdle s = false → E.start s x = (.ok (), s') → E.isIdle s' = false

/-! ## Leaves -/

/-- The same item, and the same place in it. -/
def BytesRel (s t : BytesEncoderState β) : Prop := s.bytes = t.bytes ∧ (s.bytes ≠ none → s.offset = t.offset)

theorem bisim_bytesEnc (asRef : β → Bytes) : BisimE (bytesEncoder asRef).toEncoder BytesRel where
  idle := by rintro ⟨s, so⟩ ⟨t, to⟩ ⟨h1, h2⟩; simp only at h1; subst h1; rfl
  req := by
    rintro ⟨s, so⟩ ⟨t, to⟩ ⟨h1, h2⟩
    simp only at h1 h2
    subst h1
    cases s with
    | none => rfl
    | some x => rw [h2 (by simp)]
  encode := by
    rintro ⟨s, so⟩ ⟨t, to⟩ ⟨h1, h2⟩ cap e
    simp only at h1 h2
    subst h1
    cases s with
    | none => exact ⟨rfl, rfl, fun h => absurd rfl h⟩
    | some x =>
      have := h2 (by simp)
      subst this
      refine ⟨rfl, ?_⟩
      exact ⟨rfl, fun _ => rfl⟩
  start := by
    rintro ⟨s, so⟩ ⟨t, to⟩ ⟨h1, h2⟩ x
    simp only at h1 h2
    subst h1
    cases s with
    | none => exact ⟨rfl, rfl, fun _ => rfl⟩
    | some y => exact ⟨rfl, rfl, h2⟩

theorem bytesRel_idle {s t : BytesEncoderState β} (hs : s.bytes.isNone = true) (ht : t.bytes.isNone = true) :
    BytesRel s t := by
  have hs : s.bytes = none := by simpa using hs
  have ht : t.bytes = none := by simpa using ht
  exact ⟨hs.trans ht.symm, fun h => absurd hs h⟩

theorem bytes_start_busy {asRef : β → Bytes} {s s' : BytesEncoderState β} {x : β}
    (h : (bytesEncoder asRef).isIdle s = false) (hs : (bytesEncoder asRef).start s x = (.ok (), s')) : False := by
  obtain ⟨b, o⟩ := s
  cases b with
  | none => cases h
  | some y => cases congrArg Prod.fst hs

theorem renewsE_bytes (asRef : β → Bytes) : RenewsE (bytesEncoder asRef).toEncoder .new BytesRel where
  bisim := bisim_bytesEnc asRef
  idle0 := rfl
  fresh := fun _ _ hi => bytesRel_idle hi rfl
  busy := fun _ _ _ _ hi hs => (bytes_start_busy hi hs).elim

theorem renewsE_utf8 : RenewsE utf8Encoder.toEncoder .new BytesRel where
  bisim := ⟨(bisim_bytesEnc utf8Bytes).idle, (bisim_bytesEnc utf8Bytes).req, (bisim_bytesEnc utf8Bytes).encode,
    (bisim_bytesEnc utf8Bytes).start⟩
  idle0 := rfl
  fresh := fun _ _ hi => bytesRel_idle hi rfl
  busy := fun _ _ _ _ hi hs => (bytes_start_busy (asRef := utf8Bytes) hi hs).elim

theorem renewsE_number (f : α → Except ErrorKind Bytes) : RenewsE (fixEncoder f).toEncoder .new BytesRel where
  bisim := ⟨(bisim_bytesEnc id).idle, (bisim_bytesEnc id).req, (bisim_bytesEnc id).encode, fun h x => by
    simp only [fixEncoder]
    cases f x with
    | error k => exact ⟨rfl, h⟩
    | ok b => exact (bisim_bytesEnc id).start h b⟩
  idle0 := rfl
  fresh := fun _ _ hi => bytesRel_idle hi rfl
  busy := fun s x s' _ hi hs => by
    simp only [fixEncoder] at hs
    split at hs
    · exact (bytes_start_busy (asRef := id) hi hs).elim
    · cases congrArg Prod.fst hs

theorem renewsE_null : RenewsE nullEncoder.toEncoder () Eq where
  bisim := bisimE_eq _
  idle0 := rfl
  fresh := fun _ _ _ => rfl
  busy := fun _ _ _ _ hi _ => (by cases hi)

theorem renewsE_padding : RenewsE paddingEncoder none Eq where
  bisim := bisimE_eq _
  idle0 := rfl
  fresh := fun s _ hi => by cases s with | none => rfl | some b => cases hi
  busy := fun s _ _ _ hi hs => by
    cases s with
    | none => cases hi
    | some b => cases congrArg Prod.fst hs

/-! ## `Monolithic` -/

theorem renewsE_monolithic (ser : MonolithicSerializer α) : RenewsE (monolithicEncoder ser) .new
    (fun s t => s.item = t.item ∧ BytesRel s.buf t.buf) where
  bisim := by
    constructor
    · rintro ⟨s, sb⟩ ⟨t, tb⟩ ⟨h1, h2⟩
      simp only at h1 h2
      simp only [monolithicEncoder, h1, (bisim_bytesEnc id).idle h2]
    · rintro ⟨s, sb⟩ ⟨t, tb⟩ ⟨h1, h2⟩
      simp only at h1 h2
      simp only [monolithicEncoder, h1, (bisim_bytesEnc id).idle h2, (bisim_bytesEnc id).req h2]
    · rintro ⟨s, sb⟩ ⟨t, tb⟩ ⟨h1, h2⟩ cap e
      simp only at h1 h2
      subst h1
      cases s with
      | none =>
        exact Agree.step ((bisim_bytesEnc id).encode h2 cap e) (fun _ _ h => ⟨rfl, h⟩) fun _ _ _ h => .mk ⟨rfl, h⟩
      | some x =>
        simp only [monolithicEncoder]
        generalize serialize chainWriter ⟨[], cap, []⟩ (ser x).1 = p
        refine Agree.step (R := Eq) ⟨rfl, rfl⟩ (fun _ _ _ => ⟨rfl, h2⟩) fun _ w w' hw => ?_
        subst hw
        refine Agree.step (R := Eq) ⟨rfl, rfl⟩ (fun _ _ _ => ⟨rfl, h2⟩) fun _ w w' hw => ?_
        subst hw
        exact Agree.ite _ (.mk ⟨rfl, h2⟩) (Agree.step ((bisim_bytesEnc id).start h2 _) (fun _ _ h => ⟨rfl, h⟩)
          fun _ _ _ h => .mk ⟨rfl, h⟩)
    · rintro ⟨s, sb⟩ ⟨t, tb⟩ ⟨h1, h2⟩ x
      simp only at h1 h2
      subst h1
      simp only [monolithicEncoder, (bisim_bytesEnc id).idle h2]
      exact Agree.ite _ (.mk ⟨rfl, h2⟩) (.mk ⟨rfl, h2⟩)
  idle0 := rfl
  fresh := fun s _ hi => by
    simp only [monolithicEncoder, Bool.and_eq_true] at hi
    exact ⟨by simpa [MonoEncState.new] using hi.1, bytesRel_idle hi.2 rfl⟩
  busy := fun s x s' _ hi hs => by
    simp only [monolithicEncoder] at hi hs
    rw [hi] at hs
    cases congrArg Prod.fst hs

/-! ## Mapping combinators -/

/-- The same `start`s and `encode`s: the same states. -/
theorem ran_congr {E : Encoder σ α} {E' : Encoder σ β} {s₀ s : σ}
    (hs : ∀ s x s', E.start s x = (.ok (), s') → s' = s ∨ ∃ y, E'.start s y = (.ok (), s'))
    (he : ∀ s cap e bs s', E.encode s cap e = (.ok bs, s') → E'.encode s cap e = (.ok bs, s')) (h : Ran E s₀ s) :
    Ran E' s₀ s := by
  induction h with
  | new => exact .new
  | start _ h1 ih =>
    rcases hs _ _ _ h1 with h | ⟨y, h⟩
    · rw [h]; exact ih
    · exact ih.start h
  | encode _ h1 ih => exact ih.encode (he _ _ _ _ _ h1)

theorem renewsE_mapErr {E : Encoder σ α} {s₀ : σ} {R} (h : RenewsE E s₀ R) (f : ErrorKind → ErrorKind) :
    RenewsE (mapErrEncoder E f) s₀ R where
  bisim := {
    idle := h.bisim.idle
    req := h.bisim.req
    encode := fun hr cap e => ⟨by simp only [mapErrEncoder, (h.bisim.encode hr cap e).1], (h.bisim.encode hr cap e).2⟩
    start := fun hr x => ⟨by simp only [mapErrEncoder, (h.bisim.start hr x).1], (h.bisim.start hr x).2⟩ }
  idle0 := h.idle0
  fresh := fun s hs hi => h.fresh s (ran_congr (E := mapErrEncoder E f) (E' := E)
    (fun _ x _ h => .inr ⟨x, Prod.ext (mapErr_ok (congrArg Prod.fst h)) (congrArg Prod.snd h :)⟩)
    (fun _ _ _ _ _ h => Prod.ext (mapErr_ok (congrArg Prod.fst h)) (congrArg Prod.snd h :)) hs) hi
  busy := fun s x s' hs hi h1 => h.busy s x s' (ran_congr (E := mapErrEncoder E f) (E' := E)
    (fun _ x _ h => .inr ⟨x, Prod.ext (mapErr_ok (congrArg Prod.fst h)) (congrArg Prod.snd h :)⟩)
    (fun _ _ _ _ _ h => Prod.ext (mapErr_ok (congrArg Prod.fst h)) (congrArg Prod.snd h :)) hs) hi
    (Prod.ext (mapErr_ok (congrArg Prod.fst h1)) (congrArg Prod.snd h1 :))

theorem renewsE_mapFrom {E : Encoder σ α} {s₀ : σ} {R} (h : RenewsE E s₀ R) (f : β → α) :
    RenewsE (mapFromEncoder E f) s₀ R where
  bisim := ⟨h.bisim.idle, h.bisim.req, h.bisim.encode, fun hr x => h.bisim.start hr (f x)⟩
  idle0 := h.idle0
  fresh := fun s hs hi => h.fresh s (ran_congr (E := mapFromEncoder E f) (E' := E)
    (fun _ x _ h => .inr ⟨f x, h⟩) (fun _ _ _ _ _ h => h) hs) hi
  busy := fun s x s' hs hi h1 => h.busy s (f x) s' (ran_congr (E := mapFromEncoder E f) (E' := E)
    (fun _ x _ h => .inr ⟨f x, h⟩) (fun _ _ _ _ _ h => h) hs) hi h1

theorem tryMapFrom_start_ok {E : Encoder σ α} {f : β → Except ErrorKind α} {s s' : σ} {x : β}
    (h : (tryMapFromEncoder E f).start s x = (.ok (), s')) : ∃ y, E.start s y = (.ok (), s') := by
  simp only [tryMapFromEncoder] at h
  split at h
  · exact ⟨_, h⟩
  · cases congrArg Prod.fst h

theorem renewsE_tryMapFrom {E : Encoder σ α} {s₀ : σ} {R} (h : RenewsE E s₀ R) (f : β → Except ErrorKind α) :
    RenewsE (tryMapFromEncoder E f) s₀ R where
  bisim := ⟨h.bisim.idle, h.bisim.req, h.bisim.encode, fun hr x => by
    simp only [tryMapFromEncoder]
    cases f x with
    | ok y => exact h.bisim.start hr y
    | error k => exact ⟨rfl, hr⟩⟩
  idle0 := h.idle0
  fresh := fun s hs hi => h.fresh s (ran_congr (E := tryMapFromEncoder E f) (E' := E)
    (fun _ _ _ h => .inr (tryMapFrom_start_ok h)) (fun _ _ _ _ _ h => h) hs) hi
  busy := fun s x s' hs hi h1 => by
    obtain ⟨y, hy⟩ := tryMapFrom_start_ok h1
    exact h.busy s y s' (ran_congr (E := tryMapFromEncoder E f) (E' := E)
      (fun _ _ _ h => .inr (tryMapFrom_start_ok h)) (fun _ _ _ _ _ h => h) hs) hi hy

theorem optional_start_ok {E : Encoder σ α} {s s' : σ} {x : Option α}
    (h : (optionalEncoder E).start s x = (.ok (), s')) : s' = s ∨ ∃ y, E.start s y = (.ok (), s') := by
  cases x with
  | none => exact .inl (congrArg Prod.snd h).symm
  | some y => exact .inr ⟨y, h⟩

theorem renewsE_optional {E : Encoder σ α} {s₀ : σ} {R} (h : RenewsE E s₀ R) :
    RenewsE (optionalEncoder E) s₀ R where
  bisim := ⟨h.bisim.idle, h.bisim.req, h.bisim.encode, fun hr x => by
    cases x with
    | some y => exact h.bisim.start hr y
    | none => exact ⟨rfl, hr⟩⟩
  idle0 := h.idle0
  fresh := fun s hs hi => h.fresh s (ran_congr (E := optionalEncoder E) (E' := E)
    (fun _ _ _ h => optional_start_ok h) (fun _ _ _ _ _ h => h) hs) hi
  busy := fun s x s' hs hi h1 => by
    rcases optional_start_ok h1 with rfl | ⟨y, hy⟩
    · exact hi
    · exact h.busy s y s' (ran_congr (E := optionalEncoder E) (E' := E)
        (fun _ _ _ h => optional_start_ok h) (fun _ _ _ _ _ h => h) hs) hi hy

/-! ## `MaxBytes` -/

theorem renewsE_maxBytes {E : Encoder σ α} {s₀ : σ} {R} (h : RenewsE E s₀ R) (n : Nat) :
    RenewsE (maxBytesEncoder E) (.new s₀ n)
      (fun s t => R s.inner t.inner ∧ s.consumed = t.consumed ∧ s.max = t.max) := by
  have hi : ∀ s, Ran (maxBytesEncoder E) (.new s₀ n) s →
      Ran E s₀ s.inner ∧ s.max = n ∧ (E.isIdle s.inner = true → s.consumed = 0) := by
    intro s hs
    induction hs with
    | new => exact ⟨.new, rfl, fun _ => rfl⟩
    | @start s s' x _ h1 ih =>
      obtain ⟨_, t, h3, h4⟩ := step_ok h1
      cases h4
      refine ⟨ih.1.start h3, ih.2.1, fun hi => ?_⟩
      cases hb : E.isIdle s.inner with
      | true => exact ih.2.2 hb
      | false =>
        have hi' : E.isIdle t = true := hi
        rw [h.busy _ _ _ ih.1 hb h3] at hi'
        cases hi'
    | @encode s s' cap e bs _ h1 ih =>
      obtain ⟨_, t, h3, h4⟩ := step_ok h1
      simp only at h4
      split at h4
      · cases congrArg Prod.fst h4
      · split at h4
        · cases h4
          exact ⟨ih.1.encode h3, ih.2.1, fun _ => rfl⟩
        · cases h4
          exact ⟨ih.1.encode h3, ih.2.1, fun h => absurd h ‹_›⟩
  constructor
  · constructor
    · rintro ⟨s, sx, sr⟩ ⟨t, tx, tr⟩ ⟨h1, h2, h3⟩; exact h.bisim.idle h1
    · rintro ⟨s, sx, sr⟩ ⟨t, tx, tr⟩ ⟨h1, h2, h3⟩; exact h.bisim.req h1
    · rintro ⟨s, sx, sr⟩ ⟨t, tx, tr⟩ ⟨h1, h2, h3⟩ cap e
      simp only at h1 h2 h3
      subst h2 h3
      refine Agree.step (h.bisim.encode h1 cap e) (fun _ _ h => ⟨h, rfl, rfl⟩) fun bs i j hij => ?_
      simp only [h.bisim.idle hij]
      exact Agree.ite _ (.mk ⟨hij, rfl, rfl⟩) (Agree.ite _ (.mk ⟨hij, rfl, rfl⟩) (.mk ⟨hij, rfl, rfl⟩))
    · rintro ⟨s, sx, sr⟩ ⟨t, tx, tr⟩ ⟨h1, h2, h3⟩ x
      simp only at h1 h2 h3
      subst h2 h3
      exact Agree.step (h.bisim.start h1 x) (fun _ _ h => ⟨h, rfl, rfl⟩) fun _ _ _ h => .mk ⟨h, rfl, rfl⟩
  · exact h.idle0
  · intro s hs hid
    obtain ⟨h1, h2, h3⟩ := hi s hs
    exact ⟨h.fresh _ h1 hid, h3 hid, h2⟩
  · intro s x s' hs hid h1
    obtain ⟨_, t, h3, h4⟩ := step_ok h1
    cases h4
    exact h.busy _ _ _ (hi s hs).1 hid h3

/-! ## `Repeat` -/

/-- Two ends of the inner loop of `repeat` that agree. -/
inductive AgreeS (R : σ → σ → Prop) : Started σ α → Started σ α → Prop
  | busy {s t : σ} (rest : List α) : R s t → AgreeS R (.busy s rest) (.busy t rest)
  | exhausted {s t : σ} : R s t → AgreeS R (.exhausted s) (.exhausted t)
  | failed (r : Res Unit) {s t : σ} (rest : List α) : R s t → AgreeS R (.failed r s rest) (.failed r t rest)

theorem BisimE.startNext {E : Encoder σ α} {R} (h : BisimE E R) : ∀ (xs : List α) {s t : σ}, R s t →
    AgreeS R (startNext E s xs) (startNext E t xs) := by
  intro xs
  induction xs with
  | nil =>
    intro s t hr
    simp only [Bytecodec.startNext, h.idle hr]
    split
    · exact .exhausted hr
    · exact .busy _ hr
  | cons x xs ih =>
    intro s t hr
    simp only [Bytecodec.startNext, h.idle hr]
    split
    · obtain ⟨h1, h2⟩ := h.start hr x
      generalize E.start s x = p at h1 h2
      generalize E.start t x = q at h1 h2
      obtain ⟨r, s'⟩ := p
      obtain ⟨r', t'⟩ := q
      simp only at h1 h2
      subst h1
      cases r with
      | ok u => exact ih h2
      | err k => exact .failed _ _ h2
      | panic => exact .failed _ _ h2
      | capacity => exact .failed _ _ h2
      | diverge => exact .failed _ _ h2
    · exact .busy _ hr

theorem BisimE.repeatLoop {E : Encoder σ α} {R} (h : BisimE E R) (cap : Nat) (e : Eos) : ∀ (k : Nat) (out : Bytes)
    (items : Option (List α)) {s t : σ}, cap + 1 - out.length ≤ k → R s t →
    Agree (fun s t : RepeatState σ α => R s.inner t.inner ∧ s.items = t.items)
      (repeatLoop E cap e out s items) (repeatLoop E cap e out t items) := by
  intro k
  induction k with
  | zero =>
    intro out items s t hk hr
    have a := h.startNext (items.getD []) hr
    rw [Bytecodec.repeatLoop, Bytecodec.repeatLoop]
    generalize Bytecodec.startNext E s (items.getD []) = p at a
    generalize Bytecodec.startNext E t (items.getD []) = q at a
    cases a with
    | exhausted hr' => exact ⟨rfl, hr', rfl⟩
    | failed r rest hr' => exact ⟨rfl, hr', rfl⟩
    | busy rest hr' =>
      simp only
      rw [if_pos (by omega), if_pos (by omega)]
      exact ⟨rfl, hr', rfl⟩
  | succ k ih =>
    intro out items s t hk hr
    have a := h.startNext (items.getD []) hr
    rw [Bytecodec.repeatLoop, Bytecodec.repeatLoop]
    generalize Bytecodec.startNext E s (items.getD []) = p at a
    generalize Bytecodec.startNext E t (items.getD []) = q at a
    cases a with
    | exhausted hr' => exact ⟨rfl, hr', rfl⟩
    | failed r rest hr' => exact ⟨rfl, hr', rfl⟩
    | @busy s1 t1 rest hr' =>
      simp only
      split
      · exact ⟨rfl, hr', rfl⟩
      · obtain ⟨h1, h2⟩ := h.encode hr' (cap - out.length) e
        generalize E.encode s1 (cap - out.length) e = p at h1 h2
        generalize E.encode t1 (cap - out.length) e = q at h1 h2
        obtain ⟨r, s'⟩ := p
        obtain ⟨r', t'⟩ := q
        simp only at h1 h2
        subst h1
        cases r with
        | ok bs =>
          simp only
          split
          · exact ⟨rfl, h2, rfl⟩
          · exact ih _ _ (by simp only [List.length_append]; omega) h2
        | err k => exact ⟨rfl, h2, rfl⟩
        | panic => exact ⟨rfl, h2, rfl⟩
        | capacity => exact ⟨rfl, h2, rfl⟩
        | diverge => exact ⟨rfl, h2, rfl⟩

theorem startNext_ran {E : Encoder σ α} {s₀ : σ} : ∀ (xs : List α) {s : σ}, Ran E s₀ s →
    (∀ s', startNext E s xs = .exhausted s' → Ran E s₀ s' ∧ E.isIdle s' = true) ∧
    (∀ s' rest, startNext E s xs = .busy s' rest → Ran E s₀ s') := by
  intro xs
  induction xs with
  | nil =>
    intro s hs
    constructor
    · intro s' h
      simp only [startNext] at h
      split at h <;> cases h
      exact ⟨hs, ‹_›⟩
    · intro s' rest h
      simp only [startNext] at h
      split at h <;> cases h
      exact hs
  | cons x xs ih =>
    intro s hs
    simp only [startNext]
    split
    · split
      · exact ih (hs.start ‹_›)
      · exact ⟨fun _ h => (by cases h), fun _ _ h => (by cases h)⟩
    · constructor
      · intro s' h; cases h
      · intro s' rest h; cases h; exact hs

theorem repeatLoop_ran {E : Encoder σ α} {s₀ : σ} (cap : Nat) (e : Eos) : ∀ (k : Nat) (out : Bytes)
    (items : Option (List α)) {s : σ} {bs : Bytes} {s' : RepeatState σ α}, cap + 1 - out.length ≤ k →
    Ran E s₀ s → (items = none → E.isIdle s = true) → repeatLoop E cap e out s items = (.ok bs, s') →
    Ran E s₀ s'.inner ∧ (s'.items = none → E.isIdle s'.inner = true) := by
  intro k
  induction k with
  | zero =>
    intro out items s bs s' hk hs hidle h
    rw [repeatLoop] at h
    cases hn : startNext E s (items.getD []) with
    | exhausted t =>
      rw [hn] at h
      cases h
      obtain ⟨h1, h2⟩ := (startNext_ran (items.getD []) hs).1 _ hn
      exact ⟨h1, fun _ => h2⟩
    | failed r t rest =>
      rw [hn] at h
      have h1 := congrArg Prod.fst h
      simp only at h1
      cases r <;> cases h1
    | busy t rest =>
      rw [hn] at h
      simp only at h
      rw [if_pos (by omega)] at h
      cases congrArg Prod.fst h
  | succ k ih =>
    intro out items s bs s' hk hs hidle h
    rw [repeatLoop] at h
    cases hn : startNext E s (items.getD []) with
    | exhausted t =>
      rw [hn] at h
      cases h
      obtain ⟨h1, h2⟩ := (startNext_ran (items.getD []) hs).1 _ hn
      exact ⟨h1, fun _ => h2⟩
    | failed r t rest =>
      rw [hn] at h
      have h1 := congrArg Prod.fst h
      simp only at h1
      cases r <;> cases h1
    | busy t rest =>
      have hbusy := (startNext_ran (items.getD []) hs).2 _ _ hn
      have hsome : items ≠ none := by
        rintro rfl
        simp only [Option.getD_none, startNext, hidle rfl, if_true] at hn
        cases hn
      have hsome' : items.map (fun _ => rest) ≠ none := by
        cases items with
        | none => exact absurd rfl hsome
        | some l => simp
      rw [hn] at h
      simp only at h
      split at h
      · cases congrArg Prod.fst h
      · split at h
        · split at h
          · cases h
            exact ⟨hbusy.encode ‹_›, fun h => absurd h hsome'⟩
          · exact ih _ _ (by simp only [List.length_append]; omega) (hbusy.encode ‹_›) (fun h => absurd h hsome') h
        all_goals cases congrArg Prod.fst h

theorem renewsE_repeat {E : Encoder σ α} {s₀ : σ} {R} (h : RenewsE E s₀ R) :
    RenewsE (repeatEncoder E) (.new s₀) (fun s t => R s.inner t.inner ∧ s.items = t.items) := by
  have hi : ∀ s, Ran (repeatEncoder E) (.new s₀) s →
      Ran E s₀ s.inner ∧ (s.items = none → E.isIdle s.inner = true) := by
    intro s hs
    induction hs with
    | new => exact ⟨.new, fun _ => h.idle0⟩
    | @start s s' x _ h1 ih =>
      simp only [repeatEncoder] at h1
      split at h1
      · cases h1
        exact ⟨ih.1, fun h => (by cases h)⟩
      · cases congrArg Prod.fst h1
    | @encode s s' cap e bs _ h1 ih => exact repeatLoop_ran cap e _ _ _ (Nat.le_refl _) ih.1 ih.2 h1
  constructor
  · constructor
    · rintro ⟨s, sx⟩ ⟨t, tx⟩ ⟨h1, h2⟩; simp only at h2; subst h2; rfl
    · rintro ⟨s, sx⟩ ⟨t, tx⟩ ⟨h1, h2⟩; simp only at h2; subst h2; rfl
    · rintro ⟨s, sx⟩ ⟨t, tx⟩ ⟨h1, h2⟩ cap e
      simp only at h2
      subst h2
      exact h.bisim.repeatLoop cap e _ _ _ (Nat.le_refl _) h1
    · rintro ⟨s, sx⟩ ⟨t, tx⟩ ⟨h1, h2⟩ x
      simp only at h1 h2
      subst h2
      exact Agree.ite _ (.mk ⟨h1, rfl⟩) (.mk ⟨h1, rfl⟩)
  · rfl
  · intro s hs hid
    have hn : s.items = none := by simpa [repeatEncoder] using hid
    obtain ⟨h1, h2⟩ := hi s hs
    exact ⟨h.fresh _ h1 (h2 hn), hn⟩
  · intro s x s' hs hid h1
    simp only [repeatEncoder] at hid h1
    rw [hid] at h1
    cases congrArg Prod.fst h1

/-! ## Pairs -/

theorem BisimE.tryEncode {E : Encoder σ α} {R : σ → σ → Prop} (h : BisimE E R) {s t : σ} (hr : R s t) (o cap e) :
    AgreeF R (tryEncode E s o cap e) (tryEncode E t o cap e) := by
  unfold Bytecodec.tryEncode
  rw [← h.idle hr]
  split
  · exact .next _ hr
  · split
    · exact .ret _ hr
    · obtain ⟨h1, h2⟩ := h.encode hr (cap - o.length) e
      generalize E.encode s (cap - o.length) e = p at h1 h2
      generalize E.encode t (cap - o.length) e = q at h1 h2
      obtain ⟨r, s'⟩ := p
      obtain ⟨r', t'⟩ := q
      simp only at h1 h2
      subst h1
      cases r with
      | ok n =>
        simp only
        rw [← h.idle h2]
        split
        · exact .next _ h2
        · exact .ret _ h2
      | err k => exact .ret _ h2
      | panic => exact .ret _ h2
      | capacity => exact .ret _ h2
      | diverge => exact .ret _ h2

theorem tryEncode_ran {E : Encoder σ α} {s₀ s : σ} (h : Ran E s₀ s) {o : Bytes} {cap : Nat} {e : Eos} {s' : σ} :
    (∀ o', tryEncode E s o cap e = .next o' s' → Ran E s₀ s') ∧
    (∀ n, tryEncode E s o cap e = .ret (.ok n) s' → Ran E s₀ s') := by
  unfold Bytecodec.tryEncode
  constructor
  · intro o' hn
    split at hn
    · cases hn; exact h
    · split at hn
      · cases hn
      · split at hn
        · split at hn
          · cases hn; exact h.encode ‹_›
          · cases hn
        all_goals cases hn
  · intro n hn
    split at hn
    · cases hn
    · split at hn
      · cases hn
      · split at hn
        · split at hn
          · cases hn
          · cases hn; exact h.encode ‹_›
        all_goals cases hn

theorem renewsE_pair {σ0 α0 σ1 α1 : Type} {E0 : Encoder σ0 α0} {E1 : Encoder σ1 α1} {s0 : σ0} {s1 : σ1} {R0 R1}
    (h0 : RenewsE E0 s0 R0) (h1 : RenewsE E1 s1 R1) :
    RenewsE (tupleEncoder2 E0 E1) (s0, s1) (fun s t => R0 s.1 t.1 ∧ R1 s.2 t.2) := by
  have hi : ∀ s, Ran (tupleEncoder2 E0 E1) (s0, s1) s → Ran E0 s0 s.1 ∧ Ran E1 s1 s.2 := by
    intro s hs
    induction hs with
    | new => exact ⟨.new, .new⟩
    | @start s s' x _ hd ih =>
      obtain ⟨y, t, h3, h4⟩ := step_ok hd
      obtain ⟨z, u, h5, h6⟩ := step_ok h4
      cases h6
      exact ⟨ih.1.start h3, ih.2.start h5⟩
    | @encode s s' cap e bs _ hd ih =>
      simp only [tupleEncoder2] at hd
      cases ht : tryEncode E0 s.1 [] cap e with
      | ret r t0 =>
        rw [ht] at hd
        cases hd
        exact ⟨(tryEncode_ran ih.1).2 _ ht, ih.2⟩
      | next o t0 =>
        rw [ht] at hd
        simp only at hd
        have hf := (tryEncode_ran ih.1).1 _ ht
        cases ht' : tryEncode E1 s.2 o cap e with
        | ret r t1 =>
          rw [ht'] at hd
          cases hd
          exact ⟨hf, (tryEncode_ran ih.2).2 _ ht'⟩
        | next o t1 =>
          rw [ht'] at hd
          cases hd
          exact ⟨hf, (tryEncode_ran ih.2).1 _ ht'⟩
  constructor
  · constructor
    · rintro s t ⟨a, b⟩
      simp only [tupleEncoder2, h0.bisim.idle a, h1.bisim.idle b]
    · rintro s t ⟨a, b⟩
      simp only [tupleEncoder2, h0.bisim.req a, h1.bisim.req b]
    · rintro s t ⟨a, b⟩ cap e
      simp only [tupleEncoder2]
      have a0 := h0.bisim.tryEncode a [] cap e
      generalize tryEncode E0 s.1 [] cap e = p at a0
      generalize tryEncode E0 t.1 [] cap e = q at a0
      cases a0 with
      | ret r hr => exact ⟨rfl, hr, b⟩
      | next o hr =>
        simp only
        have a1 := h1.bisim.tryEncode b o cap e
        generalize tryEncode E1 s.2 o cap e = p at a1
        generalize tryEncode E1 t.2 o cap e = q at a1
        cases a1 with
        | ret r hr' => exact ⟨rfl, hr, hr'⟩
        | next o hr' => exact ⟨rfl, hr, hr'⟩
    · rintro s t ⟨a, b⟩ x
      exact Agree.step (h0.bisim.start a x.1) (fun _ _ h => ⟨h, b⟩) fun _ _ _ h =>
        Agree.step (h1.bisim.start b x.2) (fun _ _ h' => ⟨h, h'⟩) fun _ _ _ h' => .mk ⟨h, h'⟩
  · simp only [tupleEncoder2, h0.idle0, h1.idle0, Bool.and_self]
  · intro s hs hid
    obtain ⟨a, b⟩ := hi s hs
    simp only [tupleEncoder2, Bool.and_eq_true] at hid
    exact ⟨h0.fresh _ a hid.1, h1.fresh _ b hid.2⟩
  · intro s x s' hs hid hst
    obtain ⟨a, b⟩ := hi s hs
    obtain ⟨y, t, h3, h4⟩ := step_ok hst
    obtain ⟨z, u, h5, h6⟩ := step_ok h4
    cases h6
    simp only [tupleEncoder2, Bool.and_eq_false_iff] at hid ⊢
    rcases hid with hid | hid
    · exact .inl (h0.busy _ _ _ a hid h3)
    · exact .inr (h1.busy _ _ _ b hid h5)

/-! ## `PreEncode` -/

theorem BisimE.flip {E : Encoder σ α} {R : σ → σ → Prop} (h : BisimE E R) : BisimE E (fun s t => R t s) where
  idle := fun hr => (h.idle hr).symm
  req := fun hr => (h.req hr).symm
  encode := fun hr cap e => ⟨(h.encode hr cap e).1.symm, (h.encode hr cap e).2⟩
  start := fun hr x => ⟨(h.start hr x).1.symm, (h.start hr x).2⟩

theorem BisimE.agreeAll {ω : Type} {E : Encoder σ α} {W : Writer ω} {R : σ → σ → Prop} (h : BisimE E R) :
    ∀ (s : σ) (w : ω) (r : Res Unit × σ × ω), encodeAll E W s w = some r → ∀ t, R s t →
      ∃ t', encodeAll E W t w = some (r.1, t', r.2.2) ∧ R r.2.1 t' := by
  refine encodeAll.partial_correctness E W
    (fun s w r => ∀ t, R s t → ∃ t', encodeAll E W t w = some (r.1, t', r.2.2) ∧ R r.2.1 t') ?_
  intro rec ih s w r hr t hst
  rw [Bytecodec.encodeAll]
  rw [← h.idle hst]
  split at hr
  · rw [if_pos ‹_›]
    cases hr
    exact ⟨t, rfl, hst⟩
  · rw [if_neg ‹_›]
    obtain ⟨h1, h2⟩ := h.encode hst 1024 (Eos.new false)
    generalize E.encode s 1024 (Eos.new false) = p at h1 h2 hr
    generalize E.encode t 1024 (Eos.new false) = q at h1 h2
    obtain ⟨a, s'⟩ := p
    obtain ⟨b, t'⟩ := q
    simp only at h1 h2
    subst h1
    cases a with
    | ok bs =>
      simp only at hr ⊢
      split at hr
      · rw [if_pos ‹_›]
        cases hr
        exact ⟨t', rfl, h2⟩
      · rw [if_neg ‹_›]
        generalize writeAll W w bs = q at hr
        obtain ⟨c, w'⟩ := q
        cases c with
        | ok u =>
          simp only at hr ⊢
          rw [← h.idle h2]
          split at hr
          · rw [if_pos ‹_›]
            cases hr
            exact ⟨t', rfl, h2⟩
          · rw [if_neg ‹_›]
            exact ih _ _ _ hr t' h2
        | err k => cases hr; exact ⟨t', rfl, h2⟩
        | panic => cases hr; exact ⟨t', rfl, h2⟩
        | capacity => cases hr; exact ⟨t', rfl, h2⟩
        | diverge => cases hr; exact ⟨t', rfl, h2⟩
    | err k => cases hr; exact ⟨t', rfl, h2⟩
    | panic => cases hr; exact ⟨t', rfl, h2⟩
    | capacity => cases hr; exact ⟨t', rfl, h2⟩
    | diverge => cases hr; exact ⟨t', rfl, h2⟩

theorem BisimE.agreeInto {E : Encoder σ α} {R : σ → σ → Prop} (h : BisimE E R) {s t : σ} (hr : R s t) (x : α) :
    Agree R (encodeIntoBytes E s x) (encodeIntoBytes E t x) := by
  refine Agree.step (h.start hr x) (fun _ _ h => h) fun _ s' t' hr' => ?_
  rw [h.req hr']
  cases E.requiring t' with
  | finite size =>
    refine Agree.ite _ (.mk hr') (Agree.step (h.encode hr' _ _) (fun _ _ h => h) fun bs i j hij => ?_)
    rw [h.idle hij]
    exact Agree.ite _ (.mk hij) (.mk hij)
  | infinite => exact .mk hr'
  | unknown =>
    simp only
    cases hs : encodeAll E vecWriter s' [] with
    | some r =>
      obtain ⟨t'', h1, h2⟩ := h.agreeAll _ _ _ hs t' hr'
      rw [h1]
      obtain ⟨r, s'', w⟩ := r
      exact Agree.step (p := (r, s'')) (q := (r, t'')) ⟨rfl, h2⟩ (fun _ _ h => h) fun _ _ _ h => .mk h
    | none =>
      cases ht : encodeAll E vecWriter t' [] with
      | none => exact .mk hr'
      | some r =>
        obtain ⟨s'', h1, _⟩ := h.flip.agreeAll _ _ _ ht s' hr'
        rw [hs] at h1
        cases h1

theorem encodeAll_ran {ω : Type} {E : Encoder σ α} {W : Writer ω} {s₀ : σ} :
    ∀ (s : σ) (w : ω) (r : Res Unit × σ × ω), encodeAll E W s w = some r → Ran E s₀ s → r.1 = .ok () →
      Ran E s₀ r.2.1 ∧ E.isIdle r.2.1 = true := by
  refine encodeAll.partial_correctness E W
    (fun s w r => Ran E s₀ s → r.1 = .ok () → Ran E s₀ r.2.1 ∧ E.isIdle r.2.1 = true) ?_
  intro rec ih s w r hr hs hok
  split at hr
  · cases hr
    exact ⟨hs, ‹_›⟩
  · split at hr
    · split at hr
      · cases hr; cases hok
      · split at hr
        · split at hr
          · cases hr; cases hok
          · exact ih _ _ _ hr (hs.encode ‹_›) hok
        all_goals (cases hr; cases hok)
    all_goals (cases hr; cases hok)

theorem encodeIntoBytes_ran {E : Encoder σ α} {s₀ s s' : σ} {x : α} {bs : Bytes} (hs : Ran E s₀ s)
    (h : encodeIntoBytes E s x = (.ok bs, s')) : Ran E s₀ s' ∧ E.isIdle s' = true := by
  obtain ⟨_, t, h1, h2⟩ := step_ok h
  have ht := hs.start h1
  split at h2
  · split at h2
    · cases congrArg Prod.fst h2
    · obtain ⟨cs, u, h3, h4⟩ := step_ok h2
      split at h4
      · cases h4
        exact ⟨ht.encode h3, ‹_›⟩
      · cases congrArg Prod.fst h4
  · split at h2
    · cases congrArg Prod.fst h2
    · rename_i r u out hall
      obtain ⟨_, v, h3, h4⟩ := step_ok h2
      cases h3
      cases h4
      exact encodeAll_ran _ _ _ hall ht rfl
  · cases congrArg Prod.fst h2

theorem renewsE_preEncode {E : Encoder σ α} {s₀ : σ} {R} (h : RenewsE E s₀ R) :
    RenewsE (preEncodeEncoder E).toEncoder (.new s₀)
      (fun s t => R s.inner t.inner ∧ BytesRel s.preEncoded t.preEncoded) := by
  have hi : ∀ s, Ran (preEncodeEncoder E).toEncoder (.new s₀) s → Ran E s₀ s.inner ∧ E.isIdle s.inner = true := by
    intro s hs
    induction hs with
    | new => exact ⟨.new, h.idle0⟩
    | @start s s' x _ h1 ih =>
      obtain ⟨_, t, h3, h4⟩ := step_ok h1
      obtain ⟨_, u, h5, h6⟩ := step_ok h4
      cases h6
      exact encodeIntoBytes_ran ih.1 h3
    | @encode s s' cap e bs _ h1 ih =>
      obtain ⟨_, t, h3, h4⟩ := step_ok h1
      cases h4
      exact ih
  constructor
  · constructor
    · rintro ⟨s, sx⟩ ⟨t, tx⟩ ⟨h1, h2⟩; exact (bisim_bytesEnc id).idle h2
    · rintro ⟨s, sx⟩ ⟨t, tx⟩ ⟨h1, h2⟩; exact (bisim_bytesEnc id).req h2
    · rintro ⟨s, sx⟩ ⟨t, tx⟩ ⟨h1, h2⟩ cap e
      exact Agree.step ((bisim_bytesEnc id).encode h2 cap e) (fun _ _ h => ⟨h1, h⟩) fun _ _ _ h => .mk ⟨h1, h⟩
    · rintro ⟨s, sx⟩ ⟨t, tx⟩ ⟨h1, h2⟩ x
      exact Agree.step (h.bisim.agreeInto h1 x) (fun _ _ h => ⟨h, h2⟩) fun _ _ _ h =>
        Agree.step ((bisim_bytesEnc id).start h2 _) (fun _ _ h' => ⟨h, h'⟩) fun _ _ _ h' => .mk ⟨h, h'⟩
  · rfl
  · intro s hs hid
    obtain ⟨h1, h2⟩ := hi s hs
    exact ⟨h.fresh _ h1 h2, bytesRel_idle hid rfl⟩
  · intro s x s' hs hid h1
    obtain ⟨_, t, h3, h4⟩ := step_ok h1
    obtain ⟨_, u, h5, h6⟩ := step_ok h4
    exact (bytes_start_busy (asRef := id) hid h5).elim

theorem parts_renewsE {own : OwnEncoder} (hP : ∀ σ α (E : Encoder σ α) s, own σ α E s → AsNewEnc E s)
    {σ α : Type} {E : Encoder σ α} {s₀ : σ} (h : ReusableEncWith own E s₀) :
    ∃ R, RenewsE E s₀ R := by
  induction h with
  | own h => exact ⟨_, bisimE_same _, (hP _ _ _ _ h).idle, (hP _ _ _ _ h).asNew, (hP _ _ _ _ h).busy⟩
  | bytes asRef => exact ⟨_, renewsE_bytes asRef⟩
  | utf8 => exact ⟨_, renewsE_utf8⟩
  | number f => exact ⟨_, renewsE_number f⟩
  | null => exact ⟨_, renewsE_null⟩
  | padding => exact ⟨_, renewsE_padding⟩
  | monolithic ser => exact ⟨_, renewsE_monolithic ser⟩
  | mapErr f _ ih => exact ih.elim fun R h => ⟨_, renewsE_mapErr h f⟩
  | mapFrom f _ ih => exact ih.elim fun R h => ⟨_, renewsE_mapFrom h f⟩
  | tryMapFrom f _ ih => exact ih.elim fun R h => ⟨_, renewsE_tryMapFrom h f⟩
  | «repeat» _ ih => exact ih.elim fun R h => ⟨_, renewsE_repeat h⟩
  | optional _ ih => exact ih.elim fun R h => ⟨_, renewsE_optional h⟩
  | maxBytes n _ ih => exact ih.elim fun R h => ⟨_, renewsE_maxBytes h n⟩
  | preEncode _ ih => exact ih.elim fun R h => ⟨_, renewsE_preEncode h⟩
  | pair _ _ ih0 ih1 => exact ih0.elim fun R h => ih1.elim fun R' h' => ⟨_, renewsE_pair h h'⟩

theorem Spec.ReusableEnc.renews {σ α : Type} {E : Encoder σ α} {s₀ : σ} (h : ReusableEnc E s₀) :
    ∃ R, RenewsE E s₀ R :=
  parts_renewsE (fun _ _ _ _ h => h.elim) h

end Bytecodec
