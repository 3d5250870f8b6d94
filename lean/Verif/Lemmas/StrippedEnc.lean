import Verif.Lemmas.Stripped
/-!
# Lemmas: taking out limits and checks does not change calls that succeed (encoders)
-/
namespace Bytecodec

open Spec

variable {σ τ α β : Type}

/-- A simulation of the successful calls of an encoder by another one. -/
structure RetainsE (E : Encoder σ α) (E' : Encoder τ α) (R : σ → τ → Prop) : Prop where
  idle : ∀ {s t}, R s t → E.isIdle s = E'.isIdle t
  req : ∀ {s t}, R s t → E.requiring s = E'.requiring t
  encode : ∀ {s t}, R s t → ∀ cap e, Leads R (E.encode s cap e) (E'.encode t cap e)
  start : ∀ {s t}, R s t → ∀ x, Leads R (E.start s x) (E'.start t x)

/-- States related by some simulation. -/
def KeptE (E : Encoder σ α) (E' : Encoder τ α) (s : σ) (t : τ) : Prop := ∃ R, RetainsE E E' R ∧ R s t

theorem retainsE_kept (E : Encoder σ α) (E' : Encoder τ α) : RetainsE E E' (KeptE E E') where
  idle := fun ⟨_, h, hr⟩ => h.idle hr
  req := fun ⟨_, h, hr⟩ => h.req hr
  encode := fun ⟨R, h, hr⟩ b e => (h.encode hr b e).mono fun _ _ h' => ⟨R, h, h'⟩
  start := fun ⟨R, h, hr⟩ x => (h.start hr x).mono fun _ _ h' => ⟨R, h, h'⟩

theorem RetainsE.kept {E : Encoder σ α} {E' : Encoder τ α} {R} (h : RetainsE E E' R) {s t} (hr : R s t) : KeptE E E' s t :=
  ⟨R, h, hr⟩

theorem retainsE_refl (E : Encoder σ α) : RetainsE E E Eq where
  idle := by rintro s _ rfl; rfl
  req := by rintro s _ rfl; rfl
  encode := by rintro s _ rfl b e x t h; exact ⟨t, h, rfl⟩
  start := by rintro s _ rfl y x t h; exact ⟨t, h, rfl⟩

/-! ## What is taken out -/

theorem retainsE_dropMaxBytes {E : Encoder σ α} {E' : Encoder τ α} {R} (h : RetainsE E E' R) :
    RetainsE (maxBytesEncoder E) E' (fun s t => R s.inner t) where
  idle := fun hr => h.idle hr
  req := fun hr => h.req hr
  encode := by
    intro s t hr cap e x u hp
    simp only [maxBytesEncoder] at hp
    cases hd : E.encode s.inner cap e with
    | mk r i =>
      rw [hd] at hp
      cases r with
      | ok bs =>
        obtain ⟨t', h1, h2⟩ := h.encode hr cap e bs i hd
        simp only [Res.step] at hp
        split at hp
        · cases hp
        · split at hp <;> (cases hp; exact ⟨t', h1, h2⟩)
      | _ => cases hp
  start := by
    intro s t hr y x u hp
    simp only [maxBytesEncoder] at hp
    cases hd : E.start s.inner y with
    | mk r i =>
      rw [hd] at hp
      cases r with
      | ok n =>
        obtain ⟨t', h1, h2⟩ := h.start hr y n i hd
        cases hp
        exact ⟨t', h1, h2⟩
      | _ => cases hp

theorem retainsE_dropCheck {E : Encoder σ α} {E' : Encoder τ α} {R} (h : RetainsE E E' R) {f : α → Except ErrorKind α}
    (hf : Checks f) : RetainsE (tryMapFromEncoder E f) E' R where
  idle := h.idle
  req := h.req
  encode := h.encode
  start := by
    intro s t hr y x u hp
    simp only [tryMapFromEncoder] at hp
    cases hy : f y with
    | ok z =>
      rw [hy] at hp
      have := hf y z hy
      subst this
      exact h.start hr z x u hp
    | error k => rw [hy] at hp; cases hp

theorem retainsE_dropMapErr {E : Encoder σ α} {E' : Encoder τ α} {R} (h : RetainsE E E' R) (f : ErrorKind → ErrorKind) :
    RetainsE (mapErrEncoder E f) E' R where
  idle := h.idle
  req := h.req
  encode := by
    intro s t hr b e x u hp
    refine h.encode hr b e x u ?_
    simp only [mapErrEncoder] at hp
    cases hd : E.encode s b e with
    | mk r i =>
      rw [hd] at hp
      cases r <;> simp_all [Res.mapErr]
  start := by
    intro s t hr y x u hp
    refine h.start hr y x u ?_
    simp only [mapErrEncoder] at hp
    cases hd : E.start s y with
    | mk r i =>
      rw [hd] at hp
      cases r <;> simp_all [Res.mapErr]

/-! ## Mapping combinators -/

theorem retainsE_mapErr {E : Encoder σ α} {E' : Encoder τ α} {R} (h : RetainsE E E' R) (f : ErrorKind → ErrorKind) :
    RetainsE (mapErrEncoder E f) (mapErrEncoder E' f) R where
  idle := h.idle
  req := h.req
  encode := by
    intro s t hr b e x u hp
    obtain ⟨t', h1, h2⟩ := (retainsE_dropMapErr h f).encode hr b e x u hp
    exact ⟨t', by simp only [mapErrEncoder, h1, Res.mapErr], h2⟩
  start := by
    intro s t hr y x u hp
    obtain ⟨t', h1, h2⟩ := (retainsE_dropMapErr h f).start hr y x u hp
    exact ⟨t', by simp only [mapErrEncoder, h1, Res.mapErr], h2⟩

theorem retainsE_mapFrom {E : Encoder σ α} {E' : Encoder τ α} {R} (h : RetainsE E E' R) (f : β → α) :
    RetainsE (mapFromEncoder E f) (mapFromEncoder E' f) R where
  idle := h.idle
  req := h.req
  encode := h.encode
  start := fun hr x => h.start hr (f x)

theorem retainsE_tryMapFrom {E : Encoder σ α} {E' : Encoder τ α} {R} (h : RetainsE E E' R) (f : β → Except ErrorKind α) :
    RetainsE (tryMapFromEncoder E f) (tryMapFromEncoder E' f) R where
  idle := h.idle
  req := h.req
  encode := h.encode
  start := fun hr x => by
    simp only [tryMapFromEncoder]
    cases f x with
    | ok y => exact h.start hr y
    | error k => exact .err

theorem retainsE_optional {E : Encoder σ α} {E' : Encoder τ α} {R} (h : RetainsE E E' R) :
    RetainsE (optionalEncoder E) (optionalEncoder E') R where
  idle := h.idle
  req := h.req
  encode := h.encode
  start := fun hr x => by
    cases x with
    | some y => exact h.start hr y
    | none => exact .ok hr

/-! ## Limits -/

theorem retainsE_maxBytes {E : Encoder σ α} {E' : Encoder τ α} {R} (h : RetainsE E E' R) :
    RetainsE (maxBytesEncoder E) (maxBytesEncoder E')
      (fun s t => R s.inner t.inner ∧ s.consumed = t.consumed ∧ s.max = t.max) where
  idle := by rintro ⟨s, sx, sr⟩ ⟨t, tx, tr⟩ ⟨h1, h2, h3⟩; exact h.idle h1
  req := by rintro ⟨s, sx, sr⟩ ⟨t, tx, tr⟩ ⟨h1, h2, h3⟩; exact h.req h1
  encode := by
    rintro ⟨s, sx, sr⟩ ⟨t, tx, tr⟩ ⟨h1, h2, h3⟩ cap e
    simp only at h1 h2 h3
    subst h2 h3
    refine Leads.step (h.encode h1 cap e) fun bs i j hij => ?_
    simp only [h.idle hij]
    exact Leads.ite _ .err (Leads.ite _ (.ok ⟨hij, rfl, rfl⟩) (.ok ⟨hij, rfl, rfl⟩))
  start := by
    rintro ⟨s, sx, sr⟩ ⟨t, tx, tr⟩ ⟨h1, h2, h3⟩ x
    simp only at h1 h2 h3
    subst h2 h3
    exact Leads.step (h.start h1 x) fun _ _ _ h => .ok ⟨h, rfl, rfl⟩

theorem retainsE_length {E : Encoder σ α} {E' : Encoder τ α} {R} (h : RetainsE E E' R) :
    RetainsE (lengthEncoder E).toEncoder (lengthEncoder E').toEncoder
      (fun s t => R s.inner t.inner ∧ s.expected = t.expected ∧ s.remaining = t.remaining) where
  idle := by rintro ⟨s, sx, sr⟩ ⟨t, tx, tr⟩ ⟨h1, h2, h3⟩; simp only at h3; subst h3; rfl
  req := by rintro ⟨s, sx, sr⟩ ⟨t, tx, tr⟩ ⟨h1, h2, h3⟩; simp only at h3; subst h3; rfl
  encode := by
    rintro ⟨s, sx, sr⟩ ⟨t, tx, tr⟩ ⟨h1, h2, h3⟩ cap e
    simp only at h1 h2 h3
    subst h2 h3
    refine Leads.ite _ (.ok ⟨h1, rfl, rfl⟩) ?_
    refine Leads.step (h.encode h1 _ _) fun bs i j hij => ?_
    simp only [h.idle hij]
    exact Leads.ite _ (.ok ⟨hij, rfl, rfl⟩) (Leads.ite _ (.ok ⟨hij, rfl, rfl⟩) (.ok ⟨hij, rfl, rfl⟩))
  start := by
    rintro ⟨s, sx, sr⟩ ⟨t, tx, tr⟩ ⟨h1, h2, h3⟩ x
    simp only at h1 h2 h3
    subst h2 h3
    exact Leads.ite _ (Leads.step (h.start h1 x) fun _ _ _ h => .ok ⟨h, rfl, rfl⟩) (.ok ⟨h1, rfl, rfl⟩)

theorem retainsE_slice {E : Encoder σ α} {E' : Encoder τ α} {R} (h : RetainsE E E' R) :
    RetainsE (sliceEncoder E) (sliceEncoder E') (fun s t => R s.inner t.inner ∧ s.consumable = t.consumable) where
  idle := by rintro ⟨s, x⟩ ⟨t, x'⟩ ⟨h1, h2⟩; exact h.idle h1
  req := by rintro ⟨s, x⟩ ⟨t, x'⟩ ⟨h1, h2⟩; exact h.req h1
  encode := by
    rintro ⟨s, x⟩ ⟨t, x'⟩ ⟨h1, h2⟩ cap e
    simp only at h1 h2
    subst h2
    simp only [sliceEncoder]
    cases e.back (cap - min cap x) with
    | ok e' =>
      exact Leads.step (h.encode h1 _ _) fun _ _ _ h => Leads.ite _ .panic (.ok ⟨h, rfl⟩)
    | _ => exact .panic
  start := by
    rintro ⟨s, x⟩ ⟨t, x'⟩ ⟨h1, h2⟩ y
    simp only at h1 h2
    subst h2
    exact Leads.step (h.start h1 y) fun _ _ _ h => .ok ⟨h, rfl⟩

/-! ## `Last` -/

theorem retainsE_last {E : Encoder σ α} {E' : Encoder τ α} {R} (h : RetainsE E E' R) :
    RetainsE (lastEncoder E) (lastEncoder E') (fun s t => R s.inner t.inner ∧ s.item = t.item) where
  idle := by rintro ⟨s, x⟩ ⟨t, x'⟩ ⟨h1, h2⟩; simp only at h1 h2; simp only [lastEncoder, h2, h.idle h1]
  req := by rintro ⟨s, x⟩ ⟨t, x'⟩ ⟨h1, h2⟩; simp only at h1 h2; simp only [lastEncoder, h2, h.req h1]
  encode := by
    rintro ⟨s, x⟩ ⟨t, x'⟩ ⟨h1, h2⟩ cap e
    simp only at h1 h2
    subst h2
    have enc : ∀ (y : Option α) {u : σ} {v : τ}, R u v →
        Leads (fun s t : LastState _ α => R s.inner t.inner ∧ s.item = t.item)
          (Res.step (E.encode u cap e) (fun i => (⟨i, y⟩ : LastState σ α)) fun bs i => (.ok bs, ⟨i, y⟩))
          (Res.step (E'.encode v cap e) (fun i => (⟨i, y⟩ : LastState τ α)) fun bs i => (.ok bs, ⟨i, y⟩)) :=
      fun y _ _ hr => Leads.step (h.encode hr cap e) fun _ _ _ h => .ok ⟨h, rfl⟩
    simp only [lastEncoder, h.idle h1]
    refine Leads.ite _ ?_ (enc _ h1)
    cases x with
    | none => exact enc _ h1
    | some x => exact Leads.step (h.start h1 x) fun _ _ _ h => enc _ h
  start := fun _ x => x.elim

/-! ## Pairs -/

theorem RetainsE.tryEncode {E : Encoder σ α} {E' : Encoder τ α} {R} (h : RetainsE E E' R) {s : σ} {t : τ} (hr : R s t)
    (out cap e) : LeadsF R (tryEncode E s out cap e) (tryEncode E' t out cap e) := by
  unfold Bytecodec.tryEncode
  rw [← h.idle hr]
  split
  · exact .next _ hr
  · split
    · exact .fail _ (by simp)
    · cases hd : E.encode s (cap - out.length) e with
      | mk r s' =>
        cases r with
        | ok n =>
          obtain ⟨t', h1, hr'⟩ := h.encode hr _ _ _ _ hd
          rw [h1]
          simp only
          rw [← h.idle hr']
          split
          · exact .next _ hr'
          · exact .ret _ hr'
        | _ => exact .fail _ (by simp)

theorem retainsE_pair {σ0 τ0 α0 σ1 τ1 α1 : Type} {E0 : Encoder σ0 α0} {E0' : Encoder τ0 α0} {E1 : Encoder σ1 α1}
    {E1' : Encoder τ1 α1} {R0 R1} (h0 : RetainsE E0 E0' R0) (h1 : RetainsE E1 E1' R1) :
    RetainsE (tupleEncoder2 E0 E1) (tupleEncoder2 E0' E1') (fun s t => R0 s.1 t.1 ∧ R1 s.2 t.2) where
  idle := by rintro ⟨s, x⟩ ⟨t, x'⟩ ⟨r0, r1⟩; simp only [tupleEncoder2, h0.idle r0, h1.idle r1]
  req := by rintro ⟨s, x⟩ ⟨t, x'⟩ ⟨r0, r1⟩; simp only [tupleEncoder2, h0.req r0, h1.req r1]
  encode := by
    rintro ⟨s0, s1⟩ ⟨t0, t1⟩ ⟨r0, r1⟩ cap e
    simp only at r0 r1
    simp only [tupleEncoder2]
    have a := h0.tryEncode r0 [] cap e
    generalize Bytecodec.tryEncode E0 s0 [] cap e = p at a
    generalize Bytecodec.tryEncode E0' t0 [] cap e = q at a
    cases a with
    | ret r hr => exact .ok ⟨hr, r1⟩
    | fail r hf => exact .fail hf
    | next o hr =>
      simp only
      have a := h1.tryEncode r1 o cap e
      generalize Bytecodec.tryEncode E1 s1 o cap e = p at a
      generalize Bytecodec.tryEncode E1' t1 o cap e = q at a
      cases a with
      | ret r hr' => exact .ok ⟨hr, hr'⟩
      | fail r hf => exact .fail hf
      | next o hr' => exact .ok ⟨hr, hr'⟩
  start := by
    rintro ⟨s0, s1⟩ ⟨t0, t1⟩ ⟨r0, r1⟩ x
    exact Leads.step (h0.start r0 x.1) fun _ _ _ h =>
      Leads.step (h1.start r1 x.2) fun _ _ _ h' => .ok ⟨h, h'⟩

/-! ## `Repeat` -/

/-- The same for the ends of the inner loop of `repeat`. -/
inductive LeadsS (R : σ → τ → Prop) : Started σ α → Started τ α → Prop
  | busy {s : σ} {t : τ} (rest : List α) : R s t → LeadsS R (.busy s rest) (.busy t rest)
  | exhausted {s : σ} {t : τ} : R s t → LeadsS R (.exhausted s) (.exhausted t)
  | failed (r : Res Unit) {s : σ} (rest : List α) {q : Started τ α} : (∀ x, r ≠ .ok x) → LeadsS R (.failed r s rest) q

theorem RetainsE.startNext {E : Encoder σ α} {E' : Encoder τ α} {R} (h : RetainsE E E' R) :
    ∀ (xs : List α) {s : σ} {t : τ}, R s t → LeadsS R (startNext E s xs) (startNext E' t xs) := by
  intro xs
  induction xs with
  | nil =>
    intro s t hr
    simp only [Bytecodec.startNext, h.idle hr]
    split
    · exact .exhausted hr
    · exact .busy _ hr
  | cons x xs ih =>
    intro s t hr
    simp only [Bytecodec.startNext, h.idle hr]
    split
    · cases hd : E.start s x with
      | mk r s' =>
        cases r with
        | ok u =>
          obtain ⟨t', h1, hr'⟩ := h.start hr _ _ _ hd
          rw [h1]
          exact ih hr'
        | _ => exact .failed _ _ (by simp)
    · exact .busy _ hr

theorem RetainsE.repeatLoop {E : Encoder σ α} {E' : Encoder τ α} {R} (h : RetainsE E E' R) (cap : Nat) (e : Eos) :
    ∀ (k : Nat) (out : Bytes) (items : Option (List α)) {s : σ} {t : τ}, cap + 1 - out.length ≤ k → R s t →
    Leads (fun (s : RepeatState σ α) (t : RepeatState τ α) => R s.inner t.inner ∧ s.items = t.items)
      (repeatLoop E cap e out s items) (repeatLoop E' cap e out t items) := by
  intro k
  induction k with
  | zero =>
    intro out items s t hk hr
    have a := h.startNext (items.getD []) hr
    rw [Bytecodec.repeatLoop, Bytecodec.repeatLoop]
    generalize Bytecodec.startNext E s (items.getD []) = p at a
    generalize Bytecodec.startNext E' t (items.getD []) = q at a
    cases a with
    | exhausted hr' => exact .ok ⟨hr', rfl⟩
    | failed r rest hf => cases r <;> first | exact absurd rfl (hf _) | exact .fail (by simp [Res.failAs])
    | busy rest hr' =>
      simp only
      rw [if_pos (by omega), if_pos (by omega)]
      exact .ok ⟨hr', rfl⟩
  | succ k ih =>
    intro out items s t hk hr
    have a := h.startNext (items.getD []) hr
    rw [Bytecodec.repeatLoop, Bytecodec.repeatLoop]
    generalize Bytecodec.startNext E s (items.getD []) = p at a
    generalize Bytecodec.startNext E' t (items.getD []) = q at a
    cases a with
    | exhausted hr' => exact .ok ⟨hr', rfl⟩
    | failed r rest hf => cases r <;> first | exact absurd rfl (hf _) | exact .fail (by simp [Res.failAs])
    | @busy s1 t1 rest hr' =>
      simp only
      split
      · exact .ok ⟨hr', rfl⟩
      · cases hd : E.encode s1 (cap - out.length) e with
        | mk r s' =>
          cases r with
          | ok bs =>
            obtain ⟨t', h2, hr''⟩ := h.encode hr' _ _ _ _ hd
            rw [h2]
            simp only
            split
            · exact .ok ⟨hr'', rfl⟩
            · exact ih _ _ (by simp only [List.length_append]; omega) hr''
          | _ => exact .fail (by simp)

theorem retainsE_repeat {E : Encoder σ α} {E' : Encoder τ α} {R} (h : RetainsE E E' R) :
    RetainsE (repeatEncoder E) (repeatEncoder E') (fun s t => R s.inner t.inner ∧ s.items = t.items) where
  idle := by rintro ⟨s, x⟩ ⟨t, x'⟩ ⟨h1, h2⟩; simp only at h2; simp only [repeatEncoder, h2]
  req := by rintro ⟨s, x⟩ ⟨t, x'⟩ ⟨h1, h2⟩; simp only at h2; simp only [repeatEncoder, h2]
  encode := by
    rintro ⟨s, x⟩ ⟨t, x'⟩ ⟨h1, h2⟩ cap e
    simp only at h1 h2
    subst h2
    exact h.repeatLoop cap e _ _ _ (Nat.le_refl _) h1
  start := by
    rintro ⟨s, x⟩ ⟨t, x'⟩ ⟨h1, h2⟩ xs
    simp only at h1 h2
    subst h2
    exact Leads.ite _ (.ok ⟨h1, rfl⟩) (.ok ⟨h1, rfl⟩)

/-! ## `encode_all`, `encode_into_bytes`, `PreEncode` -/

/-- The same for the outcome of `encode_all`: the same bytes have been written. -/
def LeadsW {ω : Type} (R : σ → τ → Prop) (p : Res Unit × σ × ω) (q : Option (Res Unit × τ × ω)) : Prop :=
  ∀ u s w, p = (.ok u, s, w) → ∃ t, q = some (.ok u, t, w) ∧ R s t

theorem RetainsE.encodeAll {ω : Type} {E : Encoder σ α} {E' : Encoder τ α} {R} (h : RetainsE E E' R) (W : Writer ω) :
    ∀ (s : σ) (w : ω) (x : Res Unit × σ × ω), encodeAll E W s w = some x →
      ∀ t, R s t → LeadsW R x (encodeAll E' W t w) := by
  apply encodeAll.partial_correctness E W
    (motive := fun s w x => ∀ t, R s t → LeadsW R x (Bytecodec.encodeAll E' W t w))
  intro loop ih s w x heq t hr
  rw [Bytecodec.encodeAll, ← h.idle hr]
  split at heq
  · next hi =>
    rw [if_pos hi]
    cases heq
    intro u v w hx
    cases hx
    exact ⟨_, rfl, hr⟩
  · next hi =>
    rw [if_neg hi]
    split at heq
    · next bs s' hd =>
      obtain ⟨t', h2, hr'⟩ := h.encode hr _ _ _ _ hd
      rw [h2]
      simp only at heq ⊢
      split at heq
      · next hlt => cases heq; intro u v w hx; cases hx
      · next hlt =>
        rw [if_neg hlt]
        generalize writeAll W w bs = p at heq
        obtain ⟨r, w'⟩ := p
        cases r with
        | ok u =>
          simp only at heq ⊢
          rw [← h.idle hr']
          split at heq
          · next hc => cases heq; intro u v w hx; cases hx
          · next hc =>
            rw [if_neg hc]
            exact ih _ _ _ heq _ hr'
        | _ => cases heq; intro u v w hx; cases hx
    all_goals (cases heq; intro u v w hx; cases hx)

theorem RetainsE.encodeIntoBytes {E : Encoder σ α} {E' : Encoder τ α} {R} (h : RetainsE E E' R) {s : σ} {t : τ} (hr : R s t)
    (x : α) : Leads R (encodeIntoBytes E s x) (encodeIntoBytes E' t x) := by
  refine Leads.step (h.start hr x) fun _ i j hij => ?_
  rw [← h.req hij]
  cases E.requiring i with
  | finite size =>
    refine Leads.ite _ (.ok hij) (Leads.step (h.encode hij _ _) fun bs u v huv => ?_)
    rw [← h.idle huv]
    exact Leads.ite _ (.ok huv) (.ok huv)
  | infinite => exact .ok hij
  | unknown =>
    simp only
    cases hp : Bytecodec.encodeAll E vecWriter i [] with
    | none => exact .fail (by simp)
    | some p =>
      obtain ⟨r, s', w⟩ := p
      cases r with
      | ok u =>
        obtain ⟨t', hq, h2⟩ := h.encodeAll vecWriter _ _ _ hp _ hij _ _ _ rfl
        rw [hq]
        exact .ok h2
      | _ => exact .fail (by simp)

theorem retainsE_preEncode {E : Encoder σ α} {E' : Encoder τ α} {R} (h : RetainsE E E' R) :
    RetainsE (preEncodeEncoder E).toEncoder (preEncodeEncoder E').toEncoder
      (fun s t => R s.inner t.inner ∧ s.preEncoded = t.preEncoded) where
  idle := by rintro ⟨s, x⟩ ⟨t, x'⟩ ⟨h1, h2⟩; simp only at h2; simp only [preEncodeEncoder, h2]
  req := by rintro ⟨s, x⟩ ⟨t, x'⟩ ⟨h1, h2⟩; simp only at h2; simp only [preEncodeEncoder, h2]
  encode := by
    rintro ⟨s, x⟩ ⟨t, x'⟩ ⟨h1, h2⟩ cap e
    simp only at h1 h2
    subst h2
    refine Leads.step (R := Eq) (.ok rfl) fun _ u v huv => ?_
    exact .ok ⟨h1, huv⟩
  start := by
    rintro ⟨s, x⟩ ⟨t, x'⟩ ⟨h1, h2⟩ y
    simp only at h1 h2
    subst h2
    refine Leads.step (h.encodeIntoBytes h1 y) fun b i j hij => ?_
    refine Leads.step (R := Eq) (.ok rfl) fun _ u v huv => ?_
    exact .ok ⟨hij, huv⟩

/-! ## Compositions -/

theorem strippedE_kept {E : Encoder σ α} {s : σ} {E' : Encoder τ α} {t : τ} (h : StrippedE E s E' t) :
    KeptE E E' s t := by
  induction h with
  | same => exact (retainsE_refl _).kept rfl
  | maxBytes n _ ih => exact (retainsE_dropMaxBytes (retainsE_kept _ _)).kept ih
  | check f hf _ ih => exact (retainsE_dropCheck (retainsE_kept _ _) hf).kept ih
  | mapErr f _ ih => exact (retainsE_dropMapErr (retainsE_kept _ _) f).kept ih
  | keepMaxBytes n _ ih => exact (retainsE_maxBytes (retainsE_kept _ _)).kept ⟨ih, rfl, rfl⟩
  | keepMapErr f _ ih => exact (retainsE_mapErr (retainsE_kept _ _) f).kept ih
  | mapFrom f _ ih => exact (retainsE_mapFrom (retainsE_kept _ _) f).kept ih
  | tryMapFrom f _ ih => exact (retainsE_tryMapFrom (retainsE_kept _ _) f).kept ih
  | «repeat» _ ih => exact (retainsE_repeat (retainsE_kept _ _)).kept ⟨ih, rfl⟩
  | optional _ ih => exact (retainsE_optional (retainsE_kept _ _)).kept ih
  | length n _ ih => exact (retainsE_length (retainsE_kept _ _)).kept ⟨ih, rfl, rfl⟩
  | preEncode _ ih => exact (retainsE_preEncode (retainsE_kept _ _)).kept ⟨ih, rfl⟩
  | slice n _ ih => exact (retainsE_slice (retainsE_kept _ _)).kept ⟨ih, rfl⟩
  | last x _ ih => exact (retainsE_last (retainsE_kept _ _)).kept ⟨ih, rfl⟩
  | pair _ _ ih0 ih1 => exact (retainsE_pair (retainsE_kept _ _) (retainsE_kept _ _)).kept ⟨ih0, ih1⟩

/-! ## What callers see -/

theorem RetainsE.observe {E : Encoder σ α} {E' : Encoder τ α} {R} (h : RetainsE E E' R) {s : σ} {t : τ} (hr : R s t)
    (calls : List (ECall α)) (hok : ∀ o ∈ observeE E s calls, o.answer.isOk = true) :
    observeE E' t calls = observeE E s calls := by
  induction calls generalizing s t with
  | nil => rfl
  | cons c cs ih =>
    simp only [Spec.observeE, List.mem_cons, forall_eq_or_imp] at hok
    obtain ⟨h1, h2⟩ := hok
    have key : ecallAnswer E s c = ecallAnswer E' t c ∧ R (ecallState E s c) (ecallState E' t c) := by
      cases c with
      | start y =>
        simp only [ecallAnswer, ecallState] at h1 ⊢
        cases hd : E.start s y with
        | mk r i =>
          rw [hd] at h1
          cases r with
          | ok n =>
            obtain ⟨t', k1, k2⟩ := h.start hr y n i hd
            rw [k1]
            exact ⟨rfl, k2⟩
          | _ => cases h1
      | encode cap e =>
        simp only [ecallAnswer, ecallState] at h1 ⊢
        cases hd : E.encode s cap e with
        | mk r i =>
          rw [hd] at h1
          cases r with
          | ok n =>
            obtain ⟨t', k1, k2⟩ := h.encode hr cap e n i hd
            rw [k1]
            exact ⟨rfl, k2⟩
          | _ => cases h1
    simp only [Spec.observeE]
    rw [← key.1, ← h.idle key.2, ← h.req key.2, ih key.2 h2]

end Bytecodec
