import Verif.Spec.Kinds
import Verif.Lemmas.CodesIo
/-!
# Lemmas for C58: `EncoderFull`
-/
namespace Bytecodec

open Spec

variable {σ τ α β : Type} {errs q : Bool}

/-- Not `EncoderFull` (with `q`); and the invariant is kept, with `errs = false` only by a success. -/
def Quiet {γ : Type} (q errs : Bool) (I : σ → Prop) (p : Res γ × σ) : Prop :=
  (q = true → p.1 ≠ .err .encoderFull) ∧ ((errs = true ∨ ∃ x, p.1 = .ok x) → I p.2)

theorem Quiet.mono {γ : Type} {q' : Bool} {I : σ → Prop} {p : Res γ × σ} (h : Quiet q errs I p)
    (hq : q' = true → q = true) : Quiet q' errs I p :=
  ⟨fun h' => h.1 (hq h'), h.2⟩

theorem Quiet.step {γ δ : Type} {I : σ → Prop} {J : τ → Prop} {p : Res γ × σ} {w : σ → τ}
    {c : γ → σ → Res δ × τ} (h : Quiet q errs I p) (hw : errs = true → I p.2 → J (w p.2))
    (hc : ∀ x, p.1 = .ok x → I p.2 → Quiet q errs J (c x p.2)) : Quiet q errs J (Res.step p w c) := by
  obtain ⟨r, s⟩ := p
  cases r with
  | ok x => exact hc x rfl (h.2 (.inr ⟨x, rfl⟩))
  | err k =>
    refine ⟨fun hq he => h.1 hq (by cases he; rfl), ?_⟩
    rintro (he | ⟨x, he⟩)
    · exact hw he (h.2 (.inl he))
    · cases he
  | panic => exact ⟨nofun, fun he => he.elim (fun he => hw he (h.2 (.inl he))) fun ⟨_, he⟩ => nomatch he⟩
  | capacity => exact ⟨nofun, fun he => he.elim (fun he => hw he (h.2 (.inl he))) fun ⟨_, he⟩ => nomatch he⟩
  | diverge => exact ⟨nofun, fun he => he.elim (fun he => hw he (h.2 (.inl he))) fun ⟨_, he⟩ => nomatch he⟩

theorem quiet_ok {γ : Type} {I : σ → Prop} {x : γ} {s : σ} (h : I s) : Quiet q errs I (.ok x, s) :=
  ⟨nofun, fun _ => h⟩

theorem quiet_err {γ : Type} {I : σ → Prop} {k : ErrorKind} {s : σ} (hk : q = true → k ≠ .encoderFull)
    (h : errs = true → I s) : Quiet q errs I ((.err k : Res γ), s) := by
  refine ⟨fun hq he => hk hq (by cases he; rfl), ?_⟩
  rintro (he | ⟨x, he⟩)
  · exact h he
  · cases he

/-- The encoder reports `EncoderFull` only when it is busy. -/
structure NeverFull (errs : Bool) (E : Encoder σ α) (I : σ → Prop) : Prop where
  encode : ∀ {s} cap e, I s → Quiet true errs I (E.encode s cap e)
  start : ∀ {s} x, I s → Quiet (E.isIdle s) errs I (E.start s x)

theorem NeverFull.used {E : Encoder σ α} {I : σ → Prop} (h : NeverFull errs E I) {s₀ s : σ} (h0 : I s₀)
    (hs : Used errs E s₀ s) : I s := by
  induction hs with
  | new => exact h0
  | start x _ hx ih => exact (h.start x ih).2 (hx.imp id fun h => ⟨(), h⟩)
  | encode cap e _ hx ih => exact (h.encode cap e ih).2 hx

theorem neverFull_bytes (asRef : β → Bytes) : NeverFull errs (bytesEncoder asRef).toEncoder (fun _ => True) where
  encode := by
    intro s cap e _
    refine ⟨fun _ he => ?_, fun _ => trivial⟩
    simp only [bytesEncoder] at he
    repeat' split at he
    all_goals cases he
  start := by
    intro s x _
    refine ⟨fun hi he => ?_, fun _ => trivial⟩
    simp only [bytesEncoder] at he hi
    rw [if_pos hi] at he
    cases he

theorem neverFull_utf8 : NeverFull errs utf8Encoder.toEncoder (fun _ => True) :=
  ⟨(neverFull_bytes utf8Bytes).encode, (neverFull_bytes utf8Bytes).start⟩

theorem neverFull_number {f : α → Except ErrorKind Bytes} (hf : ∀ x, f x ≠ .error .encoderFull) :
    NeverFull errs (fixEncoder f).toEncoder (fun _ => True) where
  encode := (neverFull_bytes (errs := errs) (id : Bytes → Bytes)).encode
  start := by
    intro s x _
    simp only [fixEncoder]
    cases h : f x with
    | ok b => exact (neverFull_bytes (errs := errs) (id : Bytes → Bytes)).start b trivial
    | error k => exact quiet_err (fun _ hk => hf x (hk ▸ h)) (fun _ => trivial)

theorem neverFull_null : NeverFull errs nullEncoder.toEncoder (fun _ => True) :=
  ⟨fun _ _ _ => quiet_ok trivial, fun _ _ => quiet_ok trivial⟩

theorem neverFull_padding : NeverFull errs paddingEncoder (fun _ => True) where
  encode := by
    intro s cap e _
    cases s <;> exact quiet_ok trivial
  start := by
    intro s x _
    cases s with
    | none => exact quiet_ok trivial
    | some b => exact quiet_err nofun (fun _ => trivial)

theorem neverFull_monolithic {ser : MonolithicSerializer α} (hs : ∀ x, (ser x).2 ≠ .err .encoderFull) :
    NeverFull errs (monolithicEncoder ser) (fun s => s.item.isSome = true → s.buf.bytes.isNone = true) where
  encode := by
    rintro ⟨item, buf⟩ cap e hI
    cases item with
    | none =>
      simp only [monolithicEncoder]
      exact ((neverFull_bytes (errs := errs) (id : Bytes → Bytes)).encode cap e trivial).step
        (fun _ _ => nofun) (fun x _ _ => quiet_ok nofun)
    | some x =>
      have hb : buf.bytes.isNone = true := hI rfl
      simp only [monolithicEncoder, serialize_chain, Res.step_ok_eq, List.nil_append]
      refine Quiet.step (I := fun _ => True) ⟨fun _ => hs x, fun _ => trivial⟩ (fun _ _ => nofun) ?_
      intro _ _ _
      split
      · exact quiet_ok nofun
      · refine Quiet.step (I := fun _ => True) (((neverFull_bytes (errs := errs) (id : Bytes → Bytes)).start _ trivial).mono ?_)
          (fun _ _ => nofun) (fun _ _ _ => quiet_ok nofun)
        exact fun _ => hb
  start := by
    rintro ⟨item, buf⟩ x hI
    simp only [monolithicEncoder]
    split
    · next h => 
      refine quiet_ok fun _ => ?_
      simp only [Bool.and_eq_true] at h
      exact h.2
    · next h => exact quiet_err (fun hq => absurd hq h) (fun _ => hI)

theorem quiet_mapErr {γ : Type} {I : σ → Prop} {p : Res γ × σ} {f : ErrorKind → ErrorKind}
    (hf : ∀ k, f k = .encoderFull → k = .encoderFull) (h : Quiet q errs I p) :
    Quiet q errs I (p.1.mapErr f, p.2) := by
  obtain ⟨r, s⟩ := p
  cases r with
  | err k => exact quiet_err (fun hq hk => h.1 hq (by rw [hf k hk])) (fun he => h.2 (.inl he))
  | _ => exact h

theorem neverFull_mapErr {E : Encoder σ α} {I} (h : NeverFull errs E I) {f : ErrorKind → ErrorKind}
    (hf : ∀ k, f k = .encoderFull → k = .encoderFull) : NeverFull errs (mapErrEncoder E f) I :=
  ⟨fun cap e hI => quiet_mapErr hf (h.encode cap e hI), fun x hI => quiet_mapErr hf (h.start x hI)⟩

theorem neverFull_mapFrom {E : Encoder σ α} {I} (h : NeverFull errs E I) (f : β → α) :
    NeverFull errs (mapFromEncoder E f) I :=
  ⟨h.encode, fun x hI => h.start (f x) hI⟩

theorem neverFull_tryMapFrom {E : Encoder σ α} {I} (h : NeverFull errs E I) {f : β → Except ErrorKind α}
    (hf : ∀ x, f x ≠ .error .encoderFull) : NeverFull errs (tryMapFromEncoder E f) I where
  encode := h.encode
  start := by
    intro s x hI
    simp only [tryMapFromEncoder]
    cases hx : f x with
    | ok y => exact h.start y hI
    | error k => exact quiet_err (fun _ hk => hf x (hk ▸ hx)) (fun _ => hI)

theorem neverFull_optional {E : Encoder σ α} {I} (h : NeverFull errs E I) : NeverFull errs (optionalEncoder E) I where
  encode := h.encode
  start := by
    intro s x hI
    cases x with
    | some y => exact h.start y hI
    | none => exact quiet_ok hI

theorem neverFull_maxBytes {E : Encoder σ α} {I} (h : NeverFull errs E I) :
    NeverFull errs (maxBytesEncoder E) (fun s => I s.inner) where
  encode := by
    intro s cap e hI
    refine (h.encode cap e hI).step (fun _ h => h) fun bs _ h' => ?_
    simp only
    split
    · exact quiet_err nofun (fun _ => h')
    · split <;> exact quiet_ok h'
  start := by
    intro s x hI
    exact (h.start x hI).step (fun _ h => h) fun _ _ h' => quiet_ok h'

theorem neverFull_slice {E : Encoder σ α} {I} (h : NeverFull errs E I) :
    NeverFull errs (sliceEncoder E) (fun s => I s.inner) where
  encode := by
    intro s cap e hI
    simp only [sliceEncoder]
    split
    · refine (h.encode _ _ hI).step (fun _ h => h) fun bs _ h' => ?_
      split
      · exact ⟨nofun, fun _ => h'⟩
      · exact quiet_ok h'
    · exact ⟨nofun, fun _ => hI⟩
  start := by
    intro s x hI
    exact (h.start x hI).step (fun _ h => h) fun _ _ h' => quiet_ok h'

theorem neverFull_last {E : Encoder σ α} {I} (h : NeverFull errs E I) :
    NeverFull errs (lastEncoder E) (fun s => I s.inner) where
  encode := by
    intro s cap e hI
    have hgo : ∀ t : LastState σ α, I t.inner → Quiet true errs (fun s : LastState σ α => I s.inner)
        (Res.step (E.encode t.inner cap e) (fun i => { t with inner := i }) fun bs i =>
          (.ok bs, { t with inner := i })) := fun t ht =>
      (h.encode cap e ht).step (fun _ h => h) fun _ _ h' => quiet_ok h'
    simp only [lastEncoder]
    split
    · next hi =>
      split
      · next x _ =>
        exact ((h.start x hI).mono (fun _ => hi)).step (fun _ h => h) fun _ _ h' => hgo ⟨_, none⟩ h'
      · exact hgo s hI
    · exact hgo s hI
  start := by intro s x; exact x.elim

/-- `Quiet` for the result of `try_encode!`. -/
def QuietF (errs : Bool) (I : σ → Prop) : Flow Bytes σ → Prop
  | .ret r s => Quiet true errs I (r, s)
  | .next _ s => I s

theorem tryEncode_quiet {E : Encoder σ α} {I} (h : NeverFull errs E I) {s : σ} (hI : I s) (o : Bytes) (cap : Nat)
    (e : Eos) : QuietF errs I (tryEncode E s o cap e) := by
  unfold tryEncode
  split
  · exact hI
  · split
    · exact ⟨nofun, fun _ => hI⟩
    · have hq := h.encode (cap - o.length) e hI
      rcases he : E.encode s (cap - o.length) e with ⟨r, s'⟩
      rw [he] at hq
      cases r with
      | ok bs =>
        simp only
        split
        · exact hq.2 (.inr ⟨bs, rfl⟩)
        · exact quiet_ok (hq.2 (.inr ⟨bs, rfl⟩))
      | err k => exact hq
      | panic => exact hq
      | capacity => exact hq
      | diverge => exact hq

theorem neverFull_pair {σ0 α0 σ1 α1 : Type} {E0 : Encoder σ0 α0} {E1 : Encoder σ1 α1} {I0 I1}
    (h0 : NeverFull errs E0 I0) (h1 : NeverFull errs E1 I1) :
    NeverFull errs (tupleEncoder2 E0 E1) (fun s => I0 s.1 ∧ I1 s.2) where
  encode := by
    rintro ⟨s0, s1⟩ cap e ⟨i0, i1⟩
    simp only [tupleEncoder2]
    have q0 := tryEncode_quiet h0 i0 [] cap e
    cases h : tryEncode E0 s0 [] cap e with
    | ret r t0 => rw [h] at q0; exact ⟨q0.1, fun hx => ⟨q0.2 hx, i1⟩⟩
    | next o t0 =>
      rw [h] at q0
      have q1 := tryEncode_quiet h1 i1 o cap e
      simp only
      cases h : tryEncode E1 s1 o cap e with
      | ret r t1 => rw [h] at q1; exact ⟨q1.1, fun hx => ⟨q0, q1.2 hx⟩⟩
      | next o' t1 => rw [h] at q1; exact quiet_ok ⟨q0, q1⟩
  start := by
    rintro ⟨s0, s1⟩ ⟨x0, x1⟩ ⟨i0, i1⟩
    refine ((h0.start x0 i0).mono ?_).step (fun _ h => ⟨h, i1⟩) fun _ _ j0 =>
      ((h1.start x1 i1).mono ?_).step (fun _ h => ⟨j0, h⟩) fun _ _ j1 => quiet_ok ⟨j0, j1⟩
    · intro h; simp only [tupleEncoder2, Bool.and_eq_true] at h; exact h.1
    · intro h; simp only [tupleEncoder2, Bool.and_eq_true] at h; exact h.2

theorem startNext_quiet {E : Encoder σ α} {I} (h : NeverFull errs E I) : ∀ (xs : List α) {s : σ}, I s →
    (∀ s', startNext E s xs = .exhausted s' → I s') ∧ (∀ s' rest, startNext E s xs = .busy s' rest → I s') ∧
    (∀ r s' rest, startNext E s xs = .failed r s' rest → Quiet true errs I (r, s') ∧ ∀ u, r ≠ .ok u) := by
  intro xs
  induction xs with
  | nil =>
    intro s hI
    simp only [startNext]
    split
    · exact ⟨fun _ h => (by cases h; exact hI), fun _ _ h => (by cases h), fun _ _ _ h => (by cases h)⟩
    · exact ⟨fun _ h => (by cases h), fun _ _ h => (by cases h; exact hI), fun _ _ _ h => (by cases h)⟩
  | cons x xs ih =>
    intro s hI
    simp only [startNext]
    split
    · next hi =>
      have hq := h.start x hI
      rw [hi] at hq
      split
      · next he => rw [he] at hq; exact ih (hq.2 (.inr ⟨(), rfl⟩))
      · next r t hn he =>
        rw [he] at hq
        refine ⟨fun _ h => (by cases h), fun _ _ h => (by cases h), fun _ _ _ h => ?_⟩
        cases h
        exact ⟨hq, fun u hu => hn hu⟩
    · exact ⟨fun _ h => (by cases h), fun _ _ h => (by cases h; exact hI), fun _ _ _ h => (by cases h)⟩

theorem repeatLoop_quiet {E : Encoder σ α} {I} (h : NeverFull errs E I) (cap : Nat) (e : Eos) : ∀ (k : Nat) (out : Bytes)
    (s : σ) (items : Option (List α)), cap + 1 - out.length ≤ k → I s →
    Quiet true errs (fun t : RepeatState σ α => I t.inner) (repeatLoop E cap e out s items) := by
  intro k
  induction k with
  | zero =>
    intro out s items hk hI
    rw [repeatLoop]
    obtain ⟨h1, h2, h3⟩ := startNext_quiet h (items.getD []) hI
    split
    · exact quiet_ok (h1 _ ‹_›)
    · next r s' rest hf =>
      obtain ⟨hq, hne⟩ := h3 _ _ _ hf
      cases r with
      | ok u => exact absurd rfl (hne u)
      | err k => exact quiet_err (fun _ hk => hq.1 rfl (by rw [hk])) fun he => hq.2 (.inl he)
      | panic => exact ⟨nofun, fun he => he.elim (fun he => hq.2 (.inl he)) fun ⟨_, he⟩ => nomatch he⟩
      | capacity => exact ⟨nofun, fun he => he.elim (fun he => hq.2 (.inl he)) fun ⟨_, he⟩ => nomatch he⟩
      | diverge => exact ⟨nofun, fun he => he.elim (fun he => hq.2 (.inl he)) fun ⟨_, he⟩ => nomatch he⟩
    · rw [if_pos (by omega)]
      exact ⟨nofun, fun _ => h2 _ _ ‹_›⟩
  | succ k ih =>
    intro out s items hk hI
    rw [repeatLoop]
    obtain ⟨h1, h2, h3⟩ := startNext_quiet h (items.getD []) hI
    split
    · exact quiet_ok (h1 _ ‹_›)
    · next r s' rest hf =>
      obtain ⟨hq, hne⟩ := h3 _ _ _ hf
      cases r with
      | ok u => exact absurd rfl (hne u)
      | err k => exact quiet_err (fun _ hk => hq.1 rfl (by rw [hk])) fun he => hq.2 (.inl he)
      | panic => exact ⟨nofun, fun he => he.elim (fun he => hq.2 (.inl he)) fun ⟨_, he⟩ => nomatch he⟩
      | capacity => exact ⟨nofun, fun he => he.elim (fun he => hq.2 (.inl he)) fun ⟨_, he⟩ => nomatch he⟩
      | diverge => exact ⟨nofun, fun he => he.elim (fun he => hq.2 (.inl he)) fun ⟨_, he⟩ => nomatch he⟩
    · next s' rest hb =>
      split
      · exact ⟨nofun, fun _ => h2 _ _ ‹_›⟩
      · have hq := h.encode (cap - out.length) e (h2 _ _ hb)
        rcases he : E.encode s' (cap - out.length) e with ⟨r, s''⟩
        rw [he] at hq
        cases r with
        | ok bs =>
          have hj := hq.2 (.inr ⟨bs, rfl⟩)
          simp only
          split
          · exact quiet_ok hj
          · exact ih _ _ _ (by simp only [List.length_append]; omega) hj
        | err k => exact ⟨fun _ hk => hq.1 rfl (by cases hk; rfl), fun he => he.elim (fun he => hq.2 (.inl he)) fun ⟨_, he⟩ => nomatch he⟩
        | panic => exact ⟨nofun, fun he => he.elim (fun he => hq.2 (.inl he)) fun ⟨_, he⟩ => nomatch he⟩
        | capacity => exact ⟨nofun, fun he => he.elim (fun he => hq.2 (.inl he)) fun ⟨_, he⟩ => nomatch he⟩
        | diverge => exact ⟨nofun, fun he => he.elim (fun he => hq.2 (.inl he)) fun ⟨_, he⟩ => nomatch he⟩

theorem neverFull_repeat {E : Encoder σ α} {I} (h : NeverFull errs E I) :
    NeverFull errs (repeatEncoder E) (fun s => I s.inner) where
  encode := fun cap e hI => repeatLoop_quiet h cap e _ _ _ _ (Nat.le_refl _) hI
  start := by
    intro s x hI
    simp only [repeatEncoder]
    split
    · exact quiet_ok hI
    · next h => exact quiet_err (fun hq => absurd hq h) (fun _ => hI)

theorem encodeAll_quiet {E : Encoder σ α} {I} (h : NeverFull errs E I) :
    ∀ (s : σ) (w : Bytes) (r : Res Unit × σ × Bytes), encodeAll E vecWriter s w = some r → I s →
      Quiet true errs (fun t => I t) (r.1, r.2.1) ∧ (r.1 = .ok () → E.isIdle r.2.1 = true) := by
  refine encodeAll.partial_correctness E vecWriter
    (fun s w r => I s → Quiet true errs (fun t => I t) (r.1, r.2.1) ∧ (r.1 = .ok () → E.isIdle r.2.1 = true)) ?_
  intro rec ih s w r hr hI
  have hq := h.encode 1024 (Eos.new false) hI
  split at hr
  · cases hr; exact ⟨quiet_ok hI, fun _ => ‹_›⟩
  · rcases he : E.encode s 1024 (Eos.new false) with ⟨r', s'⟩
    rw [he] at hr hq
    cases r' with
    | ok bs =>
      have hj := hq.2 (.inr ⟨bs, rfl⟩)
      simp only at hr
      split at hr
      · cases hr; exact ⟨⟨nofun, fun _ => hj⟩, nofun⟩
      · obtain ⟨res, w', hw, hc⟩ := writeAll_spec sink_vec w bs
        rw [hw] at hr
        rcases hc with ⟨rfl, _⟩ | ⟨k, pre, _, _, _, hf⟩
        · simp only at hr
          split at hr
          · cases hr; exact ⟨quiet_err nofun fun _ => hj, nofun⟩
          · exact ih _ _ _ hr hj
        · exact absurd hf vec_never_fails
    | err k => cases hr; exact ⟨⟨fun _ hk => hq.1 rfl (by cases hk; rfl), fun he => he.elim (fun he => hq.2 (.inl he)) fun ⟨_, he⟩ => nomatch he⟩, nofun⟩
    | panic => cases hr; exact ⟨⟨nofun, fun he => he.elim (fun he => hq.2 (.inl he)) fun ⟨_, he⟩ => nomatch he⟩, nofun⟩
    | capacity => cases hr; exact ⟨⟨nofun, fun he => he.elim (fun he => hq.2 (.inl he)) fun ⟨_, he⟩ => nomatch he⟩, nofun⟩
    | diverge => cases hr; exact ⟨⟨nofun, fun he => he.elim (fun he => hq.2 (.inl he)) fun ⟨_, he⟩ => nomatch he⟩, nofun⟩

theorem encodeIntoBytes_quiet {E : Encoder σ α} {I} (h : NeverFull false E I) {s : σ} (hI : I s)
    (hi : E.isIdle s = true) (x : α) :
    Quiet true false (fun t => I t ∧ E.isIdle t = true) (encodeIntoBytes E s x) := by
  have hs := h.start x hI
  rw [hi] at hs
  refine hs.step nofun fun _ _ hJ => ?_
  split
  · split
    · exact ⟨nofun, fun he => he.elim nofun fun ⟨_, he⟩ => nomatch he⟩
    · refine (h.encode _ _ hJ).step nofun fun _ _ hJ' => ?_
      split
      · exact quiet_ok ⟨hJ', ‹_›⟩
      · exact quiet_err nofun nofun
  · split
    · exact ⟨nofun, fun he => he.elim nofun fun ⟨_, he⟩ => nomatch he⟩
    · next r t out ha =>
      obtain ⟨hq, hid⟩ := encodeAll_quiet h _ _ _ ha hJ
      refine Quiet.step (I := fun t => I t) hq nofun fun u hu hJ' => quiet_ok ⟨hJ', hid ?_⟩
      exact hu
  · exact quiet_err nofun nofun

theorem neverFull_preEncode {E : Encoder σ α} {I} (h : NeverFull false E I) :
    NeverFull false (preEncodeEncoder E).toEncoder (fun s => I s.inner ∧ E.isIdle s.inner = true) where
  encode := by
    intro s cap e hI
    exact ((neverFull_bytes (errs := false) (id : Bytes → Bytes)).encode cap e trivial).step nofun
      fun _ _ _ => quiet_ok hI
  start := by
    intro s x hI
    exact ((encodeIntoBytes_quiet h hI.1 hI.2 x).mono fun _ => rfl).step nofun fun buf _ hJ =>
      ((neverFull_bytes (errs := false) (id : Bytes → Bytes)).start buf trivial).step nofun
      fun _ _ _ => quiet_ok hJ

theorem neverFull_used {E : Encoder σ α} {s₀ : σ} (h : FullMeansBusy errs E s₀) :
    NeverFull errs E (Used errs E s₀) where
  encode := fun cap e hs => ⟨fun _ => (h _ hs).2 cap e, fun hx => .encode cap e hs hx⟩
  start := fun x hs => ⟨fun hi => (h _ hs).1 hi x, fun hx => .start x hs (hx.imp id fun ⟨_, h⟩ => h)⟩

theorem parts_neverFull {own : OwnEncoder} (hP : ∀ σ α (E : Encoder σ α) s, own σ α E s → FullMeansBusy errs E s)
    {E : Encoder σ α} {s : σ} (h : AcceptingWith own errs E s) :
    ∃ I : σ → Prop, NeverFull errs E I ∧ I s := by
  induction h with
  | own h => exact ⟨_, neverFull_used (hP _ _ _ _ h), .new⟩
  | bytes asRef => exact ⟨_, neverFull_bytes asRef, trivial⟩
  | utf8 => exact ⟨_, neverFull_utf8, trivial⟩
  | number f hf => exact ⟨_, neverFull_number hf, trivial⟩
  | null => exact ⟨_, neverFull_null, trivial⟩
  | padding => exact ⟨_, neverFull_padding, trivial⟩
  | monolithic ser hs => exact ⟨_, neverFull_monolithic hs, nofun⟩
  | mapErr f hf _ ih => obtain ⟨I, h, h0⟩ := ih; exact ⟨_, neverFull_mapErr h hf, h0⟩
  | mapFrom f _ ih => obtain ⟨I, h, h0⟩ := ih; exact ⟨_, neverFull_mapFrom h f, h0⟩
  | tryMapFrom f hf _ ih => obtain ⟨I, h, h0⟩ := ih; exact ⟨_, neverFull_tryMapFrom h hf, h0⟩
  | repeated _ ih => obtain ⟨I, h, h0⟩ := ih; exact ⟨_, neverFull_repeat h, h0⟩
  | optional _ ih => obtain ⟨I, h, h0⟩ := ih; exact ⟨_, neverFull_optional h, h0⟩
  | maxBytes n _ ih => obtain ⟨I, h, h0⟩ := ih; exact ⟨_, neverFull_maxBytes h, h0⟩
  | preEncode he hi _ ih => obtain ⟨I, h, h0⟩ := ih; subst he; exact ⟨_, neverFull_preEncode h, h0, hi⟩
  | slice n _ ih => obtain ⟨I, h, h0⟩ := ih; exact ⟨_, neverFull_slice h, h0⟩
  | last x _ ih => obtain ⟨I, h, h0⟩ := ih; exact ⟨_, neverFull_last h, h0⟩
  | pair _ _ ih0 ih1 =>
    obtain ⟨I, h, h0⟩ := ih0
    obtain ⟨J, h', h1⟩ := ih1
    exact ⟨_, neverFull_pair h h', h0, h1⟩

theorem Spec.Accepting.neverFull {E : Encoder σ α} {s : σ} (h : Accepting errs E s) :
    ∃ I : σ → Prop, NeverFull errs E I ∧ I s :=
  parts_neverFull (fun _ _ _ _ h => h.elim) h

/-! ## Busy encoders -/

/-- `start_encoding` while busy fails, or with `opt` has no effect. -/
structure Holds (opt : Bool) (E : Encoder σ α) : Prop where
  start : ∀ s x, E.isIdle s = false → (E.start s x).2 = s ∧ ((∃ k, (E.start s x).1 = .err k) ∨
    (opt = true ∧ (E.start s x).1 = .ok ()))

theorem holds_bytes {opt : Bool} (asRef : β → Bytes) : Holds opt (bytesEncoder asRef).toEncoder where
  start := by
    intro s x hi
    simp only [bytesEncoder] at hi ⊢
    rw [if_neg (by rw [hi]; nofun)]
    exact ⟨rfl, .inl ⟨_, rfl⟩⟩

theorem Holds.inner {opt : Bool} {E : Encoder σ α} (h : Holds opt E) {s : σ} {x : α} (hi : E.isIdle s = false)
    {w : σ → τ} {t : τ} (hw : w s = t) :
    (Res.step (E.start s x) w fun _ i => ((.ok () : Res Unit), w i)).2 = t ∧
    ((∃ k, (Res.step (E.start s x) w fun _ i => ((.ok () : Res Unit), w i)).1 = .err k) ∨
      (opt = true ∧ (Res.step (E.start s x) w fun _ i => ((.ok () : Res Unit), w i)).1 = .ok ())) := by
  obtain ⟨h1, h2⟩ := h.start s x hi
  rcases hq : E.start s x with ⟨r, s'⟩
  rw [hq] at h1 h2
  simp only at h1 h2
  subst h1
  rcases h2 with ⟨k, rfl⟩ | ⟨ho, rfl⟩
  · exact ⟨hw, .inl ⟨k, rfl⟩⟩
  · exact ⟨hw, .inr ⟨ho, rfl⟩⟩

theorem Spec.Single.holds {opt : Bool} {E : Encoder σ α} (h : Single opt E) : Holds opt E := by
  induction h with
  | bytes asRef => exact holds_bytes asRef
  | utf8 => exact ⟨(holds_bytes utf8Bytes).start⟩
  | number f =>
    refine ⟨fun s x hi => ?_⟩
    simp only [fixEncoder]
    cases f x with
    | ok b => exact (holds_bytes (id : Bytes → Bytes)).start s b hi
    | error k => exact ⟨rfl, .inl ⟨k, rfl⟩⟩
  | null => exact ⟨fun _ _ hi => nomatch hi⟩
  | padding =>
    refine ⟨fun s x hi => ?_⟩
    cases s with
    | none => cases hi
    | some b => exact ⟨rfl, .inl ⟨_, rfl⟩⟩
  | monolithic ser =>
    refine ⟨fun s x hi => ?_⟩
    simp only [monolithicEncoder] at hi ⊢
    rw [if_neg (by rw [hi]; nofun)]
    exact ⟨rfl, .inl ⟨_, rfl⟩⟩
  | @mapErr σ α E f _ ih =>
    refine ⟨fun s x hi => ?_⟩
    obtain ⟨h1, h2⟩ := ih.start s x hi
    refine ⟨h1, ?_⟩
    simp only [mapErrEncoder]
    rcases h2 with ⟨k, hk⟩ | ⟨ho, hk⟩
    · rw [hk]; exact .inl ⟨f k, rfl⟩
    · rw [hk]; exact .inr ⟨ho, rfl⟩
  | mapFrom f _ ih => exact ⟨fun s x hi => ih.start s (f x) hi⟩
  | tryMapFrom f _ ih =>
    refine ⟨fun s x hi => ?_⟩
    simp only [tryMapFromEncoder]
    cases f x with
    | ok y => exact ih.start s y hi
    | error k => exact ⟨rfl, .inl ⟨k, rfl⟩⟩
  | repeated =>
    refine ⟨fun s x hi => ?_⟩
    simp only [repeatEncoder] at hi ⊢
    rw [if_neg (by rw [hi]; nofun)]
    exact ⟨rfl, .inl ⟨_, rfl⟩⟩
  | optional ho _ ih =>
    refine ⟨fun s x hi => ?_⟩
    cases x with
    | some y => exact ih.start s y hi
    | none => exact ⟨rfl, .inr ⟨ho, rfl⟩⟩
  | @maxBytes σ _ _ _ ih =>
    exact ⟨fun s x hi => ih.inner (x := x) hi (w := fun i => ({ s with inner := i } : MaxBytesState σ)) rfl⟩
  | @slice σ _ _ _ ih =>
    exact ⟨fun s x hi => ih.inner (x := x) hi (w := fun i => ({ s with inner := i } : SliceState σ)) rfl⟩

end Bytecodec
