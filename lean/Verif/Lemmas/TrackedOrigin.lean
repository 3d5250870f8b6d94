import Verif.Spec.Tracked
/-!
# Lemmas: the errors a program returns are those of its parts, tracked further
-/
namespace Bytecodec

variable {κ σ α β τ υ : Type} {P : TError κ → Prop}

theorem Surfaces.refl (x : TError κ) : Surfaces x x :=
  ⟨rfl, rfl, [], by cases h : x.history <;> simp⟩

theorem Surfaces.track {o x : TError κ} (h : Surfaces o x) (l : Loc) : Surfaces o (x.track l) := by
  obtain ⟨h1, h2, ls, h3⟩ := h
  refine ⟨h1, h2, ls ++ [l], ?_⟩
  simp only [TError.track, h3]
  cases o.history <;> simp

theorem Surfaces.trans {o x y : TError κ} (h : Surfaces o x) (h' : Surfaces x y) : Surfaces o y := by
  obtain ⟨h1, h2, ls, h3⟩ := h
  obtain ⟨h1', h2', ls', h3'⟩ := h'
  refine ⟨h1'.trans h1, h2'.trans h2, ls ++ ls', ?_⟩
  rw [h3', h3]
  cases o.history <;> simp

/-- Errors that may be tracked further and include the library's own. -/
structure Open (P : TError κ → Prop) : Prop where
  track : ∀ x l, P x → P (x.track l)
  own : ∀ x, Own x → P x

theorem arrives_open (O : TError κ → Prop) : Open (Arrives O) where
  track x l := fun ⟨o, ho, h⟩ => ⟨o, ho, h.track l⟩
  own x h := ⟨x, .inr h, .refl x⟩

theorem Open.raised (h : Open P) (k : ErrorKind) (l : Loc) : P (.raised k l) := h.own _ ⟨k, l, .inl rfl⟩
theorem Open.bare (h : Open P) (k : ErrorKind) (l : Loc) : P (.bare k l) := h.own _ ⟨k, l, .inr rfl⟩

theorem Arrives.mono {O O' : TError κ → Prop} (h : ∀ x, O x → O' x) {x : TError κ} (hx : Arrives O x) : Arrives O' x := by
  obtain ⟨o, ho, hs⟩ := hx
  exact ⟨o, ho.imp (h o) id, hs⟩

/-- The error of a call, if any, satisfies `P`. -/
def Only (P : TError κ → Prop) (p : TRes κ α × τ) : Prop := ∀ x, p.1 = .err x → P x

theorem only_ok (a : α) (s : τ) : Only P (.ok a, s) := fun _ h => by cases h
theorem only_panic (s : τ) : Only P (TRes.panic (α := α), s) := fun _ h => by cases h
theorem only_capacity (s : τ) : Only P (TRes.capacity (α := α), s) := fun _ h => by cases h
theorem only_diverge (s : τ) : Only P (TRes.diverge (α := α), s) := fun _ h => by cases h
theorem only_err {x : TError κ} (hx : P x) (s : τ) : Only P (TRes.err (α := α) x, s) := fun _ h => by cases h; exact hx

theorem only_tracked (hP : Open P) (l : Loc) {p : TRes κ α × τ} (h : Only P p) : Only P (tracked l p) := by
  obtain ⟨r, s⟩ := p
  cases r with
  | err x => exact only_err (hP.track _ _ (h x rfl)) _
  | _ => exact h

theorem only_step {p : TRes κ α × τ} (w : τ → υ) (k : α → τ → TRes κ β × υ) (h : Only P p) (hk : ∀ a s, Only P (k a s)) :
    Only P (TRes.step p w k) := by
  obtain ⟨r, s⟩ := p
  cases r with
  | ok a => exact hk a s
  | err x => exact only_err (h x rfl) _
  | _ => exact fun _ h => by cases h

theorem only_ite {c : Prop} [Decidable c] {p q : TRes κ α × τ} (hp : Only P p) (hq : Only P q) :
    Only P (if c then p else q) := by split <;> assumption

/-- The result of a flow, if any, satisfies `P`. -/
def TFlow.Only {ω : Type} (P : TError κ → Prop) (f : TFlow κ ω σ) : Prop := ∀ r s, f = .ret r s → Bytecodec.Only P (r, s)

structure OnlyDec (P : TError κ → Prop) (D : TDecoder κ σ α) : Prop where
  decode : ∀ s b e, Only P (D.decode s b e)
  finish : ∀ s, Only P (D.finish s)

structure OnlyEnc (P : TError κ → Prop) (E : TEncoder κ σ α) : Prop where
  encode : ∀ s n e, Only P (E.encode s n e)
  start : ∀ s x, Only P (E.start s x)

theorem OnlyDec.mono {P' : TError κ → Prop} {D : TDecoder κ σ α} (h : OnlyDec P D) (hp : ∀ x, P x → P' x) : OnlyDec P' D :=
  ⟨fun s b e x hx => hp x (h.decode s b e x hx), fun s x hx => hp x (h.finish s x hx)⟩

theorem OnlyEnc.mono {P' : TError κ → Prop} {E : TEncoder κ σ α} (h : OnlyEnc P E) (hp : ∀ x, P x → P' x) : OnlyEnc P' E :=
  ⟨fun s b e x hx => hp x (h.encode s b e x hx), fun s a x hx => hp x (h.start s a x hx)⟩

theorem only_tryDecode (hP : Open P) (l : Loc) {D : TDecoder κ σ α} (h : OnlyDec P D) (s : σ) (o : Nat) (b : Bytes) (e : Eos) :
    (tTryDecode l D s o b e).Only P := by
  have hd := only_tracked hP l (h.decode s (b.drop o) e)
  intro r s' hr
  rw [tTryDecode] at hr
  split at hr
  · cases hr
  · split at hr
    · cases hr; exact only_panic _
    · generalize tracked l (D.decode s (b.drop o) e) = p at hd hr
      obtain ⟨a, s''⟩ := p
      cases a with
      | ok n =>
        simp only at hr
        split at hr
        · cases hr
        · cases hr; exact only_ok _ _
      | err x => cases hr; exact hd
      | _ => cases hr; exact fun _ h => by cases h

theorem only_tryEncode (hP : Open P) (l : Loc) {E : TEncoder κ σ α} (h : OnlyEnc P E) (s : σ) (o : Bytes) (n : Nat) (e : Eos) :
    (tTryEncode l E s o n e).Only P := by
  have hd := only_tracked hP l (h.encode s (n - o.length) e)
  intro r s' hr
  rw [tTryEncode] at hr
  split at hr
  · cases hr
  · split at hr
    · cases hr; exact only_panic _
    · generalize tracked l (E.encode s (n - o.length) e) = p at hd hr
      obtain ⟨a, s''⟩ := p
      cases a with
      | ok n =>
        simp only at hr
        split at hr
        · cases hr
        · cases hr; exact only_ok _ _
      | err x => cases hr; exact hd
      | _ => cases hr; exact fun _ h => by cases h

theorem Only.state {υ : Type} {r : TRes κ α} {s : τ} (h : Only P (r, s)) (t : υ) : Only P (r, t) := h

/-! ## Decoders -/

variable {D : TDecoder κ σ α}

theorem only_map (h : OnlyDec P D) (f : α → β) : OnlyDec P (tMapDecoder D f) :=
  ⟨fun s b e => h.decode s b e, fun s => only_step _ _ (h.finish s) fun _ _ => only_ok _ _⟩

theorem only_tryMap (hP : Open P) (h : OnlyDec P D) (f : α → Except (TError κ) β) (hf : ∀ a x, f a = .error x → P x) :
    OnlyDec P (tTryMapDecoder D f) :=
  ⟨fun s b e => only_tracked hP _ (h.decode s b e), fun s => only_step _ _ (only_tracked hP _ (h.finish s)) fun a s' => by
    cases hfa : f a with
    | ok y => exact only_ok _ _
    | error k => exact only_tracked hP _ (only_err (hf a k hfa) _)⟩

theorem only_mapErrP {P' : TError κ → Prop} (g : TError κ → TError κ) (hg : ∀ x, P x → P' (g x)) {p : TRes κ α × τ}
    (h : Only P p) : Only P' (TRes.mapErr g p) := by
  obtain ⟨r, s⟩ := p
  cases r with
  | err x => exact only_err (hg x (h x rfl)) _
  | _ => exact fun _ h => by cases h

theorem only_mapErr {P' : TError κ → Prop} (h : OnlyDec P D) (g : TError κ → TError κ) (hg : ∀ x, P x → P' (g x)) :
    OnlyDec P' (tMapErrDecoder D g) :=
  ⟨fun s b e => only_mapErrP g hg (h.decode s b e), fun s => only_mapErrP g hg (h.finish s)⟩

theorem only_andThen {σ0 α0 σ1 α1 : Type} {D0 : TDecoder κ σ0 α0} {D1 : TDecoder κ σ1 α1} (hP : Open P)
    (h0 : OnlyDec P D0) (h1 : OnlyDec P D1) (f : α0 → σ1) : OnlyDec P (tAndThenDecoder D0 D1 f) := by
  have h2 : ∀ (b : Bytes) (e : Eos) (s0 : σ0) (o : Nat) (s1 : σ1),
      Only P (match tTryDecode (inCombinator 219) D1 s1 o b e with
        | .ret r s1' => (r, (s0, some s1'))
        | .next offset s1' => (TRes.ok offset, (s0, some s1'))) := by
    intro b e s0 o s1
    have ht := only_tryDecode hP (inCombinator 219) h1 s1 o b e
    generalize tTryDecode (inCombinator 219) D1 s1 o b e = p at ht
    cases p with
    | ret r s => exact (ht r s rfl).state _
    | next o s => exact only_ok _ _
  refine ⟨fun s b e => ?_, fun s => ?_⟩
  · obtain ⟨s0, s1⟩ := s
    cases s1 with
    | some s1 => exact h2 b e s0 0 s1
    | none =>
      simp only [tAndThenDecoder]
      have ht := only_tryDecode hP (inCombinator 213) h0 s0 0 b e
      generalize tTryDecode (inCombinator 213) D0 s0 0 b e = p at ht
      cases p with
      | ret r s => exact (ht r s rfl).state _
      | next o s => exact only_step _ _ (only_tracked hP _ (h0.finish s)) fun a s'' => h2 b e s'' o (f a)
  · obtain ⟨s0, s1⟩ := s
    cases s1 with
    | some s1 => exact (only_tracked hP _ (h1.finish s1)).state _
    | none => exact only_err (hP.raised _ _) _

theorem only_pair {σ0 α0 σ1 α1 : Type} {D0 : TDecoder κ σ0 α0} {D1 : TDecoder κ σ1 α1} (hP : Open P)
    (h0 : OnlyDec P D0) (h1 : OnlyDec P D1) : OnlyDec P (tPairDecoder D0 D1) := by
  refine ⟨fun s b e => ?_, fun s => ?_⟩
  · simp only [tPairDecoder]
    have ht := only_tryDecode hP ⟨"tuple.rs", 61⟩ h0 s.1 0 b e
    generalize tTryDecode ⟨"tuple.rs", 61⟩ D0 s.1 0 b e = p at ht
    cases p with
    | ret r s => exact (ht r s rfl).state _
    | next o s' =>
      simp only
      have ht := only_tryDecode hP ⟨"tuple.rs", 61⟩ h1 s.2 o b e
      generalize tTryDecode ⟨"tuple.rs", 61⟩ D1 s.2 o b e = p at ht
      cases p with
      | ret r s => exact (ht r s rfl).state _
      | next o s' => exact only_ok _ _
  · refine only_step _ _ (only_tracked hP _ (h0.finish s.1)) fun a s' => ?_
    exact only_step _ _ (only_tracked hP _ (h1.finish s.2)) fun a s' => only_ok _ _

theorem only_omittable (hP : Open P) (h : OnlyDec P D) : OnlyDec P (tOmittableDecoder D) :=
  ⟨fun s b e => only_ite (only_ok _ _) (only_step _ _ (only_tracked hP _ (h.decode s.inner b e)) fun _ _ => only_ok _ _),
   fun s => only_ite (only_ok _ _) (only_step _ _ (only_tracked hP _ (h.finish s.inner)) fun _ _ => only_ok _ _)⟩

theorem only_collectLoop (hP : Open P) (h : OnlyDec P D) (b : Bytes) (e : Eos) :
    ∀ (o : Nat) (s : σ) (items : List α) (x : TLoopExit κ σ α), tCollectLoop D b e o s items = some x →
      ∀ r i l, x = .ret r i l → Only P (r, i) := by
  apply tCollectLoop.partial_correctness D b e
    (motive := fun o s items x => ∀ r i l, x = .ret r i l → Only P (r, i))
  intro loop ih o s items x heq
  split at heq
  · have ht := only_tryDecode hP (inCombinator 629) h s o b e
    generalize tTryDecode (inCombinator 629) D s o b e = p at ht heq
    cases p with
    | ret r s' => cases heq; rintro r i l hx; cases hx; exact ht _ _ rfl
    | next o' s' =>
      have hf := only_tracked hP (inCombinator 631) (h.finish s')
      simp only at heq
      generalize tracked (inCombinator 631) (D.finish s') = q at hf heq
      obtain ⟨r, s''⟩ := q
      cases r with
      | ok y => exact ih _ _ _ _ heq
      | err x => cases heq; rintro r i l hx; cases hx; exact only_err (hf x rfl) _
      | _ => cases heq; rintro r i l hx; cases hx; exact fun _ h => by cases h
  · cases heq
    rintro r i l hx
    cases hx

theorem only_collect (hP : Open P) (h : OnlyDec P D) : OnlyDec P (tCollectDecoder D) := by
  refine ⟨fun s b e => only_ite (only_ok _ _) ?_, fun s => only_ite (only_ok _ _) (only_err (hP.raised _ _) _)⟩
  have hl := only_collectLoop hP h b e 0 s.inner s.items
  revert hl
  cases tCollectLoop D b e 0 s.inner s.items with
  | none => exact fun _ => only_diverge _
  | some x =>
    intro hl
    cases x with
    | done o i l => exact only_ok _ _
    | ret r i l => exact (hl _ rfl _ _ _ rfl).state _

theorem only_collectNLoop (hP : Open P) (h : OnlyDec P D) (b : Bytes) (e : Eos) :
    ∀ (n o : Nat) (s : σ) (items : List α) r i l m, tCollectNLoop D b e n o s items = .ret r i l m → Only P (r, i) := by
  intro n
  induction n with
  | zero => intro o s items r i l m hx; cases hx
  | succ n ih =>
    intro o s items r i l m hx
    rw [tCollectNLoop] at hx
    split at hx
    · have ht := only_tryDecode hP (inCombinator 855) h s o b e
      generalize tTryDecode (inCombinator 855) D s o b e = p at ht hx
      cases p with
      | ret r s' => cases hx; exact ht _ _ rfl
      | next o' s' =>
        have hf := only_tracked hP (inCombinator 857) (h.finish s')
        simp only at hx
        generalize tracked (inCombinator 857) (D.finish s') = q at hf hx
        obtain ⟨r, s''⟩ := q
        cases r with
        | ok y => exact ih _ _ _ _ _ _ _ hx
        | err x => cases hx; exact only_err (hf x rfl) _
        | _ => cases hx; exact fun _ h => by cases h
    · cases hx

theorem only_collectN (hP : Open P) (h : OnlyDec P D) : OnlyDec P (tCollectNDecoder D) := by
  refine ⟨fun s b e => ?_, fun s => only_ite (only_ok _ _) (only_err (hP.raised _ _) _)⟩
  have hl := only_collectNLoop hP h b e s.remaining 0 s.inner s.items
  simp only [tCollectNDecoder]
  revert hl
  cases tCollectNLoop D b e s.remaining 0 s.inner s.items with
  | done o i l m => exact fun _ => only_ite (only_err (hP.raised _ _) _) (only_ok _ _)
  | ret r i l m => exact fun hl => (hl _ _ _ _ rfl).state _

theorem only_length (hP : Open P) (h : OnlyDec P D) : OnlyDec P (tLengthDecoder D) := by
  refine ⟨fun s b e => ?_, fun s => only_ite
    (only_step _ _ (only_tracked hP _ (h.finish s.inner)) fun _ _ => only_ok _ _) (only_err (hP.raised _ _) _)⟩
  simp only [tLengthDecoder]
  cases e.remainingBytes.toU64 with
  | none =>
    exact only_step _ _ (only_tracked hP _ (h.decode _ _ _)) fun _ _ => only_ite (only_panic _) (only_ok _ _)
  | some n =>
    exact only_ite (only_panic _) (only_ite (only_err (hP.raised _ _) _)
      (only_step _ _ (only_tracked hP _ (h.decode _ _ _)) fun _ _ => only_ite (only_panic _) (only_ok _ _)))

theorem only_maxBytes (hP : Open P) (h : OnlyDec P D) : OnlyDec P (tMaxBytesDecoder D) := by
  refine ⟨fun s b e => ?_, fun s => only_step _ _ (only_tracked hP _ (h.finish s.inner)) fun _ _ => only_ok _ _⟩
  simp only [tMaxBytesDecoder]
  cases e.remainingBytes with
  | infinite => exact only_err (hP.raised _ _) _
  | unknown =>
    exact only_ite (only_panic _) (only_ite
      (only_step _ _ (only_tracked hP _ (h.decode _ _ _)) fun _ _ => only_ok _ _) (only_err (hP.raised _ _) _))
  | finite n =>
    exact only_ite (only_panic _) (only_ite (only_panic _) (only_ite
      (only_step _ _ (only_tracked hP _ (h.decode _ _ _)) fun _ _ => only_ok _ _) (only_err (hP.raised _ _) _)))

theorem only_slice (hP : Open P) (h : OnlyDec P D) : OnlyDec P (tSliceDecoder D) := by
  refine ⟨fun s b e => ?_, fun s => only_step _ _ (only_tracked hP _ (h.finish s.inner)) fun _ _ => only_ok _ _⟩
  simp only [tSliceDecoder]
  cases e.back (b.length - min b.length s.consumable) with
  | ok e' => exact only_step _ _ (only_tracked hP _ (h.decode _ _ _)) fun _ _ => only_ite (only_panic _) (only_ok _ _)
  | _ => exact only_panic _

theorem only_peekable (hP : Open P) (h : OnlyDec P D) : OnlyDec P (tPeekableDecoder D) := by
  refine ⟨fun s b e => ?_, fun s => ?_⟩
  · refine only_ite (only_step _ _ (only_tracked hP _ (h.decode _ _ _)) fun n i => ?_) (only_ok _ _)
    exact only_ite (only_step _ _ (only_tracked hP _ (h.finish _)) fun _ _ => only_ok _ _) (only_ok _ _)
  · obtain ⟨i, _ | x⟩ := s
    · exact only_err (hP.raised _ _) _
    · exact only_ok _ _

theorem only_maybeEos (hP : Open P) (h : OnlyDec P D) : OnlyDec P (tMaybeEosDecoder D) :=
  ⟨fun _ _ _ => only_step _ _ (only_tracked hP _ (h.decode _ _ _)) fun _ _ => only_ok _ _,
   fun s => only_step _ _ (only_tracked hP _ (h.finish s.inner)) fun _ _ => only_ok _ _⟩

theorem only_utf8 (hP : Open P) {D : TDecoder κ σ Bytes} (h : OnlyDec P D) (bad : Bytes → κ)
    (hb : ∀ b, P ⟨.invalidInput, some (.given (bad b)), some []⟩) : OnlyDec P (tUtf8Decoder bad D) :=
  ⟨fun s b e => only_tracked hP _ (h.decode s b e), fun s => only_step _ _ (only_tracked hP _ (h.finish s)) fun a s' => by
    cases fromUtf8 a with
    | some y => exact only_ok _ _
    | none => exact only_tracked hP _ (only_err (hb a) _)⟩

theorem only_part (D : TDecoder κ σ α) : OnlyDec (Arrives (RaisedBy D)) D :=
  ⟨fun s b e x hx => ⟨x, .inl (.inl ⟨s, b, e, hx⟩), .refl x⟩, fun s x hx => ⟨x, .inl (.inr ⟨s, hx⟩), .refl x⟩⟩

theorem only_tuple3 {σ0 α0 σ1 α1 σ2 α2 : Type} {D0 : TDecoder κ σ0 α0} {D1 : TDecoder κ σ1 α1} {D2 : TDecoder κ σ2 α2} (hP : Open P)
    (h0 : OnlyDec P D0) (h1 : OnlyDec P D1) (h2 : OnlyDec P D2) :
    OnlyDec P (tTuple3Decoder D0 D1 D2) := by
  refine ⟨fun s b e => ?_, fun s => ?_⟩
  · simp only [tTuple3Decoder]
    have ht := only_tryDecode hP ⟨"tuple.rs", 62⟩ h0 s.1 0 b e
    generalize tTryDecode ⟨"tuple.rs", 62⟩ D0 s.1 0 b e = p at ht
    cases p with
    | ret r s => exact (ht r s rfl).state _
    | next o0 s0 =>
      simp only
      clear ht
      have ht := only_tryDecode hP ⟨"tuple.rs", 62⟩ h1 s.2.1 o0 b e
      generalize tTryDecode ⟨"tuple.rs", 62⟩ D1 s.2.1 o0 b e = p at ht
      cases p with
      | ret r s => exact (ht r s rfl).state _
      | next o1 s1 =>
        simp only
        clear ht
        have ht := only_tryDecode hP ⟨"tuple.rs", 62⟩ h2 s.2.2 o1 b e
        generalize tTryDecode ⟨"tuple.rs", 62⟩ D2 s.2.2 o1 b e = p at ht
        cases p with
        | ret r s => exact (ht r s rfl).state _
        | next o s' => exact only_ok _ _
  · refine only_step _ _ (only_tracked hP _ (h0.finish _)) fun _ _ => ?_
    refine only_step _ _ (only_tracked hP _ (h1.finish _)) fun _ _ => ?_
    refine only_step _ _ (only_tracked hP _ (h2.finish _)) fun _ _ => ?_
    exact only_ok _ _

theorem only_tuple4 {σ0 α0 σ1 α1 σ2 α2 σ3 α3 : Type} {D0 : TDecoder κ σ0 α0} {D1 : TDecoder κ σ1 α1} {D2 : TDecoder κ σ2 α2} {D3 : TDecoder κ σ3 α3} (hP : Open P)
    (h0 : OnlyDec P D0) (h1 : OnlyDec P D1) (h2 : OnlyDec P D2) (h3 : OnlyDec P D3) :
    OnlyDec P (tTuple4Decoder D0 D1 D2 D3) := by
  refine ⟨fun s b e => ?_, fun s => ?_⟩
  · simp only [tTuple4Decoder]
    have ht := only_tryDecode hP ⟨"tuple.rs", 63⟩ h0 s.1 0 b e
    generalize tTryDecode ⟨"tuple.rs", 63⟩ D0 s.1 0 b e = p at ht
    cases p with
    | ret r s => exact (ht r s rfl).state _
    | next o0 s0 =>
      simp only
      clear ht
      have ht := only_tryDecode hP ⟨"tuple.rs", 63⟩ h1 s.2.1 o0 b e
      generalize tTryDecode ⟨"tuple.rs", 63⟩ D1 s.2.1 o0 b e = p at ht
      cases p with
      | ret r s => exact (ht r s rfl).state _
      | next o1 s1 =>
        simp only
        clear ht
        have ht := only_tryDecode hP ⟨"tuple.rs", 63⟩ h2 s.2.2.1 o1 b e
        generalize tTryDecode ⟨"tuple.rs", 63⟩ D2 s.2.2.1 o1 b e = p at ht
        cases p with
        | ret r s => exact (ht r s rfl).state _
        | next o2 s2 =>
          simp only
          clear ht
          have ht := only_tryDecode hP ⟨"tuple.rs", 63⟩ h3 s.2.2.2 o2 b e
          generalize tTryDecode ⟨"tuple.rs", 63⟩ D3 s.2.2.2 o2 b e = p at ht
          cases p with
          | ret r s => exact (ht r s rfl).state _
          | next o s' => exact only_ok _ _
  · refine only_step _ _ (only_tracked hP _ (h0.finish _)) fun _ _ => ?_
    refine only_step _ _ (only_tracked hP _ (h1.finish _)) fun _ _ => ?_
    refine only_step _ _ (only_tracked hP _ (h2.finish _)) fun _ _ => ?_
    refine only_step _ _ (only_tracked hP _ (h3.finish _)) fun _ _ => ?_
    exact only_ok _ _

theorem only_tuple5 {σ0 α0 σ1 α1 σ2 α2 σ3 α3 σ4 α4 : Type} {D0 : TDecoder κ σ0 α0} {D1 : TDecoder κ σ1 α1} {D2 : TDecoder κ σ2 α2} {D3 : TDecoder κ σ3 α3} {D4 : TDecoder κ σ4 α4} (hP : Open P)
    (h0 : OnlyDec P D0) (h1 : OnlyDec P D1) (h2 : OnlyDec P D2) (h3 : OnlyDec P D3) (h4 : OnlyDec P D4) :
    OnlyDec P (tTuple5Decoder D0 D1 D2 D3 D4) := by
  refine ⟨fun s b e => ?_, fun s => ?_⟩
  · simp only [tTuple5Decoder]
    have ht := only_tryDecode hP ⟨"tuple.rs", 64⟩ h0 s.1 0 b e
    generalize tTryDecode ⟨"tuple.rs", 64⟩ D0 s.1 0 b e = p at ht
    cases p with
    | ret r s => exact (ht r s rfl).state _
    | next o0 s0 =>
      simp only
      clear ht
      have ht := only_tryDecode hP ⟨"tuple.rs", 64⟩ h1 s.2.1 o0 b e
      generalize tTryDecode ⟨"tuple.rs", 64⟩ D1 s.2.1 o0 b e = p at ht
      cases p with
      | ret r s => exact (ht r s rfl).state _
      | next o1 s1 =>
        simp only
        clear ht
        have ht := only_tryDecode hP ⟨"tuple.rs", 64⟩ h2 s.2.2.1 o1 b e
        generalize tTryDecode ⟨"tuple.rs", 64⟩ D2 s.2.2.1 o1 b e = p at ht
        cases p with
        | ret r s => exact (ht r s rfl).state _
        | next o2 s2 =>
          simp only
          clear ht
          have ht := only_tryDecode hP ⟨"tuple.rs", 64⟩ h3 s.2.2.2.1 o2 b e
          generalize tTryDecode ⟨"tuple.rs", 64⟩ D3 s.2.2.2.1 o2 b e = p at ht
          cases p with
          | ret r s => exact (ht r s rfl).state _
          | next o3 s3 =>
            simp only
            clear ht
            have ht := only_tryDecode hP ⟨"tuple.rs", 64⟩ h4 s.2.2.2.2 o3 b e
            generalize tTryDecode ⟨"tuple.rs", 64⟩ D4 s.2.2.2.2 o3 b e = p at ht
            cases p with
            | ret r s => exact (ht r s rfl).state _
            | next o s' => exact only_ok _ _
  · refine only_step _ _ (only_tracked hP _ (h0.finish _)) fun _ _ => ?_
    refine only_step _ _ (only_tracked hP _ (h1.finish _)) fun _ _ => ?_
    refine only_step _ _ (only_tracked hP _ (h2.finish _)) fun _ _ => ?_
    refine only_step _ _ (only_tracked hP _ (h3.finish _)) fun _ _ => ?_
    refine only_step _ _ (only_tracked hP _ (h4.finish _)) fun _ _ => ?_
    exact only_ok _ _

theorem only_tuple6 {σ0 α0 σ1 α1 σ2 α2 σ3 α3 σ4 α4 σ5 α5 : Type} {D0 : TDecoder κ σ0 α0} {D1 : TDecoder κ σ1 α1} {D2 : TDecoder κ σ2 α2} {D3 : TDecoder κ σ3 α3} {D4 : TDecoder κ σ4 α4} {D5 : TDecoder κ σ5 α5} (hP : Open P)
    (h0 : OnlyDec P D0) (h1 : OnlyDec P D1) (h2 : OnlyDec P D2) (h3 : OnlyDec P D3) (h4 : OnlyDec P D4) (h5 : OnlyDec P D5) :
    OnlyDec P (tTuple6Decoder D0 D1 D2 D3 D4 D5) := by
  refine ⟨fun s b e => ?_, fun s => ?_⟩
  · simp only [tTuple6Decoder]
    have ht := only_tryDecode hP ⟨"tuple.rs", 65⟩ h0 s.1 0 b e
    generalize tTryDecode ⟨"tuple.rs", 65⟩ D0 s.1 0 b e = p at ht
    cases p with
    | ret r s => exact (ht r s rfl).state _
    | next o0 s0 =>
      simp only
      clear ht
      have ht := only_tryDecode hP ⟨"tuple.rs", 65⟩ h1 s.2.1 o0 b e
      generalize tTryDecode ⟨"tuple.rs", 65⟩ D1 s.2.1 o0 b e = p at ht
      cases p with
      | ret r s => exact (ht r s rfl).state _
      | next o1 s1 =>
        simp only
        clear ht
        have ht := only_tryDecode hP ⟨"tuple.rs", 65⟩ h2 s.2.2.1 o1 b e
        generalize tTryDecode ⟨"tuple.rs", 65⟩ D2 s.2.2.1 o1 b e = p at ht
        cases p with
        | ret r s => exact (ht r s rfl).state _
        | next o2 s2 =>
          simp only
          clear ht
          have ht := only_tryDecode hP ⟨"tuple.rs", 65⟩ h3 s.2.2.2.1 o2 b e
          generalize tTryDecode ⟨"tuple.rs", 65⟩ D3 s.2.2.2.1 o2 b e = p at ht
          cases p with
          | ret r s => exact (ht r s rfl).state _
          | next o3 s3 =>
            simp only
            clear ht
            have ht := only_tryDecode hP ⟨"tuple.rs", 65⟩ h4 s.2.2.2.2.1 o3 b e
            generalize tTryDecode ⟨"tuple.rs", 65⟩ D4 s.2.2.2.2.1 o3 b e = p at ht
            cases p with
            | ret r s => exact (ht r s rfl).state _
            | next o4 s4 =>
              simp only
              clear ht
              have ht := only_tryDecode hP ⟨"tuple.rs", 65⟩ h5 s.2.2.2.2.2 o4 b e
              generalize tTryDecode ⟨"tuple.rs", 65⟩ D5 s.2.2.2.2.2 o4 b e = p at ht
              cases p with
              | ret r s => exact (ht r s rfl).state _
              | next o s' => exact only_ok _ _
  · refine only_step _ _ (only_tracked hP _ (h0.finish _)) fun _ _ => ?_
    refine only_step _ _ (only_tracked hP _ (h1.finish _)) fun _ _ => ?_
    refine only_step _ _ (only_tracked hP _ (h2.finish _)) fun _ _ => ?_
    refine only_step _ _ (only_tracked hP _ (h3.finish _)) fun _ _ => ?_
    refine only_step _ _ (only_tracked hP _ (h4.finish _)) fun _ _ => ?_
    refine only_step _ _ (only_tracked hP _ (h5.finish _)) fun _ _ => ?_
    exact only_ok _ _

theorem only_tuple7 {σ0 α0 σ1 α1 σ2 α2 σ3 α3 σ4 α4 σ5 α5 σ6 α6 : Type} {D0 : TDecoder κ σ0 α0} {D1 : TDecoder κ σ1 α1} {D2 : TDecoder κ σ2 α2} {D3 : TDecoder κ σ3 α3} {D4 : TDecoder κ σ4 α4} {D5 : TDecoder κ σ5 α5} {D6 : TDecoder κ σ6 α6} (hP : Open P)
    (h0 : OnlyDec P D0) (h1 : OnlyDec P D1) (h2 : OnlyDec P D2) (h3 : OnlyDec P D3) (h4 : OnlyDec P D4) (h5 : OnlyDec P D5) (h6 : OnlyDec P D6) :
    OnlyDec P (tTuple7Decoder D0 D1 D2 D3 D4 D5 D6) := by
  refine ⟨fun s b e => ?_, fun s => ?_⟩
  · simp only [tTuple7Decoder]
    have ht := only_tryDecode hP ⟨"tuple.rs", 66⟩ h0 s.1 0 b e
    generalize tTryDecode ⟨"tuple.rs", 66⟩ D0 s.1 0 b e = p at ht
    cases p with
    | ret r s => exact (ht r s rfl).state _
    | next o0 s0 =>
      simp only
      clear ht
      have ht := only_tryDecode hP ⟨"tuple.rs", 66⟩ h1 s.2.1 o0 b e
      generalize tTryDecode ⟨"tuple.rs", 66⟩ D1 s.2.1 o0 b e = p at ht
      cases p with
      | ret r s => exact (ht r s rfl).state _
      | next o1 s1 =>
        simp only
        clear ht
        have ht := only_tryDecode hP ⟨"tuple.rs", 66⟩ h2 s.2.2.1 o1 b e
        generalize tTryDecode ⟨"tuple.rs", 66⟩ D2 s.2.2.1 o1 b e = p at ht
        cases p with
        | ret r s => exact (ht r s rfl).state _
        | next o2 s2 =>
          simp only
          clear ht
          have ht := only_tryDecode hP ⟨"tuple.rs", 66⟩ h3 s.2.2.2.1 o2 b e
          generalize tTryDecode ⟨"tuple.rs", 66⟩ D3 s.2.2.2.1 o2 b e = p at ht
          cases p with
          | ret r s => exact (ht r s rfl).state _
          | next o3 s3 =>
            simp only
            clear ht
            have ht := only_tryDecode hP ⟨"tuple.rs", 66⟩ h4 s.2.2.2.2.1 o3 b e
            generalize tTryDecode ⟨"tuple.rs", 66⟩ D4 s.2.2.2.2.1 o3 b e = p at ht
            cases p with
            | ret r s => exact (ht r s rfl).state _
            | next o4 s4 =>
              simp only
              clear ht
              have ht := only_tryDecode hP ⟨"tuple.rs", 66⟩ h5 s.2.2.2.2.2.1 o4 b e
              generalize tTryDecode ⟨"tuple.rs", 66⟩ D5 s.2.2.2.2.2.1 o4 b e = p at ht
              cases p with
              | ret r s => exact (ht r s rfl).state _
              | next o5 s5 =>
                simp only
                clear ht
                have ht := only_tryDecode hP ⟨"tuple.rs", 66⟩ h6 s.2.2.2.2.2.2 o5 b e
                generalize tTryDecode ⟨"tuple.rs", 66⟩ D6 s.2.2.2.2.2.2 o5 b e = p at ht
                cases p with
                | ret r s => exact (ht r s rfl).state _
                | next o s' => exact only_ok _ _
  · refine only_step _ _ (only_tracked hP _ (h0.finish _)) fun _ _ => ?_
    refine only_step _ _ (only_tracked hP _ (h1.finish _)) fun _ _ => ?_
    refine only_step _ _ (only_tracked hP _ (h2.finish _)) fun _ _ => ?_
    refine only_step _ _ (only_tracked hP _ (h3.finish _)) fun _ _ => ?_
    refine only_step _ _ (only_tracked hP _ (h4.finish _)) fun _ _ => ?_
    refine only_step _ _ (only_tracked hP _ (h5.finish _)) fun _ _ => ?_
    refine only_step _ _ (only_tracked hP _ (h6.finish _)) fun _ _ => ?_
    exact only_ok _ _

theorem only_tuple8 {σ0 α0 σ1 α1 σ2 α2 σ3 α3 σ4 α4 σ5 α5 σ6 α6 σ7 α7 : Type} {D0 : TDecoder κ σ0 α0} {D1 : TDecoder κ σ1 α1} {D2 : TDecoder κ σ2 α2} {D3 : TDecoder κ σ3 α3} {D4 : TDecoder κ σ4 α4} {D5 : TDecoder κ σ5 α5} {D6 : TDecoder κ σ6 α6} {D7 : TDecoder κ σ7 α7} (hP : Open P)
    (h0 : OnlyDec P D0) (h1 : OnlyDec P D1) (h2 : OnlyDec P D2) (h3 : OnlyDec P D3) (h4 : OnlyDec P D4) (h5 : OnlyDec P D5) (h6 : OnlyDec P D6) (h7 : OnlyDec P D7) :
    OnlyDec P (tTuple8Decoder D0 D1 D2 D3 D4 D5 D6 D7) := by
  refine ⟨fun s b e => ?_, fun s => ?_⟩
  · simp only [tTuple8Decoder]
    have ht := only_tryDecode hP ⟨"tuple.rs", 67⟩ h0 s.1 0 b e
    generalize tTryDecode ⟨"tuple.rs", 67⟩ D0 s.1 0 b e = p at ht
    cases p with
    | ret r s => exact (ht r s rfl).state _
    | next o0 s0 =>
      simp only
      clear ht
      have ht := only_tryDecode hP ⟨"tuple.rs", 67⟩ h1 s.2.1 o0 b e
      generalize tTryDecode ⟨"tuple.rs", 67⟩ D1 s.2.1 o0 b e = p at ht
      cases p with
      | ret r s => exact (ht r s rfl).state _
      | next o1 s1 =>
        simp only
        clear ht
        have ht := only_tryDecode hP ⟨"tuple.rs", 67⟩ h2 s.2.2.1 o1 b e
        generalize tTryDecode ⟨"tuple.rs", 67⟩ D2 s.2.2.1 o1 b e = p at ht
        cases p with
        | ret r s => exact (ht r s rfl).state _
        | next o2 s2 =>
          simp only
          clear ht
          have ht := only_tryDecode hP ⟨"tuple.rs", 67⟩ h3 s.2.2.2.1 o2 b e
          generalize tTryDecode ⟨"tuple.rs", 67⟩ D3 s.2.2.2.1 o2 b e = p at ht
          cases p with
          | ret r s => exact (ht r s rfl).state _
          | next o3 s3 =>
            simp only
            clear ht
            have ht := only_tryDecode hP ⟨"tuple.rs", 67⟩ h4 s.2.2.2.2.1 o3 b e
            generalize tTryDecode ⟨"tuple.rs", 67⟩ D4 s.2.2.2.2.1 o3 b e = p at ht
            cases p with
            | ret r s => exact (ht r s rfl).state _
            | next o4 s4 =>
              simp only
              clear ht
              have ht := only_tryDecode hP ⟨"tuple.rs", 67⟩ h5 s.2.2.2.2.2.1 o4 b e
              generalize tTryDecode ⟨"tuple.rs", 67⟩ D5 s.2.2.2.2.2.1 o4 b e = p at ht
              cases p with
              | ret r s => exact (ht r s rfl).state _
              | next o5 s5 =>
                simp only
                clear ht
                have ht := only_tryDecode hP ⟨"tuple.rs", 67⟩ h6 s.2.2.2.2.2.2.1 o5 b e
                generalize tTryDecode ⟨"tuple.rs", 67⟩ D6 s.2.2.2.2.2.2.1 o5 b e = p at ht
                cases p with
                | ret r s => exact (ht r s rfl).state _
                | next o6 s6 =>
                  simp only
                  clear ht
                  have ht := only_tryDecode hP ⟨"tuple.rs", 67⟩ h7 s.2.2.2.2.2.2.2 o6 b e
                  generalize tTryDecode ⟨"tuple.rs", 67⟩ D7 s.2.2.2.2.2.2.2 o6 b e = p at ht
                  cases p with
                  | ret r s => exact (ht r s rfl).state _
                  | next o s' => exact only_ok _ _
  · refine only_step _ _ (only_tracked hP _ (h0.finish _)) fun _ _ => ?_
    refine only_step _ _ (only_tracked hP _ (h1.finish _)) fun _ _ => ?_
    refine only_step _ _ (only_tracked hP _ (h2.finish _)) fun _ _ => ?_
    refine only_step _ _ (only_tracked hP _ (h3.finish _)) fun _ _ => ?_
    refine only_step _ _ (only_tracked hP _ (h4.finish _)) fun _ _ => ?_
    refine only_step _ _ (only_tracked hP _ (h5.finish _)) fun _ _ => ?_
    refine only_step _ _ (only_tracked hP _ (h6.finish _)) fun _ _ => ?_
    refine only_step _ _ (only_tracked hP _ (h7.finish _)) fun _ _ => ?_
    exact only_ok _ _

theorem tracedDec_only {σ α : Type} {O : TError κ → Prop} {D : TDecoder κ σ α} {M : Decoder σ α} (h : TracedDec O D M) :
    OnlyDec (Arrives O) D := by
  induction h with
  | part D => exact only_part D
  | map f _ ih => exact only_map ih f
  | tryMap f _ ih =>
    refine only_tryMap (arrives_open _) (ih.mono fun x => Arrives.mono fun _ => .inl) f fun a x hx => ?_
    exact ⟨x, .inl (.inr ⟨a, hx⟩), .refl x⟩
  | mapErr g g' hg _ ih => exact only_mapErr ih g fun x hx => ⟨g x, .inl ⟨x, hx, rfl⟩, .refl _⟩
  | andThen f _ _ ih0 ih1 =>
    exact only_andThen (arrives_open _) (ih0.mono fun x => Arrives.mono fun _ => .inl)
      (ih1.mono fun x => Arrives.mono fun _ => .inr) f
  | pair _ _ ih0 ih1 =>
    exact only_pair (arrives_open _) (ih0.mono fun x => Arrives.mono fun _ => .inl)
      (ih1.mono fun x => Arrives.mono fun _ => .inr)
  | tuple3 _ _ _ ih0 ih1 ih2 =>
    exact only_tuple3 (arrives_open _) (ih0.mono fun x => Arrives.mono fun _ h => .inl h)
      (ih1.mono fun x => Arrives.mono fun _ h => .inr (.inl h))
      (ih2.mono fun x => Arrives.mono fun _ h => .inr (.inr h))
  | tuple4 _ _ _ _ ih0 ih1 ih2 ih3 =>
    exact only_tuple4 (arrives_open _) (ih0.mono fun x => Arrives.mono fun _ h => .inl h)
      (ih1.mono fun x => Arrives.mono fun _ h => .inr (.inl h))
      (ih2.mono fun x => Arrives.mono fun _ h => .inr (.inr (.inl h)))
      (ih3.mono fun x => Arrives.mono fun _ h => .inr (.inr (.inr h)))
  | tuple5 _ _ _ _ _ ih0 ih1 ih2 ih3 ih4 =>
    exact only_tuple5 (arrives_open _) (ih0.mono fun x => Arrives.mono fun _ h => .inl h)
      (ih1.mono fun x => Arrives.mono fun _ h => .inr (.inl h))
      (ih2.mono fun x => Arrives.mono fun _ h => .inr (.inr (.inl h)))
      (ih3.mono fun x => Arrives.mono fun _ h => .inr (.inr (.inr (.inl h))))
      (ih4.mono fun x => Arrives.mono fun _ h => .inr (.inr (.inr (.inr h))))
  | tuple6 _ _ _ _ _ _ ih0 ih1 ih2 ih3 ih4 ih5 =>
    exact only_tuple6 (arrives_open _) (ih0.mono fun x => Arrives.mono fun _ h => .inl h)
      (ih1.mono fun x => Arrives.mono fun _ h => .inr (.inl h))
      (ih2.mono fun x => Arrives.mono fun _ h => .inr (.inr (.inl h)))
      (ih3.mono fun x => Arrives.mono fun _ h => .inr (.inr (.inr (.inl h))))
      (ih4.mono fun x => Arrives.mono fun _ h => .inr (.inr (.inr (.inr (.inl h)))))
      (ih5.mono fun x => Arrives.mono fun _ h => .inr (.inr (.inr (.inr (.inr h)))))
  | tuple7 _ _ _ _ _ _ _ ih0 ih1 ih2 ih3 ih4 ih5 ih6 =>
    exact only_tuple7 (arrives_open _) (ih0.mono fun x => Arrives.mono fun _ h => .inl h)
      (ih1.mono fun x => Arrives.mono fun _ h => .inr (.inl h))
      (ih2.mono fun x => Arrives.mono fun _ h => .inr (.inr (.inl h)))
      (ih3.mono fun x => Arrives.mono fun _ h => .inr (.inr (.inr (.inl h))))
      (ih4.mono fun x => Arrives.mono fun _ h => .inr (.inr (.inr (.inr (.inl h)))))
      (ih5.mono fun x => Arrives.mono fun _ h => .inr (.inr (.inr (.inr (.inr (.inl h))))))
      (ih6.mono fun x => Arrives.mono fun _ h => .inr (.inr (.inr (.inr (.inr (.inr h))))))
  | tuple8 _ _ _ _ _ _ _ _ ih0 ih1 ih2 ih3 ih4 ih5 ih6 ih7 =>
    exact only_tuple8 (arrives_open _) (ih0.mono fun x => Arrives.mono fun _ h => .inl h)
      (ih1.mono fun x => Arrives.mono fun _ h => .inr (.inl h))
      (ih2.mono fun x => Arrives.mono fun _ h => .inr (.inr (.inl h)))
      (ih3.mono fun x => Arrives.mono fun _ h => .inr (.inr (.inr (.inl h))))
      (ih4.mono fun x => Arrives.mono fun _ h => .inr (.inr (.inr (.inr (.inl h)))))
      (ih5.mono fun x => Arrives.mono fun _ h => .inr (.inr (.inr (.inr (.inr (.inl h))))))
      (ih6.mono fun x => Arrives.mono fun _ h => .inr (.inr (.inr (.inr (.inr (.inr (.inl h)))))))
      (ih7.mono fun x => Arrives.mono fun _ h => .inr (.inr (.inr (.inr (.inr (.inr (.inr h)))))))
  | omittable _ ih => exact only_omittable (arrives_open _) ih
  | collect _ ih => exact only_collect (arrives_open _) ih
  | collectN _ ih => exact only_collectN (arrives_open _) ih
  | length _ ih => exact only_length (arrives_open _) ih
  | maxBytes _ ih => exact only_maxBytes (arrives_open _) ih
  | slice _ ih => exact only_slice (arrives_open _) ih
  | peekable _ ih => exact only_peekable (arrives_open _) ih
  | maybeEos _ ih => exact only_maybeEos (arrives_open _) ih
  | utf8 bad _ ih =>
    exact only_utf8 (arrives_open _) (ih.mono fun x => Arrives.mono fun _ => .inl) bad
      fun b => ⟨_, .inl (.inr ⟨b, rfl⟩), .refl _⟩

theorem only_decodeFromBytes (hP : Open P) (h : OnlyDec P D) (s : σ) (b : Bytes) : Only P (tDecodeFromBytes D s b) :=
  only_step _ _ (only_tracked hP _ (h.decode _ _ _)) fun _ _ =>
    only_ite (only_tracked hP _ (h.finish _)) (only_err (hP.raised _ _) _)

theorem only_decodeExact {ρ : Type} (hP : Open P) (h : OnlyDec P D) (R : TReader κ ρ)
    (hR : ∀ r n k c, (R.read r n).1 = .error k c → P (.ofIo k c)) :
    ∀ (s : σ) (r : ρ) (x : TRes κ α × σ × ρ), tDecodeExact D R s r = some x → Only P x := by
  apply tDecodeExact.partial_correctness D R (motive := fun s r x => Only P x)
  intro loop ih s r x heq
  simp only at heq
  generalize tDecodeExact.match_1 (fun _ => Nat) (D.requiring s) (fun n => min n 1024) (fun _ => 1024) (fun _ => 1) = size
    at heq
  have hrd : ∀ k c, (if size ≠ 0 then R.read r size else (.data [], r)).1 = .error k c → P (.ofIo k c) := by
    intro k c h
    by_cases h0 : size ≠ 0
    · rw [if_pos h0] at h; exact hR _ _ _ _ h
    · rw [if_neg h0] at h; cases h
  generalize (if size ≠ 0 then R.read r size else (.data [], r)) = p at heq hrd
  obtain ⟨a, r'⟩ := p
  cases a with
  | error k c => cases heq; exact only_err (hP.track _ _ (hrd k c rfl)) _
  | data bs =>
    simp only at heq
    split at heq
    · cases heq; exact only_panic _
    · have hd := only_tracked hP ⟨"io.rs", 45⟩ (h.decode s bs (Eos.new (size ≠ 0 && bs.isEmpty)))
      generalize tracked ⟨"io.rs", 45⟩ (D.decode s bs (Eos.new (size ≠ 0 && bs.isEmpty))) = q at heq hd
      obtain ⟨a, s'⟩ := q
      cases a with
      | ok n =>
        simp only at heq
        split at heq
        · cases heq; exact only_err (hP.raised _ _) _
        · split at heq
          · cases heq; exact (only_tracked hP _ (h.finish s')).state _
          · exact ih _ _ _ heq
      | err x => cases heq; exact only_err (hd x rfl) _
      | _ => cases heq; exact fun _ h => by cases h

end Bytecodec
