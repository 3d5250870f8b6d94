import Verif.Spec.Tracked
/-!
# Lemmas: with kinds only, the model with whole errors is the model
-/
namespace Bytecodec

variable {κ σ α β τ υ : Type}

theorem decoder_eq {A B : Decoder σ α} (h1 : ∀ s b e, A.decode s b e = B.decode s b e) (h2 : ∀ s, A.finish s = B.finish s)
    (h3 : ∀ s, A.requiring s = B.requiring s) (h4 : ∀ s, A.isIdle s = B.isIdle s) : A = B := by
  cases A; cases B
  simp only [Decoder.mk.injEq]
  exact ⟨funext fun s => funext fun b => funext fun e => h1 s b e, funext h2, funext h3, funext h4⟩

theorem encoder_eq {A B : Encoder σ α} (h1 : ∀ s b e, A.encode s b e = B.encode s b e) (h2 : ∀ s x, A.start s x = B.start s x)
    (h3 : ∀ s, A.requiring s = B.requiring s) (h4 : ∀ s, A.isIdle s = B.isIdle s) : A = B := by
  cases A; cases B
  simp only [Encoder.mk.injEq]
  exact ⟨funext fun s => funext fun b => funext fun e => h1 s b e, funext fun s => funext fun x => h2 s x, funext h3, funext h4⟩

@[simp] theorem eraseP_tracked (l : Loc) (p : TRes κ α × τ) : eraseP (tracked l p) = eraseP p := by
  obtain ⟨r, s⟩ := p; cases r <;> rfl

theorem eraseP_step (p : TRes κ α × τ) (w : τ → υ) (k : α → τ → TRes κ β × υ) :
    eraseP (TRes.step p w k) = Res.step (eraseP p) w fun a s => eraseP (k a s) := by
  obtain ⟨r, s⟩ := p; cases r <;> rfl

theorem eraseP_ite {c : Prop} [Decidable c] (p q : TRes κ α × τ) :
    eraseP (if c then p else q) = if c then eraseP p else eraseP q := by split <;> rfl

def TFlow.erase {ω : Type} : TFlow κ ω σ → Flow ω σ
  | .next o s => .next o s
  | .ret r s => .ret r.erase s

theorem tTryDecode_erase (l : Loc) (D : TDecoder κ σ α) (s : σ) (o : Nat) (b : Bytes) (e : Eos) :
    (tTryDecode l D s o b e).erase = tryDecode D.erase s o b e := by
  rw [tTryDecode, tryDecode]
  show TFlow.erase _ = if D.isIdle s then _ else _
  by_cases h : D.isIdle s = true
  · rw [if_pos h, if_pos h]; rfl
  · rw [if_neg h, if_neg h]
    by_cases h2 : b.length < o
    · rw [if_pos h2, if_pos h2]; rfl
    · rw [if_neg h2, if_neg h2]
      show _ = match eraseP (D.decode s (b.drop o) e) with
        | (.ok n, s') => if D.isIdle s' then Flow.next (o + n) s' else .ret (.ok (o + n)) s'
        | (.err k, s') => .ret (.err k) s'
        | (.panic, s') => .ret .panic s'
        | (.capacity, s') => .ret .capacity s'
        | (.diverge, s') => .ret .diverge s'
      rw [← eraseP_tracked l]
      generalize tracked l (D.decode s (b.drop o) e) = p
      obtain ⟨r, s'⟩ := p
      cases r with
      | ok n => simp only [eraseP, TRes.erase]; split <;> rfl
      | _ => rfl

theorem tTryEncode_erase (l : Loc) (E : TEncoder κ σ α) (s : σ) (out : Bytes) (n : Nat) (e : Eos) :
    (tTryEncode l E s out n e).erase = tryEncode E.erase s out n e := by
  rw [tTryEncode, tryEncode]
  show TFlow.erase _ = if E.isIdle s then _ else _
  by_cases h : E.isIdle s = true
  · rw [if_pos h, if_pos h]; rfl
  · rw [if_neg h, if_neg h]
    by_cases h2 : n < out.length
    · rw [if_pos h2, if_pos h2]; rfl
    · rw [if_neg h2, if_neg h2]
      show _ = match eraseP (E.encode s (n - out.length) e) with
        | (.ok n, s') => if E.isIdle s' then Flow.next (out ++ n) s' else .ret (.ok (out ++ n)) s'
        | (.err k, s') => .ret (.err k) s'
        | (.panic, s') => .ret .panic s'
        | (.capacity, s') => .ret .capacity s'
        | (.diverge, s') => .ret .diverge s'
      rw [← eraseP_tracked l]
      generalize tracked l (E.encode s (n - out.length) e) = p
      obtain ⟨r, s'⟩ := p
      cases r with
      | ok n => simp only [eraseP, TRes.erase]; split <;> rfl
      | _ => rfl

/-! ## Decoders -/

theorem tMap_erase (D : TDecoder κ σ α) (f : α → β) : (tMapDecoder D f).erase = mapDecoder D.erase f :=
  decoder_eq (fun _ _ _ => rfl) (fun _ => eraseP_step _ _ _) (fun _ => rfl) (fun _ => rfl)

theorem tTryMap_erase (D : TDecoder κ σ α) (f : α → Except (TError κ) β) :
    (tTryMapDecoder D f).erase = tryMapDecoder D.erase (eraseFn f) := by
  refine decoder_eq (fun _ _ _ => eraseP_tracked _ _) (fun s => ?_) (fun _ => rfl) (fun _ => rfl)
  simp only [TDecoder.erase, tTryMapDecoder, tryMapDecoder, eraseP_step, eraseP_tracked]
  congr 1
  funext a s'
  cases h : f a with
  | ok y => simp only [eraseFn, h]; rfl
  | error k => simp only [eraseFn, h]; rfl

theorem eraseP_mapErr (g : TError κ → TError κ) (g' : ErrorKind → ErrorKind) (hg : ∀ x, (g x).kind = g' x.kind)
    (p : TRes κ α × τ) : eraseP (TRes.mapErr g p) = ((eraseP p).1.mapErr g', (eraseP p).2) := by
  obtain ⟨r, s⟩ := p
  cases r with
  | err x => simp only [TRes.mapErr, eraseP, TRes.erase, Res.mapErr, hg]
  | _ => rfl

theorem tMapErr_erase (D : TDecoder κ σ α) (g : TError κ → TError κ) (g' : ErrorKind → ErrorKind)
    (hg : ∀ x, (g x).kind = g' x.kind) : (tMapErrDecoder D g).erase = mapErrDecoder D.erase g' :=
  decoder_eq (fun _ _ _ => eraseP_mapErr _ _ hg _) (fun _ => eraseP_mapErr _ _ hg _) (fun _ => rfl) (fun _ => rfl)

theorem tAndThen_erase {σ0 α0 σ1 α1 : Type} (D0 : TDecoder κ σ0 α0) (D1 : TDecoder κ σ1 α1) (f : α0 → σ1) :
    (tAndThenDecoder D0 D1 f).erase = andThenDecoder D0.erase D1.erase f := by
  have h2 : ∀ (b : Bytes) (e : Eos) (s0 : σ0) (o : Nat) (s1 : σ1),
      (eraseP (match tTryDecode (inCombinator 219) D1 s1 o b e with
        | .ret r s1' => (r, (s0, some s1'))
        | .next offset s1' => (TRes.ok offset, (s0, some s1')))) =
      (match tryDecode D1.erase s1 o b e with
        | .ret r s1' => (r, (s0, some s1'))
        | .next offset s1' => (Res.ok offset, (s0, some s1'))) := by
    intro b e s0 o s1
    rw [← tTryDecode_erase (inCombinator 219)]
    cases tTryDecode (inCombinator 219) D1 s1 o b e <;> rfl
  refine decoder_eq (fun s b e => ?_) (fun s => ?_) (fun s => ?_) (fun s => ?_)
  · obtain ⟨s0, s1⟩ := s
    cases s1 with
    | some s1 => exact h2 b e s0 0 s1
    | none =>
      simp only [TDecoder.erase, tAndThenDecoder, andThenDecoder]
      have h := tTryDecode_erase (inCombinator 213) D0 s0 0 b e
      simp only [TDecoder.erase] at h
      rw [← h]
      cases tTryDecode (inCombinator 213) D0 s0 0 b e with
      | ret r s' => rfl
      | next o s' =>
        simp only [TFlow.erase, eraseP_step, eraseP_tracked]
        congr 1
        funext a s''
        exact h2 b e s'' o (f a)
  · obtain ⟨s0, s1⟩ := s
    cases s1 with
    | some s1 =>
      show eraseP ((tracked (inCombinator 225) (D1.finish s1)).1, (s0, none)) = ((eraseP (D1.finish s1)).1, (s0, none))
      rw [← eraseP_tracked (inCombinator 225) (D1.finish s1)]; rfl
    | none => rfl
  · obtain ⟨s0, _ | s1⟩ := s <;> rfl
  · obtain ⟨s0, _ | s1⟩ := s <;> rfl

theorem tPair_erase {σ0 α0 σ1 α1 : Type} (D0 : TDecoder κ σ0 α0) (D1 : TDecoder κ σ1 α1) :
    (tPairDecoder D0 D1).erase = tupleDecoder2 D0.erase D1.erase := by
  refine decoder_eq (fun s b e => ?_) (fun s => ?_) (fun _ => rfl) (fun _ => rfl)
  · simp only [tPairDecoder, tupleDecoder2]
    rw [← tTryDecode_erase ⟨"tuple.rs", 61⟩]
    simp only [TDecoder.erase]
    cases tTryDecode ⟨"tuple.rs", 61⟩ D0 s.1 0 b e with
    | ret r s' => rfl
    | next o s' =>
      simp only [TFlow.erase]
      have h := tTryDecode_erase ⟨"tuple.rs", 61⟩ D1 s.2 o b e
      simp only [TDecoder.erase] at h
      rw [← h]
      cases tTryDecode ⟨"tuple.rs", 61⟩ D1 s.2 o b e <;> rfl
  · simp only [TDecoder.erase, tPairDecoder, tupleDecoder2, eraseP_step, eraseP_tracked]
    rfl

theorem tOmittable_erase (D : TDecoder κ σ α) : (tOmittableDecoder D).erase = omittableDecoder D.erase := by
  refine decoder_eq (fun s b e => ?_) (fun s => ?_) (fun _ => rfl) (fun _ => rfl)
  · simp only [TDecoder.erase, tOmittableDecoder, omittableDecoder, eraseP_ite, eraseP_step, eraseP_tracked]; rfl
  · simp only [TDecoder.erase, tOmittableDecoder, omittableDecoder, eraseP_ite, eraseP_step, eraseP_tracked]; rfl

def TLoopExit.erase : TLoopExit κ σ α → LoopExit σ α
  | .done o s items => .done o s items
  | .ret r s items => .ret r.erase s items

theorem collectLoop_of_traced (D : TDecoder κ σ α) (b : Bytes) (e : Eos) :
    ∀ (o : Nat) (s : σ) (items : List α) (x : TLoopExit κ σ α), tCollectLoop D b e o s items = some x →
      collectLoop D.erase b e o s items = some x.erase := by
  apply tCollectLoop.partial_correctness D b e
    (motive := fun o s items x => collectLoop D.erase b e o s items = some x.erase)
  intro loop ih o s items x heq
  rw [collectLoop]
  split at heq
  · next hlt =>
    rw [if_pos hlt, ← tTryDecode_erase (inCombinator 629)]
    generalize tTryDecode (inCombinator 629) D s o b e = p at heq
    cases p with
    | ret r s' => cases heq; rfl
    | next o' s' =>
      simp only [TFlow.erase] at heq ⊢
      show (match eraseP (D.finish s') with
        | (.ok x, s'') => collectLoop D.erase b e o' s'' (items ++ [x])
        | (.err k, s'') => some (.ret (.err k) s'' items)
        | (.panic, s'') => some (.ret .panic s'' items)
        | (.capacity, s'') => some (.ret .capacity s'' items)
        | (.diverge, s'') => some (.ret .diverge s'' items)) = _
      rw [← eraseP_tracked (inCombinator 631)]
      generalize tracked (inCombinator 631) (D.finish s') = q at heq
      obtain ⟨r, s''⟩ := q
      cases r with
      | ok y => exact ih _ _ _ _ heq
      | _ => cases heq; rfl
  · next hlt =>
    rw [if_neg hlt]
    cases heq
    rfl

theorem traced_of_collectLoop (D : TDecoder κ σ α) (b : Bytes) (e : Eos) :
    ∀ (o : Nat) (s : σ) (items : List α) (x : LoopExit σ α), collectLoop D.erase b e o s items = some x →
      tCollectLoop D b e o s items ≠ none := by
  apply collectLoop.partial_correctness D.erase b e
    (motive := fun o s items x => tCollectLoop D b e o s items ≠ none)
  intro loop ih o s items x heq
  rw [tCollectLoop]
  split at heq
  · next hlt =>
    rw [if_pos hlt]
    rw [← tTryDecode_erase (inCombinator 629)] at heq
    generalize tTryDecode (inCombinator 629) D s o b e = p at heq
    cases p with
    | ret r s' => simp
    | next o' s' =>
      have heq2 : (match eraseP (D.finish s') with
        | (.ok x, s'') => loop o' s'' (items ++ [x])
        | (.err k, s'') => some (.ret (.err k) s'' items)
        | (.panic, s'') => some (.ret .panic s'' items)
        | (.capacity, s'') => some (.ret .capacity s'' items)
        | (.diverge, s'') => some (.ret .diverge s'' items)) = some x := heq
      rw [← eraseP_tracked (inCombinator 631)] at heq2
      simp only
      generalize tracked (inCombinator 631) (D.finish s') = q at heq2
      obtain ⟨r, s''⟩ := q
      cases r with
      | ok y => exact ih _ _ _ _ heq2
      | _ => simp
  · next hlt =>
    rw [if_neg hlt]
    simp

theorem tCollectLoop_erase (D : TDecoder κ σ α) (b : Bytes) (e : Eos) (o : Nat) (s : σ) (items : List α) :
    collectLoop D.erase b e o s items = (tCollectLoop D b e o s items).map TLoopExit.erase := by
  cases h : tCollectLoop D b e o s items with
  | some x => exact collectLoop_of_traced D b e _ _ _ _ h
  | none =>
    cases h2 : collectLoop D.erase b e o s items with
    | none => rfl
    | some x => exact (traced_of_collectLoop D b e _ _ _ _ h2 h).elim

theorem tCollect_erase (D : TDecoder κ σ α) : (tCollectDecoder D).erase = collectDecoder D.erase := by
  refine decoder_eq (fun s b e => ?_) (fun s => ?_) (fun _ => rfl) (fun _ => rfl)
  · simp only [tCollectDecoder, collectDecoder]
    rw [tCollectLoop_erase]
    simp only [TDecoder.erase]
    rw [eraseP_ite]
    congr 1
    rcases tCollectLoop D b e 0 s.inner s.items with _ | (_ | _) <;> rfl
  · simp only [TDecoder.erase, tCollectDecoder, collectDecoder, eraseP_ite]; rfl

def TLoopExitN.erase : TLoopExitN κ σ α → LoopExitN σ α
  | .done o s items n => .done o s items n
  | .ret r s items n => .ret r.erase s items n

theorem tCollectNLoop_erase (D : TDecoder κ σ α) (b : Bytes) (e : Eos) : ∀ (n o : Nat) (s : σ) (items : List α),
    collectNLoop D.erase b e n o s items = (tCollectNLoop D b e n o s items).erase := by
  intro n
  induction n with
  | zero => intros; rfl
  | succ n ih =>
    intro o s items
    rw [collectNLoop, tCollectNLoop]
    by_cases h : o < b.length
    · rw [if_pos h, if_pos h, ← tTryDecode_erase (inCombinator 855)]
      cases tTryDecode (inCombinator 855) D s o b e with
      | ret r s' => rfl
      | next o' s' =>
        simp only [TFlow.erase]
        show (match eraseP (D.finish s') with
          | (.ok x, s'') => collectNLoop D.erase b e n o' s'' (items ++ [x])
          | (.err k, s'') => .ret (.err k) s'' items (n + 1)
          | (.panic, s'') => .ret .panic s'' items (n + 1)
          | (.capacity, s'') => .ret .capacity s'' items (n + 1)
          | (.diverge, s'') => .ret .diverge s'' items (n + 1)) = _
        rw [← eraseP_tracked (inCombinator 857)]
        generalize tracked (inCombinator 857) (D.finish s') = q
        obtain ⟨r, s''⟩ := q
        cases r with
        | ok y => exact ih _ _ _
        | _ => rfl
    · rw [if_neg h, if_neg h]; rfl

theorem tCollectN_erase (D : TDecoder κ σ α) : (tCollectNDecoder D).erase = collectNDecoder D.erase := by
  refine decoder_eq (fun s b e => ?_) (fun s => ?_) (fun _ => rfl) (fun _ => rfl)
  · simp only [tCollectNDecoder, collectNDecoder]
    rw [tCollectNLoop_erase]
    simp only [TDecoder.erase]
    cases tCollectNLoop D b e s.remaining 0 s.inner s.items with
    | ret r i items n => rfl
    | done o i items n => simp only [TLoopExitN.erase, eraseP_ite]; rfl
  · simp only [TDecoder.erase, tCollectNDecoder, collectNDecoder, eraseP_ite]; rfl

theorem tLength_erase (D : TDecoder κ σ α) : (tLengthDecoder D).erase = lengthDecoder D.erase := by
  refine decoder_eq (fun s b e => ?_) (fun s => ?_) (fun _ => rfl) (fun _ => rfl)
  · simp only [TDecoder.erase, tLengthDecoder, lengthDecoder]
    cases e.remainingBytes.toU64 with
    | none => simp only [eraseP_step, eraseP_tracked, eraseP_ite]; rfl
    | some n => simp only [eraseP_ite, eraseP_step, eraseP_tracked]; rfl
  · simp only [TDecoder.erase, tLengthDecoder, lengthDecoder, eraseP_ite, eraseP_step, eraseP_tracked]; rfl

theorem tMaxBytes_erase (D : TDecoder κ σ α) : (tMaxBytesDecoder D).erase = maxBytesDecoder D.erase := by
  refine decoder_eq (fun s b e => ?_) (fun s => ?_) (fun _ => rfl) (fun _ => rfl)
  · simp only [TDecoder.erase, tMaxBytesDecoder, maxBytesDecoder]
    cases e.remainingBytes with
    | infinite => rfl
    | unknown => simp only [eraseP_ite, eraseP_step, eraseP_tracked]; rfl
    | finite n => simp only [eraseP_ite, eraseP_step, eraseP_tracked]; rfl
  · simp only [TDecoder.erase, tMaxBytesDecoder, maxBytesDecoder, eraseP_step, eraseP_tracked]; rfl

theorem tSlice_erase (D : TDecoder κ σ α) : (tSliceDecoder D).erase = sliceDecoder D.erase := by
  refine decoder_eq (fun s b e => ?_) (fun s => ?_) (fun _ => rfl) (fun _ => rfl)
  · simp only [TDecoder.erase, tSliceDecoder, sliceDecoder]
    cases e.back (b.length - min b.length s.consumable) with
    | ok e' => simp only [eraseP_ite, eraseP_step, eraseP_tracked]; rfl
    | _ => rfl
  · simp only [TDecoder.erase, tSliceDecoder, sliceDecoder, eraseP_step, eraseP_tracked]; rfl

theorem tPeekable_erase (D : TDecoder κ σ α) : (tPeekableDecoder D).erase = peekableDecoder D.erase := by
  refine decoder_eq (fun s b e => ?_) (fun s => ?_) (fun _ => rfl) (fun _ => rfl)
  · simp only [TDecoder.erase, tPeekableDecoder, peekableDecoder, eraseP_ite, eraseP_step, eraseP_tracked]; rfl
  · obtain ⟨i, _ | x⟩ := s <;> rfl

theorem tMaybeEos_erase (D : TDecoder κ σ α) : (tMaybeEosDecoder D).erase = maybeEosDecoder D.erase := by
  refine decoder_eq (fun s b e => ?_) (fun s => ?_) (fun _ => rfl) (fun _ => rfl)
  · simp only [TDecoder.erase, tMaybeEosDecoder, maybeEosDecoder, eraseP_step, eraseP_tracked]; rfl
  · simp only [TDecoder.erase, tMaybeEosDecoder, maybeEosDecoder, eraseP_step, eraseP_tracked]; rfl

theorem tUtf8_erase (bad : Bytes → κ) (D : TDecoder κ σ Bytes) : (tUtf8Decoder bad D).erase = utf8Decoder D.erase := by
  refine decoder_eq (fun _ _ _ => eraseP_tracked _ _) (fun s => ?_) (fun _ => rfl) (fun _ => rfl)
  simp only [TDecoder.erase, tUtf8Decoder, utf8Decoder, eraseP_step, eraseP_tracked]
  congr 1
  funext a s'
  cases fromUtf8 a <;> rfl

theorem tTuple3_erase {σ0 α0 σ1 α1 σ2 α2 : Type} (D0 : TDecoder κ σ0 α0) (D1 : TDecoder κ σ1 α1) (D2 : TDecoder κ σ2 α2) :
    (tTuple3Decoder D0 D1 D2).erase = tupleDecoder3 D0.erase D1.erase D2.erase := by
  refine decoder_eq (fun s b e => ?_) (fun s => ?_) (fun _ => rfl) (fun _ => rfl)
  · simp only [tTuple3Decoder, tupleDecoder3]
    rw [← tTryDecode_erase ⟨"tuple.rs", 62⟩]
    simp only [TDecoder.erase]
    cases tTryDecode ⟨"tuple.rs", 62⟩ D0 s.1 0 b e with
    | ret r s' => rfl
    | next o0 s0 =>
      simp only [TFlow.erase]
      have h := tTryDecode_erase ⟨"tuple.rs", 62⟩ D1 s.2.1 o0 b e
      simp only [TDecoder.erase] at h
      rw [← h]
      clear h
      cases tTryDecode ⟨"tuple.rs", 62⟩ D1 s.2.1 o0 b e with
      | ret r s' => rfl
      | next o1 s1 =>
        simp only [TFlow.erase]
        have h := tTryDecode_erase ⟨"tuple.rs", 62⟩ D2 s.2.2 o1 b e
        simp only [TDecoder.erase] at h
        rw [← h]
        cases tTryDecode ⟨"tuple.rs", 62⟩ D2 s.2.2 o1 b e <;> rfl
  · simp only [TDecoder.erase, tTuple3Decoder, tupleDecoder3, eraseP_step, eraseP_tracked]
    rfl

theorem tTuple4_erase {σ0 α0 σ1 α1 σ2 α2 σ3 α3 : Type} (D0 : TDecoder κ σ0 α0) (D1 : TDecoder κ σ1 α1) (D2 : TDecoder κ σ2 α2) (D3 : TDecoder κ σ3 α3) :
    (tTuple4Decoder D0 D1 D2 D3).erase = tupleDecoder4 D0.erase D1.erase D2.erase D3.erase := by
  refine decoder_eq (fun s b e => ?_) (fun s => ?_) (fun _ => rfl) (fun _ => rfl)
  · simp only [tTuple4Decoder, tupleDecoder4]
    rw [← tTryDecode_erase ⟨"tuple.rs", 63⟩]
    simp only [TDecoder.erase]
    cases tTryDecode ⟨"tuple.rs", 63⟩ D0 s.1 0 b e with
    | ret r s' => rfl
    | next o0 s0 =>
      simp only [TFlow.erase]
      have h := tTryDecode_erase ⟨"tuple.rs", 63⟩ D1 s.2.1 o0 b e
      simp only [TDecoder.erase] at h
      rw [← h]
      clear h
      cases tTryDecode ⟨"tuple.rs", 63⟩ D1 s.2.1 o0 b e with
      | ret r s' => rfl
      | next o1 s1 =>
        simp only [TFlow.erase]
        have h := tTryDecode_erase ⟨"tuple.rs", 63⟩ D2 s.2.2.1 o1 b e
        simp only [TDecoder.erase] at h
        rw [← h]
        clear h
        cases tTryDecode ⟨"tuple.rs", 63⟩ D2 s.2.2.1 o1 b e with
        | ret r s' => rfl
        | next o2 s2 =>
          simp only [TFlow.erase]
          have h := tTryDecode_erase ⟨"tuple.rs", 63⟩ D3 s.2.2.2 o2 b e
          simp only [TDecoder.erase] at h
          rw [← h]
          cases tTryDecode ⟨"tuple.rs", 63⟩ D3 s.2.2.2 o2 b e <;> rfl
  · simp only [TDecoder.erase, tTuple4Decoder, tupleDecoder4, eraseP_step, eraseP_tracked]
    rfl

theorem tTuple5_erase {σ0 α0 σ1 α1 σ2 α2 σ3 α3 σ4 α4 : Type} (D0 : TDecoder κ σ0 α0) (D1 : TDecoder κ σ1 α1) (D2 : TDecoder κ σ2 α2) (D3 : TDecoder κ σ3 α3) (D4 : TDecoder κ σ4 α4) :
    (tTuple5Decoder D0 D1 D2 D3 D4).erase = tupleDecoder5 D0.erase D1.erase D2.erase D3.erase D4.erase := by
  refine decoder_eq (fun s b e => ?_) (fun s => ?_) (fun _ => rfl) (fun _ => rfl)
  · simp only [tTuple5Decoder, tupleDecoder5]
    rw [← tTryDecode_erase ⟨"tuple.rs", 64⟩]
    simp only [TDecoder.erase]
    cases tTryDecode ⟨"tuple.rs", 64⟩ D0 s.1 0 b e with
    | ret r s' => rfl
    | next o0 s0 =>
      simp only [TFlow.erase]
      have h := tTryDecode_erase ⟨"tuple.rs", 64⟩ D1 s.2.1 o0 b e
      simp only [TDecoder.erase] at h
      rw [← h]
      clear h
      cases tTryDecode ⟨"tuple.rs", 64⟩ D1 s.2.1 o0 b e with
      | ret r s' => rfl
      | next o1 s1 =>
        simp only [TFlow.erase]
        have h := tTryDecode_erase ⟨"tuple.rs", 64⟩ D2 s.2.2.1 o1 b e
        simp only [TDecoder.erase] at h
        rw [← h]
        clear h
        cases tTryDecode ⟨"tuple.rs", 64⟩ D2 s.2.2.1 o1 b e with
        | ret r s' => rfl
        | next o2 s2 =>
          simp only [TFlow.erase]
          have h := tTryDecode_erase ⟨"tuple.rs", 64⟩ D3 s.2.2.2.1 o2 b e
          simp only [TDecoder.erase] at h
          rw [← h]
          clear h
          cases tTryDecode ⟨"tuple.rs", 64⟩ D3 s.2.2.2.1 o2 b e with
          | ret r s' => rfl
          | next o3 s3 =>
            simp only [TFlow.erase]
            have h := tTryDecode_erase ⟨"tuple.rs", 64⟩ D4 s.2.2.2.2 o3 b e
            simp only [TDecoder.erase] at h
            rw [← h]
            cases tTryDecode ⟨"tuple.rs", 64⟩ D4 s.2.2.2.2 o3 b e <;> rfl
  · simp only [TDecoder.erase, tTuple5Decoder, tupleDecoder5, eraseP_step, eraseP_tracked]
    rfl

theorem tTuple6_erase {σ0 α0 σ1 α1 σ2 α2 σ3 α3 σ4 α4 σ5 α5 : Type} (D0 : TDecoder κ σ0 α0) (D1 : TDecoder κ σ1 α1) (D2 : TDecoder κ σ2 α2) (D3 : TDecoder κ σ3 α3) (D4 : TDecoder κ σ4 α4) (D5 : TDecoder κ σ5 α5) :
    (tTuple6Decoder D0 D1 D2 D3 D4 D5).erase = tupleDecoder6 D0.erase D1.erase D2.erase D3.erase D4.erase D5.erase := by
  refine decoder_eq (fun s b e => ?_) (fun s => ?_) (fun _ => rfl) (fun _ => rfl)
  · simp only [tTuple6Decoder, tupleDecoder6]
    rw [← tTryDecode_erase ⟨"tuple.rs", 65⟩]
    simp only [TDecoder.erase]
    cases tTryDecode ⟨"tuple.rs", 65⟩ D0 s.1 0 b e with
    | ret r s' => rfl
    | next o0 s0 =>
      simp only [TFlow.erase]
      have h := tTryDecode_erase ⟨"tuple.rs", 65⟩ D1 s.2.1 o0 b e
      simp only [TDecoder.erase] at h
      rw [← h]
      clear h
      cases tTryDecode ⟨"tuple.rs", 65⟩ D1 s.2.1 o0 b e with
      | ret r s' => rfl
      | next o1 s1 =>
        simp only [TFlow.erase]
        have h := tTryDecode_erase ⟨"tuple.rs", 65⟩ D2 s.2.2.1 o1 b e
        simp only [TDecoder.erase] at h
        rw [← h]
        clear h
        cases tTryDecode ⟨"tuple.rs", 65⟩ D2 s.2.2.1 o1 b e with
        | ret r s' => rfl
        | next o2 s2 =>
          simp only [TFlow.erase]
          have h := tTryDecode_erase ⟨"tuple.rs", 65⟩ D3 s.2.2.2.1 o2 b e
          simp only [TDecoder.erase] at h
          rw [← h]
          clear h
          cases tTryDecode ⟨"tuple.rs", 65⟩ D3 s.2.2.2.1 o2 b e with
          | ret r s' => rfl
          | next o3 s3 =>
            simp only [TFlow.erase]
            have h := tTryDecode_erase ⟨"tuple.rs", 65⟩ D4 s.2.2.2.2.1 o3 b e
            simp only [TDecoder.erase] at h
            rw [← h]
            clear h
            cases tTryDecode ⟨"tuple.rs", 65⟩ D4 s.2.2.2.2.1 o3 b e with
            | ret r s' => rfl
            | next o4 s4 =>
              simp only [TFlow.erase]
              have h := tTryDecode_erase ⟨"tuple.rs", 65⟩ D5 s.2.2.2.2.2 o4 b e
              simp only [TDecoder.erase] at h
              rw [← h]
              cases tTryDecode ⟨"tuple.rs", 65⟩ D5 s.2.2.2.2.2 o4 b e <;> rfl
  · simp only [TDecoder.erase, tTuple6Decoder, tupleDecoder6, eraseP_step, eraseP_tracked]
    rfl

theorem tTuple7_erase {σ0 α0 σ1 α1 σ2 α2 σ3 α3 σ4 α4 σ5 α5 σ6 α6 : Type} (D0 : TDecoder κ σ0 α0) (D1 : TDecoder κ σ1 α1) (D2 : TDecoder κ σ2 α2) (D3 : TDecoder κ σ3 α3) (D4 : TDecoder κ σ4 α4) (D5 : TDecoder κ σ5 α5) (D6 : TDecoder κ σ6 α6) :
    (tTuple7Decoder D0 D1 D2 D3 D4 D5 D6).erase = tupleDecoder7 D0.erase D1.erase D2.erase D3.erase D4.erase D5.erase D6.erase := by
  refine decoder_eq (fun s b e => ?_) (fun s => ?_) (fun _ => rfl) (fun _ => rfl)
  · simp only [tTuple7Decoder, tupleDecoder7]
    rw [← tTryDecode_erase ⟨"tuple.rs", 66⟩]
    simp only [TDecoder.erase]
    cases tTryDecode ⟨"tuple.rs", 66⟩ D0 s.1 0 b e with
    | ret r s' => rfl
    | next o0 s0 =>
      simp only [TFlow.erase]
      have h := tTryDecode_erase ⟨"tuple.rs", 66⟩ D1 s.2.1 o0 b e
      simp only [TDecoder.erase] at h
      rw [← h]
      clear h
      cases tTryDecode ⟨"tuple.rs", 66⟩ D1 s.2.1 o0 b e with
      | ret r s' => rfl
      | next o1 s1 =>
        simp only [TFlow.erase]
        have h := tTryDecode_erase ⟨"tuple.rs", 66⟩ D2 s.2.2.1 o1 b e
        simp only [TDecoder.erase] at h
        rw [← h]
        clear h
        cases tTryDecode ⟨"tuple.rs", 66⟩ D2 s.2.2.1 o1 b e with
        | ret r s' => rfl
        | next o2 s2 =>
          simp only [TFlow.erase]
          have h := tTryDecode_erase ⟨"tuple.rs", 66⟩ D3 s.2.2.2.1 o2 b e
          simp only [TDecoder.erase] at h
          rw [← h]
          clear h
          cases tTryDecode ⟨"tuple.rs", 66⟩ D3 s.2.2.2.1 o2 b e with
          | ret r s' => rfl
          | next o3 s3 =>
            simp only [TFlow.erase]
            have h := tTryDecode_erase ⟨"tuple.rs", 66⟩ D4 s.2.2.2.2.1 o3 b e
            simp only [TDecoder.erase] at h
            rw [← h]
            clear h
            cases tTryDecode ⟨"tuple.rs", 66⟩ D4 s.2.2.2.2.1 o3 b e with
            | ret r s' => rfl
            | next o4 s4 =>
              simp only [TFlow.erase]
              have h := tTryDecode_erase ⟨"tuple.rs", 66⟩ D5 s.2.2.2.2.2.1 o4 b e
              simp only [TDecoder.erase] at h
              rw [← h]
              clear h
              cases tTryDecode ⟨"tuple.rs", 66⟩ D5 s.2.2.2.2.2.1 o4 b e with
              | ret r s' => rfl
              | next o5 s5 =>
                simp only [TFlow.erase]
                have h := tTryDecode_erase ⟨"tuple.rs", 66⟩ D6 s.2.2.2.2.2.2 o5 b e
                simp only [TDecoder.erase] at h
                rw [← h]
                cases tTryDecode ⟨"tuple.rs", 66⟩ D6 s.2.2.2.2.2.2 o5 b e <;> rfl
  · simp only [TDecoder.erase, tTuple7Decoder, tupleDecoder7, eraseP_step, eraseP_tracked]
    rfl

theorem tTuple8_erase {σ0 α0 σ1 α1 σ2 α2 σ3 α3 σ4 α4 σ5 α5 σ6 α6 σ7 α7 : Type} (D0 : TDecoder κ σ0 α0) (D1 : TDecoder κ σ1 α1) (D2 : TDecoder κ σ2 α2) (D3 : TDecoder κ σ3 α3) (D4 : TDecoder κ σ4 α4) (D5 : TDecoder κ σ5 α5) (D6 : TDecoder κ σ6 α6) (D7 : TDecoder κ σ7 α7) :
    (tTuple8Decoder D0 D1 D2 D3 D4 D5 D6 D7).erase = tupleDecoder8 D0.erase D1.erase D2.erase D3.erase D4.erase D5.erase D6.erase D7.erase := by
  refine decoder_eq (fun s b e => ?_) (fun s => ?_) (fun _ => rfl) (fun _ => rfl)
  · simp only [tTuple8Decoder, tupleDecoder8]
    rw [← tTryDecode_erase ⟨"tuple.rs", 67⟩]
    simp only [TDecoder.erase]
    cases tTryDecode ⟨"tuple.rs", 67⟩ D0 s.1 0 b e with
    | ret r s' => rfl
    | next o0 s0 =>
      simp only [TFlow.erase]
      have h := tTryDecode_erase ⟨"tuple.rs", 67⟩ D1 s.2.1 o0 b e
      simp only [TDecoder.erase] at h
      rw [← h]
      clear h
      cases tTryDecode ⟨"tuple.rs", 67⟩ D1 s.2.1 o0 b e with
      | ret r s' => rfl
      | next o1 s1 =>
        simp only [TFlow.erase]
        have h := tTryDecode_erase ⟨"tuple.rs", 67⟩ D2 s.2.2.1 o1 b e
        simp only [TDecoder.erase] at h
        rw [← h]
        clear h
        cases tTryDecode ⟨"tuple.rs", 67⟩ D2 s.2.2.1 o1 b e with
        | ret r s' => rfl
        | next o2 s2 =>
          simp only [TFlow.erase]
          have h := tTryDecode_erase ⟨"tuple.rs", 67⟩ D3 s.2.2.2.1 o2 b e
          simp only [TDecoder.erase] at h
          rw [← h]
          clear h
          cases tTryDecode ⟨"tuple.rs", 67⟩ D3 s.2.2.2.1 o2 b e with
          | ret r s' => rfl
          | next o3 s3 =>
            simp only [TFlow.erase]
            have h := tTryDecode_erase ⟨"tuple.rs", 67⟩ D4 s.2.2.2.2.1 o3 b e
            simp only [TDecoder.erase] at h
            rw [← h]
            clear h
            cases tTryDecode ⟨"tuple.rs", 67⟩ D4 s.2.2.2.2.1 o3 b e with
            | ret r s' => rfl
            | next o4 s4 =>
              simp only [TFlow.erase]
              have h := tTryDecode_erase ⟨"tuple.rs", 67⟩ D5 s.2.2.2.2.2.1 o4 b e
              simp only [TDecoder.erase] at h
              rw [← h]
              clear h
              cases tTryDecode ⟨"tuple.rs", 67⟩ D5 s.2.2.2.2.2.1 o4 b e with
              | ret r s' => rfl
              | next o5 s5 =>
                simp only [TFlow.erase]
                have h := tTryDecode_erase ⟨"tuple.rs", 67⟩ D6 s.2.2.2.2.2.2.1 o5 b e
                simp only [TDecoder.erase] at h
                rw [← h]
                clear h
                cases tTryDecode ⟨"tuple.rs", 67⟩ D6 s.2.2.2.2.2.2.1 o5 b e with
                | ret r s' => rfl
                | next o6 s6 =>
                  simp only [TFlow.erase]
                  have h := tTryDecode_erase ⟨"tuple.rs", 67⟩ D7 s.2.2.2.2.2.2.2 o6 b e
                  simp only [TDecoder.erase] at h
                  rw [← h]
                  cases tTryDecode ⟨"tuple.rs", 67⟩ D7 s.2.2.2.2.2.2.2 o6 b e <;> rfl
  · simp only [TDecoder.erase, tTuple8Decoder, tupleDecoder8, eraseP_step, eraseP_tracked]
    rfl

theorem tracedDec_erase {σ α : Type} {O : TError κ → Prop} {D : TDecoder κ σ α} {P : Decoder σ α} (h : TracedDec O D P) :
    D.erase = P := by
  induction h with
  | part D => rfl
  | map f _ ih => subst ih; exact tMap_erase _ _
  | tryMap f _ ih => subst ih; exact tTryMap_erase _ _
  | mapErr g g' hg _ ih => subst ih; exact tMapErr_erase _ _ _ hg
  | andThen f _ _ ih0 ih1 => subst ih0 ih1; exact tAndThen_erase _ _ _
  | pair _ _ ih0 ih1 => subst ih0 ih1; exact tPair_erase _ _
  | tuple3 _ _ _ ih0 ih1 ih2 => subst ih0 ih1 ih2; exact tTuple3_erase _ _ _
  | tuple4 _ _ _ _ ih0 ih1 ih2 ih3 => subst ih0 ih1 ih2 ih3; exact tTuple4_erase _ _ _ _
  | tuple5 _ _ _ _ _ ih0 ih1 ih2 ih3 ih4 => subst ih0 ih1 ih2 ih3 ih4; exact tTuple5_erase _ _ _ _ _
  | tuple6 _ _ _ _ _ _ ih0 ih1 ih2 ih3 ih4 ih5 => subst ih0 ih1 ih2 ih3 ih4 ih5; exact tTuple6_erase _ _ _ _ _ _
  | tuple7 _ _ _ _ _ _ _ ih0 ih1 ih2 ih3 ih4 ih5 ih6 => subst ih0 ih1 ih2 ih3 ih4 ih5 ih6; exact tTuple7_erase _ _ _ _ _ _ _
  | tuple8 _ _ _ _ _ _ _ _ ih0 ih1 ih2 ih3 ih4 ih5 ih6 ih7 => subst ih0 ih1 ih2 ih3 ih4 ih5 ih6 ih7; exact tTuple8_erase _ _ _ _ _ _ _ _
  | omittable _ ih => subst ih; exact tOmittable_erase _
  | collect _ ih => subst ih; exact tCollect_erase _
  | collectN _ ih => subst ih; exact tCollectN_erase _
  | length _ ih => subst ih; exact tLength_erase _
  | maxBytes _ ih => subst ih; exact tMaxBytes_erase _
  | slice _ ih => subst ih; exact tSlice_erase _
  | peekable _ ih => subst ih; exact tPeekable_erase _
  | maybeEos _ ih => subst ih; exact tMaybeEos_erase _
  | utf8 bad _ ih => subst ih; exact tUtf8_erase _ _

end Bytecodec
