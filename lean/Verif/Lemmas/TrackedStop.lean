import Verif.Spec.Tracked
/-!
# Lemmas: where a part stops dead instead of failing, so does the whole
-/
namespace Bytecodec

variable {κ σ α β τ υ : Type} {Q : κ → Bool}

theorem tdecoder_eq {A B : TDecoder κ σ α} (h1 : ∀ s b e, A.decode s b e = B.decode s b e) (h2 : ∀ s, A.finish s = B.finish s)
    (h3 : ∀ s, A.requiring s = B.requiring s) (h4 : ∀ s, A.isIdle s = B.isIdle s) : A = B := by
  cases A; cases B
  simp only [TDecoder.mk.injEq]
  exact ⟨funext fun s => funext fun b => funext fun e => h1 s b e, funext h2, funext h3, funext h4⟩

theorem tencoder_eq {A B : TEncoder κ σ α} (h1 : ∀ s b e, A.encode s b e = B.encode s b e) (h2 : ∀ s x, A.start s x = B.start s x)
    (h3 : ∀ s, A.requiring s = B.requiring s) (h4 : ∀ s, A.isIdle s = B.isIdle s) : A = B := by
  cases A; cases B
  simp only [TEncoder.mk.injEq]
  exact ⟨funext fun s => funext fun b => funext fun e => h1 s b e, funext fun s => funext fun x => h2 s x, funext h3, funext h4⟩

theorem track_causedBy (l : Loc) (x : TError κ) : (x.track l).causedBy Q = x.causedBy Q := rfl

theorem stopAt_tracked (l : Loc) (p : TRes κ α × τ) : stopAt Q (tracked l p) = tracked l (stopAt Q p) := by
  obtain ⟨r, s⟩ := p
  cases r with
  | err x => cases h : x.causedBy Q <;> simp [stopAt, TRes.stop, tracked, track_causedBy, h]
  | _ => rfl

theorem stopAt_step (p : TRes κ α × τ) (w : τ → υ) (k : α → τ → TRes κ β × υ) :
    stopAt Q (TRes.step p w k) = TRes.step (stopAt Q p) w fun a s => stopAt Q (k a s) := by
  obtain ⟨r, s⟩ := p
  cases r with
  | err x => cases h : x.causedBy Q <;> simp [stopAt, TRes.stop, TRes.step, h]
  | _ => rfl

theorem stopAt_ite {c : Prop} [Decidable c] (p q : TRes κ α × τ) :
    stopAt Q (if c then p else q) = if c then stopAt Q p else stopAt Q q := by split <;> rfl

def TFlow.stop {ω : Type} (Q : κ → Bool) : TFlow κ ω σ → TFlow κ ω σ
  | .next o s => .next o s
  | .ret r s => .ret (r.stop Q) s

theorem tTryDecode_stop (l : Loc) (D : TDecoder κ σ α) (s : σ) (o : Nat) (b : Bytes) (e : Eos) :
    (tTryDecode l D s o b e).stop Q = tTryDecode l (D.stopping Q) s o b e := by
  rw [tTryDecode, tTryDecode]
  show TFlow.stop Q _ = if D.isIdle s then _ else _
  by_cases h : D.isIdle s = true
  · rw [if_pos h, if_pos h]; rfl
  · rw [if_neg h, if_neg h]
    by_cases h2 : b.length < o
    · rw [if_pos h2, if_pos h2]; rfl
    · rw [if_neg h2, if_neg h2]
      show _ = match tracked l (stopAt Q (D.decode s (b.drop o) e)) with
        | (.ok n, s') => if D.isIdle s' then TFlow.next (o + n) s' else .ret (.ok (o + n)) s'
        | (.err k, s') => .ret (.err k) s'
        | (.panic, s') => .ret .panic s'
        | (.capacity, s') => .ret .capacity s'
        | (.diverge, s') => .ret .diverge s'
      rw [← stopAt_tracked l]
      generalize tracked l (D.decode s (b.drop o) e) = p
      obtain ⟨r, s'⟩ := p
      cases r with
      | ok n => simp only [stopAt, TRes.stop]; split <;> rfl
      | err x => cases h : x.causedBy Q <;> simp [stopAt, TRes.stop, TFlow.stop, h]
      | _ => rfl

theorem tTryEncode_stop (l : Loc) (E : TEncoder κ σ α) (s : σ) (out : Bytes) (n : Nat) (e : Eos) :
    (tTryEncode l E s out n e).stop Q = tTryEncode l (E.stopping Q) s out n e := by
  rw [tTryEncode, tTryEncode]
  show TFlow.stop Q _ = if E.isIdle s then _ else _
  by_cases h : E.isIdle s = true
  · rw [if_pos h, if_pos h]; rfl
  · rw [if_neg h, if_neg h]
    by_cases h2 : n < out.length
    · rw [if_pos h2, if_pos h2]; rfl
    · rw [if_neg h2, if_neg h2]
      show _ = match tracked l (stopAt Q (E.encode s (n - out.length) e)) with
        | (.ok n, s') => if E.isIdle s' then TFlow.next (out ++ n) s' else .ret (.ok (out ++ n)) s'
        | (.err k, s') => .ret (.err k) s'
        | (.panic, s') => .ret .panic s'
        | (.capacity, s') => .ret .capacity s'
        | (.diverge, s') => .ret .diverge s'
      rw [← stopAt_tracked l]
      generalize tracked l (E.encode s (n - out.length) e) = p
      obtain ⟨r, s'⟩ := p
      cases r with
      | ok n => simp only [stopAt, TRes.stop]; split <;> rfl
      | err x => cases h : x.causedBy Q <;> simp [stopAt, TRes.stop, TFlow.stop, h]
      | _ => rfl

/-! ## Decoders -/

theorem tMap_stop (D : TDecoder κ σ α) (f : α → β) : (tMapDecoder D f).stopping Q = tMapDecoder (D.stopping Q) f :=
  tdecoder_eq (fun _ _ _ => rfl) (fun _ => stopAt_step _ _ _) (fun _ => rfl) (fun _ => rfl)

theorem tTryMap_stop (D : TDecoder κ σ α) (f : α → Except (TError κ) β) (hf : ∀ a x, f a = .error x → x.causedBy Q = false) :
    (tTryMapDecoder D f).stopping Q = tTryMapDecoder (D.stopping Q) f := by
  refine tdecoder_eq (fun _ _ _ => stopAt_tracked _ _) (fun s => ?_) (fun _ => rfl) (fun _ => rfl)
  simp only [TDecoder.stopping, tTryMapDecoder, stopAt_step, stopAt_tracked]
  congr 1
  funext a s'
  cases h : f a with
  | ok y => rfl
  | error k =>
    have := hf a k h
    simp [stopAt, TRes.stop, tracked, this, track_causedBy]

theorem stopAt_mapErr (g : TError κ → TError κ) (hg : ∀ x, (g x).causedBy Q = x.causedBy Q)
    (p : TRes κ α × τ) : stopAt Q (TRes.mapErr g p) = TRes.mapErr g (stopAt Q p) := by
  obtain ⟨r, s⟩ := p
  cases r with
  | err x => cases h : x.causedBy Q <;> simp [TRes.mapErr, stopAt, TRes.stop, h, hg]
  | _ => rfl

theorem tMapErr_stop (D : TDecoder κ σ α) (g : TError κ → TError κ) (hg : ∀ x, (g x).causedBy Q = x.causedBy Q) :
    (tMapErrDecoder D g).stopping Q = tMapErrDecoder (D.stopping Q) g :=
  tdecoder_eq (fun _ _ _ => stopAt_mapErr _ hg _) (fun _ => stopAt_mapErr _ hg _) (fun _ => rfl) (fun _ => rfl)

theorem tAndThen_stop {σ0 α0 σ1 α1 : Type} (D0 : TDecoder κ σ0 α0) (D1 : TDecoder κ σ1 α1) (f : α0 → σ1) :
    (tAndThenDecoder D0 D1 f).stopping Q = tAndThenDecoder (D0.stopping Q) (D1.stopping Q) f := by
  have h2 : ∀ (b : Bytes) (e : Eos) (s0 : σ0) (o : Nat) (s1 : σ1),
      (stopAt Q (match tTryDecode (inCombinator 219) D1 s1 o b e with
        | .ret r s1' => (r, (s0, some s1'))
        | .next offset s1' => (TRes.ok offset, (s0, some s1')))) =
      (match tTryDecode (inCombinator 219) (D1.stopping Q) s1 o b e with
        | .ret r s1' => (r, (s0, some s1'))
        | .next offset s1' => (TRes.ok offset, (s0, some s1'))) := by
    intro b e s0 o s1
    rw [← tTryDecode_stop (inCombinator 219)]
    cases tTryDecode (inCombinator 219) D1 s1 o b e <;> rfl
  refine tdecoder_eq (fun s b e => ?_) (fun s => ?_) (fun s => ?_) (fun s => ?_)
  · obtain ⟨s0, s1⟩ := s
    cases s1 with
    | some s1 => exact h2 b e s0 0 s1
    | none =>
      simp only [TDecoder.stopping, tAndThenDecoder, tAndThenDecoder]
      have h := tTryDecode_stop (Q := Q) (inCombinator 213) D0 s0 0 b e
      simp only [TDecoder.stopping] at h
      rw [← h]
      cases tTryDecode (inCombinator 213) D0 s0 0 b e with
      | ret r s' => rfl
      | next o s' =>
        simp only [TFlow.stop, stopAt_step, stopAt_tracked]
        congr 1
        funext a s''
        exact h2 b e s'' o (f a)
  · obtain ⟨s0, s1⟩ := s
    cases s1 with
    | some s1 =>
      show stopAt Q ((tracked (inCombinator 225) (D1.finish s1)).1, (s0, none)) =
        ((tracked (inCombinator 225) (stopAt Q (D1.finish s1))).1, (s0, none))
      rw [← stopAt_tracked (inCombinator 225) (D1.finish s1)]; rfl
    | none => rfl
  · obtain ⟨s0, _ | s1⟩ := s <;> rfl
  · obtain ⟨s0, _ | s1⟩ := s <;> rfl

theorem tPair_stop {σ0 α0 σ1 α1 : Type} (D0 : TDecoder κ σ0 α0) (D1 : TDecoder κ σ1 α1) :
    (tPairDecoder D0 D1).stopping Q = tPairDecoder (D0.stopping Q) (D1.stopping Q) := by
  refine tdecoder_eq (fun s b e => ?_) (fun s => ?_) (fun _ => rfl) (fun _ => rfl)
  · simp only [tPairDecoder, tPairDecoder]
    rw [← tTryDecode_stop ⟨"tuple.rs", 61⟩]
    simp only [TDecoder.stopping]
    cases tTryDecode ⟨"tuple.rs", 61⟩ D0 s.1 0 b e with
    | ret r s' => rfl
    | next o s' =>
      simp only [TFlow.stop]
      have h := tTryDecode_stop (Q := Q) ⟨"tuple.rs", 61⟩ D1 s.2 o b e
      simp only [TDecoder.stopping] at h
      rw [← h]
      cases tTryDecode ⟨"tuple.rs", 61⟩ D1 s.2 o b e <;> rfl
  · simp only [TDecoder.stopping, tPairDecoder, tPairDecoder, stopAt_step, stopAt_tracked]
    rfl

theorem tOmittable_stop (D : TDecoder κ σ α) : (tOmittableDecoder D).stopping Q = tOmittableDecoder (D.stopping Q) := by
  refine tdecoder_eq (fun s b e => ?_) (fun s => ?_) (fun _ => rfl) (fun _ => rfl)
  · simp only [TDecoder.stopping, tOmittableDecoder, tOmittableDecoder, stopAt_ite, stopAt_step, stopAt_tracked]; rfl
  · simp only [TDecoder.stopping, tOmittableDecoder, tOmittableDecoder, stopAt_ite, stopAt_step, stopAt_tracked]; rfl

def TLoopExit.stop (Q : κ → Bool) : TLoopExit κ σ α → TLoopExit κ σ α
  | .done o s items => .done o s items
  | .ret r s items => .ret (r.stop Q) s items

theorem collectLoop_stopping_of (D : TDecoder κ σ α) (b : Bytes) (e : Eos) :
    ∀ (o : Nat) (s : σ) (items : List α) (x : TLoopExit κ σ α), tCollectLoop D b e o s items = some x →
      tCollectLoop (D.stopping Q) b e o s items = some (x.stop Q) := by
  apply tCollectLoop.partial_correctness D b e
    (motive := fun o s items x => tCollectLoop (D.stopping Q) b e o s items = some (x.stop Q))
  intro loop ih o s items x heq
  rw [tCollectLoop]
  split at heq
  · next hlt =>
    rw [if_pos hlt, ← tTryDecode_stop (inCombinator 629)]
    generalize tTryDecode (inCombinator 629) D s o b e = p at heq
    cases p with
    | ret r s' => cases heq; rfl
    | next o' s' =>
      simp only [TFlow.stop] at heq ⊢
      show (match tracked (inCombinator 631) (stopAt Q (D.finish s')) with
        | (.ok x, s'') => tCollectLoop (D.stopping Q) b e o' s'' (items ++ [x])
        | (.err k, s'') => some (.ret (.err k) s'' items)
        | (.panic, s'') => some (.ret .panic s'' items)
        | (.capacity, s'') => some (.ret .capacity s'' items)
        | (.diverge, s'') => some (.ret .diverge s'' items)) = _
      rw [← stopAt_tracked (inCombinator 631)]
      generalize tracked (inCombinator 631) (D.finish s') = q at heq
      obtain ⟨r, s''⟩ := q
      cases r with
      | ok y => exact ih _ _ _ _ heq
      | err x => cases heq; cases h : x.causedBy Q <;> simp [stopAt, TRes.stop, TLoopExit.stop, h]
      | _ => cases heq; rfl
  · next hlt =>
    rw [if_neg hlt]
    cases heq
    rfl

theorem of_stopping_tCollectLoop (D : TDecoder κ σ α) (b : Bytes) (e : Eos) :
    ∀ (o : Nat) (s : σ) (items : List α) (x : TLoopExit κ σ α), tCollectLoop (D.stopping Q) b e o s items = some x →
      tCollectLoop D b e o s items ≠ none := by
  apply tCollectLoop.partial_correctness (D.stopping Q) b e
    (motive := fun o s items x => tCollectLoop D b e o s items ≠ none)
  intro loop ih o s items x heq
  rw [tCollectLoop]
  split at heq
  · next hlt =>
    rw [if_pos hlt]
    rw [← tTryDecode_stop (inCombinator 629)] at heq
    generalize tTryDecode (inCombinator 629) D s o b e = p at heq
    cases p with
    | ret r s' => simp
    | next o' s' =>
      have heq2 : (match tracked (inCombinator 631) (stopAt Q (D.finish s')) with
        | (.ok x, s'') => loop o' s'' (items ++ [x])
        | (.err k, s'') => some (.ret (.err k) s'' items)
        | (.panic, s'') => some (.ret .panic s'' items)
        | (.capacity, s'') => some (.ret .capacity s'' items)
        | (.diverge, s'') => some (.ret .diverge s'' items)) = some x := heq
      rw [← stopAt_tracked (inCombinator 631)] at heq2
      simp only
      generalize tracked (inCombinator 631) (D.finish s') = q at heq2
      obtain ⟨r, s''⟩ := q
      cases r with
      | ok y => exact ih _ _ _ _ heq2
      | _ => simp
  · next hlt =>
    rw [if_neg hlt]
    simp

theorem tCollectLoop_stop (D : TDecoder κ σ α) (b : Bytes) (e : Eos) (o : Nat) (s : σ) (items : List α) :
    tCollectLoop (D.stopping Q) b e o s items = (tCollectLoop D b e o s items).map (TLoopExit.stop Q) := by
  cases h : tCollectLoop D b e o s items with
  | some x => exact collectLoop_stopping_of D b e _ _ _ _ h
  | none =>
    cases h2 : tCollectLoop (D.stopping Q) b e o s items with
    | none => rfl
    | some x => exact (of_stopping_tCollectLoop D b e _ _ _ _ h2 h).elim

theorem tCollect_stop (D : TDecoder κ σ α) : (tCollectDecoder D).stopping Q = tCollectDecoder (D.stopping Q) := by
  refine tdecoder_eq (fun s b e => ?_) (fun s => ?_) (fun _ => rfl) (fun _ => rfl)
  · simp only [tCollectDecoder, tCollectDecoder]
    rw [tCollectLoop_stop]
    simp only [TDecoder.stopping]
    rw [stopAt_ite]
    congr 1
    rcases tCollectLoop D b e 0 s.inner s.items with _ | (_ | _) <;> rfl
  · simp only [TDecoder.stopping, tCollectDecoder, tCollectDecoder, stopAt_ite]; rfl

def TLoopExitN.stop (Q : κ → Bool) : TLoopExitN κ σ α → TLoopExitN κ σ α
  | .done o s items n => .done o s items n
  | .ret r s items n => .ret (r.stop Q) s items n

theorem tCollectNLoop_stop (D : TDecoder κ σ α) (b : Bytes) (e : Eos) : ∀ (n o : Nat) (s : σ) (items : List α),
    tCollectNLoop (D.stopping Q) b e n o s items = (tCollectNLoop D b e n o s items).stop Q := by
  intro n
  induction n with
  | zero => intros; rfl
  | succ n ih =>
    intro o s items
    rw [tCollectNLoop, tCollectNLoop]
    by_cases h : o < b.length
    · rw [if_pos h, if_pos h, ← tTryDecode_stop (inCombinator 855)]
      cases tTryDecode (inCombinator 855) D s o b e with
      | ret r s' => rfl
      | next o' s' =>
        simp only [TFlow.stop]
        show (match tracked (inCombinator 857) (stopAt Q (D.finish s')) with
          | (.ok x, s'') => tCollectNLoop (D.stopping Q) b e n o' s'' (items ++ [x])
          | (.err k, s'') => .ret (.err k) s'' items (n + 1)
          | (.panic, s'') => .ret .panic s'' items (n + 1)
          | (.capacity, s'') => .ret .capacity s'' items (n + 1)
          | (.diverge, s'') => .ret .diverge s'' items (n + 1)) = _
        rw [← stopAt_tracked (inCombinator 857)]
        generalize tracked (inCombinator 857) (D.finish s') = q
        obtain ⟨r, s''⟩ := q
        cases r with
        | ok y => exact ih _ _ _
        | err x => cases h : x.causedBy Q <;> simp [stopAt, TRes.stop, TLoopExitN.stop, h]
        | _ => rfl
    · rw [if_neg h, if_neg h]; rfl

theorem tCollectN_stop (D : TDecoder κ σ α) : (tCollectNDecoder D).stopping Q = tCollectNDecoder (D.stopping Q) := by
  refine tdecoder_eq (fun s b e => ?_) (fun s => ?_) (fun _ => rfl) (fun _ => rfl)
  · simp only [tCollectNDecoder, tCollectNDecoder]
    rw [tCollectNLoop_stop]
    simp only [TDecoder.stopping]
    cases tCollectNLoop D b e s.remaining 0 s.inner s.items with
    | ret r i items n => rfl
    | done o i items n => simp only [TLoopExitN.stop, stopAt_ite]; rfl
  · simp only [TDecoder.stopping, tCollectNDecoder, tCollectNDecoder, stopAt_ite]; rfl

theorem tLength_stop (D : TDecoder κ σ α) : (tLengthDecoder D).stopping Q = tLengthDecoder (D.stopping Q) := by
  refine tdecoder_eq (fun s b e => ?_) (fun s => ?_) (fun _ => rfl) (fun _ => rfl)
  · simp only [TDecoder.stopping, tLengthDecoder, tLengthDecoder]
    cases e.remainingBytes.toU64 with
    | none => simp only [stopAt_step, stopAt_tracked, stopAt_ite]; rfl
    | some n => simp only [stopAt_ite, stopAt_step, stopAt_tracked]; rfl
  · simp only [TDecoder.stopping, tLengthDecoder, tLengthDecoder, stopAt_ite, stopAt_step, stopAt_tracked]; rfl

theorem tMaxBytes_stop (D : TDecoder κ σ α) : (tMaxBytesDecoder D).stopping Q = tMaxBytesDecoder (D.stopping Q) := by
  refine tdecoder_eq (fun s b e => ?_) (fun s => ?_) (fun _ => rfl) (fun _ => rfl)
  · simp only [TDecoder.stopping, tMaxBytesDecoder, tMaxBytesDecoder]
    cases e.remainingBytes with
    | infinite => rfl
    | unknown => simp only [stopAt_ite, stopAt_step, stopAt_tracked]; rfl
    | finite n => simp only [stopAt_ite, stopAt_step, stopAt_tracked]; rfl
  · simp only [TDecoder.stopping, tMaxBytesDecoder, tMaxBytesDecoder, stopAt_step, stopAt_tracked]; rfl

theorem tSlice_stop (D : TDecoder κ σ α) : (tSliceDecoder D).stopping Q = tSliceDecoder (D.stopping Q) := by
  refine tdecoder_eq (fun s b e => ?_) (fun s => ?_) (fun _ => rfl) (fun _ => rfl)
  · simp only [TDecoder.stopping, tSliceDecoder, tSliceDecoder]
    cases e.back (b.length - min b.length s.consumable) with
    | ok e' => simp only [stopAt_ite, stopAt_step, stopAt_tracked]; rfl
    | _ => rfl
  · simp only [TDecoder.stopping, tSliceDecoder, tSliceDecoder, stopAt_step, stopAt_tracked]; rfl

theorem tPeekable_stop (D : TDecoder κ σ α) : (tPeekableDecoder D).stopping Q = tPeekableDecoder (D.stopping Q) := by
  refine tdecoder_eq (fun s b e => ?_) (fun s => ?_) (fun _ => rfl) (fun _ => rfl)
  · simp only [TDecoder.stopping, tPeekableDecoder, tPeekableDecoder, stopAt_ite, stopAt_step, stopAt_tracked]; rfl
  · obtain ⟨i, _ | x⟩ := s <;> rfl

theorem tMaybeEos_stop (D : TDecoder κ σ α) : (tMaybeEosDecoder D).stopping Q = tMaybeEosDecoder (D.stopping Q) := by
  refine tdecoder_eq (fun s b e => ?_) (fun s => ?_) (fun _ => rfl) (fun _ => rfl)
  · simp only [TDecoder.stopping, tMaybeEosDecoder, tMaybeEosDecoder, stopAt_step, stopAt_tracked]; rfl
  · simp only [TDecoder.stopping, tMaybeEosDecoder, tMaybeEosDecoder, stopAt_step, stopAt_tracked]; rfl

theorem tUtf8_stop (bad : Bytes → κ) (hb : ∀ b, Q (bad b) = false) (D : TDecoder κ σ Bytes) :
    (tUtf8Decoder bad D).stopping Q = tUtf8Decoder bad (D.stopping Q) := by
  refine tdecoder_eq (fun _ _ _ => stopAt_tracked _ _) (fun s => ?_) (fun _ => rfl) (fun _ => rfl)
  simp only [TDecoder.stopping, tUtf8Decoder, stopAt_step, stopAt_tracked]
  congr 1
  funext a s'
  cases fromUtf8 a with
  | some x => rfl
  | none => simp [stopAt, TRes.stop, tracked, TError.track, TError.causedBy, hb]

theorem tTuple3_stop {σ0 α0 σ1 α1 σ2 α2 : Type} (D0 : TDecoder κ σ0 α0) (D1 : TDecoder κ σ1 α1) (D2 : TDecoder κ σ2 α2) :
    (tTuple3Decoder D0 D1 D2).stopping Q = tTuple3Decoder (D0.stopping Q) (D1.stopping Q) (D2.stopping Q) := by
  refine tdecoder_eq (fun s b e => ?_) (fun s => ?_) (fun _ => rfl) (fun _ => rfl)
  · simp only [tTuple3Decoder]
    rw [← tTryDecode_stop ⟨"tuple.rs", 62⟩]
    simp only [TDecoder.stopping]
    cases tTryDecode ⟨"tuple.rs", 62⟩ D0 s.1 0 b e with
    | ret r s' => rfl
    | next o0 s0 =>
      simp only [TFlow.stop]
      have h := tTryDecode_stop (Q := Q) ⟨"tuple.rs", 62⟩ D1 s.2.1 o0 b e
      simp only [TDecoder.stopping] at h
      rw [← h]
      clear h
      cases tTryDecode ⟨"tuple.rs", 62⟩ D1 s.2.1 o0 b e with
      | ret r s' => rfl
      | next o1 s1 =>
        simp only [TFlow.stop]
        have h := tTryDecode_stop (Q := Q) ⟨"tuple.rs", 62⟩ D2 s.2.2 o1 b e
        simp only [TDecoder.stopping] at h
        rw [← h]
        cases tTryDecode ⟨"tuple.rs", 62⟩ D2 s.2.2 o1 b e <;> rfl
  · simp only [TDecoder.stopping, tTuple3Decoder, stopAt_step, stopAt_tracked]
    rfl

theorem tTuple4_stop {σ0 α0 σ1 α1 σ2 α2 σ3 α3 : Type} (D0 : TDecoder κ σ0 α0) (D1 : TDecoder κ σ1 α1) (D2 : TDecoder κ σ2 α2) (D3 : TDecoder κ σ3 α3) :
    (tTuple4Decoder D0 D1 D2 D3).stopping Q = tTuple4Decoder (D0.stopping Q) (D1.stopping Q) (D2.stopping Q) (D3.stopping Q) := by
  refine tdecoder_eq (fun s b e => ?_) (fun s => ?_) (fun _ => rfl) (fun _ => rfl)
  · simp only [tTuple4Decoder]
    rw [← tTryDecode_stop ⟨"tuple.rs", 63⟩]
    simp only [TDecoder.stopping]
    cases tTryDecode ⟨"tuple.rs", 63⟩ D0 s.1 0 b e with
    | ret r s' => rfl
    | next o0 s0 =>
      simp only [TFlow.stop]
      have h := tTryDecode_stop (Q := Q) ⟨"tuple.rs", 63⟩ D1 s.2.1 o0 b e
      simp only [TDecoder.stopping] at h
      rw [← h]
      clear h
      cases tTryDecode ⟨"tuple.rs", 63⟩ D1 s.2.1 o0 b e with
      | ret r s' => rfl
      | next o1 s1 =>
        simp only [TFlow.stop]
        have h := tTryDecode_stop (Q := Q) ⟨"tuple.rs", 63⟩ D2 s.2.2.1 o1 b e
        simp only [TDecoder.stopping] at h
        rw [← h]
        clear h
        cases tTryDecode ⟨"tuple.rs", 63⟩ D2 s.2.2.1 o1 b e with
        | ret r s' => rfl
        | next o2 s2 =>
          simp only [TFlow.stop]
          have h := tTryDecode_stop (Q := Q) ⟨"tuple.rs", 63⟩ D3 s.2.2.2 o2 b e
          simp only [TDecoder.stopping] at h
          rw [← h]
          cases tTryDecode ⟨"tuple.rs", 63⟩ D3 s.2.2.2 o2 b e <;> rfl
  · simp only [TDecoder.stopping, tTuple4Decoder, stopAt_step, stopAt_tracked]
    rfl

theorem tTuple5_stop {σ0 α0 σ1 α1 σ2 α2 σ3 α3 σ4 α4 : Type} (D0 : TDecoder κ σ0 α0) (D1 : TDecoder κ σ1 α1) (D2 : TDecoder κ σ2 α2) (D3 : TDecoder κ σ3 α3) (D4 : TDecoder κ σ4 α4) :
    (tTuple5Decoder D0 D1 D2 D3 D4).stopping Q = tTuple5Decoder (D0.stopping Q) (D1.stopping Q) (D2.stopping Q) (D3.stopping Q) (D4.stopping Q) := by
  refine tdecoder_eq (fun s b e => ?_) (fun s => ?_) (fun _ => rfl) (fun _ => rfl)
  · simp only [tTuple5Decoder]
    rw [← tTryDecode_stop ⟨"tuple.rs", 64⟩]
    simp only [TDecoder.stopping]
    cases tTryDecode ⟨"tuple.rs", 64⟩ D0 s.1 0 b e with
    | ret r s' => rfl
    | next o0 s0 =>
      simp only [TFlow.stop]
      have h := tTryDecode_stop (Q := Q) ⟨"tuple.rs", 64⟩ D1 s.2.1 o0 b e
      simp only [TDecoder.stopping] at h
      rw [← h]
      clear h
      cases tTryDecode ⟨"tuple.rs", 64⟩ D1 s.2.1 o0 b e with
      | ret r s' => rfl
      | next o1 s1 =>
        simp only [TFlow.stop]
        have h := tTryDecode_stop (Q := Q) ⟨"tuple.rs", 64⟩ D2 s.2.2.1 o1 b e
        simp only [TDecoder.stopping] at h
        rw [← h]
        clear h
        cases tTryDecode ⟨"tuple.rs", 64⟩ D2 s.2.2.1 o1 b e with
        | ret r s' => rfl
        | next o2 s2 =>
          simp only [TFlow.stop]
          have h := tTryDecode_stop (Q := Q) ⟨"tuple.rs", 64⟩ D3 s.2.2.2.1 o2 b e
          simp only [TDecoder.stopping] at h
          rw [← h]
          clear h
          cases tTryDecode ⟨"tuple.rs", 64⟩ D3 s.2.2.2.1 o2 b e with
          | ret r s' => rfl
          | next o3 s3 =>
            simp only [TFlow.stop]
            have h := tTryDecode_stop (Q := Q) ⟨"tuple.rs", 64⟩ D4 s.2.2.2.2 o3 b e
            simp only [TDecoder.stopping] at h
            rw [← h]
            cases tTryDecode ⟨"tuple.rs", 64⟩ D4 s.2.2.2.2 o3 b e <;> rfl
  · simp only [TDecoder.stopping, tTuple5Decoder, stopAt_step, stopAt_tracked]
    rfl

theorem tTuple6_stop {σ0 α0 σ1 α1 σ2 α2 σ3 α3 σ4 α4 σ5 α5 : Type} (D0 : TDecoder κ σ0 α0) (D1 : TDecoder κ σ1 α1) (D2 : TDecoder κ σ2 α2) (D3 : TDecoder κ σ3 α3) (D4 : TDecoder κ σ4 α4) (D5 : TDecoder κ σ5 α5) :
    (tTuple6Decoder D0 D1 D2 D3 D4 D5).stopping Q = tTuple6Decoder (D0.stopping Q) (D1.stopping Q) (D2.stopping Q) (D3.stopping Q) (D4.stopping Q) (D5.stopping Q) := by
  refine tdecoder_eq (fun s b e => ?_) (fun s => ?_) (fun _ => rfl) (fun _ => rfl)
  · simp only [tTuple6Decoder]
    rw [← tTryDecode_stop ⟨"tuple.rs", 65⟩]
    simp only [TDecoder.stopping]
    cases tTryDecode ⟨"tuple.rs", 65⟩ D0 s.1 0 b e with
    | ret r s' => rfl
    | next o0 s0 =>
      simp only [TFlow.stop]
      have h := tTryDecode_stop (Q := Q) ⟨"tuple.rs", 65⟩ D1 s.2.1 o0 b e
      simp only [TDecoder.stopping] at h
      rw [← h]
      clear h
      cases tTryDecode ⟨"tuple.rs", 65⟩ D1 s.2.1 o0 b e with
      | ret r s' => rfl
      | next o1 s1 =>
        simp only [TFlow.stop]
        have h := tTryDecode_stop (Q := Q) ⟨"tuple.rs", 65⟩ D2 s.2.2.1 o1 b e
        simp only [TDecoder.stopping] at h
        rw [← h]
        clear h
        cases tTryDecode ⟨"tuple.rs", 65⟩ D2 s.2.2.1 o1 b e with
        | ret r s' => rfl
        | next o2 s2 =>
          simp only [TFlow.stop]
          have h := tTryDecode_stop (Q := Q) ⟨"tuple.rs", 65⟩ D3 s.2.2.2.1 o2 b e
          simp only [TDecoder.stopping] at h
          rw [← h]
          clear h
          cases tTryDecode ⟨"tuple.rs", 65⟩ D3 s.2.2.2.1 o2 b e with
          | ret r s' => rfl
          | next o3 s3 =>
            simp only [TFlow.stop]
            have h := tTryDecode_stop (Q := Q) ⟨"tuple.rs", 65⟩ D4 s.2.2.2.2.1 o3 b e
            simp only [TDecoder.stopping] at h
            rw [← h]
            clear h
            cases tTryDecode ⟨"tuple.rs", 65⟩ D4 s.2.2.2.2.1 o3 b e with
            | ret r s' => rfl
            | next o4 s4 =>
              simp only [TFlow.stop]
              have h := tTryDecode_stop (Q := Q) ⟨"tuple.rs", 65⟩ D5 s.2.2.2.2.2 o4 b e
              simp only [TDecoder.stopping] at h
              rw [← h]
              cases tTryDecode ⟨"tuple.rs", 65⟩ D5 s.2.2.2.2.2 o4 b e <;> rfl
  · simp only [TDecoder.stopping, tTuple6Decoder, stopAt_step, stopAt_tracked]
    rfl

theorem tTuple7_stop {σ0 α0 σ1 α1 σ2 α2 σ3 α3 σ4 α4 σ5 α5 σ6 α6 : Type} (D0 : TDecoder κ σ0 α0) (D1 : TDecoder κ σ1 α1) (D2 : TDecoder κ σ2 α2) (D3 : TDecoder κ σ3 α3) (D4 : TDecoder κ σ4 α4) (D5 : TDecoder κ σ5 α5) (D6 : TDecoder κ σ6 α6) :
    (tTuple7Decoder D0 D1 D2 D3 D4 D5 D6).stopping Q = tTuple7Decoder (D0.stopping Q) (D1.stopping Q) (D2.stopping Q) (D3.stopping Q) (D4.stopping Q) (D5.stopping Q) (D6.stopping Q) := by
  refine tdecoder_eq (fun s b e => ?_) (fun s => ?_) (fun _ => rfl) (fun _ => rfl)
  · simp only [tTuple7Decoder]
    rw [← tTryDecode_stop ⟨"tuple.rs", 66⟩]
    simp only [TDecoder.stopping]
    cases tTryDecode ⟨"tuple.rs", 66⟩ D0 s.1 0 b e with
    | ret r s' => rfl
    | next o0 s0 =>
      simp only [TFlow.stop]
      have h := tTryDecode_stop (Q := Q) ⟨"tuple.rs", 66⟩ D1 s.2.1 o0 b e
      simp only [TDecoder.stopping] at h
      rw [← h]
      clear h
      cases tTryDecode ⟨"tuple.rs", 66⟩ D1 s.2.1 o0 b e with
      | ret r s' => rfl
      | next o1 s1 =>
        simp only [TFlow.stop]
        have h := tTryDecode_stop (Q := Q) ⟨"tuple.rs", 66⟩ D2 s.2.2.1 o1 b e
        simp only [TDecoder.stopping] at h
        rw [← h]
        clear h
        cases tTryDecode ⟨"tuple.rs", 66⟩ D2 s.2.2.1 o1 b e with
        | ret r s' => rfl
        | next o2 s2 =>
          simp only [TFlow.stop]
          have h := tTryDecode_stop (Q := Q) ⟨"tuple.rs", 66⟩ D3 s.2.2.2.1 o2 b e
          simp only [TDecoder.stopping] at h
          rw [← h]
          clear h
          cases tTryDecode ⟨"tuple.rs", 66⟩ D3 s.2.2.2.1 o2 b e with
          | ret r s' => rfl
          | next o3 s3 =>
            simp only [TFlow.stop]
            have h := tTryDecode_stop (Q := Q) ⟨"tuple.rs", 66⟩ D4 s.2.2.2.2.1 o3 b e
            simp only [TDecoder.stopping] at h
            rw [← h]
            clear h
            cases tTryDecode ⟨"tuple.rs", 66⟩ D4 s.2.2.2.2.1 o3 b e with
            | ret r s' => rfl
            | next o4 s4 =>
              simp only [TFlow.stop]
              have h := tTryDecode_stop (Q := Q) ⟨"tuple.rs", 66⟩ D5 s.2.2.2.2.2.1 o4 b e
              simp only [TDecoder.stopping] at h
              rw [← h]
              clear h
              cases tTryDecode ⟨"tuple.rs", 66⟩ D5 s.2.2.2.2.2.1 o4 b e with
              | ret r s' => rfl
              | next o5 s5 =>
                simp only [TFlow.stop]
                have h := tTryDecode_stop (Q := Q) ⟨"tuple.rs", 66⟩ D6 s.2.2.2.2.2.2 o5 b e
                simp only [TDecoder.stopping] at h
                rw [← h]
                cases tTryDecode ⟨"tuple.rs", 66⟩ D6 s.2.2.2.2.2.2 o5 b e <;> rfl
  · simp only [TDecoder.stopping, tTuple7Decoder, stopAt_step, stopAt_tracked]
    rfl

theorem tTuple8_stop {σ0 α0 σ1 α1 σ2 α2 σ3 α3 σ4 α4 σ5 α5 σ6 α6 σ7 α7 : Type} (D0 : TDecoder κ σ0 α0) (D1 : TDecoder κ σ1 α1) (D2 : TDecoder κ σ2 α2) (D3 : TDecoder κ σ3 α3) (D4 : TDecoder κ σ4 α4) (D5 : TDecoder κ σ5 α5) (D6 : TDecoder κ σ6 α6) (D7 : TDecoder κ σ7 α7) :
    (tTuple8Decoder D0 D1 D2 D3 D4 D5 D6 D7).stopping Q = tTuple8Decoder (D0.stopping Q) (D1.stopping Q) (D2.stopping Q) (D3.stopping Q) (D4.stopping Q) (D5.stopping Q) (D6.stopping Q) (D7.stopping Q) := by
  refine tdecoder_eq (fun s b e => ?_) (fun s => ?_) (fun _ => rfl) (fun _ => rfl)
  · simp only [tTuple8Decoder]
    rw [← tTryDecode_stop ⟨"tuple.rs", 67⟩]
    simp only [TDecoder.stopping]
    cases tTryDecode ⟨"tuple.rs", 67⟩ D0 s.1 0 b e with
    | ret r s' => rfl
    | next o0 s0 =>
      simp only [TFlow.stop]
      have h := tTryDecode_stop (Q := Q) ⟨"tuple.rs", 67⟩ D1 s.2.1 o0 b e
      simp only [TDecoder.stopping] at h
      rw [← h]
      clear h
      cases tTryDecode ⟨"tuple.rs", 67⟩ D1 s.2.1 o0 b e with
      | ret r s' => rfl
      | next o1 s1 =>
        simp only [TFlow.stop]
        have h := tTryDecode_stop (Q := Q) ⟨"tuple.rs", 67⟩ D2 s.2.2.1 o1 b e
        simp only [TDecoder.stopping] at h
        rw [← h]
        clear h
        cases tTryDecode ⟨"tuple.rs", 67⟩ D2 s.2.2.1 o1 b e with
        | ret r s' => rfl
        | next o2 s2 =>
          simp only [TFlow.stop]
          have h := tTryDecode_stop (Q := Q) ⟨"tuple.rs", 67⟩ D3 s.2.2.2.1 o2 b e
          simp only [TDecoder.stopping] at h
          rw [← h]
          clear h
          cases tTryDecode ⟨"tuple.rs", 67⟩ D3 s.2.2.2.1 o2 b e with
          | ret r s' => rfl
          | next o3 s3 =>
            simp only [TFlow.stop]
            have h := tTryDecode_stop (Q := Q) ⟨"tuple.rs", 67⟩ D4 s.2.2.2.2.1 o3 b e
            simp only [TDecoder.stopping] at h
            rw [← h]
            clear h
            cases tTryDecode ⟨"tuple.rs", 67⟩ D4 s.2.2.2.2.1 o3 b e with
            | ret r s' => rfl
            | next o4 s4 =>
              simp only [TFlow.stop]
              have h := tTryDecode_stop (Q := Q) ⟨"tuple.rs", 67⟩ D5 s.2.2.2.2.2.1 o4 b e
              simp only [TDecoder.stopping] at h
              rw [← h]
              clear h
              cases tTryDecode ⟨"tuple.rs", 67⟩ D5 s.2.2.2.2.2.1 o4 b e with
              | ret r s' => rfl
              | next o5 s5 =>
                simp only [TFlow.stop]
                have h := tTryDecode_stop (Q := Q) ⟨"tuple.rs", 67⟩ D6 s.2.2.2.2.2.2.1 o5 b e
                simp only [TDecoder.stopping] at h
                rw [← h]
                clear h
                cases tTryDecode ⟨"tuple.rs", 67⟩ D6 s.2.2.2.2.2.2.1 o5 b e with
                | ret r s' => rfl
                | next o6 s6 =>
                  simp only [TFlow.stop]
                  have h := tTryDecode_stop (Q := Q) ⟨"tuple.rs", 67⟩ D7 s.2.2.2.2.2.2.2 o6 b e
                  simp only [TDecoder.stopping] at h
                  rw [← h]
                  cases tTryDecode ⟨"tuple.rs", 67⟩ D7 s.2.2.2.2.2.2.2 o6 b e <;> rfl
  · simp only [TDecoder.stopping, tTuple8Decoder, stopAt_step, stopAt_tracked]
    rfl

theorem stoppedDec_eq {σ α : Type} {D D' : TDecoder κ σ α} (h : StoppedDec Q D D') : D' = D.stopping Q := by
  induction h with
  | part D => rfl
  | map f _ ih => subst ih; exact (tMap_stop _ _).symm
  | tryMap f hf _ ih => subst ih; exact (tTryMap_stop _ _ hf).symm
  | mapErr g hg _ ih => subst ih; exact (tMapErr_stop _ _ hg).symm
  | andThen f _ _ ih0 ih1 => subst ih0 ih1; exact (tAndThen_stop _ _ _).symm
  | pair _ _ ih0 ih1 => subst ih0 ih1; exact (tPair_stop _ _).symm
  | tuple3 _ _ _ ih0 ih1 ih2 => subst ih0 ih1 ih2; exact (tTuple3_stop _ _ _).symm
  | tuple4 _ _ _ _ ih0 ih1 ih2 ih3 => subst ih0 ih1 ih2 ih3; exact (tTuple4_stop _ _ _ _).symm
  | tuple5 _ _ _ _ _ ih0 ih1 ih2 ih3 ih4 => subst ih0 ih1 ih2 ih3 ih4; exact (tTuple5_stop _ _ _ _ _).symm
  | tuple6 _ _ _ _ _ _ ih0 ih1 ih2 ih3 ih4 ih5 => subst ih0 ih1 ih2 ih3 ih4 ih5; exact (tTuple6_stop _ _ _ _ _ _).symm
  | tuple7 _ _ _ _ _ _ _ ih0 ih1 ih2 ih3 ih4 ih5 ih6 => subst ih0 ih1 ih2 ih3 ih4 ih5 ih6; exact (tTuple7_stop _ _ _ _ _ _ _).symm
  | tuple8 _ _ _ _ _ _ _ _ ih0 ih1 ih2 ih3 ih4 ih5 ih6 ih7 => subst ih0 ih1 ih2 ih3 ih4 ih5 ih6 ih7; exact (tTuple8_stop _ _ _ _ _ _ _ _).symm
  | omittable _ ih => subst ih; exact (tOmittable_stop _).symm
  | collect _ ih => subst ih; exact (tCollect_stop _).symm
  | collectN _ ih => subst ih; exact (tCollectN_stop _).symm
  | length _ ih => subst ih; exact (tLength_stop _).symm
  | maxBytes _ ih => subst ih; exact (tMaxBytes_stop _).symm
  | slice _ ih => subst ih; exact (tSlice_stop _).symm
  | peekable _ ih => subst ih; exact (tPeekable_stop _).symm
  | maybeEos _ ih => subst ih; exact (tMaybeEos_stop _).symm
  | utf8 bad hb _ ih => subst ih; exact (tUtf8_stop _ hb _).symm

end Bytecodec
