import Verif.Lemmas.TrackedStop
/-!
# Lemmas: the same for encoders and I/O
-/
namespace Bytecodec

variable {κ σ α β τ υ : Type} {Q : κ → Bool}

theorem tWriteAll_stop {ω : Type} (zero : κ) (W : TWriter κ ω) (hz : Q zero = false)
    (hW : ∀ w b k c, (W.write w b).1 = .error k c → Q c = false) (w : ω) (b : Bytes) :
    stopAt Q (tWriteAll zero W w b) = tWriteAll zero W w b := by
  fun_induction tWriteAll zero W w b with
  | case1 w b h => rfl
  | case2 w b h k c w' hw =>
    have : Q c = false := hW w b k c (by rw [hw])
    simp [stopAt, TRes.stop, TError.causedBy, TError.ofIo, this]
  | case3 w b h w' hw => simp [stopAt, TRes.stop, TError.causedBy, TError.ofIo, hz]
  | case4 w b h n w' hw h1 h2 => rfl
  | case5 w b h n w' hw h1 h2 ih => exact ih

theorem tEncodeAll_stopping_of {ω : Type} (zero : κ) (E : TEncoder κ σ α) (W : TWriter κ ω)
    (hW : ∀ w b, stopAt Q (tWriteAll zero W w b) = tWriteAll zero W w b) :
    ∀ (s : σ) (w : ω) (x : TRes κ Unit × σ × ω), tEncodeAll zero E W s w = some x →
      tEncodeAll zero (E.stopping Q) W s w = some (stopAt Q x) := by
  apply tEncodeAll.partial_correctness zero E W
    (motive := fun s w x => tEncodeAll zero (E.stopping Q) W s w = some (stopAt Q x))
  intro loop ih s w x heq
  rw [tEncodeAll]
  show (if E.isIdle s then some (.ok (), s, w) else match tracked ⟨"io.rs", 98⟩ (stopAt Q (E.encode s 1024 (Eos.new false))) with
    | (.ok bs, s') =>
      if 1024 < bs.length then some (TRes.panic, s', w)
      else
        match tracked ⟨"io.rs", 99⟩ (tWriteAll zero W w bs) with
        | (.ok (), w') =>
          if !E.isIdle s' && bs.isEmpty then some (TRes.err (.raised .other ⟨"io.rs", 101⟩), s', w')
          else tEncodeAll zero (E.stopping Q) W s' w'
        | (.err k, w') => some (.err k, s', w')
        | (.panic, w') => some (.panic, s', w')
        | (.capacity, w') => some (.capacity, s', w')
        | (.diverge, w') => some (.diverge, s', w')
    | (.err k, s') => some (.err k, s', w)
    | (.panic, s') => some (.panic, s', w)
    | (.capacity, s') => some (.capacity, s', w)
    | (.diverge, s') => some (.diverge, s', w)) = _
  split at heq
  · next hi => rw [if_pos hi]; cases heq; rfl
  · next hi =>
    rw [if_neg hi, ← stopAt_tracked ⟨"io.rs", 98⟩]
    generalize tracked ⟨"io.rs", 98⟩ (E.encode s 1024 (Eos.new false)) = p at heq
    obtain ⟨r, s'⟩ := p
    cases r with
    | ok bs =>
      simp only [stopAt, TRes.stop] at heq ⊢
      split at heq
      · next h => rw [if_pos h]; cases heq; rfl
      · next h =>
        rw [if_neg h, ← hW, ← stopAt_tracked ⟨"io.rs", 99⟩]
        generalize tracked ⟨"io.rs", 99⟩ (tWriteAll zero W w bs) = q at heq
        obtain ⟨r, w'⟩ := q
        cases r with
        | ok u =>
          simp only [stopAt, TRes.stop] at heq ⊢
          split at heq
          · next h => rw [if_pos h]; cases heq; rfl
          · next h => rw [if_neg h]; exact ih _ _ _ heq
        | err x => cases heq; cases h : x.causedBy Q <;> simp [stopAt, TRes.stop, h]
        | _ => cases heq; rfl
    | err x => cases heq; cases h : x.causedBy Q <;> simp [stopAt, TRes.stop, h]
    | _ => cases heq; rfl

theorem of_stopping_tEncodeAll {ω : Type} (zero : κ) (E : TEncoder κ σ α) (W : TWriter κ ω) :
    ∀ (s : σ) (w : ω) (x : TRes κ Unit × σ × ω), tEncodeAll zero (E.stopping Q) W s w = some x →
      tEncodeAll zero E W s w ≠ none := by
  apply tEncodeAll.partial_correctness zero (E.stopping Q) W
    (motive := fun s w x => tEncodeAll zero E W s w ≠ none)
  intro loop ih s w x heq0
  have heq : (if E.isIdle s then some (.ok (), s, w) else
    match tracked ⟨"io.rs", 98⟩ (stopAt Q (E.encode s 1024 (Eos.new false))) with
    | (.ok bs, s') =>
      if 1024 < bs.length then some (TRes.panic, s', w)
      else
        match tracked ⟨"io.rs", 99⟩ (tWriteAll zero W w bs) with
        | (.ok (), w') =>
          if !E.isIdle s' && bs.isEmpty then some (TRes.err (.raised .other ⟨"io.rs", 101⟩), s', w')
          else loop s' w'
        | (.err k, w') => some (.err k, s', w')
        | (.panic, w') => some (.panic, s', w')
        | (.capacity, w') => some (.capacity, s', w')
        | (.diverge, w') => some (.diverge, s', w')
    | (.err k, s') => some (.err k, s', w)
    | (.panic, s') => some (.panic, s', w)
    | (.capacity, s') => some (.capacity, s', w)
    | (.diverge, s') => some (.diverge, s', w)) = some x := heq0
  clear heq0
  rw [tEncodeAll]
  split at heq
  · next hi => rw [if_pos hi]; simp
  · next hi =>
    rw [if_neg hi]
    rw [← stopAt_tracked ⟨"io.rs", 98⟩] at heq
    generalize tracked ⟨"io.rs", 98⟩ (E.encode s 1024 (Eos.new false)) = p at heq
    obtain ⟨r, s'⟩ := p
    cases r with
    | ok bs =>
      simp only [stopAt, TRes.stop] at heq ⊢
      split at heq
      · next h => rw [if_pos h]; simp
      · next h =>
        rw [if_neg h]
        generalize tracked ⟨"io.rs", 99⟩ (tWriteAll zero W w bs) = q at heq
        obtain ⟨r, w'⟩ := q
        cases r with
        | ok u =>
          simp only at heq ⊢
          split at heq
          · next h => rw [if_pos h]; simp
          · next h => rw [if_neg h]; exact ih _ _ _ heq
        | _ => simp
    | _ => simp

theorem tEncodeAll_stop {ω : Type} (zero : κ) (E : TEncoder κ σ α) (W : TWriter κ ω)
    (hW : ∀ w b, stopAt Q (tWriteAll zero W w b) = tWriteAll zero W w b) (s : σ) (w : ω) :
    tEncodeAll zero (E.stopping Q) W s w = (tEncodeAll zero E W s w).map (stopAt Q) := by
  cases h : tEncodeAll zero E W s w with
  | some x => exact tEncodeAll_stopping_of zero E W hW _ _ _ h
  | none =>
    cases h2 : tEncodeAll zero (E.stopping Q) W s w with
    | none => rfl
    | some x => exact (of_stopping_tEncodeAll zero E W _ _ _ h2 h).elim

theorem tDecodeExact_stopping_of {ρ : Type} (D : TDecoder κ σ α) (R : TReader κ ρ)
    (hR : ∀ r n k c, (R.read r n).1 = .error k c → Q c = false) :
    ∀ (s : σ) (r : ρ) (x : TRes κ α × σ × ρ), tDecodeExact D R s r = some x →
      tDecodeExact (D.stopping Q) R s r = some (stopAt Q x) := by
  apply tDecodeExact.partial_correctness D R
    (motive := fun s r x => tDecodeExact (D.stopping Q) R s r = some (stopAt Q x))
  intro loop ih s r x heq
  rw [tDecodeExact]
  simp only at heq ⊢
  have hreq : (D.stopping Q).requiring s = D.requiring s := rfl
  rw [hreq]
  generalize tDecodeExact.match_1 (fun _ => Nat) (D.requiring s) (fun n => min n 1024) (fun _ => 1024) (fun _ => 1) = size
    at heq ⊢
  have hrd : ∀ k c, (if size ≠ 0 then R.read r size else (.data [], r)).1 = .error k c → Q c = false := by
    intro k c h
    by_cases h0 : size ≠ 0
    · rw [if_pos h0] at h; exact hR _ _ _ _ h
    · rw [if_neg h0] at h; cases h
  generalize (if size ≠ 0 then R.read r size else (.data [], r)) = p at heq hrd ⊢
  obtain ⟨a, r'⟩ := p
  cases a with
  | error k c =>
    have := hrd k c rfl
    cases heq
    simp [stopAt, TRes.stop, TError.causedBy, TError.ofIo, TError.track, this]
  | data bs =>
    simp only at heq ⊢
    split at heq
    · next h => rw [if_pos h]; cases heq; rfl
    · next h =>
      rw [if_neg h]
      show (match tracked ⟨"io.rs", 45⟩ (stopAt Q (D.decode s bs (Eos.new (size ≠ 0 && bs.isEmpty)))) with
        | (.ok consumed, s') =>
          if consumed ≠ bs.length then some (TRes.err (.raised .inconsistentState ⟨"io.rs", 46⟩), s', r')
          else if D.isIdle s' then some ((tracked ⟨"io.rs", 48⟩ (stopAt Q (D.finish s'))).1,
            (tracked ⟨"io.rs", 48⟩ (stopAt Q (D.finish s'))).2, r')
          else tDecodeExact (D.stopping Q) R s' r'
        | (.err k, s') => some (.err k, s', r')
        | (.panic, s') => some (.panic, s', r')
        | (.capacity, s') => some (.capacity, s', r')
        | (.diverge, s') => some (.diverge, s', r')) = _
      rw [← stopAt_tracked ⟨"io.rs", 45⟩]
      generalize tracked ⟨"io.rs", 45⟩ (D.decode s bs (Eos.new (size ≠ 0 && bs.isEmpty))) = q at heq
      obtain ⟨a, s'⟩ := q
      cases a with
      | ok n =>
        simp only [stopAt, TRes.stop] at heq ⊢
        split at heq
        · next h => rw [if_pos h]; cases heq; rfl
        · next h =>
          rw [if_neg h]
          split at heq
          · next h =>
            rw [if_pos h]
            have := stopAt_tracked (Q := Q) ⟨"io.rs", 48⟩ (D.finish s')
            cases heq
            show some ((tracked ⟨"io.rs", 48⟩ (stopAt Q (D.finish s'))).1,
              (tracked ⟨"io.rs", 48⟩ (stopAt Q (D.finish s'))).2, r') = _
            rw [← this]
            rfl
          · next h => rw [if_neg h]; exact ih _ _ _ heq
      | err x => cases heq; cases h : x.causedBy Q <;> simp [stopAt, TRes.stop, h]
      | _ => cases heq; rfl

theorem of_stopping_tDecodeExact {ρ : Type} (D : TDecoder κ σ α) (R : TReader κ ρ) :
    ∀ (s : σ) (r : ρ) (x : TRes κ α × σ × ρ), tDecodeExact (D.stopping Q) R s r = some x →
      tDecodeExact D R s r ≠ none := by
  apply tDecodeExact.partial_correctness (D.stopping Q) R
    (motive := fun s r x => tDecodeExact D R s r ≠ none)
  intro loop ih s r x heq
  rw [tDecodeExact]
  simp only at heq ⊢
  have hreq : (D.stopping Q).requiring s = D.requiring s := rfl
  rw [hreq] at heq
  generalize tDecodeExact.match_1 (fun _ => Nat) (D.requiring s) (fun n => min n 1024) (fun _ => 1024) (fun _ => 1) = size
    at heq ⊢
  generalize (if size ≠ 0 then R.read r size else (.data [], r)) = p at heq ⊢
  obtain ⟨a, r'⟩ := p
  cases a with
  | error k c => simp
  | data bs =>
    simp only at heq ⊢
    split at heq
    · next h => rw [if_pos h]; simp
    · next h =>
      rw [if_neg h]
      have heq2 : (match tracked ⟨"io.rs", 45⟩ (stopAt Q (D.decode s bs (Eos.new (size ≠ 0 && bs.isEmpty)))) with
        | (.ok consumed, s') =>
          if consumed ≠ bs.length then some (TRes.err (.raised .inconsistentState ⟨"io.rs", 46⟩), s', r')
          else if D.isIdle s' then some ((tracked ⟨"io.rs", 48⟩ (stopAt Q (D.finish s'))).1,
            (tracked ⟨"io.rs", 48⟩ (stopAt Q (D.finish s'))).2, r')
          else loop s' r'
        | (.err k, s') => some (.err k, s', r')
        | (.panic, s') => some (.panic, s', r')
        | (.capacity, s') => some (.capacity, s', r')
        | (.diverge, s') => some (.diverge, s', r')) = some x := heq
      clear heq
      rw [← stopAt_tracked ⟨"io.rs", 45⟩] at heq2
      generalize tracked ⟨"io.rs", 45⟩ (D.decode s bs (Eos.new (size ≠ 0 && bs.isEmpty))) = q at heq2 ⊢
      obtain ⟨a, s'⟩ := q
      cases a with
      | ok n =>
        simp only [stopAt, TRes.stop] at heq2 ⊢
        split at heq2
        · next h => rw [if_pos h]; simp
        · next h =>
          rw [if_neg h]
          split at heq2
          · next h => rw [if_pos h]; simp
          · next h => rw [if_neg h]; exact ih _ _ _ heq2
      | _ => simp

theorem tDecodeExact_stop {ρ : Type} (D : TDecoder κ σ α) (R : TReader κ ρ)
    (hR : ∀ r n k c, (R.read r n).1 = .error k c → Q c = false) (s : σ) (r : ρ) :
    tDecodeExact (D.stopping Q) R s r = (tDecodeExact D R s r).map (stopAt Q) := by
  cases h : tDecodeExact D R s r with
  | some x => exact tDecodeExact_stopping_of D R hR _ _ _ h
  | none =>
    cases h2 : tDecodeExact (D.stopping Q) R s r with
    | none => rfl
    | some x => exact (of_stopping_tDecodeExact D R _ _ _ h2 h).elim

theorem tDecodeFromBytes_stop (D : TDecoder κ σ α) (s : σ) (b : Bytes) :
    stopAt Q (tDecodeFromBytes D s b) = tDecodeFromBytes (D.stopping Q) s b := by
  simp only [tDecodeFromBytes, stopAt_step, stopAt_tracked, stopAt_ite]; rfl

theorem tWriteAll_vec (zero : κ) (w b : Bytes) : ∃ w', tWriteAll zero tVecWriter w b = (.ok (), w') := by
  rw [tWriteAll]
  by_cases h : b.isEmpty = true
  · rw [if_pos h]; exact ⟨_, rfl⟩
  · rw [if_neg h]
    have h0 : ¬ b.length = 0 := by intro h0; rw [List.length_eq_zero_iff] at h0; subst h0; exact h rfl
    simp only [tVecWriter, if_neg h0, Nat.lt_irrefl, if_false, List.drop_length]
    rw [tWriteAll]
    exact ⟨_, rfl⟩

theorem tEncodeIntoBytes_stop (zero : κ) (E : TEncoder κ σ α) (s : σ) (x : α) :
    stopAt Q (tEncodeIntoBytes zero E s x) = tEncodeIntoBytes zero (E.stopping Q) s x := by
  simp only [tEncodeIntoBytes, stopAt_step, stopAt_tracked]
  show _ = TRes.step (tracked _ (stopAt Q (E.start s x))) id _
  congr 1
  funext u s'
  show _ = match E.requiring s' with
    | .finite size => _
    | .unknown => _
    | .infinite => _
  cases E.requiring s' with
  | finite n => simp only [stopAt_ite, stopAt_step, stopAt_tracked]; rfl
  | infinite => rfl
  | unknown =>
    have h := tEncodeAll_stop (Q := Q) zero E tVecWriter
      (fun w b => by obtain ⟨w', h⟩ := tWriteAll_vec zero w b; rw [h]; rfl) s' []
    simp only [h]
    cases tEncodeAll zero E tVecWriter s' [] with
    | none => rfl
    | some p =>
      obtain ⟨r, s'', out⟩ := p
      simp only [stopAt_step, stopAt_tracked]; rfl

/-! ## Encoders -/

theorem tBytesEncoder_stop : (tBytesEncoder (κ := κ)).stopping Q = tBytesEncoder := by
  refine tencoder_eq (fun s n e => ?_) (fun s x => ?_) (fun _ => rfl) (fun _ => rfl)
  · simp only [TEncoder.stopping, tBytesEncoder]
    cases s.bytes with
    | none => rfl
    | some b => simp only [stopAt_ite]; rfl
  · simp only [TEncoder.stopping, tBytesEncoder, stopAt_ite]; rfl

theorem tMapErrE_stop (E : TEncoder κ σ α) (g : TError κ → TError κ) (hg : ∀ x, (g x).causedBy Q = x.causedBy Q) :
    (tMapErrEncoder E g).stopping Q = tMapErrEncoder (E.stopping Q) g :=
  tencoder_eq (fun _ _ _ => stopAt_mapErr _ hg _) (fun _ _ => stopAt_mapErr _ hg _) (fun _ => rfl) (fun _ => rfl)

theorem tTryMapFrom_stop (E : TEncoder κ σ α) (f : β → Except (TError κ) α)
    (hf : ∀ a x, f a = .error x → x.causedBy Q = false) :
    (tTryMapFromEncoder E f).stopping Q = tTryMapFromEncoder (E.stopping Q) f := by
  refine tencoder_eq (fun _ _ _ => rfl) (fun s x => ?_) (fun _ => rfl) (fun _ => rfl)
  simp only [TEncoder.stopping, tTryMapFromEncoder]
  cases h : f x with
  | ok y => rfl
  | error k =>
    have := hf x k h
    simp [stopAt, TRes.stop, tracked, this, track_causedBy]

def TStarted.stop (Q : κ → Bool) : TStarted κ σ α → TStarted κ σ α
  | .busy s rest => .busy s rest
  | .exhausted s => .exhausted s
  | .failed r s rest => .failed (r.stop Q) s rest

theorem tStartNext_stop (E : TEncoder κ σ α) : ∀ (items : List α) (s : σ),
    tStartNext (E.stopping Q) s items = (tStartNext E s items).stop Q := by
  intro items
  induction items with
  | nil =>
    intro s
    rw [tStartNext, tStartNext]
    show (if E.isIdle s then _ else _) = _
    split <;> rfl
  | cons x xs ih =>
    intro s
    rw [tStartNext, tStartNext]
    show (if E.isIdle s then
      match tracked (inCombinator 418) (stopAt Q (E.start s x)) with
      | (.ok (), s') => tStartNext (E.stopping Q) s' xs
      | (r, s') => TStarted.failed r s' xs
    else .busy s (x :: xs)) = _
    by_cases h : E.isIdle s = true
    · rw [if_pos h, if_pos h, ← stopAt_tracked (inCombinator 418)]
      generalize tracked (inCombinator 418) (E.start s x) = p
      obtain ⟨r, s'⟩ := p
      cases r with
      | ok u => exact ih s'
      | err x => cases h : x.causedBy Q <;> simp [stopAt, TRes.stop, TStarted.stop, h]
      | _ => rfl
    · rw [if_neg h, if_neg h]; rfl

theorem failAs_stop (r : TRes κ α) : (TRes.failAs (β := β) r).stop Q = (r.stop Q).failAs := by
  cases r with
  | err x => cases h : x.causedBy Q <;> simp [TRes.stop, TRes.failAs, h]
  | _ => rfl

theorem tRepeatLoop_stop (E : TEncoder κ σ α) (n : Nat) (e : Eos) (out : Bytes) (s : σ) (items : Option (List α)) :
    tRepeatLoop (E.stopping Q) n e out s items = stopAt Q (tRepeatLoop E n e out s items) := by
  generalize hm : n + 1 - out.length = m
  induction m using Nat.strongRecOn generalizing out s items with
  | ind m ih =>
    rw [tRepeatLoop, tRepeatLoop, tStartNext_stop]
    cases tStartNext E s (items.getD []) with
    | exhausted s' => rfl
    | failed r s' rest => simp only [TStarted.stop, stopAt, failAs_stop]
    | busy s' rest =>
      simp only [TStarted.stop]
      by_cases h : n < out.length
      · rw [if_pos h, if_pos h]; rfl
      · rw [if_neg h, if_neg h]
        show (match tracked (inCombinator 425) (stopAt Q (E.encode s' (n - out.length) e)) with
          | (.ok bs, s'') =>
            if bs.length = 0 then ((.ok out, ⟨s'', items.map fun _ => rest⟩) : TRes κ Bytes × RepeatState σ α)
            else tRepeatLoop (E.stopping Q) n e (out ++ bs) s'' (items.map fun _ => rest)
          | (.err k, s'') => (.err k, ⟨s'', items.map fun _ => rest⟩)
          | (.panic, s'') => (.panic, ⟨s'', items.map fun _ => rest⟩)
          | (.capacity, s'') => (.capacity, ⟨s'', items.map fun _ => rest⟩)
          | (.diverge, s'') => (.diverge, ⟨s'', items.map fun _ => rest⟩)) = _
        rw [← stopAt_tracked (inCombinator 425)]
        generalize tracked (inCombinator 425) (E.encode s' (n - out.length) e) = q
        obtain ⟨r, s''⟩ := q
        cases r with
        | ok bs =>
          simp only [stopAt, TRes.stop]
          by_cases hb : bs.length = 0
          · rw [if_pos hb, if_pos hb]
          · rw [if_neg hb, if_neg hb]
            exact ih _ (by rw [← hm, List.length_append]; omega) _ _ _ rfl
        | err x => cases h : x.causedBy Q <;> simp [stopAt, TRes.stop, h]
        | _ => rfl

theorem tRepeat_stop (E : TEncoder κ σ α) : (tRepeatEncoder E).stopping Q = tRepeatEncoder (E.stopping Q) := by
  refine tencoder_eq (fun s n e => (tRepeatLoop_stop E n e [] s.inner s.items).symm) (fun s x => ?_) (fun _ => rfl)
    (fun _ => rfl)
  simp only [TEncoder.stopping, tRepeatEncoder, stopAt_ite]; rfl

theorem tOptional_stop (E : TEncoder κ σ α) : (tOptionalEncoder E).stopping Q = tOptionalEncoder (E.stopping Q) := by
  refine tencoder_eq (fun _ _ _ => stopAt_tracked _ _) (fun s x => ?_) (fun _ => rfl) (fun _ => rfl)
  cases x with
  | none => rfl
  | some x => exact stopAt_tracked _ _

theorem tLengthE_stop (E : TEncoder κ σ α) : (tLengthEncoder E).stopping Q = tLengthEncoder (E.stopping Q) := by
  refine tencoder_eq (fun s n e => ?_) (fun s x => ?_) (fun _ => rfl) (fun _ => rfl)
  · simp only [TEncoder.stopping, tLengthEncoder, stopAt_ite, stopAt_step, stopAt_tracked]; rfl
  · simp only [TEncoder.stopping, tLengthEncoder, stopAt_ite, stopAt_step, stopAt_tracked]; rfl

theorem tMaxBytesE_stop (E : TEncoder κ σ α) : (tMaxBytesEncoder E).stopping Q = tMaxBytesEncoder (E.stopping Q) := by
  refine tencoder_eq (fun s n e => ?_) (fun s x => ?_) (fun _ => rfl) (fun _ => rfl)
  · simp only [TEncoder.stopping, tMaxBytesEncoder, stopAt_ite, stopAt_step, stopAt_tracked]; rfl
  · simp only [TEncoder.stopping, tMaxBytesEncoder, stopAt_step, stopAt_tracked]; rfl

theorem tPreEncode_stop (zero : κ) (E : TEncoder κ σ α) :
    (tPreEncodeEncoder zero E).stopping Q = tPreEncodeEncoder zero (E.stopping Q) := by
  have he : ∀ s n e, stopAt Q (tBytesEncoder.encode s n e) = (tBytesEncoder (κ := κ)).encode s n e :=
    fun s n e => congrFun (congrFun (congrFun (congrArg TEncoder.encode (tBytesEncoder_stop (Q := Q))) s) n) e
  have hs : ∀ s x, stopAt Q (tBytesEncoder.start s x) = (tBytesEncoder (κ := κ)).start s x :=
    fun s x => congrFun (congrFun (congrArg TEncoder.start (tBytesEncoder_stop (Q := Q))) s) x
  refine tencoder_eq (fun s n e => ?_) (fun s x => ?_) (fun _ => rfl) (fun _ => rfl)
  · simp only [TEncoder.stopping, tPreEncodeEncoder, stopAt_step, stopAt_tracked, he]; rfl
  · have h := tEncodeIntoBytes_stop (Q := Q) zero E s.inner x
    simp only [TEncoder.stopping, tPreEncodeEncoder, stopAt_step, stopAt_tracked, hs] at h ⊢
    rw [h]; rfl

theorem tSliceE_stop (E : TEncoder κ σ α) : (tSliceEncoder E).stopping Q = tSliceEncoder (E.stopping Q) := by
  refine tencoder_eq (fun s n e => ?_) (fun s x => ?_) (fun _ => rfl) (fun _ => rfl)
  · simp only [TEncoder.stopping, tSliceEncoder]
    cases e.back (n - min n s.consumable) with
    | ok e' => simp only [stopAt_ite, stopAt_step, stopAt_tracked]; rfl
    | _ => rfl
  · simp only [TEncoder.stopping, tSliceEncoder, stopAt_step, stopAt_tracked]; rfl

theorem tLast_stop (E : TEncoder κ σ α) : (tLastEncoder E).stopping Q = tLastEncoder (E.stopping Q) := by
  refine tencoder_eq (fun s n e => ?_) (fun s x => x.elim) (fun _ => rfl) (fun _ => rfl)
  simp only [TEncoder.stopping, tLastEncoder, stopAt_ite]
  congr 1
  · cases s.item with
    | none => simp only [stopAt_step, stopAt_tracked]; rfl
    | some x => simp only [stopAt_step, stopAt_tracked]; rfl
  · simp only [stopAt_step, stopAt_tracked]; rfl

theorem tPairE_stop {σ0 α0 σ1 α1 : Type} (E0 : TEncoder κ σ0 α0) (E1 : TEncoder κ σ1 α1) :
    (tPairEncoder E0 E1).stopping Q = tPairEncoder (E0.stopping Q) (E1.stopping Q) := by
  refine tencoder_eq (fun s b e => ?_) (fun s x => ?_) (fun _ => rfl) (fun _ => rfl)
  · simp only [tPairEncoder]
    rw [← tTryEncode_stop ⟨"tuple.rs", 133⟩]
    simp only [TEncoder.stopping]
    cases tTryEncode ⟨"tuple.rs", 133⟩ E0 s.1 [] b e with
    | ret r s' => rfl
    | next o s' =>
      simp only [TFlow.stop]
      have h := tTryEncode_stop (Q := Q) ⟨"tuple.rs", 133⟩ E1 s.2 o b e
      simp only [TEncoder.stopping] at h
      rw [← h]
      cases tTryEncode ⟨"tuple.rs", 133⟩ E1 s.2 o b e <;> rfl
  · simp only [TEncoder.stopping, tPairEncoder, stopAt_step, stopAt_tracked]
    rfl

theorem tTuple3E_stop {σ0 α0 σ1 α1 σ2 α2 : Type} (E0 : TEncoder κ σ0 α0) (E1 : TEncoder κ σ1 α1) (E2 : TEncoder κ σ2 α2) :
    (tTuple3Encoder E0 E1 E2).stopping Q = tTuple3Encoder (E0.stopping Q) (E1.stopping Q) (E2.stopping Q) := by
  refine tencoder_eq (fun s b e => ?_) (fun s x => ?_) (fun _ => rfl) (fun _ => rfl)
  · simp only [tTuple3Encoder]
    rw [← tTryEncode_stop ⟨"tuple.rs", 134⟩]
    simp only [TEncoder.stopping]
    cases tTryEncode ⟨"tuple.rs", 134⟩ E0 s.1 [] b e with
    | ret r s' => rfl
    | next o0 s0 =>
      simp only [TFlow.stop]
      have h := tTryEncode_stop (Q := Q) ⟨"tuple.rs", 134⟩ E1 s.2.1 o0 b e
      simp only [TEncoder.stopping] at h
      rw [← h]
      clear h
      cases tTryEncode ⟨"tuple.rs", 134⟩ E1 s.2.1 o0 b e with
      | ret r s' => rfl
      | next o1 s1 =>
        simp only [TFlow.stop]
        have h := tTryEncode_stop (Q := Q) ⟨"tuple.rs", 134⟩ E2 s.2.2 o1 b e
        simp only [TEncoder.stopping] at h
        rw [← h]
        cases tTryEncode ⟨"tuple.rs", 134⟩ E2 s.2.2 o1 b e <;> rfl
  · simp only [TEncoder.stopping, tTuple3Encoder, stopAt_step, stopAt_tracked]
    rfl

theorem tTuple4E_stop {σ0 α0 σ1 α1 σ2 α2 σ3 α3 : Type} (E0 : TEncoder κ σ0 α0) (E1 : TEncoder κ σ1 α1) (E2 : TEncoder κ σ2 α2) (E3 : TEncoder κ σ3 α3) :
    (tTuple4Encoder E0 E1 E2 E3).stopping Q = tTuple4Encoder (E0.stopping Q) (E1.stopping Q) (E2.stopping Q) (E3.stopping Q) := by
  refine tencoder_eq (fun s b e => ?_) (fun s x => ?_) (fun _ => rfl) (fun _ => rfl)
  · simp only [tTuple4Encoder]
    rw [← tTryEncode_stop ⟨"tuple.rs", 135⟩]
    simp only [TEncoder.stopping]
    cases tTryEncode ⟨"tuple.rs", 135⟩ E0 s.1 [] b e with
    | ret r s' => rfl
    | next o0 s0 =>
      simp only [TFlow.stop]
      have h := tTryEncode_stop (Q := Q) ⟨"tuple.rs", 135⟩ E1 s.2.1 o0 b e
      simp only [TEncoder.stopping] at h
      rw [← h]
      clear h
      cases tTryEncode ⟨"tuple.rs", 135⟩ E1 s.2.1 o0 b e with
      | ret r s' => rfl
      | next o1 s1 =>
        simp only [TFlow.stop]
        have h := tTryEncode_stop (Q := Q) ⟨"tuple.rs", 135⟩ E2 s.2.2.1 o1 b e
        simp only [TEncoder.stopping] at h
        rw [← h]
        clear h
        cases tTryEncode ⟨"tuple.rs", 135⟩ E2 s.2.2.1 o1 b e with
        | ret r s' => rfl
        | next o2 s2 =>
          simp only [TFlow.stop]
          have h := tTryEncode_stop (Q := Q) ⟨"tuple.rs", 135⟩ E3 s.2.2.2 o2 b e
          simp only [TEncoder.stopping] at h
          rw [← h]
          cases tTryEncode ⟨"tuple.rs", 135⟩ E3 s.2.2.2 o2 b e <;> rfl
  · simp only [TEncoder.stopping, tTuple4Encoder, stopAt_step, stopAt_tracked]
    rfl

theorem tTuple5E_stop {σ0 α0 σ1 α1 σ2 α2 σ3 α3 σ4 α4 : Type} (E0 : TEncoder κ σ0 α0) (E1 : TEncoder κ σ1 α1) (E2 : TEncoder κ σ2 α2) (E3 : TEncoder κ σ3 α3) (E4 : TEncoder κ σ4 α4) :
    (tTuple5Encoder E0 E1 E2 E3 E4).stopping Q = tTuple5Encoder (E0.stopping Q) (E1.stopping Q) (E2.stopping Q) (E3.stopping Q) (E4.stopping Q) := by
  refine tencoder_eq (fun s b e => ?_) (fun s x => ?_) (fun _ => rfl) (fun _ => rfl)
  · simp only [tTuple5Encoder]
    rw [← tTryEncode_stop ⟨"tuple.rs", 136⟩]
    simp only [TEncoder.stopping]
    cases tTryEncode ⟨"tuple.rs", 136⟩ E0 s.1 [] b e with
    | ret r s' => rfl
    | next o0 s0 =>
      simp only [TFlow.stop]
      have h := tTryEncode_stop (Q := Q) ⟨"tuple.rs", 136⟩ E1 s.2.1 o0 b e
      simp only [TEncoder.stopping] at h
      rw [← h]
      clear h
      cases tTryEncode ⟨"tuple.rs", 136⟩ E1 s.2.1 o0 b e with
      | ret r s' => rfl
      | next o1 s1 =>
        simp only [TFlow.stop]
        have h := tTryEncode_stop (Q := Q) ⟨"tuple.rs", 136⟩ E2 s.2.2.1 o1 b e
        simp only [TEncoder.stopping] at h
        rw [← h]
        clear h
        cases tTryEncode ⟨"tuple.rs", 136⟩ E2 s.2.2.1 o1 b e with
        | ret r s' => rfl
        | next o2 s2 =>
          simp only [TFlow.stop]
          have h := tTryEncode_stop (Q := Q) ⟨"tuple.rs", 136⟩ E3 s.2.2.2.1 o2 b e
          simp only [TEncoder.stopping] at h
          rw [← h]
          clear h
          cases tTryEncode ⟨"tuple.rs", 136⟩ E3 s.2.2.2.1 o2 b e with
          | ret r s' => rfl
          | next o3 s3 =>
            simp only [TFlow.stop]
            have h := tTryEncode_stop (Q := Q) ⟨"tuple.rs", 136⟩ E4 s.2.2.2.2 o3 b e
            simp only [TEncoder.stopping] at h
            rw [← h]
            cases tTryEncode ⟨"tuple.rs", 136⟩ E4 s.2.2.2.2 o3 b e <;> rfl
  · simp only [TEncoder.stopping, tTuple5Encoder, stopAt_step, stopAt_tracked]
    rfl

theorem tTuple6E_stop {σ0 α0 σ1 α1 σ2 α2 σ3 α3 σ4 α4 σ5 α5 : Type} (E0 : TEncoder κ σ0 α0) (E1 : TEncoder κ σ1 α1) (E2 : TEncoder κ σ2 α2) (E3 : TEncoder κ σ3 α3) (E4 : TEncoder κ σ4 α4) (E5 : TEncoder κ σ5 α5) :
    (tTuple6Encoder E0 E1 E2 E3 E4 E5).stopping Q = tTuple6Encoder (E0.stopping Q) (E1.stopping Q) (E2.stopping Q) (E3.stopping Q) (E4.stopping Q) (E5.stopping Q) := by
  refine tencoder_eq (fun s b e => ?_) (fun s x => ?_) (fun _ => rfl) (fun _ => rfl)
  · simp only [tTuple6Encoder]
    rw [← tTryEncode_stop ⟨"tuple.rs", 137⟩]
    simp only [TEncoder.stopping]
    cases tTryEncode ⟨"tuple.rs", 137⟩ E0 s.1 [] b e with
    | ret r s' => rfl
    | next o0 s0 =>
      simp only [TFlow.stop]
      have h := tTryEncode_stop (Q := Q) ⟨"tuple.rs", 137⟩ E1 s.2.1 o0 b e
      simp only [TEncoder.stopping] at h
      rw [← h]
      clear h
      cases tTryEncode ⟨"tuple.rs", 137⟩ E1 s.2.1 o0 b e with
      | ret r s' => rfl
      | next o1 s1 =>
        simp only [TFlow.stop]
        have h := tTryEncode_stop (Q := Q) ⟨"tuple.rs", 137⟩ E2 s.2.2.1 o1 b e
        simp only [TEncoder.stopping] at h
        rw [← h]
        clear h
        cases tTryEncode ⟨"tuple.rs", 137⟩ E2 s.2.2.1 o1 b e with
        | ret r s' => rfl
        | next o2 s2 =>
          simp only [TFlow.stop]
          have h := tTryEncode_stop (Q := Q) ⟨"tuple.rs", 137⟩ E3 s.2.2.2.1 o2 b e
          simp only [TEncoder.stopping] at h
          rw [← h]
          clear h
          cases tTryEncode ⟨"tuple.rs", 137⟩ E3 s.2.2.2.1 o2 b e with
          | ret r s' => rfl
          | next o3 s3 =>
            simp only [TFlow.stop]
            have h := tTryEncode_stop (Q := Q) ⟨"tuple.rs", 137⟩ E4 s.2.2.2.2.1 o3 b e
            simp only [TEncoder.stopping] at h
            rw [← h]
            clear h
            cases tTryEncode ⟨"tuple.rs", 137⟩ E4 s.2.2.2.2.1 o3 b e with
            | ret r s' => rfl
            | next o4 s4 =>
              simp only [TFlow.stop]
              have h := tTryEncode_stop (Q := Q) ⟨"tuple.rs", 137⟩ E5 s.2.2.2.2.2 o4 b e
              simp only [TEncoder.stopping] at h
              rw [← h]
              cases tTryEncode ⟨"tuple.rs", 137⟩ E5 s.2.2.2.2.2 o4 b e <;> rfl
  · simp only [TEncoder.stopping, tTuple6Encoder, stopAt_step, stopAt_tracked]
    rfl

theorem tTuple7E_stop {σ0 α0 σ1 α1 σ2 α2 σ3 α3 σ4 α4 σ5 α5 σ6 α6 : Type} (E0 : TEncoder κ σ0 α0) (E1 : TEncoder κ σ1 α1) (E2 : TEncoder κ σ2 α2) (E3 : TEncoder κ σ3 α3) (E4 : TEncoder κ σ4 α4) (E5 : TEncoder κ σ5 α5) (E6 : TEncoder κ σ6 α6) :
    (tTuple7Encoder E0 E1 E2 E3 E4 E5 E6).stopping Q = tTuple7Encoder (E0.stopping Q) (E1.stopping Q) (E2.stopping Q) (E3.stopping Q) (E4.stopping Q) (E5.stopping Q) (E6.stopping Q) := by
  refine tencoder_eq (fun s b e => ?_) (fun s x => ?_) (fun _ => rfl) (fun _ => rfl)
  · simp only [tTuple7Encoder]
    rw [← tTryEncode_stop ⟨"tuple.rs", 138⟩]
    simp only [TEncoder.stopping]
    cases tTryEncode ⟨"tuple.rs", 138⟩ E0 s.1 [] b e with
    | ret r s' => rfl
    | next o0 s0 =>
      simp only [TFlow.stop]
      have h := tTryEncode_stop (Q := Q) ⟨"tuple.rs", 138⟩ E1 s.2.1 o0 b e
      simp only [TEncoder.stopping] at h
      rw [← h]
      clear h
      cases tTryEncode ⟨"tuple.rs", 138⟩ E1 s.2.1 o0 b e with
      | ret r s' => rfl
      | next o1 s1 =>
        simp only [TFlow.stop]
        have h := tTryEncode_stop (Q := Q) ⟨"tuple.rs", 138⟩ E2 s.2.2.1 o1 b e
        simp only [TEncoder.stopping] at h
        rw [← h]
        clear h
        cases tTryEncode ⟨"tuple.rs", 138⟩ E2 s.2.2.1 o1 b e with
        | ret r s' => rfl
        | next o2 s2 =>
          simp only [TFlow.stop]
          have h := tTryEncode_stop (Q := Q) ⟨"tuple.rs", 138⟩ E3 s.2.2.2.1 o2 b e
          simp only [TEncoder.stopping] at h
          rw [← h]
          clear h
          cases tTryEncode ⟨"tuple.rs", 138⟩ E3 s.2.2.2.1 o2 b e with
          | ret r s' => rfl
          | next o3 s3 =>
            simp only [TFlow.stop]
            have h := tTryEncode_stop (Q := Q) ⟨"tuple.rs", 138⟩ E4 s.2.2.2.2.1 o3 b e
            simp only [TEncoder.stopping] at h
            rw [← h]
            clear h
            cases tTryEncode ⟨"tuple.rs", 138⟩ E4 s.2.2.2.2.1 o3 b e with
            | ret r s' => rfl
            | next o4 s4 =>
              simp only [TFlow.stop]
              have h := tTryEncode_stop (Q := Q) ⟨"tuple.rs", 138⟩ E5 s.2.2.2.2.2.1 o4 b e
              simp only [TEncoder.stopping] at h
              rw [← h]
              clear h
              cases tTryEncode ⟨"tuple.rs", 138⟩ E5 s.2.2.2.2.2.1 o4 b e with
              | ret r s' => rfl
              | next o5 s5 =>
                simp only [TFlow.stop]
                have h := tTryEncode_stop (Q := Q) ⟨"tuple.rs", 138⟩ E6 s.2.2.2.2.2.2 o5 b e
                simp only [TEncoder.stopping] at h
                rw [← h]
                cases tTryEncode ⟨"tuple.rs", 138⟩ E6 s.2.2.2.2.2.2 o5 b e <;> rfl
  · simp only [TEncoder.stopping, tTuple7Encoder, stopAt_step, stopAt_tracked]
    rfl

theorem tTuple8E_stop {σ0 α0 σ1 α1 σ2 α2 σ3 α3 σ4 α4 σ5 α5 σ6 α6 σ7 α7 : Type} (E0 : TEncoder κ σ0 α0) (E1 : TEncoder κ σ1 α1) (E2 : TEncoder κ σ2 α2) (E3 : TEncoder κ σ3 α3) (E4 : TEncoder κ σ4 α4) (E5 : TEncoder κ σ5 α5) (E6 : TEncoder κ σ6 α6) (E7 : TEncoder κ σ7 α7) :
    (tTuple8Encoder E0 E1 E2 E3 E4 E5 E6 E7).stopping Q = tTuple8Encoder (E0.stopping Q) (E1.stopping Q) (E2.stopping Q) (E3.stopping Q) (E4.stopping Q) (E5.stopping Q) (E6.stopping Q) (E7.stopping Q) := by
  refine tencoder_eq (fun s b e => ?_) (fun s x => ?_) (fun _ => rfl) (fun _ => rfl)
  · simp only [tTuple8Encoder]
    rw [← tTryEncode_stop ⟨"tuple.rs", 139⟩]
    simp only [TEncoder.stopping]
    cases tTryEncode ⟨"tuple.rs", 139⟩ E0 s.1 [] b e with
    | ret r s' => rfl
    | next o0 s0 =>
      simp only [TFlow.stop]
      have h := tTryEncode_stop (Q := Q) ⟨"tuple.rs", 139⟩ E1 s.2.1 o0 b e
      simp only [TEncoder.stopping] at h
      rw [← h]
      clear h
      cases tTryEncode ⟨"tuple.rs", 139⟩ E1 s.2.1 o0 b e with
      | ret r s' => rfl
      | next o1 s1 =>
        simp only [TFlow.stop]
        have h := tTryEncode_stop (Q := Q) ⟨"tuple.rs", 139⟩ E2 s.2.2.1 o1 b e
        simp only [TEncoder.stopping] at h
        rw [← h]
        clear h
        cases tTryEncode ⟨"tuple.rs", 139⟩ E2 s.2.2.1 o1 b e with
        | ret r s' => rfl
        | next o2 s2 =>
          simp only [TFlow.stop]
          have h := tTryEncode_stop (Q := Q) ⟨"tuple.rs", 139⟩ E3 s.2.2.2.1 o2 b e
          simp only [TEncoder.stopping] at h
          rw [← h]
          clear h
          cases tTryEncode ⟨"tuple.rs", 139⟩ E3 s.2.2.2.1 o2 b e with
          | ret r s' => rfl
          | next o3 s3 =>
            simp only [TFlow.stop]
            have h := tTryEncode_stop (Q := Q) ⟨"tuple.rs", 139⟩ E4 s.2.2.2.2.1 o3 b e
            simp only [TEncoder.stopping] at h
            rw [← h]
            clear h
            cases tTryEncode ⟨"tuple.rs", 139⟩ E4 s.2.2.2.2.1 o3 b e with
            | ret r s' => rfl
            | next o4 s4 =>
              simp only [TFlow.stop]
              have h := tTryEncode_stop (Q := Q) ⟨"tuple.rs", 139⟩ E5 s.2.2.2.2.2.1 o4 b e
              simp only [TEncoder.stopping] at h
              rw [← h]
              clear h
              cases tTryEncode ⟨"tuple.rs", 139⟩ E5 s.2.2.2.2.2.1 o4 b e with
              | ret r s' => rfl
              | next o5 s5 =>
                simp only [TFlow.stop]
                have h := tTryEncode_stop (Q := Q) ⟨"tuple.rs", 139⟩ E6 s.2.2.2.2.2.2.1 o5 b e
                simp only [TEncoder.stopping] at h
                rw [← h]
                clear h
                cases tTryEncode ⟨"tuple.rs", 139⟩ E6 s.2.2.2.2.2.2.1 o5 b e with
                | ret r s' => rfl
                | next o6 s6 =>
                  simp only [TFlow.stop]
                  have h := tTryEncode_stop (Q := Q) ⟨"tuple.rs", 139⟩ E7 s.2.2.2.2.2.2.2 o6 b e
                  simp only [TEncoder.stopping] at h
                  rw [← h]
                  cases tTryEncode ⟨"tuple.rs", 139⟩ E7 s.2.2.2.2.2.2.2 o6 b e <;> rfl
  · simp only [TEncoder.stopping, tTuple8Encoder, stopAt_step, stopAt_tracked]
    rfl

theorem stoppedEnc_eq {σ α : Type} {E E' : TEncoder κ σ α} (h : StoppedEnc Q E E') : E' = E.stopping Q := by
  induction h with
  | part E => rfl
  | mapErr g hg _ ih => subst ih; exact (tMapErrE_stop _ _ hg).symm
  | mapFrom f _ ih => subst ih; rfl
  | tryMapFrom f hf _ ih => subst ih; exact (tTryMapFrom_stop _ _ hf).symm
  | «repeat» _ ih => subst ih; exact (tRepeat_stop _).symm
  | optional _ ih => subst ih; exact (tOptional_stop _).symm
  | length _ ih => subst ih; exact (tLengthE_stop _).symm
  | maxBytes _ ih => subst ih; exact (tMaxBytesE_stop _).symm
  | preEncode zero _ ih => subst ih; exact (tPreEncode_stop _ _).symm
  | slice _ ih => subst ih; exact (tSliceE_stop _).symm
  | last _ ih => subst ih; exact (tLast_stop _).symm
  | pair _ _ ih0 ih1 => subst ih0 ih1; exact (tPairE_stop _ _).symm
  | tuple3 _ _ _ ih0 ih1 ih2 => subst ih0 ih1 ih2; exact (tTuple3E_stop _ _ _).symm
  | tuple4 _ _ _ _ ih0 ih1 ih2 ih3 => subst ih0 ih1 ih2 ih3; exact (tTuple4E_stop _ _ _ _).symm
  | tuple5 _ _ _ _ _ ih0 ih1 ih2 ih3 ih4 => subst ih0 ih1 ih2 ih3 ih4; exact (tTuple5E_stop _ _ _ _ _).symm
  | tuple6 _ _ _ _ _ _ ih0 ih1 ih2 ih3 ih4 ih5 => subst ih0 ih1 ih2 ih3 ih4 ih5; exact (tTuple6E_stop _ _ _ _ _ _).symm
  | tuple7 _ _ _ _ _ _ _ ih0 ih1 ih2 ih3 ih4 ih5 ih6 => subst ih0 ih1 ih2 ih3 ih4 ih5 ih6; exact (tTuple7E_stop _ _ _ _ _ _ _).symm
  | tuple8 _ _ _ _ _ _ _ _ ih0 ih1 ih2 ih3 ih4 ih5 ih6 ih7 => subst ih0 ih1 ih2 ih3 ih4 ih5 ih6 ih7; exact (tTuple8E_stop _ _ _ _ _ _ _ _).symm

end Bytecodec
