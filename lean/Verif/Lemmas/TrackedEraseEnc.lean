import Verif.Lemmas.TrackedErase
/-!
# Lemmas: the same for encoders and I/O
-/
namespace Bytecodec

variable {κ σ α β τ υ : Type}

theorem tWriteAll_erase {ω : Type} (zero : κ) (W : TWriter κ ω) (w : ω) (b : Bytes) :
    eraseP (tWriteAll zero W w b) = writeAll W.erase w b := by
  fun_induction tWriteAll zero W w b with
  | case1 w b h => rw [writeAll, if_pos h]; rfl
  | case2 w b h k c w' hw =>
    rw [writeAll, if_neg h]
    simp only [TWriter.erase, hw]; rfl
  | case3 w b h w' hw =>
    rw [writeAll, if_neg h]
    simp only [TWriter.erase, hw]; rfl
  | case4 w b h n w' hw h1 h2 =>
    rw [writeAll, if_neg h]
    simp only [TWriter.erase, hw, TWriteRes.erase, if_neg h1, if_pos h2]; rfl
  | case5 w b h n w' hw h1 h2 ih =>
    rw [writeAll, if_neg h, ih]
    simp only [TWriter.erase, hw, TWriteRes.erase, if_neg h1, if_neg h2]

theorem encodeAll_of_traced {ω : Type} (zero : κ) (E : TEncoder κ σ α) (W : TWriter κ ω) :
    ∀ (s : σ) (w : ω) (x : TRes κ Unit × σ × ω), tEncodeAll zero E W s w = some x →
      encodeAll E.erase W.erase s w = some (eraseP x) := by
  apply tEncodeAll.partial_correctness zero E W
    (motive := fun s w x => encodeAll E.erase W.erase s w = some (eraseP x))
  intro loop ih s w x heq
  rw [encodeAll]
  show (if E.isIdle s then some (.ok (), s, w) else match eraseP (E.encode s 1024 (Eos.new false)) with
    | (.ok bs, s') =>
      if 1024 < bs.length then some (Res.panic, s', w)
      else
        match writeAll W.erase w bs with
        | (.ok (), w') =>
          if !E.isIdle s' && bs.isEmpty then some (Res.err .other, s', w')
          else encodeAll E.erase W.erase s' w'
        | (.err k, w') => some (.err k, s', w')
        | (.panic, w') => some (.panic, s', w')
        | (.capacity, w') => some (.capacity, s', w')
        | (.diverge, w') => some (.diverge, s', w')
    | (.err k, s') => some (.err k, s', w)
    | (.panic, s') => some (.panic, s', w)
    | (.capacity, s') => some (.capacity, s', w)
    | (.diverge, s') => some (.diverge, s', w)) = _
  split at heq
  · next hi => rw [if_pos hi]; cases heq; rfl
  · next hi =>
    rw [if_neg hi, ← eraseP_tracked ⟨"io.rs", 98⟩]
    generalize tracked ⟨"io.rs", 98⟩ (E.encode s 1024 (Eos.new false)) = p at heq
    obtain ⟨r, s'⟩ := p
    cases r with
    | ok bs =>
      simp only [eraseP, TRes.erase] at heq ⊢
      split at heq
      · next h => rw [if_pos h]; cases heq; rfl
      · next h =>
        rw [if_neg h, ← tWriteAll_erase zero, ← eraseP_tracked ⟨"io.rs", 99⟩]
        generalize tracked ⟨"io.rs", 99⟩ (tWriteAll zero W w bs) = q at heq
        obtain ⟨r, w'⟩ := q
        cases r with
        | ok u =>
          simp only [eraseP, TRes.erase] at heq ⊢
          split at heq
          · next h => rw [if_pos h]; cases heq; rfl
          · next h => rw [if_neg h]; exact ih _ _ _ heq
        | _ => cases heq; rfl
    | _ => cases heq; rfl

theorem traced_of_encodeAll {ω : Type} (zero : κ) (E : TEncoder κ σ α) (W : TWriter κ ω) :
    ∀ (s : σ) (w : ω) (x : Res Unit × σ × ω), encodeAll E.erase W.erase s w = some x →
      tEncodeAll zero E W s w ≠ none := by
  apply encodeAll.partial_correctness E.erase W.erase
    (motive := fun s w x => tEncodeAll zero E W s w ≠ none)
  intro loop ih s w x heq0
  have heq : (if E.isIdle s then some (.ok (), s, w) else match eraseP (E.encode s 1024 (Eos.new false)) with
    | (.ok bs, s') =>
      if 1024 < bs.length then some (Res.panic, s', w)
      else
        match writeAll W.erase w bs with
        | (.ok (), w') =>
          if !E.isIdle s' && bs.isEmpty then some (Res.err .other, s', w')
          else loop s' w'
        | (.err k, w') => some (.err k, s', w')
        | (.panic, w') => some (.panic, s', w')
        | (.capacity, w') => some (.capacity, s', w')
        | (.diverge, w') => some (.diverge, s', w')
    | (.err k, s') => some (.err k, s', w)
    | (.panic, s') => some (.panic, s', w)
    | (.capacity, s') => some (.capacity, s', w)
    | (.diverge, s') => some (.diverge, s', w)) = some x := heq0
  clear heq0
  rw [tEncodeAll]
  split at heq
  · next hi => rw [if_pos hi]; simp
  · next hi =>
    rw [if_neg hi]
    rw [← eraseP_tracked ⟨"io.rs", 98⟩] at heq
    generalize tracked ⟨"io.rs", 98⟩ (E.encode s 1024 (Eos.new false)) = p at heq
    obtain ⟨r, s'⟩ := p
    cases r with
    | ok bs =>
      simp only [eraseP, TRes.erase] at heq ⊢
      split at heq
      · next h => rw [if_pos h]; simp
      · next h =>
        rw [if_neg h]
        rw [← tWriteAll_erase zero, ← eraseP_tracked ⟨"io.rs", 99⟩] at heq
        generalize tracked ⟨"io.rs", 99⟩ (tWriteAll zero W w bs) = q at heq
        obtain ⟨r, w'⟩ := q
        cases r with
        | ok u =>
          simp only [eraseP, TRes.erase] at heq ⊢
          split at heq
          · next h => rw [if_pos h]; simp
          · next h => rw [if_neg h]; exact ih _ _ _ heq
        | _ => simp
    | _ => simp

theorem tEncodeAll_erase {ω : Type} (zero : κ) (E : TEncoder κ σ α) (W : TWriter κ ω) (s : σ) (w : ω) :
    encodeAll E.erase W.erase s w = (tEncodeAll zero E W s w).map eraseP := by
  cases h : tEncodeAll zero E W s w with
  | some x => exact encodeAll_of_traced zero E W _ _ _ h
  | none =>
    cases h2 : encodeAll E.erase W.erase s w with
    | none => rfl
    | some x => exact (traced_of_encodeAll zero E W _ _ _ h2 h).elim

theorem readSize_eq (c : ByteCount) :
    decodeExact.match_1 (fun _ => Nat) c (fun n => min n 1024) (fun _ => 1024) (fun _ => 1) =
      tDecodeExact.match_1 (fun _ => Nat) c (fun n => min n 1024) (fun _ => 1024) (fun _ => 1) := by
  cases c <;> rfl

theorem decodeExact_of_traced {ρ : Type} (D : TDecoder κ σ α) (R : TReader κ ρ) :
    ∀ (s : σ) (r : ρ) (x : TRes κ α × σ × ρ), tDecodeExact D R s r = some x →
      decodeExact D.erase R.erase s r = some (eraseP x) := by
  apply tDecodeExact.partial_correctness D R
    (motive := fun s r x => decodeExact D.erase R.erase s r = some (eraseP x))
  intro loop ih s r x heq
  rw [decodeExact]
  simp only at heq ⊢
  have hreq : D.erase.requiring s = D.requiring s := rfl
  rw [hreq, readSize_eq]
  generalize tDecodeExact.match_1 (fun _ => Nat) (D.requiring s) (fun n => min n 1024) (fun _ => 1024) (fun _ => 1) = size
    at heq ⊢
  have hrd : (if size ≠ 0 then R.erase.read r size else (.data [], r)) =
      ((if size ≠ 0 then R.read r size else (.data [], r)).1.erase,
        (if size ≠ 0 then R.read r size else (.data [], r)).2) := by
    by_cases h : size ≠ 0
    · rw [if_pos h, if_pos h]; rfl
    · rw [if_neg h, if_neg h]; rfl
  rw [hrd]
  generalize (if size ≠ 0 then R.read r size else (.data [], r)) = p at heq ⊢
  obtain ⟨a, r'⟩ := p
  cases a with
  | error k c => cases heq; rfl
  | data bs =>
    simp only [TReadRes.erase] at heq ⊢
    split at heq
    · next h => rw [if_pos h]; cases heq; rfl
    · next h =>
      rw [if_neg h]
      show (match eraseP (D.decode s bs (Eos.new (size ≠ 0 && bs.isEmpty))) with
        | (.ok consumed, s') =>
          if consumed ≠ bs.length then some (Res.err .inconsistentState, s', r')
          else if D.isIdle s' then some ((eraseP (D.finish s')).1, (eraseP (D.finish s')).2, r')
          else decodeExact D.erase R.erase s' r'
        | (.err k, s') => some (.err k, s', r')
        | (.panic, s') => some (.panic, s', r')
        | (.capacity, s') => some (.capacity, s', r')
        | (.diverge, s') => some (.diverge, s', r')) = _
      rw [← eraseP_tracked ⟨"io.rs", 45⟩]
      generalize tracked ⟨"io.rs", 45⟩ (D.decode s bs (Eos.new (size ≠ 0 && bs.isEmpty))) = q at heq
      obtain ⟨a, s'⟩ := q
      cases a with
      | ok n =>
        simp only [eraseP, TRes.erase] at heq ⊢
        split at heq
        · next h => rw [if_pos h]; cases heq; rfl
        · next h =>
          rw [if_neg h]
          split at heq
          · next h =>
            rw [if_pos h]
            have := eraseP_tracked ⟨"io.rs", 48⟩ (D.finish s')
            cases heq
            rw [eraseP, eraseP, Prod.mk.injEq] at this
            show some ((D.finish s').1.erase, (D.finish s').2, r') = _
            rw [← this.1, ← this.2]
            rfl
          · next h => rw [if_neg h]; exact ih _ _ _ heq
      | _ => cases heq; rfl

theorem traced_of_decodeExact {ρ : Type} (D : TDecoder κ σ α) (R : TReader κ ρ) :
    ∀ (s : σ) (r : ρ) (x : Res α × σ × ρ), decodeExact D.erase R.erase s r = some x →
      tDecodeExact D R s r ≠ none := by
  apply decodeExact.partial_correctness D.erase R.erase
    (motive := fun s r x => tDecodeExact D R s r ≠ none)
  intro loop ih s r x heq
  rw [tDecodeExact]
  simp only at heq ⊢
  have hreq : D.erase.requiring s = D.requiring s := rfl
  rw [hreq, readSize_eq] at heq
  generalize tDecodeExact.match_1 (fun _ => Nat) (D.requiring s) (fun n => min n 1024) (fun _ => 1024) (fun _ => 1) = size
    at heq ⊢
  have hrd : (if size ≠ 0 then R.erase.read r size else (.data [], r)) =
      ((if size ≠ 0 then R.read r size else (.data [], r)).1.erase,
        (if size ≠ 0 then R.read r size else (.data [], r)).2) := by
    by_cases h : size ≠ 0
    · rw [if_pos h, if_pos h]; rfl
    · rw [if_neg h, if_neg h]; rfl
  rw [hrd] at heq
  generalize (if size ≠ 0 then R.read r size else (.data [], r)) = p at heq ⊢
  obtain ⟨a, r'⟩ := p
  cases a with
  | error k c => simp
  | data bs =>
    simp only [TReadRes.erase] at heq ⊢
    split at heq
    · next h => rw [if_pos h]; simp
    · next h =>
      rw [if_neg h]
      have heq2 : (match eraseP (D.decode s bs (Eos.new (size ≠ 0 && bs.isEmpty))) with
        | (.ok consumed, s') =>
          if consumed ≠ bs.length then some (Res.err .inconsistentState, s', r')
          else if D.isIdle s' then some ((eraseP (D.finish s')).1, (eraseP (D.finish s')).2, r')
          else loop s' r'
        | (.err k, s') => some (.err k, s', r')
        | (.panic, s') => some (.panic, s', r')
        | (.capacity, s') => some (.capacity, s', r')
        | (.diverge, s') => some (.diverge, s', r')) = some x := heq
      clear heq
      rw [← eraseP_tracked ⟨"io.rs", 45⟩] at heq2
      generalize tracked ⟨"io.rs", 45⟩ (D.decode s bs (Eos.new (size ≠ 0 && bs.isEmpty))) = q at heq2 ⊢
      obtain ⟨a, s'⟩ := q
      cases a with
      | ok n =>
        simp only [eraseP, TRes.erase] at heq2 ⊢
        split at heq2
        · next h => rw [if_pos h]; simp
        · next h =>
          rw [if_neg h]
          split at heq2
          · next h => rw [if_pos h]; simp
          · next h => rw [if_neg h]; exact ih _ _ _ heq2
      | _ => simp

theorem tDecodeExact_erase {ρ : Type} (D : TDecoder κ σ α) (R : TReader κ ρ) (s : σ) (r : ρ) :
    decodeExact D.erase R.erase s r = (tDecodeExact D R s r).map eraseP := by
  cases h : tDecodeExact D R s r with
  | some x => exact decodeExact_of_traced D R _ _ _ h
  | none =>
    cases h2 : decodeExact D.erase R.erase s r with
    | none => rfl
    | some x => exact (traced_of_decodeExact D R _ _ _ h2 h).elim

theorem tDecodeFromBytes_erase (D : TDecoder κ σ α) (s : σ) (b : Bytes) :
    eraseP (tDecodeFromBytes D s b) = decodeFromBytes D.erase s b := by
  simp only [tDecodeFromBytes, decodeFromBytes, eraseP_step, eraseP_tracked, eraseP_ite]; rfl

theorem tEncodeIntoBytes_erase (zero : κ) (E : TEncoder κ σ α) (s : σ) (x : α) :
    eraseP (tEncodeIntoBytes zero E s x) = encodeIntoBytes E.erase s x := by
  simp only [tEncodeIntoBytes, encodeIntoBytes, eraseP_step, eraseP_tracked]
  show _ = Res.step (eraseP (E.start s x)) id _
  congr 1
  funext u s'
  show _ = match E.requiring s' with
    | .finite size => _
    | .unknown => _
    | .infinite => _
  cases E.requiring s' with
  | finite n => simp only [eraseP_ite, eraseP_step, eraseP_tracked]; rfl
  | infinite => rfl
  | unknown =>
    have h := tEncodeAll_erase zero E tVecWriter s' []
    have hv : (tVecWriter (κ := κ)).erase = vecWriter := rfl
    rw [hv] at h
    simp only [h]
    cases tEncodeAll zero E tVecWriter s' [] with
    | none => rfl
    | some p =>
      obtain ⟨r, s'', out⟩ := p
      simp only [eraseP_step, eraseP_tracked]; rfl

/-! ## Encoders -/

theorem tBytesEncoder_erase : (tBytesEncoder (κ := κ)).erase = (bytesEncoder id).toEncoder := by
  refine encoder_eq (fun s n e => ?_) (fun s x => ?_) (fun _ => rfl) (fun _ => rfl)
  · simp only [TEncoder.erase, tBytesEncoder, bytesEncoder]
    cases s.bytes with
    | none => rfl
    | some b => simp only [eraseP_ite]; rfl
  · simp only [TEncoder.erase, tBytesEncoder, bytesEncoder, eraseP_ite]; rfl

theorem tMapErrE_erase (E : TEncoder κ σ α) (g : TError κ → TError κ) (g' : ErrorKind → ErrorKind)
    (hg : ∀ x, (g x).kind = g' x.kind) : (tMapErrEncoder E g).erase = mapErrEncoder E.erase g' :=
  encoder_eq (fun _ _ _ => eraseP_mapErr _ _ hg _) (fun _ _ => eraseP_mapErr _ _ hg _) (fun _ => rfl) (fun _ => rfl)

theorem tTryMapFrom_erase (E : TEncoder κ σ α) (f : β → Except (TError κ) α) :
    (tTryMapFromEncoder E f).erase = tryMapFromEncoder E.erase (eraseFn f) := by
  refine encoder_eq (fun _ _ _ => rfl) (fun s x => ?_) (fun _ => rfl) (fun _ => rfl)
  simp only [TEncoder.erase, tTryMapFromEncoder, tryMapFromEncoder, eraseFn]
  cases f x <;> rfl

def TStarted.erase : TStarted κ σ α → Started σ α
  | .busy s rest => .busy s rest
  | .exhausted s => .exhausted s
  | .failed r s rest => .failed r.erase s rest

theorem tStartNext_erase (E : TEncoder κ σ α) : ∀ (items : List α) (s : σ),
    startNext E.erase s items = (tStartNext E s items).erase := by
  intro items
  induction items with
  | nil =>
    intro s
    rw [startNext, tStartNext]
    show (if E.isIdle s then _ else _) = _
    split <;> rfl
  | cons x xs ih =>
    intro s
    rw [startNext, tStartNext]
    show (if E.isIdle s then
      match eraseP (E.start s x) with
      | (.ok (), s') => startNext E.erase s' xs
      | (r, s') => Started.failed r s' xs
    else .busy s (x :: xs)) = _
    by_cases h : E.isIdle s = true
    · rw [if_pos h, if_pos h, ← eraseP_tracked (inCombinator 418)]
      generalize tracked (inCombinator 418) (E.start s x) = p
      obtain ⟨r, s'⟩ := p
      cases r with
      | ok u => exact ih s'
      | _ => rfl
    · rw [if_neg h, if_neg h]; rfl

theorem failAs_erase (r : TRes κ α) : (TRes.failAs (β := β) r).erase = r.erase.failAs := by cases r <;> rfl

theorem tRepeatLoop_erase (E : TEncoder κ σ α) (n : Nat) (e : Eos) (out : Bytes) (s : σ) (items : Option (List α)) :
    repeatLoop E.erase n e out s items = eraseP (tRepeatLoop E n e out s items) := by
  generalize hm : n + 1 - out.length = m
  induction m using Nat.strongRecOn generalizing out s items with
  | ind m ih =>
    rw [repeatLoop, tRepeatLoop, tStartNext_erase]
    cases tStartNext E s (items.getD []) with
    | exhausted s' => rfl
    | failed r s' rest => simp only [TStarted.erase, eraseP, failAs_erase]
    | busy s' rest =>
      simp only [TStarted.erase]
      by_cases h : n < out.length
      · rw [if_pos h, if_pos h]; rfl
      · rw [if_neg h, if_neg h]
        show (match eraseP (E.encode s' (n - out.length) e) with
          | (.ok bs, s'') =>
            if bs.length = 0 then ((.ok out, ⟨s'', items.map fun _ => rest⟩) : Res Bytes × RepeatState σ α)
            else repeatLoop E.erase n e (out ++ bs) s'' (items.map fun _ => rest)
          | (.err k, s'') => (.err k, ⟨s'', items.map fun _ => rest⟩)
          | (.panic, s'') => (.panic, ⟨s'', items.map fun _ => rest⟩)
          | (.capacity, s'') => (.capacity, ⟨s'', items.map fun _ => rest⟩)
          | (.diverge, s'') => (.diverge, ⟨s'', items.map fun _ => rest⟩)) = _
        rw [← eraseP_tracked (inCombinator 425)]
        generalize tracked (inCombinator 425) (E.encode s' (n - out.length) e) = q
        obtain ⟨r, s''⟩ := q
        cases r with
        | ok bs =>
          simp only [eraseP, TRes.erase]
          by_cases hb : bs.length = 0
          · rw [if_pos hb, if_pos hb]
          · rw [if_neg hb, if_neg hb]
            exact ih _ (by rw [← hm, List.length_append]; omega) _ _ _ rfl
        | _ => rfl

theorem tRepeat_erase (E : TEncoder κ σ α) : (tRepeatEncoder E).erase = repeatEncoder E.erase := by
  refine encoder_eq (fun s n e => (tRepeatLoop_erase E n e [] s.inner s.items).symm) (fun s x => ?_) (fun _ => rfl)
    (fun _ => rfl)
  simp only [TEncoder.erase, tRepeatEncoder, repeatEncoder, eraseP_ite]; rfl

theorem tOptional_erase (E : TEncoder κ σ α) : (tOptionalEncoder E).erase = optionalEncoder E.erase := by
  refine encoder_eq (fun _ _ _ => eraseP_tracked _ _) (fun s x => ?_) (fun _ => rfl) (fun _ => rfl)
  cases x with
  | none => rfl
  | some x => exact eraseP_tracked _ _

theorem tLengthE_erase (E : TEncoder κ σ α) : (tLengthEncoder E).erase = (lengthEncoder E.erase).toEncoder := by
  refine encoder_eq (fun s n e => ?_) (fun s x => ?_) (fun _ => rfl) (fun _ => rfl)
  · simp only [TEncoder.erase, tLengthEncoder, lengthEncoder, eraseP_ite, eraseP_step, eraseP_tracked]; rfl
  · simp only [TEncoder.erase, tLengthEncoder, lengthEncoder, eraseP_ite, eraseP_step, eraseP_tracked]; rfl

theorem tMaxBytesE_erase (E : TEncoder κ σ α) : (tMaxBytesEncoder E).erase = maxBytesEncoder E.erase := by
  refine encoder_eq (fun s n e => ?_) (fun s x => ?_) (fun _ => rfl) (fun _ => rfl)
  · simp only [TEncoder.erase, tMaxBytesEncoder, maxBytesEncoder, eraseP_ite, eraseP_step, eraseP_tracked]; rfl
  · simp only [TEncoder.erase, tMaxBytesEncoder, maxBytesEncoder, eraseP_step, eraseP_tracked]; rfl

theorem tPreEncode_erase (zero : κ) (E : TEncoder κ σ α) :
    (tPreEncodeEncoder zero E).erase = (preEncodeEncoder E.erase).toEncoder := by
  have hb := tBytesEncoder_erase (κ := κ)
  refine encoder_eq (fun s n e => ?_) (fun s x => ?_) (fun _ => rfl) (fun _ => rfl)
  · simp only [TEncoder.erase, tPreEncodeEncoder, preEncodeEncoder, eraseP_step, eraseP_tracked, ← hb]; rfl
  · simp only [TEncoder.erase, tPreEncodeEncoder, preEncodeEncoder, eraseP_step, eraseP_tracked, ← hb,
      tEncodeIntoBytes_erase]; rfl

theorem tSliceE_erase (E : TEncoder κ σ α) : (tSliceEncoder E).erase = sliceEncoder E.erase := by
  refine encoder_eq (fun s n e => ?_) (fun s x => ?_) (fun _ => rfl) (fun _ => rfl)
  · simp only [TEncoder.erase, tSliceEncoder, sliceEncoder]
    cases e.back (n - min n s.consumable) with
    | ok e' => simp only [eraseP_ite, eraseP_step, eraseP_tracked]; rfl
    | _ => rfl
  · simp only [TEncoder.erase, tSliceEncoder, sliceEncoder, eraseP_step, eraseP_tracked]; rfl

theorem tLast_erase (E : TEncoder κ σ α) : (tLastEncoder E).erase = lastEncoder E.erase := by
  refine encoder_eq (fun s n e => ?_) (fun s x => x.elim) (fun _ => rfl) (fun _ => rfl)
  simp only [TEncoder.erase, tLastEncoder, lastEncoder, eraseP_ite]
  congr 1
  · cases s.item with
    | none => simp only [eraseP_step, eraseP_tracked]; rfl
    | some x => simp only [eraseP_step, eraseP_tracked]; rfl
  · simp only [eraseP_step, eraseP_tracked]; rfl

theorem tPairE_erase {σ0 α0 σ1 α1 : Type} (E0 : TEncoder κ σ0 α0) (E1 : TEncoder κ σ1 α1) :
    (tPairEncoder E0 E1).erase = tupleEncoder2 E0.erase E1.erase := by
  refine encoder_eq (fun s b e => ?_) (fun s x => ?_) (fun _ => rfl) (fun _ => rfl)
  · simp only [tPairEncoder, tupleEncoder2]
    rw [← tTryEncode_erase ⟨"tuple.rs", 133⟩]
    simp only [TEncoder.erase]
    cases tTryEncode ⟨"tuple.rs", 133⟩ E0 s.1 [] b e with
    | ret r s' => rfl
    | next o s' =>
      simp only [TFlow.erase]
      have h := tTryEncode_erase ⟨"tuple.rs", 133⟩ E1 s.2 o b e
      simp only [TEncoder.erase] at h
      rw [← h]
      cases tTryEncode ⟨"tuple.rs", 133⟩ E1 s.2 o b e <;> rfl
  · simp only [TEncoder.erase, tPairEncoder, tupleEncoder2, eraseP_step, eraseP_tracked]
    rfl

theorem tTuple3E_erase {σ0 α0 σ1 α1 σ2 α2 : Type} (E0 : TEncoder κ σ0 α0) (E1 : TEncoder κ σ1 α1) (E2 : TEncoder κ σ2 α2) :
    (tTuple3Encoder E0 E1 E2).erase = tupleEncoder3 E0.erase E1.erase E2.erase := by
  refine encoder_eq (fun s b e => ?_) (fun s x => ?_) (fun _ => rfl) (fun _ => rfl)
  · simp only [tTuple3Encoder, tupleEncoder3]
    rw [← tTryEncode_erase ⟨"tuple.rs", 134⟩]
    simp only [TEncoder.erase]
    cases tTryEncode ⟨"tuple.rs", 134⟩ E0 s.1 [] b e with
    | ret r s' => rfl
    | next o0 s0 =>
      simp only [TFlow.erase]
      have h := tTryEncode_erase ⟨"tuple.rs", 134⟩ E1 s.2.1 o0 b e
      simp only [TEncoder.erase] at h
      rw [← h]
      clear h
      cases tTryEncode ⟨"tuple.rs", 134⟩ E1 s.2.1 o0 b e with
      | ret r s' => rfl
      | next o1 s1 =>
        simp only [TFlow.erase]
        have h := tTryEncode_erase ⟨"tuple.rs", 134⟩ E2 s.2.2 o1 b e
        simp only [TEncoder.erase] at h
        rw [← h]
        cases tTryEncode ⟨"tuple.rs", 134⟩ E2 s.2.2 o1 b e <;> rfl
  · simp only [TEncoder.erase, tTuple3Encoder, tupleEncoder3, eraseP_step, eraseP_tracked]
    rfl

theorem tTuple4E_erase {σ0 α0 σ1 α1 σ2 α2 σ3 α3 : Type} (E0 : TEncoder κ σ0 α0) (E1 : TEncoder κ σ1 α1) (E2 : TEncoder κ σ2 α2) (E3 : TEncoder κ σ3 α3) :
    (tTuple4Encoder E0 E1 E2 E3).erase = tupleEncoder4 E0.erase E1.erase E2.erase E3.erase := by
  refine encoder_eq (fun s b e => ?_) (fun s x => ?_) (fun _ => rfl) (fun _ => rfl)
  · simp only [tTuple4Encoder, tupleEncoder4]
    rw [← tTryEncode_erase ⟨"tuple.rs", 135⟩]
    simp only [TEncoder.erase]
    cases tTryEncode ⟨"tuple.rs", 135⟩ E0 s.1 [] b e with
    | ret r s' => rfl
    | next o0 s0 =>
      simp only [TFlow.erase]
      have h := tTryEncode_erase ⟨"tuple.rs", 135⟩ E1 s.2.1 o0 b e
      simp only [TEncoder.erase] at h
      rw [← h]
      clear h
      cases tTryEncode ⟨"tuple.rs", 135⟩ E1 s.2.1 o0 b e with
      | ret r s' => rfl
      | next o1 s1 =>
        simp only [TFlow.erase]
        have h := tTryEncode_erase ⟨"tuple.rs", 135⟩ E2 s.2.2.1 o1 b e
        simp only [TEncoder.erase] at h
        rw [← h]
        clear h
        cases tTryEncode ⟨"tuple.rs", 135⟩ E2 s.2.2.1 o1 b e with
        | ret r s' => rfl
        | next o2 s2 =>
          simp only [TFlow.erase]
          have h := tTryEncode_erase ⟨"tuple.rs", 135⟩ E3 s.2.2.2 o2 b e
          simp only [TEncoder.erase] at h
          rw [← h]
          cases tTryEncode ⟨"tuple.rs", 135⟩ E3 s.2.2.2 o2 b e <;> rfl
  · simp only [TEncoder.erase, tTuple4Encoder, tupleEncoder4, eraseP_step, eraseP_tracked]
    rfl

theorem tTuple5E_erase {σ0 α0 σ1 α1 σ2 α2 σ3 α3 σ4 α4 : Type} (E0 : TEncoder κ σ0 α0) (E1 : TEncoder κ σ1 α1) (E2 : TEncoder κ σ2 α2) (E3 : TEncoder κ σ3 α3) (E4 : TEncoder κ σ4 α4) :
    (tTuple5Encoder E0 E1 E2 E3 E4).erase = tupleEncoder5 E0.erase E1.erase E2.erase E3.erase E4.erase := by
  refine encoder_eq (fun s b e => ?_) (fun s x => ?_) (fun _ => rfl) (fun _ => rfl)
  · simp only [tTuple5Encoder, tupleEncoder5]
    rw [← tTryEncode_erase ⟨"tuple.rs", 136⟩]
    simp only [TEncoder.erase]
    cases tTryEncode ⟨"tuple.rs", 136⟩ E0 s.1 [] b e with
    | ret r s' => rfl
    | next o0 s0 =>
      simp only [TFlow.erase]
      have h := tTryEncode_erase ⟨"tuple.rs", 136⟩ E1 s.2.1 o0 b e
      simp only [TEncoder.erase] at h
      rw [← h]
      clear h
      cases tTryEncode ⟨"tuple.rs", 136⟩ E1 s.2.1 o0 b e with
      | ret r s' => rfl
      | next o1 s1 =>
        simp only [TFlow.erase]
        have h := tTryEncode_erase ⟨"tuple.rs", 136⟩ E2 s.2.2.1 o1 b e
        simp only [TEncoder.erase] at h
        rw [← h]
        clear h
        cases tTryEncode ⟨"tuple.rs", 136⟩ E2 s.2.2.1 o1 b e with
        | ret r s' => rfl
        | next o2 s2 =>
          simp only [TFlow.erase]
          have h := tTryEncode_erase ⟨"tuple.rs", 136⟩ E3 s.2.2.2.1 o2 b e
          simp only [TEncoder.erase] at h
          rw [← h]
          clear h
          cases tTryEncode ⟨"tuple.rs", 136⟩ E3 s.2.2.2.1 o2 b e with
          | ret r s' => rfl
          | next o3 s3 =>
            simp only [TFlow.erase]
            have h := tTryEncode_erase ⟨"tuple.rs", 136⟩ E4 s.2.2.2.2 o3 b e
            simp only [TEncoder.erase] at h
            rw [← h]
            cases tTryEncode ⟨"tuple.rs", 136⟩ E4 s.2.2.2.2 o3 b e <;> rfl
  · simp only [TEncoder.erase, tTuple5Encoder, tupleEncoder5, eraseP_step, eraseP_tracked]
    rfl

theorem tTuple6E_erase {σ0 α0 σ1 α1 σ2 α2 σ3 α3 σ4 α4 σ5 α5 : Type} (E0 : TEncoder κ σ0 α0) (E1 : TEncoder κ σ1 α1) (E2 : TEncoder κ σ2 α2) (E3 : TEncoder κ σ3 α3) (E4 : TEncoder κ σ4 α4) (E5 : TEncoder κ σ5 α5) :
    (tTuple6Encoder E0 E1 E2 E3 E4 E5).erase = tupleEncoder6 E0.erase E1.erase E2.erase E3.erase E4.erase E5.erase := by
  refine encoder_eq (fun s b e => ?_) (fun s x => ?_) (fun _ => rfl) (fun _ => rfl)
  · simp only [tTuple6Encoder, tupleEncoder6]
    rw [← tTryEncode_erase ⟨"tuple.rs", 137⟩]
    simp only [TEncoder.erase]
    cases tTryEncode ⟨"tuple.rs", 137⟩ E0 s.1 [] b e with
    | ret r s' => rfl
    | next o0 s0 =>
      simp only [TFlow.erase]
      have h := tTryEncode_erase ⟨"tuple.rs", 137⟩ E1 s.2.1 o0 b e
      simp only [TEncoder.erase] at h
      rw [← h]
      clear h
      cases tTryEncode ⟨"tuple.rs", 137⟩ E1 s.2.1 o0 b e with
      | ret r s' => rfl
      | next o1 s1 =>
        simp only [TFlow.erase]
        have h := tTryEncode_erase ⟨"tuple.rs", 137⟩ E2 s.2.2.1 o1 b e
        simp only [TEncoder.erase] at h
        rw [← h]
        clear h
        cases tTryEncode ⟨"tuple.rs", 137⟩ E2 s.2.2.1 o1 b e with
        | ret r s' => rfl
        | next o2 s2 =>
          simp only [TFlow.erase]
          have h := tTryEncode_erase ⟨"tuple.rs", 137⟩ E3 s.2.2.2.1 o2 b e
          simp only [TEncoder.erase] at h
          rw [← h]
          clear h
          cases tTryEncode ⟨"tuple.rs", 137⟩ E3 s.2.2.2.1 o2 b e with
          | ret r s' => rfl
          | next o3 s3 =>
            simp only [TFlow.erase]
            have h := tTryEncode_erase ⟨"tuple.rs", 137⟩ E4 s.2.2.2.2.1 o3 b e
            simp only [TEncoder.erase] at h
            rw [← h]
            clear h
            cases tTryEncode ⟨"tuple.rs", 137⟩ E4 s.2.2.2.2.1 o3 b e with
            | ret r s' => rfl
            | next o4 s4 =>
              simp only [TFlow.erase]
              have h := tTryEncode_erase ⟨"tuple.rs", 137⟩ E5 s.2.2.2.2.2 o4 b e
              simp only [TEncoder.erase] at h
              rw [← h]
              cases tTryEncode ⟨"tuple.rs", 137⟩ E5 s.2.2.2.2.2 o4 b e <;> rfl
  · simp only [TEncoder.erase, tTuple6Encoder, tupleEncoder6, eraseP_step, eraseP_tracked]
    rfl

theorem tTuple7E_erase {σ0 α0 σ1 α1 σ2 α2 σ3 α3 σ4 α4 σ5 α5 σ6 α6 : Type} (E0 : TEncoder κ σ0 α0) (E1 : TEncoder κ σ1 α1) (E2 : TEncoder κ σ2 α2) (E3 : TEncoder κ σ3 α3) (E4 : TEncoder κ σ4 α4) (E5 : TEncoder κ σ5 α5) (E6 : TEncoder κ σ6 α6) :
    (tTuple7Encoder E0 E1 E2 E3 E4 E5 E6).erase = tupleEncoder7 E0.erase E1.erase E2.erase E3.erase E4.erase E5.erase E6.erase := by
  refine encoder_eq (fun s b e => ?_) (fun s x => ?_) (fun _ => rfl) (fun _ => rfl)
  · simp only [tTuple7Encoder, tupleEncoder7]
    rw [← tTryEncode_erase ⟨"tuple.rs", 138⟩]
    simp only [TEncoder.erase]
    cases tTryEncode ⟨"tuple.rs", 138⟩ E0 s.1 [] b e with
    | ret r s' => rfl
    | next o0 s0 =>
      simp only [TFlow.erase]
      have h := tTryEncode_erase ⟨"tuple.rs", 138⟩ E1 s.2.1 o0 b e
      simp only [TEncoder.erase] at h
      rw [← h]
      clear h
      cases tTryEncode ⟨"tuple.rs", 138⟩ E1 s.2.1 o0 b e with
      | ret r s' => rfl
      | next o1 s1 =>
        simp only [TFlow.erase]
        have h := tTryEncode_erase ⟨"tuple.rs", 138⟩ E2 s.2.2.1 o1 b e
        simp only [TEncoder.erase] at h
        rw [← h]
        clear h
        cases tTryEncode ⟨"tuple.rs", 138⟩ E2 s.2.2.1 o1 b e with
        | ret r s' => rfl
        | next o2 s2 =>
          simp only [TFlow.erase]
          have h := tTryEncode_erase ⟨"tuple.rs", 138⟩ E3 s.2.2.2.1 o2 b e
          simp only [TEncoder.erase] at h
          rw [← h]
          clear h
          cases tTryEncode ⟨"tuple.rs", 138⟩ E3 s.2.2.2.1 o2 b e with
          | ret r s' => rfl
          | next o3 s3 =>
            simp only [TFlow.erase]
            have h := tTryEncode_erase ⟨"tuple.rs", 138⟩ E4 s.2.2.2.2.1 o3 b e
            simp only [TEncoder.erase] at h
            rw [← h]
            clear h
            cases tTryEncode ⟨"tuple.rs", 138⟩ E4 s.2.2.2.2.1 o3 b e with
            | ret r s' => rfl
            | next o4 s4 =>
              simp only [TFlow.erase]
              have h := tTryEncode_erase ⟨"tuple.rs", 138⟩ E5 s.2.2.2.2.2.1 o4 b e
              simp only [TEncoder.erase] at h
              rw [← h]
              clear h
              cases tTryEncode ⟨"tuple.rs", 138⟩ E5 s.2.2.2.2.2.1 o4 b e with
              | ret r s' => rfl
              | next o5 s5 =>
                simp only [TFlow.erase]
                have h := tTryEncode_erase ⟨"tuple.rs", 138⟩ E6 s.2.2.2.2.2.2 o5 b e
                simp only [TEncoder.erase] at h
                rw [← h]
                cases tTryEncode ⟨"tuple.rs", 138⟩ E6 s.2.2.2.2.2.2 o5 b e <;> rfl
  · simp only [TEncoder.erase, tTuple7Encoder, tupleEncoder7, eraseP_step, eraseP_tracked]
    rfl

theorem tTuple8E_erase {σ0 α0 σ1 α1 σ2 α2 σ3 α3 σ4 α4 σ5 α5 σ6 α6 σ7 α7 : Type} (E0 : TEncoder κ σ0 α0) (E1 : TEncoder κ σ1 α1) (E2 : TEncoder κ σ2 α2) (E3 : TEncoder κ σ3 α3) (E4 : TEncoder κ σ4 α4) (E5 : TEncoder κ σ5 α5) (E6 : TEncoder κ σ6 α6) (E7 : TEncoder κ σ7 α7) :
    (tTuple8Encoder E0 E1 E2 E3 E4 E5 E6 E7).erase = tupleEncoder8 E0.erase E1.erase E2.erase E3.erase E4.erase E5.erase E6.erase E7.erase := by
  refine encoder_eq (fun s b e => ?_) (fun s x => ?_) (fun _ => rfl) (fun _ => rfl)
  · simp only [tTuple8Encoder, tupleEncoder8]
    rw [← tTryEncode_erase ⟨"tuple.rs", 139⟩]
    simp only [TEncoder.erase]
    cases tTryEncode ⟨"tuple.rs", 139⟩ E0 s.1 [] b e with
    | ret r s' => rfl
    | next o0 s0 =>
      simp only [TFlow.erase]
      have h := tTryEncode_erase ⟨"tuple.rs", 139⟩ E1 s.2.1 o0 b e
      simp only [TEncoder.erase] at h
      rw [← h]
      clear h
      cases tTryEncode ⟨"tuple.rs", 139⟩ E1 s.2.1 o0 b e with
      | ret r s' => rfl
      | next o1 s1 =>
        simp only [TFlow.erase]
        have h := tTryEncode_erase ⟨"tuple.rs", 139⟩ E2 s.2.2.1 o1 b e
        simp only [TEncoder.erase] at h
        rw [← h]
        clear h
        cases tTryEncode ⟨"tuple.rs", 139⟩ E2 s.2.2.1 o1 b e with
        | ret r s' => rfl
        | next o2 s2 =>
          simp only [TFlow.erase]
          have h := tTryEncode_erase ⟨"tuple.rs", 139⟩ E3 s.2.2.2.1 o2 b e
          simp only [TEncoder.erase] at h
          rw [← h]
          clear h
          cases tTryEncode ⟨"tuple.rs", 139⟩ E3 s.2.2.2.1 o2 b e with
          | ret r s' => rfl
          | next o3 s3 =>
            simp only [TFlow.erase]
            have h := tTryEncode_erase ⟨"tuple.rs", 139⟩ E4 s.2.2.2.2.1 o3 b e
            simp only [TEncoder.erase] at h
            rw [← h]
            clear h
            cases tTryEncode ⟨"tuple.rs", 139⟩ E4 s.2.2.2.2.1 o3 b e with
            | ret r s' => rfl
            | next o4 s4 =>
              simp only [TFlow.erase]
              have h := tTryEncode_erase ⟨"tuple.rs", 139⟩ E5 s.2.2.2.2.2.1 o4 b e
              simp only [TEncoder.erase] at h
              rw [← h]
              clear h
              cases tTryEncode ⟨"tuple.rs", 139⟩ E5 s.2.2.2.2.2.1 o4 b e with
              | ret r s' => rfl
              | next o5 s5 =>
                simp only [TFlow.erase]
                have h := tTryEncode_erase ⟨"tuple.rs", 139⟩ E6 s.2.2.2.2.2.2.1 o5 b e
                simp only [TEncoder.erase] at h
                rw [← h]
                clear h
                cases tTryEncode ⟨"tuple.rs", 139⟩ E6 s.2.2.2.2.2.2.1 o5 b e with
                | ret r s' => rfl
                | next o6 s6 =>
                  simp only [TFlow.erase]
                  have h := tTryEncode_erase ⟨"tuple.rs", 139⟩ E7 s.2.2.2.2.2.2.2 o6 b e
                  simp only [TEncoder.erase] at h
                  rw [← h]
                  cases tTryEncode ⟨"tuple.rs", 139⟩ E7 s.2.2.2.2.2.2.2 o6 b e <;> rfl
  · simp only [TEncoder.erase, tTuple8Encoder, tupleEncoder8, eraseP_step, eraseP_tracked]
    rfl

theorem tracedEnc_erase {σ α : Type} {O : TError κ → Prop} {E : TEncoder κ σ α} {P : Encoder σ α} (h : TracedEnc O E P) :
    E.erase = P := by
  induction h with
  | part E => rfl
  | bytes => exact tBytesEncoder_erase
  | mapErr g g' hg _ ih => subst ih; exact tMapErrE_erase _ _ _ hg
  | mapFrom f _ ih => subst ih; rfl
  | tryMapFrom f _ ih => subst ih; exact tTryMapFrom_erase _ _
  | «repeat» _ ih => subst ih; exact tRepeat_erase _
  | optional _ ih => subst ih; exact tOptional_erase _
  | length _ ih => subst ih; exact tLengthE_erase _
  | maxBytes _ ih => subst ih; exact tMaxBytesE_erase _
  | preEncode zero _ ih => subst ih; exact tPreEncode_erase _ _
  | slice _ ih => subst ih; exact tSliceE_erase _
  | last _ ih => subst ih; exact tLast_erase _
  | pair _ _ ih0 ih1 => subst ih0 ih1; exact tPairE_erase _ _
  | tuple3 _ _ _ ih0 ih1 ih2 => subst ih0 ih1 ih2; exact tTuple3E_erase _ _ _
  | tuple4 _ _ _ _ ih0 ih1 ih2 ih3 => subst ih0 ih1 ih2 ih3; exact tTuple4E_erase _ _ _ _
  | tuple5 _ _ _ _ _ ih0 ih1 ih2 ih3 ih4 => subst ih0 ih1 ih2 ih3 ih4; exact tTuple5E_erase _ _ _ _ _
  | tuple6 _ _ _ _ _ _ ih0 ih1 ih2 ih3 ih4 ih5 => subst ih0 ih1 ih2 ih3 ih4 ih5; exact tTuple6E_erase _ _ _ _ _ _
  | tuple7 _ _ _ _ _ _ _ ih0 ih1 ih2 ih3 ih4 ih5 ih6 => subst ih0 ih1 ih2 ih3 ih4 ih5 ih6; exact tTuple7E_erase _ _ _ _ _ _ _
  | tuple8 _ _ _ _ _ _ _ _ ih0 ih1 ih2 ih3 ih4 ih5 ih6 ih7 => subst ih0 ih1 ih2 ih3 ih4 ih5 ih6 ih7; exact tTuple8E_erase _ _ _ _ _ _ _ _

end Bytecodec
