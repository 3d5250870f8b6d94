import Verif.Spec.TrackedLeaves
import Verif.Lemmas.TrackedEraseEnc
import Verif.Lemmas.TrackedOriginEnc
import Verif.Lemmas.CodesIo
/-!
# Lemmas: the errors of the codecs that are no combinators
-/
namespace Bytecodec

variable {κ σ α β τ : Type} {P : TError κ → Prop}

/-! ## With kinds only -/

theorem tBytesEncoderOf_erase (asRef : β → Bytes) :
    (tBytesEncoderOf (κ := κ) asRef).erase = (bytesEncoder asRef).toEncoder := by
  refine encoder_eq (fun s n e => ?_) (fun s x => ?_) (fun _ => rfl) (fun _ => rfl)
  · simp only [TEncoder.erase, tBytesEncoderOf, bytesEncoder]
    cases s.bytes with
    | none => rfl
    | some b => simp only [eraseP_ite]; rfl
  · simp only [TEncoder.erase, tBytesEncoderOf, bytesEncoder, eraseP_ite]; rfl

theorem tCopyable_erase : (tCopyableBytesDecoder (κ := κ)).erase = copyableBytesDecoder := by
  refine decoder_eq (fun s b e => ?_) (fun s => ?_) (fun _ => rfl) (fun _ => rfl)
  · simp only [TDecoder.erase, tCopyableBytesDecoder, copyableBytesDecoder, eraseP_ite]; rfl
  · simp only [TDecoder.erase, tCopyableBytesDecoder, copyableBytesDecoder, eraseP_ite]; rfl

theorem tBytesDecoder_erase : (tBytesDecoder (κ := κ)).erase = bytesDecoder := by
  refine decoder_eq (fun s b e => ?_) (fun s => ?_) (fun _ => rfl) (fun _ => rfl)
  · simp only [TDecoder.erase, tBytesDecoder, bytesDecoder]
    cases s.bytes with
    | none => rfl
    | some b => simp only [eraseP_ite]; rfl
  · simp only [TDecoder.erase, tBytesDecoder, bytesDecoder, eraseP_ite]
    congr 1
    cases s.bytes <;> rfl

theorem tRemaining_erase : (tRemainingBytesDecoder (κ := κ)).erase = remainingBytesDecoder := by
  refine decoder_eq (fun s b e => ?_) (fun s => ?_) (fun _ => rfl) (fun _ => rfl)
  · simp only [TDecoder.erase, tRemainingBytesDecoder, remainingBytesDecoder, eraseP_ite]
    congr 1
    cases e.remainingBytes.toU64 with
    | none => rfl
    | some r => simp only [eraseP_ite]; rfl
  · simp only [TDecoder.erase, tRemainingBytesDecoder, remainingBytesDecoder, eraseP_ite]; rfl

theorem tPadding_erase : (tPaddingDecoder (κ := κ)).erase = paddingDecoder := by
  refine decoder_eq (fun s b e => ?_) (fun s => ?_) (fun _ => rfl) (fun _ => rfl)
  · simp only [TDecoder.erase, tPaddingDecoder, paddingDecoder, eraseP_ite]
    congr 1
    cases s.expected with
    | none => rfl
    | some r => simp only [eraseP_ite]; rfl
  · simp only [TDecoder.erase, tPaddingDecoder, paddingDecoder, eraseP_ite]; rfl

theorem tPaddingE_erase : (tPaddingEncoder (κ := κ)).erase = paddingEncoder := by
  refine encoder_eq (fun s n e => ?_) (fun s x => ?_) (fun _ => rfl) (fun _ => rfl)
  · cases s <;> rfl
  · simp only [TEncoder.erase, tPaddingEncoder, paddingEncoder, eraseP_ite]; rfl

theorem tUtf8E_erase : (tUtf8Encoder (κ := κ)).erase = utf8Encoder.toEncoder := by
  have hb := tBytesEncoderOf_erase (κ := κ) utf8Bytes
  refine encoder_eq (fun s n e => ?_) (fun s x => ?_) (fun _ => rfl) (fun _ => rfl)
  · exact (eraseP_tracked _ _).trans (congrArg (fun E => E.encode s n e) hb)
  · exact (eraseP_tracked _ _).trans (congrArg (fun E => E.start s x) hb)

theorem tFix_erase (line : Nat) (f : Bytes → α) : (tFixDecoder (κ := κ) line f).erase = fixDecoder f := by
  have hb := tCopyable_erase (κ := κ)
  refine decoder_eq (fun s b e => ?_) (fun s => ?_) (fun _ => rfl) (fun _ => rfl)
  · exact (eraseP_tracked _ _).trans (congrArg (fun D => D.decode s b e) hb)
  · simp only [TDecoder.erase, tFixDecoder, fixDecoder, eraseP_step, eraseP_tracked, ← hb]; rfl

theorem tFixE_erase (line : Nat) (f : α → Except (TError κ) Bytes) :
    (tFixEncoder line f).erase = (fixEncoder (eraseFn f)).toEncoder := by
  have hb := tBytesEncoderOf_erase (κ := κ) (id : Bytes → Bytes)
  refine encoder_eq (fun s n e => ?_) (fun s x => ?_) (fun _ => rfl) (fun _ => rfl)
  · exact (eraseP_tracked _ _).trans (congrArg (fun E => E.encode s n e) hb)
  · simp only [TEncoder.erase, tFixEncoder, fixEncoder, eraseFn]
    cases f x with
    | ok b => exact (eraseP_tracked _ _).trans (congrArg (fun E => E.start s b) hb)
    | error k => rfl

theorem eraseFn_bounded (at_ max : Nat) (toNat : α → Nat) (write : Nat → Bytes) :
    eraseFn (tBounded (κ := κ) at_ max toNat write) =
      fun n => if toNat n ≤ max then .ok (write (toNat n)) else .error .invalidInput := by
  funext n
  simp only [eraseFn, tBounded]
  by_cases h : toNat n ≤ max
  · simp only [if_pos h]
  · simp only [if_neg h]; rfl

theorem tMonolithic_erase (parse : TMonolithicParser κ α) :
    (tMonolithicDecoder parse).erase = monolithicDecoder (eraseParser parse) := by
  refine decoder_eq (fun s b e => ?_) (fun s => ?_) (fun _ => rfl) (fun _ => rfl)
  · simp only [TDecoder.erase, tMonolithicDecoder, monolithicDecoder, eraseP_ite, eraseP_step, eraseP_tracked, eraseParser]
    congr 1
    generalize parse s.buf b = p
    obtain ⟨r, n⟩ := p
    cases r <;> rfl
  · simp only [TDecoder.erase, tMonolithicDecoder, monolithicDecoder]
    cases s.item <;> rfl

theorem tChainWriter_erase : (tChainWriter (κ := κ)).erase = chainWriter := by
  simp only [TWriter.erase, tChainWriter, chainWriter]
  congr 1
  funext w b
  split <;> rfl

theorem tSerialize_erase {ω : Type} (zero : κ) (W : TWriter κ ω) (cs : List Bytes) :
    ∀ w, eraseP (tSerialize zero W w cs) = serialize W.erase w cs := by
  induction cs with
  | nil => intro w; rfl
  | cons c cs ih =>
    intro w
    simp only [tSerialize, serialize, eraseP_step, tWriteAll_erase, ih]

theorem tSerialize_chain (zero : κ) (cs : List Bytes) (w : ChainState) :
    ∃ w', tSerialize zero tChainWriter w cs = (.ok (), w') := by
  have h := tSerialize_erase zero tChainWriter cs w
  rw [tChainWriter_erase, serialize_chain] at h
  generalize tSerialize zero tChainWriter w cs = p at h
  obtain ⟨r, w'⟩ := p
  cases r with
  | ok _ => exact ⟨w', rfl⟩
  | _ => simp only [eraseP, TRes.erase, Prod.mk.injEq, reduceCtorEq, false_and] at h

theorem tMonolithicE_erase (zero : κ) (ser : TMonolithicSerializer κ α) :
    (tMonolithicEncoder zero ser).erase = monolithicEncoder (eraseSerializer ser) := by
  have hb := tBytesEncoderOf_erase (κ := κ) (id : Bytes → Bytes)
  have h1 : ∀ s n e, eraseP ((tBytesEncoderOf (κ := κ) (id : Bytes → Bytes)).encode s n e) = (bytesEncoder id).encode s n e :=
    fun s n e => congrArg (fun E => E.encode s n e) hb
  have h2 : ∀ s x, eraseP ((tBytesEncoderOf (κ := κ) (id : Bytes → Bytes)).start s x) = (bytesEncoder id).start s x :=
    fun s x => congrArg (fun E => E.start s x) hb
  refine encoder_eq (fun s n e => ?_) (fun s x => ?_) (fun _ => rfl) (fun _ => rfl)
  · simp only [TEncoder.erase, tMonolithicEncoder, monolithicEncoder]
    cases s.item with
    | none => simp only [eraseP_step, eraseP_tracked, h1]; rfl
    | some x =>
      simp only [eraseP_step, eraseP_tracked, eraseP_ite, h2, tSerialize_erase, tChainWriter_erase, eraseSerializer]
      rw [serialize_chain]
      simp only [Res.step]
      cases (ser x).2 <;> rfl
  · simp only [TEncoder.erase, tMonolithicEncoder, monolithicEncoder, eraseP_ite]; rfl

theorem tDelegate_erase (l l' : Loc) (D : TDecoder κ σ α) : (tDelegate l l' D).erase = D.erase :=
  decoder_eq (fun _ _ _ => eraseP_tracked _ _) (fun _ => eraseP_tracked _ _) (fun _ => rfl) (fun _ => rfl)

theorem tDelegateE_erase (l l' : Loc) (E : TEncoder κ σ α) : (tDelegateE l l' E).erase = E.erase :=
  encoder_eq (fun _ _ _ => eraseP_tracked _ _) (fun _ _ => eraseP_tracked _ _) (fun _ => rfl) (fun _ => rfl)

theorem eraseParser_json (de : Bytes → Except κ α) : eraseParser (tJsonParser de) = jsonParser (eraseDe de) := by
  funext a b
  simp only [eraseParser, tJsonParser, jsonParser, eraseDe]
  cases de (a ++ b) <;> rfl

theorem eraseParser_bincode (de : Bytes → Except κ (α × Nat)) :
    eraseParser (tBincodeParser de) = bincodeParser (eraseDe de) := by
  funext a b
  simp only [eraseParser, tBincodeParser, bincodeParser, eraseDe]
  cases de (a ++ b) with
  | ok p => rfl
  | error c => rfl

theorem eraseSerializer_serde (l : Loc) (ser : TSerdeWrite κ α) :
    eraseSerializer (tSerdeSerializer l ser) = serdeSerializer (eraseSer ser) := by
  funext x
  refine Prod.ext rfl ?_
  show (tSerdeSerializer l ser x).2.erase = if (ser x).2.isNone then Res.ok () else .err .invalidInput
  simp only [tSerdeSerializer]
  cases (ser x).2 <;> rfl

theorem leafDec_erase {O : TError κ → Prop} {D : TDecoder κ σ α} {M : Decoder σ α} (h : LeafDec O D M) : D.erase = M := by
  cases h with
  | null => rfl
  | copyable => exact tCopyable_erase
  | bytes => exact tBytesDecoder_erase
  | remaining => exact tRemaining_erase
  | padding => exact tPadding_erase
  | number line f => exact tFix_erase line f
  | monolithic parse => exact tMonolithic_erase parse
  | json de => rw [tJsonDecoder, tDelegate_erase, tMonolithic_erase, eraseParser_json]; rfl
  | bincode de => rw [tBincodeDecoder, tDelegate_erase, tMonolithic_erase, eraseParser_bincode]; rfl

theorem leafEnc_erase {O : TError κ → Prop} {E : TEncoder κ σ α} {M : Encoder σ α} (h : LeafEnc O E M) : E.erase = M := by
  cases h with
  | null => rfl
  | bytes f => exact tBytesEncoderOf_erase f
  | utf8 => exact tUtf8E_erase
  | padding => exact tPaddingE_erase
  | number line f => rw [tFixE_erase]; rfl
  | bounded line at_ max toNat write => rw [tFixE_erase, eraseFn_bounded]
  | monolithic zero ser => exact tMonolithicE_erase zero ser
  | json zero ser => rw [tJsonEncoder, tDelegateE_erase, tMonolithicE_erase, eraseSerializer_serde]; rfl
  | bincode zero ser => rw [tBincodeEncoder, tDelegateE_erase, tMonolithicE_erase, eraseSerializer_serde]; rfl

/-! ## Where the errors come from -/

theorem only_bytesEncoderOf (hP : Open P) (asRef : β → Bytes) : OnlyEnc P (tBytesEncoderOf (κ := κ) asRef) := by
  refine ⟨fun s n e => ?_, fun s x => ?_⟩
  · simp only [tBytesEncoderOf]
    cases s.bytes with
    | none => exact only_ok _ _
    | some b =>
      exact only_ite (only_panic _) (only_ite (only_ok _ _) (only_ite (only_err (hP.raised _ _) _) (only_ok _ _)))
  · exact only_ite (only_ok _ _) (only_err (hP.raised _ _) _)

theorem only_copyable (hP : Open P) : OnlyDec P (tCopyableBytesDecoder (κ := κ)) :=
  ⟨fun _ _ _ => only_ite (only_panic _) (only_ite (only_err (hP.raised _ _) _) (only_ok _ _)),
    fun _ => only_ite (only_ok _ _) (only_err (hP.raised _ _) _)⟩

theorem only_bytesDecoder (hP : Open P) : OnlyDec P (tBytesDecoder (κ := κ)) := by
  refine ⟨fun s b e => ?_, fun s => ?_⟩
  · simp only [tBytesDecoder]
    cases s.bytes with
    | none => exact only_err (hP.raised _ _) _
    | some b => exact only_ite (only_panic _) (only_ite (only_err (hP.raised _ _) _) (only_ok _ _))
  · simp only [tBytesDecoder]
    refine only_ite (only_err (hP.raised _ _) _) ?_
    cases s.bytes with
    | none => exact only_err (hP.raised _ _) _
    | some b => exact only_ok _ _

theorem only_remaining (hP : Open P) : OnlyDec P (tRemainingBytesDecoder (κ := κ)) := by
  refine ⟨fun s b e => ?_, fun s => only_ite (only_ok _ _) (only_err (hP.raised _ _) _)⟩
  simp only [tRemainingBytesDecoder]
  refine only_ite (only_ok _ _) ?_
  cases e.remainingBytes.toU64 with
  | none => exact only_ok _ _
  | some r => exact only_ite (only_panic _) (only_ite (only_capacity _) (only_ok _ _))

theorem only_padding (hP : Open P) : OnlyDec P (tPaddingDecoder (κ := κ)) := by
  refine ⟨fun s b e => ?_, fun s => only_ite (only_ok _ _) (only_err (hP.raised _ _) _)⟩
  simp only [tPaddingDecoder]
  refine only_ite (only_ok _ _) ?_
  cases s.expected with
  | none => exact only_ok _ _
  | some r => exact only_ite (only_ok _ _) (only_err (hP.raised _ _) _)

theorem only_paddingE (hP : Open P) : OnlyEnc P (tPaddingEncoder (κ := κ)) := by
  refine ⟨fun s n e => ?_, fun s x => only_ite (only_ok _ _) (only_err (hP.raised _ _) _)⟩
  cases s <;> exact only_ok _ _

theorem only_fix (hP : Open P) (line : Nat) (f : Bytes → α) : OnlyDec P (tFixDecoder (κ := κ) line f) :=
  ⟨fun s b e => only_tracked hP _ ((only_copyable hP).decode s b e),
    fun s => only_step _ _ (only_tracked hP _ ((only_copyable hP).finish s)) fun _ _ => only_ok _ _⟩

theorem only_fixE (hP : Open P) (line : Nat) (f : α → Except (TError κ) Bytes) (hf : ∀ a x, f a = .error x → P x) :
    OnlyEnc P (tFixEncoder line f) := by
  refine ⟨fun s n e => only_tracked hP _ ((only_bytesEncoderOf hP id).encode s n e), fun s a => ?_⟩
  simp only [tFixEncoder]
  cases h : f a with
  | ok b => exact only_tracked hP _ ((only_bytesEncoderOf hP id).start s b)
  | error x => exact only_tracked hP _ (only_err (hf a x h) _)

theorem only_monolithic (hP : Open P) (parse : TMonolithicParser κ α) (hp : ∀ a b x, (parse a b).1 = .err x → P x) :
    OnlyDec P (tMonolithicDecoder parse) := by
  refine ⟨fun s b e => ?_, fun s => ?_⟩
  · exact only_ite (only_step _ _ (only_tracked hP _ fun x hx => hp _ _ x hx) fun _ _ => only_ok _ _) (only_ok _ _)
  · simp only [tMonolithicDecoder]
    cases s.item with
    | none => exact only_err (hP.raised _ _) _
    | some x => exact only_ok _ _

theorem only_monolithicE (hP : Open P) (zero : κ) (ser : TMonolithicSerializer κ α) (hs : ∀ a x, (ser a).2 = .err x → P x) :
    OnlyEnc P (tMonolithicEncoder zero ser) := by
  refine ⟨fun s n e => ?_, fun s x => only_ite (only_ok _ _) (only_err (hP.raised _ _) _)⟩
  simp only [tMonolithicEncoder]
  cases s.item with
  | none =>
    exact only_step _ _ (only_tracked hP _ ((only_bytesEncoderOf hP id).encode _ _ _)) fun _ _ => only_ok _ _
  | some a =>
    refine only_step _ _ (only_tracked hP _ (only_step _ _ ?_ fun _ _ x hx => hs a x hx)) fun _ w => ?_
    · obtain ⟨w', hw⟩ := tSerialize_chain zero (ser a).1 ⟨[], n, []⟩
      rw [hw]
      exact only_ok _ _
    · exact only_ite (only_ok _ _)
        (only_step _ _ (only_tracked hP _ ((only_bytesEncoderOf hP id).start _ _)) fun _ _ => only_ok _ _)

theorem only_delegate (hP : Open P) (l l' : Loc) {D : TDecoder κ σ α} (h : OnlyDec P D) : OnlyDec P (tDelegate l l' D) :=
  ⟨fun s b e => only_tracked hP _ (h.decode s b e), fun s => only_tracked hP _ (h.finish s)⟩

theorem only_delegateE (hP : Open P) (l l' : Loc) {E : TEncoder κ σ α} (h : OnlyEnc P E) : OnlyEnc P (tDelegateE l l' E) :=
  ⟨fun s b e => only_tracked hP _ (h.encode s b e), fun s x => only_tracked hP _ (h.start s x)⟩

theorem leafDec_only {O : TError κ → Prop} {D : TDecoder κ σ α} {M : Decoder σ α} (h : LeafDec O D M) :
    OnlyDec (Arrives O) D := by
  cases h with
  | null => exact ⟨fun _ _ _ => only_ok _ _, fun _ => only_ok _ _⟩
  | copyable => exact only_copyable (arrives_open _)
  | bytes => exact only_bytesDecoder (arrives_open _)
  | remaining => exact only_remaining (arrives_open _)
  | padding => exact only_padding (arrives_open _)
  | number line f => exact only_fix (arrives_open _) line f
  | monolithic parse => exact only_monolithic (arrives_open _) parse fun a b x hx => ⟨x, .inl ⟨a, b, hx⟩, .refl x⟩
  | json de =>
    refine only_delegate (arrives_open _) _ _ (only_monolithic (arrives_open _) _ fun a b x hx => ?_)
    simp only [tJsonParser] at hx
    cases hd : de (a ++ b) with
    | ok y => simp only [hd, reduceCtorEq] at hx
    | error c =>
      simp only [hd, tracked, TRes.err.injEq] at hx
      subst hx
      exact ⟨_, .inl ⟨_, c, hd, rfl⟩, (Surfaces.refl _).track _⟩
  | bincode de =>
    refine only_delegate (arrives_open _) _ _ (only_monolithic (arrives_open _) _ fun a b x hx => ?_)
    simp only [tBincodeParser] at hx
    cases hd : de (a ++ b) with
    | ok y => simp only [hd, reduceCtorEq] at hx
    | error c =>
      simp only [hd, tracked, TRes.err.injEq] at hx
      subst hx
      exact ⟨_, .inl ⟨_, c, hd, rfl⟩, (Surfaces.refl _).track _⟩

theorem serde_refuses (l : Loc) (ser : TSerdeWrite κ α) (a : α) (x : TError κ)
    (hx : (tSerdeSerializer l ser a).2 = .err x) :
    Arrives (fun x => ∃ a c, (ser a).2 = some c ∧ x = refusal c) x := by
  simp only [tSerdeSerializer] at hx
  cases hd : (ser a).2 with
  | none => simp only [hd, reduceCtorEq] at hx
  | some c =>
    simp only [hd, TRes.err.injEq] at hx
    subst hx
    exact ⟨_, .inl ⟨a, c, hd, rfl⟩, (Surfaces.refl _).track _⟩

theorem leafEnc_only {O : TError κ → Prop} {E : TEncoder κ σ α} {M : Encoder σ α} (h : LeafEnc O E M) :
    OnlyEnc (Arrives O) E := by
  cases h with
  | null => exact ⟨fun _ _ _ => only_ok _ _, fun _ _ => only_ok _ _⟩
  | bytes f => exact only_bytesEncoderOf (arrives_open _) f
  | utf8 =>
    exact ⟨fun s n e => only_tracked (arrives_open _) _ ((only_bytesEncoderOf (arrives_open _) _).encode s n e),
      fun s x => only_tracked (arrives_open _) _ ((only_bytesEncoderOf (arrives_open _) _).start s x)⟩
  | padding => exact only_paddingE (arrives_open _)
  | number line f => exact only_fixE (arrives_open _) line _ fun a x hx => by cases hx
  | bounded line at_ max toNat write =>
    refine only_fixE (arrives_open _) line _ fun a x hx => ?_
    simp only [tBounded] at hx
    split at hx
    · cases hx
    · cases hx; exact (arrives_open _).raised _ _
  | monolithic zero ser => exact only_monolithicE (arrives_open _) zero ser fun a x hx => ⟨x, .inl ⟨a, hx⟩, .refl x⟩
  | json zero ser =>
    exact only_delegateE (arrives_open _) _ _ (only_monolithicE (arrives_open _) zero _ (serde_refuses _ ser))
  | bincode zero ser =>
    exact only_delegateE (arrives_open _) _ _ (only_monolithicE (arrives_open _) zero _ (serde_refuses _ ser))

theorem Arrives.through {O O' : TError κ → Prop} (h : ∀ x, O x → Arrives O' x) {x : TError κ} (hx : Arrives O x) :
    Arrives O' x := by
  obtain ⟨o, ho, hs⟩ := hx
  rcases ho with ho | ho
  · obtain ⟨o', ho', hs'⟩ := h o ho
    exact ⟨o', ho', hs'.trans hs⟩
  · exact ⟨o, .inr ho, hs⟩

end Bytecodec
