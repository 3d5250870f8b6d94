import Verif.Spec.AssembledEnc
/-!
# Specification: setters and access to inner encoders

The counterpart of `Spec/Adjust.lean` for encoders.
-/
namespace Bytecodec.Spec

variable {σ α : Type}

/-- One access to an encoder: a call, or an adjustment by `A`. -/
inductive TouchEnc (E : Encoder σ α) (A : σ → σ → Prop) (s : σ) : σ → Prop
  | encode (cap : Nat) (e : Eos) : EosSane e cap → TouchEnc E A s (E.encode s cap e).2
  | start (x : α) : TouchEnc E A s (E.start s x).2
  | adjust {t : σ} : A s t → TouchEnc E A s t

/-- The states after any number of accesses, in any order. -/
inductive HandledEnc (E : Encoder σ α) (A : σ → σ → Prop) (s : σ) : σ → Prop
  | refl : HandledEnc E A s s
  | step {t u : σ} : HandledEnc E A s t → TouchEnc E A t u → HandledEnc E A s u

/-- No setters. -/
def NoAdjustEnc (_ _ : σ) : Prop := False

/-- `Repeat::inner_mut`. -/
def AdjustRepeatEnc (E : Encoder σ α) (A : σ → σ → Prop) (s t : RepeatState σ α) : Prop :=
  ∃ i, TouchEnc E A s.inner i ∧ t = { s with inner := i }

/-- `Length::set_expected_bytes`, `inner_mut`. -/
def AdjustLengthEnc (E : Encoder σ α) (A : σ → σ → Prop) (s t : LengthState σ) : Prop :=
  (∃ n, n < 2 ^ 64 ∧ t = (s.setExpectedBytes n).2) ∨ ∃ i, TouchEnc E A s.inner i ∧ t = { s with inner := i }

/-- `MaxBytes::set_max_bytes`, `inner_mut`. -/
def AdjustMaxBytesEnc (E : Encoder σ α) (A : σ → σ → Prop) (s t : MaxBytesState σ) : Prop :=
  (∃ n, t = (s.setMaxBytes n).2) ∨ ∃ i, TouchEnc E A s.inner i ∧ t = { s with inner := i }

/-- `PreEncode::inner_mut`. -/
def AdjustPreEncodeEnc (E : Encoder σ α) (A : σ → σ → Prop) (s t : PreEncodeState σ) : Prop :=
  ∃ i, TouchEnc E A s.inner i ∧ t = { s with inner := i }

/-- `Slice::set_consumable_bytes`, `inner_mut`. -/
def AdjustSliceEnc (E : Encoder σ α) (A : σ → σ → Prop) (s t : SliceState σ) : Prop :=
  (∃ n, t = s.setConsumableBytes n) ∨ ∃ i, TouchEnc E A s.inner i ∧ t = { s with inner := i }

/-- `Last::inner_mut`. -/
def AdjustLastEnc (E : Encoder σ α) (A : σ → σ → Prop) (s t : LastState σ α) : Prop :=
  ∃ i, TouchEnc E A s.inner i ∧ t = { s with inner := i }

/-- `TupleEncoder::inner_mut`. -/
def AdjustPairEnc {σ0 α0 σ1 α1 : Type} (E0 : Encoder σ0 α0) (A0 : σ0 → σ0 → Prop) (E1 : Encoder σ1 α1)
    (A1 : σ1 → σ1 → Prop) (s t : σ0 × σ1) : Prop :=
  (TouchEnc E0 A0 s.1 t.1 ∧ t.2 = s.2) ∨ (t.1 = s.1 ∧ TouchEnc E1 A1 s.2 t.2)

/-- Encoders assembled from the library (with `pre = false`, without `pre_encode`), in their initial state, with
the adjustments their types offer. -/
inductive AdjustableEnc (pre : Bool) : {σ α : Type} → Encoder σ α → (σ → σ → Prop) → σ → Prop
  | bytes {β : Type} (asRef : β → Bytes) : AdjustableEnc pre (bytesEncoder asRef).toEncoder NoAdjustEnc .new
  | number {α : Type} (f : α → Except ErrorKind Bytes) : AdjustableEnc pre (fixEncoder f).toEncoder NoAdjustEnc .new
  | utf8 : AdjustableEnc pre utf8Encoder.toEncoder NoAdjustEnc .new
  | null : AdjustableEnc pre nullEncoder.toEncoder NoAdjustEnc ()
  | padding : AdjustableEnc pre paddingEncoder NoAdjustEnc none
  /-- the serializer itself returns -/
  | monolithic {α : Type} (ser : MonolithicSerializer α) : (∀ x, Returns (ser x).2) →
      AdjustableEnc pre (monolithicEncoder ser) NoAdjustEnc .new
  | mapErr {σ α : Type} {E : Encoder σ α} {A : σ → σ → Prop} {s : σ} (f : ErrorKind → ErrorKind) :
      AdjustableEnc pre E A s → AdjustableEnc pre (mapErrEncoder E f) (TouchEnc E A) s
  | mapFrom {σ α β : Type} {E : Encoder σ α} {A : σ → σ → Prop} {s : σ} (f : β → α) :
      AdjustableEnc pre E A s → AdjustableEnc pre (mapFromEncoder E f) (TouchEnc E A) s
  | tryMapFrom {σ α β : Type} {E : Encoder σ α} {A : σ → σ → Prop} {s : σ} (f : β → Except ErrorKind α) :
      AdjustableEnc pre E A s → AdjustableEnc pre (tryMapFromEncoder E f) (TouchEnc E A) s
  | repeated {σ α : Type} {E : Encoder σ α} {A : σ → σ → Prop} {s : σ} :
      AdjustableEnc pre E A s → AdjustableEnc pre (repeatEncoder E) (AdjustRepeatEnc E A) (.new s)
  | optional {σ α : Type} {E : Encoder σ α} {A : σ → σ → Prop} {s : σ} :
      AdjustableEnc pre E A s → AdjustableEnc pre (optionalEncoder E) (TouchEnc E A) s
  | length {σ α : Type} {E : Encoder σ α} {A : σ → σ → Prop} {s : σ} (n : Nat) : n < 2 ^ 64 →
      AdjustableEnc pre E A s → AdjustableEnc pre (lengthEncoder E).toEncoder (AdjustLengthEnc E A) (.new s n)
  | maxBytes {σ α : Type} {E : Encoder σ α} {A : σ → σ → Prop} {s : σ} (n : Nat) :
      AdjustableEnc pre E A s → AdjustableEnc pre (maxBytesEncoder E) (AdjustMaxBytesEnc E A) (.new s n)
  | preEncode {σ α : Type} {E : Encoder σ α} {A : σ → σ → Prop} {s : σ} : pre = true →
      AdjustableEnc pre E A s → AdjustableEnc pre (preEncodeEncoder E).toEncoder (AdjustPreEncodeEnc E A) (.new s)
  | slice {σ α : Type} {E : Encoder σ α} {A : σ → σ → Prop} {s : σ} (n : Nat) :
      AdjustableEnc pre E A s → AdjustableEnc pre (sliceEncoder E) (AdjustSliceEnc E A) ⟨s, n⟩
  | last {σ α : Type} {E : Encoder σ α} {A : σ → σ → Prop} {s : σ} (x : α) :
      AdjustableEnc pre E A s → AdjustableEnc pre (lastEncoder E) (AdjustLastEnc E A) (.new s x)
  | pair {σ0 α0 σ1 α1 : Type} {E0 : Encoder σ0 α0} {E1 : Encoder σ1 α1} {A0 : σ0 → σ0 → Prop}
      {A1 : σ1 → σ1 → Prop} {s0 : σ0} {s1 : σ1} : AdjustableEnc pre E0 A0 s0 → AdjustableEnc pre E1 A1 s1 →
      AdjustableEnc pre (tupleEncoder2 E0 E1) (AdjustPairEnc E0 A0 E1 A1) (s0, s1)

end Bytecodec.Spec
