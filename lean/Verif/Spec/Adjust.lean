import Verif.Spec.Assembled
/-!
# Specification: setters and access to inner codecs

Between the calls a caller may use setters (`set_expected_bytes`, `do_omit`, ...) and may reach through `inner_mut()`
for a part of a composition, to call it directly or to use its setters. `Adjustable ok D A s`: `D` is assembled from the
library, `s` is its initial state, and `A t t'` says that one such access turns the state `t` into `t'`.
-/
namespace Bytecodec.Spec

variable {σ α : Type}

/-- One access to a decoder: a call, or an adjustment by `A`. -/
inductive Touch (D : Decoder σ α) (A : σ → σ → Prop) (s : σ) : σ → Prop
  | decode (b : Bytes) (e : Eos) : EosSane e b.length → Touch D A s (D.decode s b e).2
  | finish : Touch D A s (D.finish s).2
  | adjust {t : σ} : A s t → Touch D A s t

/-- The states after any number of accesses, in any order. -/
inductive Handled (D : Decoder σ α) (A : σ → σ → Prop) (s : σ) : σ → Prop
  | refl : Handled D A s s
  | step {t u : σ} : Handled D A s t → Touch D A t u → Handled D A s u

/-- No setters. -/
def NoAdjust (_ _ : σ) : Prop := False

/-- `CopyableBytesDecoder::inner_mut` (the buffer is an array: it keeps its length). -/
def AdjustCopyable (s t : CopyableState) : Prop := ∃ b, b.length = s.bytes.length ∧ t = ⟨b, s.offset⟩

/-- `BytesDecoder::set_bytes`. -/
def AdjustBytes (s t : BytesDecoderState) : Prop := ∃ b, t = s.setBytes b

/-- `PaddingDecoder::set_expected_byte`. -/
def AdjustPadding (s t : PaddingState) : Prop := ∃ b, t = s.setExpectedByte b

/-- `Omittable::do_omit`, `inner_mut`. -/
def AdjustOmittable (D : Decoder σ α) (A : σ → σ → Prop) (s t : OmitState σ) : Prop :=
  (∃ b, t = s.setDoOmit b) ∨ ∃ i, Touch D A s.inner i ∧ t = { s with inner := i }

/-- `Length::set_expected_bytes`, `inner_mut`. -/
def AdjustLength (D : Decoder σ α) (A : σ → σ → Prop) (s t : LengthState σ) : Prop :=
  (∃ n, n < 2 ^ 64 ∧ t = (s.setExpectedBytes n).2) ∨ ∃ i, Touch D A s.inner i ∧ t = { s with inner := i }

/-- `MaxBytes::set_max_bytes`, `inner_mut`. -/
def AdjustMaxBytes (D : Decoder σ α) (A : σ → σ → Prop) (s t : MaxBytesState σ) : Prop :=
  (∃ n, t = (s.setMaxBytes n).2) ∨ ∃ i, Touch D A s.inner i ∧ t = { s with inner := i }

/-- `Slice::set_consumable_bytes`, `inner_mut`. -/
def AdjustSlice (D : Decoder σ α) (A : σ → σ → Prop) (s t : SliceState σ) : Prop :=
  (∃ n, t = s.setConsumableBytes n) ∨ ∃ i, Touch D A s.inner i ∧ t = { s with inner := i }

/-- `Peekable::peek_mut`, `inner_mut`. -/
def AdjustPeekable (D : Decoder σ α) (A : σ → σ → Prop) (s t : PeekState σ α) : Prop :=
  (∃ f, t = { s with item := s.item.map f }) ∨ ∃ i, Touch D A s.inner i ∧ t = { s with inner := i }

/-- `MaybeEos::inner_mut`. -/
def AdjustMaybeEos (D : Decoder σ α) (A : σ → σ → Prop) (s t : MaybeEosState σ) : Prop :=
  ∃ i, Touch D A s.inner i ∧ t = { s with inner := i }

/-- `Collect::inner_mut`. Every item must still take bytes afterwards, as for `collect` itself (see C23). -/
def AdjustCollect (D : Decoder σ α) (A : σ → σ → Prop) (s t : CollectState σ α) : Prop :=
  ∃ i, Touch D A s.inner i ∧ Productive D i ∧ t = { s with inner := i }

/-- `CollectN::set_remaining_items`, `inner_mut`. -/
def AdjustCollectN (D : Decoder σ α) (A : σ → σ → Prop) (s t : CollectNState σ α) : Prop :=
  (∃ n, t = s.setRemainingItems n) ∨ ∃ i, Touch D A s.inner i ∧ t = { s with inner := i }

/-- `TupleDecoder::inner_mut`. -/
def AdjustPair {σ0 α0 σ1 α1 : Type} (D0 : Decoder σ0 α0) (A0 : σ0 → σ0 → Prop) (D1 : Decoder σ1 α1)
    (A1 : σ1 → σ1 → Prop) (s t : σ0 × σ1) : Prop :=
  (Touch D0 A0 s.1 t.1 ∧ t.2 = s.2) ∨ (t.1 = s.1 ∧ Touch D1 A1 s.2 t.2)

/-- Decoders assembled from the library, in their initial state, with the adjustments their types offer. -/
inductive Adjustable (ok : Shape → Prop) : {σ α : Type} → Decoder σ α → (σ → σ → Prop) → σ → Prop
  | copyable (b : Bytes) : ok .copyable → Adjustable ok copyableBytesDecoder AdjustCopyable (.new b)
  | bytes (b : Bytes) : ok .bytes → Adjustable ok bytesDecoder AdjustBytes (.new b)
  | remaining : ok .remaining → Adjustable ok remainingBytesDecoder NoAdjust .new
  | null : ok .null → Adjustable ok nullDecoder NoAdjust ()
  | padding (b : Option UInt8) : ok .padding → Adjustable ok paddingDecoder AdjustPadding (.new b)
  | number {α : Type} (f : Bytes → α) (k : Nat) : ok .number → Adjustable ok (fixDecoder f) NoAdjust (fixInit k)
  | utf8 {σ : Type} {D : Decoder σ Bytes} {A : σ → σ → Prop} {s : σ} : ok .utf8 → Adjustable ok D A s →
      Adjustable ok (utf8Decoder D) (Touch D A) s
  | monolithic {α : Type} (parse : MonolithicParser α) : ok .monolithic →
      (∀ a b, NoCrash (parse a b).1) → Adjustable ok (monolithicDecoder parse) NoAdjust .new
  | map {σ α β : Type} {D : Decoder σ α} {A : σ → σ → Prop} {s : σ} (f : α → β) : ok .map → Adjustable ok D A s →
      Adjustable ok (mapDecoder D f) (Touch D A) s
  | tryMap {σ α β : Type} {D : Decoder σ α} {A : σ → σ → Prop} {s : σ} (f : α → Except ErrorKind β) : ok .tryMap →
      Adjustable ok D A s → Adjustable ok (tryMapDecoder D f) (Touch D A) s
  | mapErr {σ α : Type} {D : Decoder σ α} {A : σ → σ → Prop} {s : σ} (f : ErrorKind → ErrorKind) : ok .mapErr →
      Adjustable ok D A s → Adjustable ok (mapErrDecoder D f) (Touch D A) s
  | omittable {σ α : Type} {D : Decoder σ α} {A : σ → σ → Prop} {s : σ} (doOmit : Bool) : ok .omittable →
      Adjustable ok D A s → Adjustable ok (omittableDecoder D) (AdjustOmittable D A) ⟨s, doOmit⟩
  | length {σ α : Type} {D : Decoder σ α} {A : σ → σ → Prop} {s : σ} (n : Nat) : ok .length → n < 2 ^ 64 →
      Adjustable ok D A s → Adjustable ok (lengthDecoder D) (AdjustLength D A) (.new s n)
  | maxBytes {σ α : Type} {D : Decoder σ α} {A : σ → σ → Prop} {s : σ} (n : Nat) : ok .maxBytes →
      Adjustable ok D A s → Adjustable ok (maxBytesDecoder D) (AdjustMaxBytes D A) (.new s n)
  | slice {σ α : Type} {D : Decoder σ α} {A : σ → σ → Prop} {s : σ} (n : Nat) : ok .slice →
      Adjustable ok D A s → Adjustable ok (sliceDecoder D) (AdjustSlice D A) ⟨s, n⟩
  | peekable {σ α : Type} {D : Decoder σ α} {A : σ → σ → Prop} {s : σ} : ok .peekable →
      Adjustable ok D A s → Adjustable ok (peekableDecoder D) (AdjustPeekable D A) ⟨s, none⟩
  | maybeEos {σ α : Type} {D : Decoder σ α} {A : σ → σ → Prop} {s : σ} : ok .maybeEos →
      Adjustable ok D A s → Adjustable ok (maybeEosDecoder D) (AdjustMaybeEos D A) (.new s)
  | collect {σ α : Type} {D : Decoder σ α} {A : σ → σ → Prop} {s : σ} : ok .collect → Productive D s →
      Adjustable ok D A s → Adjustable ok (collectDecoder D) (AdjustCollect D A) ⟨s, [], false⟩
  | collectN {σ α : Type} {D : Decoder σ α} {A : σ → σ → Prop} {s : σ} (n : Nat) : ok .collectN →
      Adjustable ok D A s → Adjustable ok (collectNDecoder D) (AdjustCollectN D A) (.new s n)
  | pair {σ0 α0 σ1 α1 : Type} {D0 : Decoder σ0 α0} {D1 : Decoder σ1 α1} {A0 : σ0 → σ0 → Prop} {A1 : σ1 → σ1 → Prop}
      {s0 : σ0} {s1 : σ1} : ok .pair → Adjustable ok D0 A0 s0 → Adjustable ok D1 A1 s1 →
      Adjustable ok (tupleDecoder2 D0 D1) (AdjustPair D0 A0 D1 A1) (s0, s1)
  | andThen {σ0 α0 σ1 α1 : Type} {D0 : Decoder σ0 α0} {D1 : Decoder σ1 α1} {s0 : σ0} (f : α0 → σ1) :
      ok .andThen → Assembled ok D0 s0 → (∀ x, Assembled ok D1 (f x)) →
      Adjustable ok (andThenDecoder D0 D1 f) NoAdjust (s0, none)

end Bytecodec.Spec
