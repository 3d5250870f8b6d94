import Verif.Spec.Assembled
/-!
# Specification: decoders that take everything they are given until the item is complete

`Greedy D s₀` is what a caller's loop needs in order not to stall: if the item is not complete yet,
nothing of the buffer is left over, so the next call gets new bytes.
-/
namespace Bytecodec.Spec

variable {σ α : Type}

/-- Whatever the caller did before: when a `decode` call succeeds and the decoder still waits for
bytes, the whole buffer was consumed. -/
def Greedy (D : Decoder σ α) (s₀ : σ) : Prop :=
  ∀ s, Reach D s₀ s → ∀ b e n s', EosSane e b.length → D.decode s b e = (.ok n, s') →
    D.isIdle s' = false → n = b.length

/-- As `Greedy`, for a decoder with an allowance: nothing is left over unless the allowance is used up. -/
def GreedyUnlessSuspended (D : Decoder (SliceState σ) α) (s₀ : SliceState σ) : Prop :=
  ∀ s, Reach D s₀ s → ∀ b e n s', EosSane e b.length → D.decode s b e = (.ok n, s') →
    D.isIdle s' = false → n = b.length ∨ s'.isSuspended = true

/-- Decoders assembled from everything but `slice` and from decoders of the user's own, where what
stands inside a `length` frame contains neither another frame nor `maybe_eos`. -/
inductive FramedWith (own : OwnDecoder) : {σ α : Type} → Decoder σ α → σ → Prop
  | plain {σ α : Type} {D : Decoder σ α} {s : σ} :
      AssembledWith own (fun sh => sh ≠ .slice ∧ sh ≠ .length) D s → FramedWith own D s
  | frame {σ α : Type} {D : Decoder σ α} {s : σ} (n : Nat) : n < 2 ^ 64 →
      AssembledWith own (fun sh => sh ≠ .slice ∧ sh ≠ .length ∧ sh ≠ .maybeEos) D s →
      FramedWith own (lengthDecoder D) (.new s n)
  | utf8 {σ : Type} {D : Decoder σ Bytes} {s : σ} : FramedWith own D s → FramedWith own (utf8Decoder D) s
  | map {σ α β : Type} {D : Decoder σ α} {s : σ} (f : α → β) : FramedWith own D s → FramedWith own (mapDecoder D f) s
  | tryMap {σ α β : Type} {D : Decoder σ α} {s : σ} (f : α → Except ErrorKind β) : FramedWith own D s →
      FramedWith own (tryMapDecoder D f) s
  | mapErr {σ α : Type} {D : Decoder σ α} {s : σ} (f : ErrorKind → ErrorKind) : FramedWith own D s →
      FramedWith own (mapErrDecoder D f) s
  | omittable {σ α : Type} {D : Decoder σ α} {s : σ} (doOmit : Bool) : FramedWith own D s →
      FramedWith own (omittableDecoder D) ⟨s, doOmit⟩
  | maxBytes {σ α : Type} {D : Decoder σ α} {s : σ} (n : Nat) : FramedWith own D s →
      FramedWith own (maxBytesDecoder D) (.new s n)
  | peekable {σ α : Type} {D : Decoder σ α} {s : σ} : FramedWith own D s → FramedWith own (peekableDecoder D) ⟨s, none⟩
  | maybeEos {σ α : Type} {D : Decoder σ α} {s : σ} : FramedWith own D s → FramedWith own (maybeEosDecoder D) (.new s)
  | collect {σ α : Type} {D : Decoder σ α} {s : σ} : Productive D s → FramedWith own D s →
      FramedWith own (collectDecoder D) ⟨s, [], false⟩
  | collectN {σ α : Type} {D : Decoder σ α} {s : σ} (n : Nat) : FramedWith own D s →
      FramedWith own (collectNDecoder D) (.new s n)
  | pair {σ0 α0 σ1 α1 : Type} {D0 : Decoder σ0 α0} {D1 : Decoder σ1 α1} {s0 : σ0} {s1 : σ1} :
      FramedWith own D0 s0 → FramedWith own D1 s1 → FramedWith own (tupleDecoder2 D0 D1) (s0, s1)
  | andThen {σ0 α0 σ1 α1 : Type} {D0 : Decoder σ0 α0} {D1 : Decoder σ1 α1} {s0 : σ0} (f : α0 → σ1) :
      FramedWith own D0 s0 → (∀ x, FramedWith own D1 (f x)) → FramedWith own (andThenDecoder D0 D1 f) (s0, none)
  | captured {ε σ α : Type} (F : ε → Decoder σ α) (x : ε) {s : σ} : FramedWith own (F x) s →
      FramedWith own (capturedDecoder F) (x, s)

/-- Those assembled from the library alone. -/
abbrev Framed (D : Decoder σ α) (s : σ) : Prop := FramedWith (fun _ _ _ _ => False) D s

end Bytecodec.Spec
