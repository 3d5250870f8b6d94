import Verif.Spec.Decode
/-!
# Specification: what `requiring_bytes` promises
-/
namespace Bytecodec.Spec

variable {σ α : Type}

/-- `Calls D s n q t`: from `s` some `decode` calls were made (any buffers, any eos markers), all of
them returned `Ok`, they consumed `n` bytes in total, and the decoder is now in the state `t`.
`q = true` iff at least one of them was told that the end of the stream is reached. -/
inductive Calls (D : Decoder σ α) : σ → Nat → Bool → σ → Prop
  | nil (s : σ) : Calls D s 0 false s
  | cons {s s' t : σ} {n m : Nat} {q : Bool} (b : Bytes) (e : Eos) : D.decode s b e = (.ok n, s') →
      Calls D s' m q t → Calls D s (n + m) (e.isReached || q) t

/-- What `requiring_bytes` of a decoder in state `s` promises: whenever some calls from here on lead to
an item, they consumed at least the reported number of bytes (`Finite`), or one of them was told that
the end of the stream is reached (`Infinite`). -/
def LowerBound (D : Decoder σ α) (s : σ) : Prop :=
  ∀ n q t x t', Calls D s n q t → D.finish t = (.ok x, t') →
    (∀ k, D.requiring s = .finite k → k ≤ n) ∧ (D.requiring s = .infinite → q = true)

/-- `decode` calls that took all the bytes they were given: `bs` in total. -/
inductive Swallows (D : Decoder σ α) : σ → Bytes → σ → Prop
  | nil (s : σ) : Swallows D s [] s
  | cons {s s' t : σ} {bs : Bytes} (b : Bytes) (e : Eos) : D.decode s b e = (.ok b.length, s') →
      Swallows D s' bs t → Swallows D s (b ++ bs) t

/-- What `requiring_bytes` of a decoder in state `s` says of an item of a fixed size: whatever calls from
here on lead to an item, the number reported now is the number of bytes they consume. -/
def ExactAsk (D : Decoder σ α) (s : σ) : Prop :=
  ∀ n q t x t', Calls D s n q t → D.finish t = (.ok x, t') → D.requiring s = .finite n

end Bytecodec.Spec
