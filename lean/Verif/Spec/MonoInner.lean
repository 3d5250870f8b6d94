import Verif.Model.MonoInner
/-!
# Specification: changing the inner codec of a monolithic codec between calls
-/
namespace Bytecodec.Spec

variable {π α : Type}

/-- What the caller of a monolithic decoder does before the end of the stream. -/
inductive MonoStep (π : Type) where
  /-- change the inner decoder through `inner_mut` -/
  | change (f : π → π)
  /-- pass some bytes that are not the last -/
  | bytes (b : Bytes) (e : Eos)

/-- The inner decoder after these steps. -/
def innerAfter (p : π) : List (MonoStep π) → π
  | [] => p
  | .change f :: l => innerAfter (f p) l
  | .bytes _ _ :: l => innerAfter p l

/-- The bytes passed. -/
def passed : List (MonoStep π) → Bytes
  | [] => []
  | .change _ :: l => passed l
  | .bytes b _ :: l => b ++ passed l

/-- None of the bytes come with the end of the stream. -/
def NoEos (l : List (MonoStep π)) : Prop := ∀ b e, MonoStep.bytes b e ∈ l → e.isReached = false

/-- The steps, made on the decoder `s`; `none` if a `decode` call does not succeed or leaves bytes. -/
def takeSteps (parse : π → MonolithicParser α) (s : π × MonoDecState α) :
    List (MonoStep π) → Option (π × MonoDecState α)
  | [] => some s
  | .change f :: l => takeSteps parse (monoDecInnerMut f s) l
  | .bytes b e :: l =>
    match (monolithicDecoderOf parse).decode s b e with
    | (.ok n, t) => if n = b.length then takeSteps parse t l else none
    | _ => none

/-- Calls of `encode` that succeed, with changes of the inner encoder in between: the encoder was in the state
`s₀`, is in the state `s`, and has emitted `out`. The end of the stream may be announced with any buffer that has
room for what is left of `total` bytes. -/
inductive DrainChanging (ser : π → MonolithicSerializer α) (total : Nat) (s₀ : π × MonoEncState α) :
    π × MonoEncState α → Bytes → Prop
  | new : DrainChanging ser total s₀ s₀ []
  | change {s out} (f : π → π) : DrainChanging ser total s₀ s out →
      DrainChanging ser total s₀ (monoEncInnerMut f s) out
  | encode {s s' : π × MonoEncState α} {out bs : Bytes} {cap : Nat} {e : Eos} : DrainChanging ser total s₀ s out →
      (e.isReached = true → total - out.length ≤ cap) → (monolithicEncoderOf ser).encode s cap e = (.ok bs, s') →
      DrainChanging ser total s₀ s' (out ++ bs)

end Bytecodec.Spec
