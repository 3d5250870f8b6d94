import Verif.Model.Core
/-!
# Specification: how a decoder is used, and what becomes of one that leaves bytes over
-/
namespace Bytecodec.Spec

variable {σ α : Type}

/-- What a caller that uses the decoder as the documentation says can have done with it so far: `decode` while it
waits for bytes, with any bytes and any mark of the end, and `finish_decoding` when it is idle; every call succeeded. -/
inductive Uses (D : Decoder σ α) (s₀ : σ) : σ → Prop
  | new : Uses D s₀ s₀
  | decode {s s' : σ} {b : Bytes} {e : Eos} {n : Nat} : Uses D s₀ s → D.isIdle s = false →
      D.decode s b e = (.ok n, s') → Uses D s₀ s'
  | finish {s s' : σ} {x : α} : Uses D s₀ s → D.isIdle s = true → D.finish s = (.ok x, s') → Uses D s₀ s'

/-- Any number of further `decode` calls, all of them successful, with any bytes and any mark of the end. -/
inductive Decodes (D : Decoder σ α) : σ → σ → Prop
  | refl {s : σ} : Decodes D s s
  | step {s s1 s' : σ} {b : Bytes} {e : Eos} {n : Nat} : D.isIdle s = false → D.decode s b e = (.ok n, s1) →
      Decodes D s1 s' → Decodes D s s'

end Bytecodec.Spec
