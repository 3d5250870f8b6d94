import Verif.Spec.Trace
/-!
# What a default codec may not do
-/
namespace Bytecodec.Spec

open Bytecodec

variable {σ α : Type}

/-- An encoder that writes no byte whatever is done with it, items and errors included. -/
def Mute (E : Encoder σ α) (s : σ) : Prop :=
  ∀ calls x b, x ∈ observeE E s calls → x.answer = .encode (.ok b) → b = []

end Bytecodec.Spec
