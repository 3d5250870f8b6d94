import Verif.Spec.Default
/-!
# Encoders that write nothing
-/
namespace Bytecodec

open Bytecodec.Spec

variable {σ α : Type}

theorem mute_of {E : Encoder σ α} (P : σ → Prop) (hs : ∀ s x, P s → P (E.start s x).2)
    (he : ∀ s cap e, P s → P (E.encode s cap e).2 ∧ ∀ b, (E.encode s cap e).1 = .ok b → b = []) {s : σ} (h : P s) :
    Mute E s := by
  intro calls
  induction calls generalizing s with
  | nil => intro x b hx; cases hx
  | cons c cs ih =>
    intro x b hx ha
    rcases List.mem_cons.1 hx with rfl | hx
    · cases c with
      | start y => cases ha
      | encode cap e =>
        simp only [ecallAnswer, EAnswer.encode.injEq] at ha
        exact (he s cap e h).2 b ha
    · cases c with
      | start y => exact ih (hs s y h) x b hx ha
      | encode cap e => exact ih (he s cap e h).1 x b hx ha

end Bytecodec
