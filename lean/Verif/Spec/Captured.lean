import Verif.Model.Captured
import Verif.Model.DecCombinator
/-!
# Specification: decoders that remember the header

User code: `head.and_then(|x| body(x).map(move |y| (x, y)))`.
-/
namespace Bytecodec.Spec

variable {σ0 α0 σ1 α1 : Type}

/-- `D0.and_then(|x| …)` where the body is `F x` from the state `f x`: its functions may use `x`. -/
def dependDecoder (D0 : Decoder σ0 α0) (F : α0 → Decoder σ1 α1) (f : α0 → σ1) :
    Decoder (σ0 × Option (α0 × σ1)) α1 :=
  andThenDecoder D0 (capturedDecoder F) fun x => (x, f x)

/-- `D0.and_then(|x| D1(x).map(move |y| (x, y)))`: the header and the body. -/
def keepDecoder (D0 : Decoder σ0 α0) (D1 : Decoder σ1 α1) (f : α0 → σ1) :
    Decoder (σ0 × Option (α0 × σ1)) (α0 × α1) :=
  dependDecoder D0 (fun x => mapDecoder D1 fun y => (x, y)) f

end Bytecodec.Spec
