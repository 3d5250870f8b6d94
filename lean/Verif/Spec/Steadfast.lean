import Verif.Spec.Trace
import Verif.Spec.Encode
import Verif.Model.Io
import Verif.Model.EncCombinator
import Verif.Model.NullPadding
import Verif.Model.Fixnum
import Verif.Model.Monolithic
import Verif.Model.Tuple
/-!
# Specification: encoders that are not affected by a message they refuse

`Steadfast always E`: encoders assembled from the library whose refusals have no effect. `always = true`: at any moment;
`always = false`: only when the encoder is idle (tuples, see `C20_busy_fails`). Of the components of a tuple only the
first may refuse (`C20_rejected_fails`); `pre_encode` is not covered (`C58_preEncode_fails`).
-/
namespace Bytecodec.Spec

/-- Encoders whose refusals have no effect. -/
inductive Steadfast : {σ α : Type} → Bool → Encoder σ α → Prop
  | own {always : Bool} {σ α : Type} {E : Encoder σ α} :
      (∀ s x k s', E.start s x = (.err k, s') → always = true ∨ E.isIdle s = true → s' = s) → Steadfast always E
  | bytes {always : Bool} {α : Type} (f : α → Bytes) : Steadfast always (bytesEncoder f).toEncoder
  | utf8 {always : Bool} : Steadfast always utf8Encoder.toEncoder
  | number {always : Bool} {α : Type} (f : α → Except ErrorKind Bytes) : Steadfast always (fixEncoder f).toEncoder
  | null {always : Bool} : Steadfast always nullEncoder.toEncoder
  | padding {always : Bool} : Steadfast always paddingEncoder
  | monolithic {always : Bool} {α : Type} (f : MonolithicSerializer α) : Steadfast always (monolithicEncoder f)
  | mapErr {always : Bool} {σ α : Type} {E : Encoder σ α} (g : ErrorKind → ErrorKind) :
      Steadfast always E → Steadfast always (mapErrEncoder E g)
  | mapFrom {always : Bool} {σ α β : Type} {E : Encoder σ α} (f : β → α) :
      Steadfast always E → Steadfast always (mapFromEncoder E f)
  | tryMapFrom {always : Bool} {σ α β : Type} {E : Encoder σ α} (f : β → Except ErrorKind α) :
      Steadfast always E → Steadfast always (tryMapFromEncoder E f)
  | repeat {always : Bool} {σ α : Type} (E : Encoder σ α) : Steadfast always (repeatEncoder E)
  | optional {always : Bool} {σ α : Type} {E : Encoder σ α} :
      Steadfast always E → Steadfast always (optionalEncoder E)
  | length {always : Bool} {σ α : Type} {E : Encoder σ α} :
      Steadfast true E → Steadfast always (lengthEncoder E).toEncoder
  | maxBytes {always : Bool} {σ α : Type} {E : Encoder σ α} :
      Steadfast always E → Steadfast always (maxBytesEncoder E)
  | slice {always : Bool} {σ α : Type} {E : Encoder σ α} : Steadfast always E → Steadfast always (sliceEncoder E)
  | last {always : Bool} {σ α : Type} (E : Encoder σ α) : Steadfast always (lastEncoder E)
  | pair {always : Bool} {σ0 α0 σ1 α1 : Type} {E0 : Encoder σ0 α0} {E1 : Encoder σ1 α1} : Steadfast always E0 →
      (∀ s x, E1.isIdle s = true → (E1.start s x).1 = .ok ()) → Steadfast false (tupleEncoder2 E0 E1)

variable {σ α ω : Type}

/-- This call was a message that was refused. -/
def ESeen.refused (x : ESeen) : Bool :=
  match x.answer with
  | .start (.err _) => true
  | _ => false

/-- The calls without the messages that are refused. -/
def withoutRefused (E : Encoder σ α) (s : σ) : List (ECall α) → List (ECall α)
  | [] => []
  | .start x :: cs =>
    match E.start s x with
    | (.err _, s') => withoutRefused E s' cs
    | (_, s') => .start x :: withoutRefused E s' cs
  | .encode cap e :: cs => .encode cap e :: withoutRefused E (E.encode s cap e).2 cs

/-- Each message is handed to the encoder and, unless it is refused, written to the end: what became of each message,
and the encoder and the writer afterwards. -/
def sendEach (E : Encoder σ α) (W : Writer ω) : List α → σ → ω → Option (List (Except ErrorKind Unit) × σ × ω)
  | [], s, w => some ([], s, w)
  | x :: xs, s, w =>
    match E.start s x with
    | (.err k, s') => (sendEach E W xs s' w).map fun y => (.error k :: y.1, y.2)
    | (.ok (), s') =>
      match encodeAll E W s' w with
      | some (.ok (), s'', w') => (sendEach E W xs s'' w').map fun y => (.ok () :: y.1, y.2)
      | _ => none
    | _ => none

/-- The messages that have an encoding, with their encodings. -/
def acceptedOf (enc : α → Except ErrorKind Bytes) (msgs : List α) : List (α × Bytes) :=
  msgs.filterMap fun x => match enc x with
    | .ok b => some (x, b)
    | .error _ => none

end Bytecodec.Spec
