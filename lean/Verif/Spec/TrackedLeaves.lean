import Verif.Spec.Tracked
import Verif.Model.TrackedLeaves
/-!
# Specification: which errors the codecs that are no combinators may return

`LeafDec O D P` / `LeafEnc O E P`: `D` (with whole errors) and `P` (with kinds only) are the same codec of the library, and the
errors it gets from outside (a parser, a serializer) are those in `O`. Most codecs get none.
-/
namespace Bytecodec

variable {κ α : Type}

/-- The error for a refusal `c` of serde: `InvalidInput`, `c` is the cause, and nothing has been tracked yet. -/
def refusal (c : κ) : TError κ where
  kind := .invalidInput
  cause := some (.given c)
  history := some []

def eraseParser (parse : TMonolithicParser κ α) : MonolithicParser α := fun a b => eraseP (parse a b)

def eraseSerializer (ser : TMonolithicSerializer κ α) : MonolithicSerializer α := fun x => ((ser x).1, (ser x).2.erase)

/-- A parser of serde with its errors forgotten. -/
def eraseDe {β : Type} (de : Bytes → Except κ β) (b : Bytes) : Option β :=
  match de b with
  | .ok x => some x
  | .error _ => none

/-- A serializer of serde with its errors forgotten. -/
def eraseSer (ser : TSerdeWrite κ α) : SerdeWrite α := fun x => ((ser x).1, (ser x).2.isNone)

inductive LeafDec : {σ α : Type} → (TError κ → Prop) → TDecoder κ σ α → Decoder σ α → Prop where
  | null : LeafDec (fun _ => False) tNullDecoder nullDecoder
  | copyable : LeafDec (fun _ => False) tCopyableBytesDecoder copyableBytesDecoder
  | bytes : LeafDec (fun _ => False) tBytesDecoder bytesDecoder
  | remaining : LeafDec (fun _ => False) tRemainingBytesDecoder remainingBytesDecoder
  | padding : LeafDec (fun _ => False) tPaddingDecoder paddingDecoder
  | number {α : Type} (line : Nat) (f : Bytes → α) : LeafDec (fun _ => False) (tFixDecoder line f) (fixDecoder f)
  | monolithic {α : Type} (parse : TMonolithicParser κ α) :
      LeafDec (fun x => ∃ a b, (parse a b).1 = .err x) (tMonolithicDecoder parse) (monolithicDecoder (eraseParser parse))
  | json {α : Type} (de : Bytes → Except κ α) :
      LeafDec (fun x => ∃ b c, de b = .error c ∧ x = refusal c) (tJsonDecoder de) (jsonDecoder (eraseDe de))
  | bincode {α : Type} (de : Bytes → Except κ (α × Nat)) :
      LeafDec (fun x => ∃ b c, de b = .error c ∧ x = refusal c) (tBincodeDecoder de) (bincodeDecoder (eraseDe de))

inductive LeafEnc : {σ α : Type} → (TError κ → Prop) → TEncoder κ σ α → Encoder σ α → Prop where
  | null : LeafEnc (fun _ => False) tNullEncoder nullEncoder.toEncoder
  | bytes {β : Type} (asRef : β → Bytes) : LeafEnc (fun _ => False) (tBytesEncoderOf asRef) (bytesEncoder asRef).toEncoder
  | utf8 : LeafEnc (fun _ => False) tUtf8Encoder utf8Encoder.toEncoder
  | padding : LeafEnc (fun _ => False) tPaddingEncoder paddingEncoder
  | number {α : Type} (line : Nat) (f : α → Bytes) :
      LeafEnc (fun _ => False) (tFixEncoder line fun n => .ok (f n)) (fixEncoder fun n => .ok (f n)).toEncoder
  | bounded {α : Type} (line at_ max : Nat) (toNat : α → Nat) (write : Nat → Bytes) :
      LeafEnc (fun _ => False) (tFixEncoder line (tBounded at_ max toNat write))
        (fixEncoder fun n => if toNat n ≤ max then .ok (write (toNat n)) else .error .invalidInput).toEncoder
  | monolithic {α : Type} (zero : κ) (ser : TMonolithicSerializer κ α) :
      LeafEnc (fun x => ∃ a, (ser a).2 = .err x) (tMonolithicEncoder zero ser) (monolithicEncoder (eraseSerializer ser))
  | json {α : Type} (zero : κ) (ser : TSerdeWrite κ α) :
      LeafEnc (fun x => ∃ a c, (ser a).2 = some c ∧ x = refusal c) (tJsonEncoder zero ser) (jsonEncoder (eraseSer ser))
  | bincode {α : Type} (zero : κ) (ser : TSerdeWrite κ α) :
      LeafEnc (fun x => ∃ a c, (ser a).2 = some c ∧ x = refusal c) (tBincodeEncoder zero ser) (bincodeEncoder (eraseSer ser))

end Bytecodec
