import Verif.Model.Overflow
import Verif.Model.Captured
import Verif.Model.EncCombinator
import Verif.Spec.Requiring
import Verif.Spec.Assembled
import Verif.Spec.Encode
import Verif.Spec.Trace
/-!
# Specification: `requiring_bytes` with overflow checks, for whole decoders

`CheckedReq D r`: `r` is `requiring_bytes` of the decoder `D`, computed with the additions of `u64` that Rust checks, all
the way down. `CheckedExact E r` is the same for `exact_requiring_bytes`.
-/
namespace Bytecodec.Spec

/-- Only tuples add; all others hand the answer of a part through or know it themselves. `collect` is left out
(`C52_collect_fails`). -/
inductive CheckedReq : {σ α : Type} → Decoder σ α → (σ → Res ByteCount) → Prop
  | copyable : CheckedReq copyableBytesDecoder (fun s => .ok (copyableBytesDecoder.requiring s))
  | bytes : CheckedReq bytesDecoder (fun s => .ok (bytesDecoder.requiring s))
  | remaining : CheckedReq remainingBytesDecoder (fun s => .ok (remainingBytesDecoder.requiring s))
  | null : CheckedReq nullDecoder (fun s => .ok (nullDecoder.requiring s))
  | padding : CheckedReq paddingDecoder (fun s => .ok (paddingDecoder.requiring s))
  | number {α : Type} (f : Bytes → α) : CheckedReq (fixDecoder f) (fun s => .ok ((fixDecoder f).requiring s))
  | monolithic {α : Type} (parse : MonolithicParser α) :
      CheckedReq (monolithicDecoder parse) (fun s => .ok ((monolithicDecoder parse).requiring s))
  | utf8 {σ : Type} {D : Decoder σ Bytes} {r} : CheckedReq D r → CheckedReq (utf8Decoder D) r
  | map {σ α β : Type} {D : Decoder σ α} {r} (f : α → β) : CheckedReq D r → CheckedReq (mapDecoder D f) r
  | tryMap {σ α β : Type} {D : Decoder σ α} {r} (f : α → Except ErrorKind β) : CheckedReq D r →
      CheckedReq (tryMapDecoder D f) r
  | mapErr {σ α : Type} {D : Decoder σ α} {r} (f : ErrorKind → ErrorKind) : CheckedReq D r → CheckedReq (mapErrDecoder D f) r
  | omittable {σ α : Type} {D : Decoder σ α} {r} : CheckedReq D r →
      CheckedReq (omittableDecoder D) (fun s => if s.doOmit then .ok (.finite 0) else r s.inner)
  | length {σ α : Type} (D : Decoder σ α) : CheckedReq (lengthDecoder D) (fun s => .ok (.finite s.remaining))
  | maxBytes {σ α : Type} {D : Decoder σ α} {r} : CheckedReq D r → CheckedReq (maxBytesDecoder D) (fun s => r s.inner)
  | slice {σ α : Type} {D : Decoder σ α} {r} : CheckedReq D r → CheckedReq (sliceDecoder D) (fun s => r s.inner)
  | peekable {σ α : Type} {D : Decoder σ α} {r} : CheckedReq D r →
      CheckedReq (peekableDecoder D) (fun s => if s.item.isSome then .ok (.finite 0) else r s.inner)
  | maybeEos {σ α : Type} {D : Decoder σ α} {r} : CheckedReq D r → CheckedReq (maybeEosDecoder D) (fun s => r s.inner)
  | collectN {σ α : Type} {D : Decoder σ α} {r} : CheckedReq D r →
      CheckedReq (collectNDecoder D) (fun s => if s.remaining = 0 then .ok (.finite 0) else r s.inner)
  | pair {σ0 α0 σ1 α1 : Type} {D0 : Decoder σ0 α0} {D1 : Decoder σ1 α1} {r0 r1} :
      CheckedReq D0 r0 → CheckedReq D1 r1 →
      CheckedReq (tupleDecoder2 D0 D1) (fun s => pairRequiringDec (r0 s.1) (r1 s.2))
  | andThen {σ0 α0 σ1 α1 : Type} {D0 : Decoder σ0 α0} {D1 : Decoder σ1 α1} {r0 r1} (f : α0 → σ1) :
      CheckedReq D0 r0 → CheckedReq D1 r1 →
      CheckedReq (andThenDecoder D0 D1 f) (fun s => s.2.elim (r0 s.1) r1)
  | captured {ε σ α : Type} {F : ε → Decoder σ α} {r : ε → σ → Res ByteCount} : (∀ x, CheckedReq (F x) (r x)) →
      CheckedReq (capturedDecoder F) (fun s => r s.1 s.2)

/-- `exact_requiring_bytes` of sized encoders. -/
inductive CheckedExact : {σ α : Type} → SizedEncoder σ α → (σ → Res Nat) → Prop
  | bytes {β : Type} (asRef : β → Bytes) : CheckedExact (bytesEncoder asRef) (fun s => .ok ((bytesEncoder asRef).exact s))
  | number {α : Type} (f : α → Except ErrorKind Bytes) : CheckedExact (fixEncoder f) (fun s => .ok ((fixEncoder f).exact s))
  | utf8 : CheckedExact utf8Encoder (fun s => .ok (utf8Encoder.exact s))
  | null : CheckedExact nullEncoder (fun s => .ok (nullEncoder.exact s))
  | length {σ α : Type} (E : Encoder σ α) : CheckedExact (lengthEncoder E) (fun s => .ok s.remaining)
  | preEncode {σ α : Type} (E : Encoder σ α) :
      CheckedExact (preEncodeEncoder E) (fun s => .ok ((preEncodeEncoder E).exact s))
  | mapErr {σ α : Type} {E : SizedEncoder σ α} {r} (f : ErrorKind → ErrorKind) : CheckedExact E r →
      CheckedExact (sizedMapErrEncoder E f) r
  | mapFrom {σ α β : Type} {E : SizedEncoder σ α} {r} (f : β → α) : CheckedExact E r →
      CheckedExact (sizedMapFromEncoder E f) r
  | tryMapFrom {σ α β : Type} {E : SizedEncoder σ α} {r} (f : β → Except ErrorKind α) : CheckedExact E r →
      CheckedExact (sizedTryMapFromEncoder E f) r
  | optional {σ α : Type} {E : SizedEncoder σ α} {r} : CheckedExact E r → CheckedExact (sizedOptionalEncoder E) r
  | maxBytes {σ α : Type} {E : SizedEncoder σ α} {r} : CheckedExact E r →
      CheckedExact (sizedMaxBytesEncoder E) (fun s => r s.inner)
  | slice {σ α : Type} {E : SizedEncoder σ α} {r} : CheckedExact E r →
      CheckedExact (sizedSliceEncoder E) (fun s => r s.inner)
  | last {σ α : Type} {E : SizedEncoder σ α} {r} : CheckedExact E r →
      CheckedExact (sizedLastEncoder E) (fun s => r s.inner)
  | pair {σ0 α0 σ1 α1 : Type} {E0 : SizedEncoder σ0 α0} {E1 : SizedEncoder σ1 α1} {r0 r1} :
      CheckedExact E0 r0 → CheckedExact E1 r1 →
      CheckedExact (sizedTupleEncoder2 E0 E1) (fun s => pairExact (r0 s.1) (r1 s.2))

/-- The encoders of `WritesWith`, with their `requiring_bytes` computed with the checked additions. -/
inductive CheckedWrites (own : OwnEncoding) : (strict : Bool) → {σ α : Type} → Encoder σ α → σ → (α → Prop) →
    (α → Except ErrorKind Bytes) → (σ → Res ByteCount) → Prop
  /-- an encoder of the user's own, whose answers do not panic -/
  | own {strict : Bool} {σ α : Type} {E : Encoder σ α} {s : σ} {dom enc} : own strict σ α E s dom enc →
      CheckedWrites own strict E s dom enc (fun s => .ok (E.requiring s))
  | bytes {β : Type} (asRef : β → Bytes) (strict : Bool) :
      CheckedWrites own strict (bytesEncoder asRef).toEncoder .new (fun _ => True) (fun x => .ok (asRef x))
        (fun s => .ok ((bytesEncoder asRef).requiring s))
  | number {α : Type} (f : α → Except ErrorKind Bytes) (strict : Bool) :
      CheckedWrites own strict (fixEncoder f).toEncoder .new (fun _ => True) f
        (fun s => .ok ((fixEncoder f).requiring s))
  | utf8 (strict : Bool) :
      CheckedWrites own strict utf8Encoder.toEncoder .new (fun _ => True) (fun x => .ok (utf8Bytes x))
        (fun s => .ok (utf8Encoder.requiring s))
  | null (strict : Bool) : CheckedWrites own strict nullEncoder.toEncoder () (fun _ => True) (fun _ => .ok [])
      (fun s => .ok (nullEncoder.requiring s))
  | monolithic {α : Type} (ser : MonolithicSerializer α) :
      CheckedWrites own false (monolithicEncoder ser) .new (fun x => (ser x).2 = .ok ())
        (fun x => .ok (ser x).1.flatten) (fun s => .ok ((monolithicEncoder ser).requiring s))
  | mapErr {strict : Bool} {σ α : Type} {E : Encoder σ α} {s : σ} {dom enc r} (f : ErrorKind → ErrorKind) :
      (strict = true → f .unexpectedEos = .unexpectedEos) → CheckedWrites own strict E s dom enc r →
      CheckedWrites own strict (mapErrEncoder E f) s dom (fun x => (enc x).mapError f) r
  | mapFrom {strict : Bool} {σ α β : Type} {E : Encoder σ α} {s : σ} {dom enc r} (f : β → α) :
      CheckedWrites own strict E s dom enc r →
      CheckedWrites own strict (mapFromEncoder E f) s (fun x => dom (f x)) (fun x => enc (f x)) r
  | tryMapFrom {strict : Bool} {σ α β : Type} {E : Encoder σ α} {s : σ} {dom enc r}
      (f : β → Except ErrorKind α) : CheckedWrites own strict E s dom enc r →
      CheckedWrites own strict (tryMapFromEncoder E f) s (fun x => ∀ y, f x = .ok y → dom y)
        (fun x => (f x).bind enc) r
  | optional {strict : Bool} {σ α : Type} {E : Encoder σ α} {s : σ} {dom enc r} :
      CheckedWrites own strict E s dom enc r →
      CheckedWrites own strict (optionalEncoder E) s (fun o => ∀ x, o = some x → dom x)
        (fun o => match o with | some x => enc x | none => .ok []) r
  | maxBytes {strict : Bool} {σ α : Type} {E : Encoder σ α} {s : σ} {dom enc r} (n : Nat) :
      CheckedWrites own strict E s dom enc r →
      CheckedWrites own strict (maxBytesEncoder E) (.new s n)
        (fun x => dom x ∧ (bytesOf (enc x)).length ≤ n) enc (fun s => r s.inner)
  | preEncode {strict : Bool} {σ α : Type} {E : Encoder σ α} {s : σ} {dom enc} :
      WritesWith own strict E s dom enc →
      CheckedWrites own true (preEncodeEncoder E).toEncoder (.new s)
        (fun x => dom x ∧ (bytesOf (enc x)).length < 2 ^ 63) enc (fun s => .ok ((preEncodeEncoder E).requiring s))
  | repeated {strict : Bool} {σ α : Type} {E : Encoder σ α} {s : σ} {dom enc} :
      WritesWith own strict E s dom enc →
      CheckedWrites own strict (repeatEncoder E) (.new s)
        (fun xs => ∀ x ∈ xs, dom x ∧ ∃ b, enc x = .ok b ∧ b ≠ [])
        (fun xs => .ok (xs.flatMap fun x => bytesOf (enc x))) (fun s => .ok ((repeatEncoder E).requiring s))
  | pair {strict : Bool} {σ0 α0 σ1 α1 : Type} {E0 : Encoder σ0 α0} {E1 : Encoder σ1 α1} {s0 : σ0} {s1 : σ1}
      {dom0 enc0 r0 dom1 enc1 r1} : CheckedWrites own strict E0 s0 dom0 enc0 r0 →
      CheckedWrites own strict E1 s1 dom1 enc1 r1 →
      CheckedWrites own strict (tupleEncoder2 E0 E1) (s0, s1) (fun x => dom0 x.1 ∧ dom1 x.2)
        (fun x => (enc0 x.1).bind fun b0 => (enc1 x.2).bind fun b1 => .ok (b0 ++ b1))
        (fun s => pairRequiringEnc (r0 s.1) (r1 s.2))
  | weaken {strict strict' : Bool} {σ α : Type} {E : Encoder σ α} {s : σ} {dom enc r} {dom' : α → Prop}
      {enc' : α → Except ErrorKind Bytes} : CheckedWrites own strict E s dom enc r →
      (∀ x, dom' x → dom x ∧ enc' x = enc x) → (strict' = true → strict = true) →
      CheckedWrites own strict' E s dom' enc' r

/-- The sum of the sizes of the buffers given to `encode`. -/
def offered {α : Type} : List (ECall α) → Nat
  | [] => 0
  | .start _ :: cs => offered cs
  | .encode cap _ :: cs => cap + offered cs

end Bytecodec.Spec
