import Verif.Spec.Streamable
import Verif.Spec.Stream
import Verif.Spec.Encode
/-!
# Specification: decoders that accept one encoding per item

`Lossless` lists the decoders that accept an item in one spelling only, the one given by `enc`. It is the
converse of `Matched`: there, the decoder gives back what was encoded; here, encoding gives back what was
decoded.
-/
namespace Bytecodec.Spec

/-- `Lossless delim again D sD dom enc`: the decoder `D`, in the state `sD` returned by its constructor,
delivers only items in `dom`, and only for the bytes `enc` says. `delim`, `again` as in `Matched`. The
hypotheses of the constructors are about the functions the user supplies. -/
inductive Lossless : (delim again : Bool) → {τ α : Type} → Decoder τ α → τ → (α → Prop) →
    (α → Except ErrorKind Bytes) → Prop
  | copyable (b : Bytes) : Lossless true true copyableBytesDecoder (.new b) (fun x => x.length = b.length) .ok
  | bytes (b : Bytes) : Lossless true false bytesDecoder (.new b) (fun x => x.length = b.length) .ok
  | remaining : Lossless false true remainingBytesDecoder .new (fun _ => True) .ok
  /-- numbers: `f` writes what `g` reads -/
  | number {α : Type} (f : α → Except ErrorKind Bytes) (g : Bytes → α) (k : Nat) :
      (∀ bs, bs.length = k → f (g bs) = .ok bs) →
      Lossless true true (fixDecoder g) (fixInit k) (fun _ => True) f
  | null : Lossless true true nullDecoder () (fun _ => True) (fun _ => .ok [])
  /-- the parser accepts only what the serializer writes -/
  | monolithic {α : Type} (enc : α → Except ErrorKind Bytes) (parse : MonolithicParser α) : WholeParser parse →
      (∀ bs x, (parse [] bs).1 = .ok x → enc x = .ok bs) →
      Lossless false true (monolithicDecoder parse) .new (fun _ => True) enc
  | utf8 {delim again : Bool} {τ : Type} {D : Decoder τ Bytes} {sD : τ} {dom enc} :
      Lossless delim again D sD dom enc →
      Lossless delim again (utf8Decoder D) sD (fun x => dom (utf8Bytes x)) (fun x => enc (utf8Bytes x))
  | mapErr {delim again : Bool} {τ α : Type} {D : Decoder τ α} {sD : τ} {dom enc} (f : ErrorKind → ErrorKind) :
      Lossless delim again D sD dom enc → Lossless delim again (mapErrDecoder D f) sD dom enc
  /-- `f` undoes `g` -/
  | map {delim again : Bool} {τ α β : Type} {D : Decoder τ α} {sD : τ} {dom enc} (f : β → α) (g : α → β) :
      (∀ x, dom x → f (g x) = x) → Lossless delim again D sD dom enc →
      Lossless delim again (mapDecoder D g) sD (fun y => dom (f y)) (fun y => enc (f y))
  | tryMap {delim again : Bool} {τ α β : Type} {D : Decoder τ α} {sD : τ} {dom enc} (f : β → α)
      (g : α → Except ErrorKind β) : (∀ x y, dom x → g x = .ok y → f y = x) →
      Lossless delim again D sD dom enc →
      Lossless delim again (tryMapDecoder D g) sD (fun y => dom (f y)) (fun y => enc (f y))
  | mapTry {delim again : Bool} {τ α β : Type} {D : Decoder τ α} {sD : τ} {dom enc}
      (f : β → Except ErrorKind α) (g : α → β) : (∀ x, dom x → f (g x) = .ok x) →
      Lossless delim again D sD dom enc →
      Lossless delim again (mapDecoder D g) sD (fun y => ∃ x, f y = .ok x ∧ dom x) (fun y => (f y).bind enc)
  | tryMapTry {delim again : Bool} {τ α β : Type} {D : Decoder τ α} {sD : τ} {dom enc}
      (f : β → Except ErrorKind α) (g : α → Except ErrorKind β) : (∀ x y, dom x → g x = .ok y → f y = .ok x) →
      Lossless delim again D sD dom enc →
      Lossless delim again (tryMapDecoder D g) sD (fun y => ∃ x, f y = .ok x ∧ dom x) (fun y => (f y).bind enc)
  | present {delim again : Bool} {τ α : Type} {D : Decoder τ α} {sD : τ} {dom enc} :
      Lossless delim again D sD dom enc →
      Lossless delim again (omittableDecoder D) ⟨sD, false⟩ (fun o => ∃ x, o = some x ∧ dom x)
        (fun o => match o with | some x => enc x | none => .ok [])
  | absent {delim q : Bool} {τ α : Type} {D : Decoder τ α} {sD : τ} (enc : Option α → Except ErrorKind Bytes) :
      Streamable (fun _ => True) delim q D sD → enc none = .ok [] →
      Lossless delim true (omittableDecoder D) ⟨sD, true⟩ (fun o => o = none) enc
  | maxBytes {delim again : Bool} {τ α : Type} {D : Decoder τ α} {sD : τ} {dom enc} (n : Nat) :
      Lossless delim again D sD dom enc →
      Lossless delim again (maxBytesDecoder D) (.new sD n) (fun x => dom x ∧ ∃ b, enc x = .ok b ∧ b.length ≤ n) enc
  | length {delim again : Bool} {τ α : Type} {D : Decoder τ α} {sD : τ} {dom enc} (n : Nat) : n < 2 ^ 64 →
      Lossless delim again D sD dom enc →
      Lossless true again (lengthDecoder D) (.new sD n) (fun x => dom x ∧ ∃ b, enc x = .ok b ∧ b.length = n) enc
  | peekable {delim again : Bool} {τ α : Type} {D : Decoder τ α} {sD : τ} {dom enc} :
      Lossless delim again D sD dom enc → Lossless delim again (peekableDecoder D) ⟨sD, none⟩ dom enc
  | maybeEos {delim again : Bool} {τ α : Type} {D : Decoder τ α} {sD : τ} {dom enc} :
      Lossless delim again D sD dom enc → Lossless delim again (maybeEosDecoder D) (.new sD) dom enc
  | collect {τ α : Type} {D : Decoder τ α} {sD : τ} {dom enc} : Lossless true true D sD dom enc →
      Lossless false true (collectDecoder D) ⟨sD, [], false⟩ (fun xs => ∀ x ∈ xs, dom x ∧ ∃ b, enc x = .ok b)
        (fun xs => .ok (xs.flatMap fun x => bytesOf (enc x)))
  | collectN {τ α : Type} {D : Decoder τ α} {sD : τ} {dom enc} (n : Nat) : Lossless true true D sD dom enc →
      Lossless true false (collectNDecoder D) (.new sD n)
        (fun xs => (∀ x ∈ xs, dom x ∧ ∃ b, enc x = .ok b) ∧ xs.length = n)
        (fun xs => .ok (xs.flatMap fun x => bytesOf (enc x)))
  | pair {delim again : Bool} {τ0 α0 τ1 α1 : Type} {D0 : Decoder τ0 α0} {sD0 : τ0} {dom0 enc0}
      {D1 : Decoder τ1 α1} {sD1 : τ1} {dom1 enc1} :
      Lossless delim again D0 sD0 dom0 enc0 → Lossless delim again D1 sD1 dom1 enc1 →
      Lossless delim again (tupleDecoder2 D0 D1) (sD0, sD1) (fun x => dom0 x.1 ∧ dom1 x.2)
        (fun x => (enc0 x.1).bind fun b0 => (enc1 x.2).bind fun b1 => .ok (b0 ++ b1))
  /-- a header from which the decoder of the rest is chosen, and which can be told from the item -/
  | header {delim again again1 : Bool} {τ0 α0 τ1 α1 : Type} {D0 : Decoder τ0 α0} {sD0 : τ0} {dom0 enc0}
      {D1 : Decoder τ1 α1} {dom1 : α0 → α1 → Prop} {enc1} (key : α1 → α0) (choose : α0 → τ1) :
      Lossless delim again D0 sD0 dom0 enc0 → (∀ k, Lossless delim again1 D1 (choose k) (dom1 k) enc1) →
      (∀ k x, dom0 k → dom1 k x → key x = k) →
      Lossless delim again (andThenDecoder D0 D1 choose) (sD0, none) (fun x => dom0 (key x) ∧ dom1 (key x) x)
        (fun x => (enc0 (key x)).bind fun b0 => (enc1 x).bind fun b1 => .ok (b0 ++ b1))
  /-- the functions have captured a value -/
  | captured {delim again : Bool} {ε τ α : Type} (F : ε → Decoder τ α) (v : ε) {sD : τ} {dom enc} :
      Lossless delim again (F v) sD dom enc → Lossless delim again (capturedDecoder F) (v, sD) dom enc
  /-- items that have an encoding -/
  | narrow {delim again : Bool} {τ α : Type} {D : Decoder τ α} {sD : τ} {dom enc} {dom' : α → Prop} :
      Lossless delim again D sD dom enc → (∀ x b, dom x → enc x = .ok b → dom' x) →
      Lossless delim again D sD dom' enc
  | weaken {delim again delim' again' : Bool} {τ α : Type} {D : Decoder τ α} {sD : τ} {dom enc}
      {dom' : α → Prop} {enc' : α → Except ErrorKind Bytes} :
      Lossless delim again D sD dom enc → (∀ x, dom x → dom' x ∧ enc' x = enc x) →
      (delim' = true → delim = true) → (again' = true → again = true) → Lossless delim' again' D sD dom' enc'

/-- A relay takes items from a stream one after the other, each cut into pieces in any way:
`Relays … s pos items`: the decoder is now in state `s`, `pos` bytes of `stream` have been consumed and
`items` delivered. -/
inductive Relays {τ α : Type} (D : Decoder τ α) (stream : Bytes) (e : Eos) (s₀ : τ) : τ → Nat → List α → Prop
  | new : Relays D stream e s₀ s₀ 0 []
  | next {s s' : τ} {pos n : Nat} {items : List α} {x : α} {chunks : List (Bytes × Eos)} :
      Relays D stream e s₀ s pos items → Schedule chunks (stream.drop pos) e →
      feed D s chunks = some (n, x, s') → Relays D stream e s₀ s' (pos + n) (items ++ [x])

end Bytecodec.Spec
