import Verif.Spec.Assembled
/-!
# Specification: items that take at least one byte

`Productive` (in `Spec/Decode.lean`) is what `collect` needs of its items. Here is how formats with this property are put
together.
-/
namespace Bytecodec.Spec

variable {σ α : Type}

/-- From here on, no call that is given bytes completes the item without taking one. -/
def Late (D : Decoder σ α) (s : σ) : Prop :=
  ∀ b e, b ≠ [] → EosSane e b.length → (D.decode s b e).1 = .ok 0 → D.isIdle (D.decode s b e).2 = true →
    (D.finish (D.decode s b e).2).1.isOk = false

/-- What a decoder must satisfy that follows another one: an item which is not completed by its first call takes at least one
byte in the call that completes it; and a call that fails does not leave an item behind. (The first call may complete
the item without taking a byte: an empty string, a list of no items, an omitted item.) -/
def Follows (D : Decoder σ α) (s₀ : σ) : Prop :=
  ∀ s, ReachItem D s₀ s → D.isIdle s = false → ∀ b e, EosSane e b.length →
    ((D.decode s b e).1.isOk = false → D.isIdle (D.decode s b e).2 = true → (D.finish (D.decode s b e).2).1.isOk = false) ∧
    (D.isIdle (D.decode s b e).2 = false → Late D (D.decode s b e).2)

/-- The states of a decoder that is only ever given empty frames. -/
inductive EmptyFrames (D : Decoder σ α) (s₀ : σ) : σ → Prop
  | refl : EmptyFrames D s₀ s₀
  | frame {s : σ} : EmptyFrames D s₀ s → D.isIdle s = false →
      EmptyFrames D s₀ (D.finish (D.decode s [] (Eos.new true)).2).2
  | finish {s : σ} : EmptyFrames D s₀ s → D.isIdle s = true → EmptyFrames D s₀ (D.finish s).2

/-- The decoder accepts an empty frame, again and again. -/
def Closes (D : Decoder σ α) (s₀ : σ) : Prop :=
  ∀ s, EmptyFrames D s₀ s → D.isIdle s = false →
    (D.decode s [] (Eos.new true)).1.isOk = true ∧ D.isIdle (D.decode s [] (Eos.new true)).2 = true

/-- `Weighed true D s`: every item takes at least one byte. `Weighed false D s`: the decoder can follow such a decoder. -/
inductive Weighed : {σ α : Type} → Bool → Decoder σ α → σ → Prop
  | own {σ α : Type} {D : Decoder σ α} {s : σ} : Productive D s → Weighed true D s
  | ownLater {σ α : Type} {D : Decoder σ α} {s : σ} : Follows D s → Weighed false D s
  | later {σ α : Type} {D : Decoder σ α} {s : σ} : Weighed true D s → Weighed false D s
  | number {α : Type} (f : Bytes → α) (k : Nat) : 0 < k → Weighed true (fixDecoder f) (fixInit k)
  /-- byte arrays; empty ones only behind something else -/
  | bytes (b : Bytes) : b ≠ [] → Weighed true bytesDecoder (.new b)
  | bytesLater (b : Bytes) : Weighed false bytesDecoder (.new b)
  | remaining : Weighed true remainingBytesDecoder .new
  | padding (x : Option UInt8) : Weighed true paddingDecoder (.new x)
  | null : Weighed false nullDecoder ()
  /-- everything up to the end of the stream: the list is complete only where the stream ends -/
  | collect {σ α : Type} (D : Decoder σ α) (s : σ) : Weighed true (collectDecoder D) ⟨s, [], false⟩
  | collectN {σ α : Type} {D : Decoder σ α} {s : σ} (n : Nat) : Weighed true D s →
      Weighed false (collectNDecoder D) (.new s n)
  | map {σ α β : Type} {c : Bool} {D : Decoder σ α} {s : σ} (f : α → β) : Weighed c D s → Weighed c (mapDecoder D f) s
  | tryMap {σ α β : Type} {c : Bool} {D : Decoder σ α} {s : σ} (f : α → Except ErrorKind β) : Weighed c D s →
      Weighed c (tryMapDecoder D f) s
  | utf8 {σ : Type} {c : Bool} {D : Decoder σ Bytes} {s : σ} : Weighed c D s → Weighed c (utf8Decoder D) s
  | mapErr {σ α : Type} {c : Bool} {D : Decoder σ α} {s : σ} (f : ErrorKind → ErrorKind) : Weighed c D s →
      Weighed c (mapErrDecoder D f) s
  | maybeEos {σ α : Type} {c : Bool} {D : Decoder σ α} {s : σ} : Weighed c D s → Weighed c (maybeEosDecoder D) (.new s)
  | captured {ε σ α : Type} {c : Bool} (F : ε → Decoder σ α) (x : ε) {s : σ} : Weighed c (F x) s →
      Weighed c (capturedDecoder F) (x, s)
  /-- an item that is present -/
  | omittable {σ α : Type} {c : Bool} {D : Decoder σ α} {s : σ} : Weighed c D s → Weighed c (omittableDecoder D) ⟨s, false⟩
  /-- an item that may be omitted -/
  | omittableLater {σ α : Type} {D : Decoder σ α} {s : σ} (skip : Bool) : Weighed false D s →
      Weighed false (omittableDecoder D) ⟨s, skip⟩
  | maxBytes {σ α : Type} {D : Decoder σ α} {s : σ} (n : Nat) : Weighed true D s → Weighed true (maxBytesDecoder D) (.new s n)
  | peekable {σ α : Type} {D : Decoder σ α} {s : σ} : IdleStable D s → Weighed true D s →
      Weighed true (peekableDecoder D) ⟨s, none⟩
  /-- a frame of at least one byte, whatever is in it -/
  | length {σ α : Type} {D : Decoder σ α} {s : σ} (n : Nat) : 0 < n → n < 2 ^ 64 → SafeFrom D s → EosStrict D s →
      Weighed true (lengthDecoder D) (.new s n)
  /-- a frame of any size, around a decoder that accepts the empty frame -/
  | lengthLater {σ α : Type} {D : Decoder σ α} {s : σ} (n : Nat) : n < 2 ^ 64 → SafeFrom D s → EosStrict D s → Closes D s →
      Weighed false (lengthDecoder D) (.new s n)
  | pair {σ0 α0 σ1 α1 : Type} {c : Bool} {D0 : Decoder σ0 α0} {D1 : Decoder σ1 α1} {s0 : σ0} {s1 : σ1} :
      SafeFrom D0 s0 → Weighed c D0 s0 → Weighed false D1 s1 → Weighed c (tupleDecoder2 D0 D1) (s0, s1)
  | andThen {σ0 α0 σ1 α1 : Type} {D0 : Decoder σ0 α0} {D1 : Decoder σ1 α1} {s0 : σ0} (f : α0 → σ1) :
      SafeFrom D0 s0 → Weighed true D0 s0 → (∀ x, Weighed false D1 (f x)) → Weighed true (andThenDecoder D0 D1 f) (s0, none)

end Bytecodec.Spec
