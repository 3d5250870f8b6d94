import Verif.Model.Core
/-!
# Codecs behind a pointer

Models the forwarding impls of `src/decode.rs` 85-122, 475-488, 510-523 and `src/encode.rs` 73-110, 117-126. `&mut T` and
`Box<T>` have the same impls, so they share one definition.
-/
namespace Bytecodec

variable {σ α : Type}

/-- A `Box<T>` or `&mut T`. Simplification: the pointer is represented by what it points to. -/
structure Pointer (σ : Type) where
  target : σ

/-- `src/decode.rs` 85-103 (`&mut D`), 104-122 (`Box<D>`): every method is called on the target. -/
def pointerDecoder (D : Decoder σ α) : Decoder (Pointer σ) α where
  decode s buf e := ((D.decode s.target buf e).1, ⟨(D.decode s.target buf e).2⟩)
  finish s := ((D.finish s.target).1, ⟨(D.finish s.target).2⟩)
  requiring s := D.requiring s.target
  isIdle s := D.isIdle s.target

/-- `src/encode.rs` 73-91 (`&mut E`), 92-110 (`Box<E>`). -/
def pointerEncoder (E : Encoder σ α) : Encoder (Pointer σ) α where
  encode s cap e := ((E.encode s.target cap e).1, ⟨(E.encode s.target cap e).2⟩)
  start s x := ((E.start s.target x).1, ⟨(E.start s.target x).2⟩)
  requiring s := E.requiring s.target
  isIdle s := E.isIdle s.target

/-- `src/encode.rs` 117-121 (`&mut E`), 122-126 (`Box<E>`). -/
def pointerSizedEncoder (E : SizedEncoder σ α) : SizedEncoder (Pointer σ) α where
  toEncoder := pointerEncoder E.toEncoder
  exact s := E.exact s.target

/-- `src/decode.rs` 456-474: `trait TaggedDecode: Decode`. The crate has no codec of this kind. -/
structure TaggedDecoder (σ τ α : Type) extends Decoder σ α where
  /-- `fn start_decoding(&mut self, tag: Self::Tag) -> Result<()>` -/
  startDecoding : σ → τ → Res Unit × σ

/-- `src/decode.rs` 475-481 (`&mut D`), 482-488 (`Box<D>`). -/
def pointerTaggedDecoder {τ : Type} (D : TaggedDecoder σ τ α) : TaggedDecoder (Pointer σ) τ α where
  toDecoder := pointerDecoder D.toDecoder
  startDecoding s tag := ((D.startDecoding s.target tag).1, ⟨(D.startDecoding s.target tag).2⟩)

/-- `src/decode.rs` 491-509: `trait TryTaggedDecode: Decode`. -/
structure TryTaggedDecoder (σ τ α : Type) extends Decoder σ α where
  /-- `fn try_start_decoding(&mut self, tag: Self::Tag) -> Result<bool>` -/
  tryStartDecoding : σ → τ → Res Bool × σ

/-- `src/decode.rs` 510-516 (`&mut D`), 517-523 (`Box<D>`). -/
def pointerTryTaggedDecoder {τ : Type} (D : TryTaggedDecoder σ τ α) : TryTaggedDecoder (Pointer σ) τ α where
  toDecoder := pointerDecoder D.toDecoder
  tryStartDecoding s tag := ((D.tryStartDecoding s.target tag).1, ⟨(D.tryStartDecoding s.target tag).2⟩)

end Bytecodec
