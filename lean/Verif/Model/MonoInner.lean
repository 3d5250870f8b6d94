import Verif.Model.Monolithic
import Verif.Model.Captured
/-!
# Model: monolithic codecs whose inner codec is changed by the caller

`Model/Monolithic.lean` takes the inner codec as fixed. Here its value `p : π` is part of the state, and
`parse p`/`ser p` is what `monolithic_decode`/`monolithic_encode` do for this value.
-/
namespace Bytecodec

variable {π α : Type}

/-- `src/monolithic.rs` 19-23 and 49-84: `MonolithicDecoder { inner, item, buf }` with its field `inner`, which the
`Decode` functions only read. -/
def monolithicDecoderOf (parse : π → MonolithicParser α) : Decoder (π × MonoDecState α) α :=
  capturedDecoder fun p => monolithicDecoder (parse p)

/-- `src/monolithic.rs` 26-32: `MonolithicDecoder::new`. -/
def monoDecNew (p : π) : π × MonoDecState α := (p, .new)

/-- `src/monolithic.rs` 35-37 and 45-47: `inner_ref`, `into_inner`. -/
def monoDecInner (s : π × MonoDecState α) : π := s.1

/-- `src/monolithic.rs` 40-42: `inner_mut`; the caller applies `f` to the inner decoder. -/
def monoDecInnerMut (f : π → π) (s : π × MonoDecState α) : π × MonoDecState α := (f s.1, s.2)

/-- `src/monolithic.rs` 99-103 and 129-170: `MonolithicEncoder { inner, item, buf }` with its field `inner`, which the
`Encode` functions only read. -/
def monolithicEncoderOf (ser : π → MonolithicSerializer α) : Encoder (π × MonoEncState α) α where
  encode s cap e := ((monolithicEncoder (ser s.1)).encode s.2 cap e).map id fun t => (s.1, t)
  start s x := ((monolithicEncoder (ser s.1)).start s.2 x).map id fun t => (s.1, t)
  requiring s := (monolithicEncoder (ser s.1)).requiring s.2
  isIdle s := (monolithicEncoder (ser s.1)).isIdle s.2

/-- `src/monolithic.rs` 106-112: `MonolithicEncoder::new`. -/
def monoEncNew (p : π) : π × MonoEncState α := (p, .new)

/-- `src/monolithic.rs` 115-117 and 125-127: `inner_ref`, `into_inner`. -/
def monoEncInner (s : π × MonoEncState α) : π := s.1

/-- `src/monolithic.rs` 120-122: `inner_mut`; the caller applies `f` to the inner encoder. -/
def monoEncInnerMut (f : π → π) (s : π × MonoEncState α) : π × MonoEncState α := (f s.1, s.2)

end Bytecodec
