import Verif.Spec.Io
import Verif.Spec.Encode
/-!
# Specification: from an encoder through buffers and a byte pipe to a decoder
-/
namespace Bytecodec.Spec

variable {σ τ α : Type}

/-- The sender (encoder and write buffer), the bytes in transit, and the receiver (read buffer and
decoder); with records of the messages handed to the encoder and of those taken from the decoder. -/
structure Pipe (τ σ α : Type) where
  enc : τ
  wbuf : WriteBuf
  sent : List α
  wire : Bytes
  closed : Bool
  rbuf : ReadBuf
  dec : σ
  got : List α

/-- Anything the two sides can do, in any order.
The writer and the reader of each single call are arbitrary, so all schedules of short writes, short
reads, "would block" and other errors are covered. An open pipe never accepts zero bytes, and delivers the
bytes in order. The end of the stream is reported only after the sender has closed the pipe and everything
was delivered. -/
inductive PipeStep (E : Encoder τ α) (D : Decoder σ α) (dom : α → Prop) : Pipe τ σ α → Pipe τ σ α → Prop
  | start {p : Pipe τ σ α} {s' : τ} (x : α) : p.closed = false → E.isIdle p.enc = true → dom x →
      E.start p.enc x = (.ok (), s') → PipeStep E D dom p { p with enc := s', sent := p.sent ++ [x] }
  | encode {p : Pipe τ σ α} {s' : τ} {b' : WriteBuf} : encodeToWriteBuf E p.enc p.wbuf = (.ok (), s', b') →
      PipeStep E D dom p { p with enc := s', wbuf := b' }
  | flush {p : Pipe τ σ α} {ω : Type} {W : Writer ω} {w w' : ω} {r : Res Unit} {b' : WriteBuf}
      {log : List (Bytes × WriteRes)} : HonestWriter W →
      p.wbuf.flush (loggedWriter W) (w, []) = (r, b', (w', log)) → (∀ a ∈ log, a.2 ≠ .wrote 0) →
      PipeStep E D dom p { p with wbuf := b', wire := p.wire ++ accepted log }
  | close {p : Pipe τ σ α} : E.isIdle p.enc = true → p.wbuf.isEmpty = true →
      PipeStep E D dom p { p with closed := true }
  | fill {p : Pipe τ σ α} {ρ : Type} {R : Reader ρ} {r r' : ρ} {res : Res Unit} {b' : ReadBuf}
      {log : List ReadRes} {wire' : Bytes} : HonestReader R →
      p.rbuf.fill (loggedReader R) (r, []) = (res, b', (r', log)) → p.wire = delivered log ++ wire' →
      (.data [] ∈ log → p.closed = true ∧ wire' = []) →
      PipeStep E D dom p { p with rbuf := b', wire := wire' }
  | decode {p : Pipe τ σ α} {s' : σ} {b' : ReadBuf} : D.isIdle p.dec = false →
      decodeFromReadBuf D p.dec p.rbuf = (.ok (), s', b') →
      PipeStep E D dom p { p with dec := s', rbuf := b' }
  | finish {p : Pipe τ σ α} {s' : σ} {x : α} : D.isIdle p.dec = true → D.finish p.dec = (.ok x, s') →
      PipeStep E D dom p { p with dec := s', got := p.got ++ [x] }

/-- Any number of steps. -/
inductive PipeSteps (E : Encoder τ α) (D : Decoder σ α) (dom : α → Prop) : Pipe τ σ α → Pipe τ σ α → Prop
  | refl {p : Pipe τ σ α} : PipeSteps E D dom p p
  | step {p q r : Pipe τ σ α} : PipeSteps E D dom p q → PipeStep E D dom q r → PipeSteps E D dom p r

/-- The pipe at the start: new encoder and decoder, new buffers over the storages `wstore` and `rstore`. -/
def Pipe.new (sE : τ) (sD : σ) (wstore rstore : Bytes) : Pipe τ σ α :=
  ⟨sE, .new wstore, [], [], false, .new rstore, sD, []⟩

/-- The bytes the messages stand for. -/
def bytesOfAll (enc : α → Except ErrorKind Bytes) (msgs : List α) : Bytes :=
  msgs.flatMap fun x => bytesOf (enc x)

end Bytecodec.Spec
