import Verif.Model.Tuple
import Verif.Model.DecCombinator
import Verif.Model.EncCombinator
import Verif.Model.Buf
/-!
# Specification: how much work one call does

The same decoders, encoders and streams, with counters beside their states. A counter goes up by one
with every call that is made; nothing else is different.
-/
namespace Bytecodec.Spec

variable {σ α ρ ω τ : Type}

/-- DecCalls of a decoder: of `decode` and of `finish_decoding`. -/
structure DecCalls where
  decodes : Nat
  finishes : Nat
deriving DecidableEq, Repr

/-- The same decoder, counting the calls it receives. -/
def countedDecoder (D : Decoder σ α) : Decoder (σ × DecCalls) α where
  decode s b e := ((D.decode s.1 b e).1, (D.decode s.1 b e).2, ⟨s.2.decodes + 1, s.2.finishes⟩)
  finish s := ((D.finish s.1).1, (D.finish s.1).2, ⟨s.2.decodes, s.2.finishes + 1⟩)
  requiring s := D.requiring s.1
  isIdle s := D.isIdle s.1

/-- The inner decoder, whose call counters `c` shows, is called at most once per call of `decode` and
of `finish_decoding`: a `decode` asks for at most one `decode` and one `finish_decoding`, and a
`finish_decoding` for at most one `finish_decoding` and no `decode`. -/
def AtMostOnce {β : Type} (D : Decoder τ β) (c : τ → DecCalls) : Prop :=
  (∀ s b e, (c (D.decode s b e).2).decodes ≤ (c s).decodes + 1 ∧
    (c (D.decode s b e).2).finishes ≤ (c s).finishes + 1) ∧
  ∀ s, (c (D.finish s).2).decodes ≤ (c s).decodes ∧ (c (D.finish s).2).finishes ≤ (c s).finishes + 1

/-- DecCalls of an encoder, and the bytes it wrote in them. -/
structure EncCalls where
  encodes : Nat
  starts : Nat
  bytes : Nat
deriving DecidableEq, Repr

/-- The same encoder, counting the calls it receives and the bytes it writes. -/
def countedEncoder (E : Encoder σ α) : Encoder (σ × EncCalls) α where
  encode s n e :=
    ((E.encode s.1 n e).1, (E.encode s.1 n e).2,
      ⟨s.2.encodes + 1, s.2.starts, s.2.bytes + match (E.encode s.1 n e).1 with | .ok bs => bs.length | _ => 0⟩)
  start s x := ((E.start s.1 x).1, (E.start s.1 x).2, ⟨s.2.encodes, s.2.starts + 1, s.2.bytes⟩)
  requiring s := E.requiring s.1
  isIdle s := E.isIdle s.1

/-- The same reader, counting the calls of `read`. -/
def countedReader (R : Reader ρ) : Reader (ρ × Nat) where
  read r n := ((R.read r.1 n).1, (R.read r.1 n).2, r.2 + 1)

/-- The same writer, counting the calls of `write`. -/
def countedWriter (W : Writer ω) : Writer (ω × Nat) where
  write w b := ((W.write w.1 b).1, (W.write w.1 b).2, w.2 + 1)

/-- The same stream, counting the calls of `read` and of `write`. -/
def countedStream (T : Stream τ) : Stream (τ × Nat × Nat) where
  reader := ⟨fun r n => ((T.reader.read r.1 n).1, (T.reader.read r.1 n).2, r.2.1 + 1, r.2.2)⟩
  writer := ⟨fun w b => ((T.writer.write w.1 b).1, (T.writer.write w.1 b).2, w.2.1, w.2.2 + 1)⟩

/-- The same asynchronous reader, counting the calls of `poll_read`. -/
def countedAsyncReader (R : AsyncReader ρ) : AsyncReader (ρ × Nat) where
  pollRead r n := ((R.pollRead r.1 n).1, (R.pollRead r.1 n).2, r.2 + 1)

/-- The same asynchronous writer, counting the calls of `poll_write`. -/
def countedAsyncWriter (W : AsyncWriter ω) : AsyncWriter (ω × Nat) where
  pollWrite w b := ((W.pollWrite w.1 b).1, (W.pollWrite w.1 b).2, w.2 + 1)

/-- The same asynchronous stream, counting the calls of `poll_read` and of `poll_write`. -/
def countedAsyncStream (T : AsyncStream τ) : AsyncStream (τ × Nat × Nat) where
  reader := ⟨fun r n => ((T.reader.pollRead r.1 n).1, (T.reader.pollRead r.1 n).2, r.2.1 + 1, r.2.2)⟩
  writer := ⟨fun w b => ((T.writer.pollWrite w.1 b).1, (T.writer.pollWrite w.1 b).2, w.2.1, w.2.2 + 1)⟩

end Bytecodec.Spec
