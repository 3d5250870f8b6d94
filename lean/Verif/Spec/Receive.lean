import Verif.Spec.Stream
import Verif.Spec.Io
/-!
# Specification: what a receiver makes of a stream of arbitrary bytes
-/
namespace Bytecodec.Spec

variable {σ α : Type}

/-- The meaning of a stream: what the decoder gives when, for each item, it gets everything that is left
of the stream in one piece. `Means D e s₀ stream items s rest`: the stream starts with `items`; after
them the decoder is in state `s`, and `rest` is left. -/
inductive Means (D : Decoder σ α) (e : Eos) (s₀ : σ) (stream : Bytes) : List α → σ → Bytes → Prop
  | new : Means D e s₀ stream [] s₀ stream
  | item {items : List α} {s s' : σ} {rest : Bytes} {n : Nat} {x : α} : Means D e s₀ stream items s rest →
      feed D s [(rest, e)] = some (n, x, s') → Means D e s₀ stream (items ++ [x]) s' (rest.drop n)

/-- A receiver: a read buffer, a decoder, the part of the stream that has not been read yet, and a
record of the items taken from the decoder. -/
structure Receiver (σ α : Type) where
  rbuf : ReadBuf
  dec : σ
  unread : Bytes
  got : List α

/-- A receiver at the start, with a new read buffer over the given storage. -/
def Receiver.new (s₀ : σ) (store stream : Bytes) : Receiver σ α := ⟨.new store, s₀, stream, []⟩

/-- Anything a receiver can do, in any order. The reader of each single `fill` is arbitrary, so all
schedules of short reads, "would block" and other errors are covered; the end of the stream is reported
only after everything was delivered. -/
inductive ReceiveStep (D : Decoder σ α) : Receiver σ α → Receiver σ α → Prop
  | fill {t : Receiver σ α} {ρ : Type} {R : Reader ρ} {r r' : ρ} {res : Res Unit} {b' : ReadBuf}
      {log : List ReadRes} {unread' : Bytes} : HonestReader R →
      t.rbuf.fill (loggedReader R) (r, []) = (res, b', (r', log)) → t.unread = delivered log ++ unread' →
      (.data [] ∈ log → unread' = []) → ReceiveStep D t { t with rbuf := b', unread := unread' }
  | decode {t : Receiver σ α} {s' : σ} {b' : ReadBuf} : D.isIdle t.dec = false →
      decodeFromReadBuf D t.dec t.rbuf = (.ok (), s', b') → ReceiveStep D t { t with dec := s', rbuf := b' }
  | finish {t : Receiver σ α} {s' : σ} {x : α} : D.isIdle t.dec = true → D.finish t.dec = (.ok x, s') →
      ReceiveStep D t { t with dec := s', got := t.got ++ [x] }

/-- Any number of steps. -/
inductive ReceiveSteps (D : Decoder σ α) : Receiver σ α → Receiver σ α → Prop
  | refl {t : Receiver σ α} : ReceiveSteps D t t
  | step {t u v : Receiver σ α} : ReceiveSteps D t u → ReceiveStep D u v → ReceiveSteps D t v

/-- The next call of the receiver fails: the decoder rejects what it is given, or does not hand out the
item. -/
def Rejects (D : Decoder σ α) (t : Receiver σ α) : Prop :=
  D.isIdle t.dec = false ∧ (decodeFromReadBuf D t.dec t.rbuf).1 ≠ .ok () ∨
  D.isIdle t.dec = true ∧ ∀ x, (D.finish t.dec).1 ≠ .ok x

end Bytecodec.Spec
