import Verif.Spec.Receive
import Verif.Spec.Pipeline
/-!
# Specification: receivers that crash and start again
-/
namespace Bytecodec.Spec

variable {σ τ α : Type}

/-! ## Starting again in the middle of a stream -/

/-- A receiver that keeps a record which survives crashes: the items taken so far (`saved`), and how many bytes of
the stream had been used up when the last one of them was taken (`mark`). -/
structure Journal (σ α : Type) where
  rcv : Receiver σ α
  saved : List α
  mark : Nat

/-- The receiver at the start of the stream. -/
def Journal.new (s₀ : σ) (store stream : Bytes) : Journal σ α := ⟨.new s₀ store stream, [], 0⟩

/-- The bytes used up: those read so far, without those which are still in the read buffer. -/
def Receiver.used (stream : Bytes) (t : Receiver σ α) : Nat :=
  stream.length - t.unread.length - t.rbuf.len

/-- What can happen, in any order: the receiver reads and decodes; it takes an item, and makes a note of it; it
crashes, losing its decoder and its buffer with all there is in them, and a new receiver with a new decoder and a new
buffer of any size starts reading where the last item ended. -/
inductive JournalStep (D : Decoder σ α) (s₀ : σ) (stream : Bytes) : Journal σ α → Journal σ α → Prop
  | work {t : Journal σ α} {r : Receiver σ α} : ReceiveStep D t.rcv r → r.got = t.rcv.got →
      JournalStep D s₀ stream t { t with rcv := r }
  | take {t : Journal σ α} {r : Receiver σ α} {x : α} : ReceiveStep D t.rcv r → r.got = t.rcv.got ++ [x] →
      JournalStep D s₀ stream t ⟨r, t.saved ++ [x], r.used stream⟩
  | crash {t : Journal σ α} (store : Bytes) : store ≠ [] → store.length < 2 ^ 64 →
      JournalStep D s₀ stream t { t with rcv := .new s₀ store (stream.drop t.mark) }

/-- Any number of steps. -/
inductive JournalSteps (D : Decoder σ α) (s₀ : σ) (stream : Bytes) : Journal σ α → Journal σ α → Prop
  | refl {t : Journal σ α} : JournalSteps D s₀ stream t t
  | step {t u v : Journal σ α} : JournalSteps D s₀ stream t u → JournalStep D s₀ stream u v →
      JournalSteps D s₀ stream t v

/-! ## Sending again over a new connection -/

/-- The messages `msgs` are sent over a connection that breaks now and then, each time at any moment: with
messages half encoded, and bytes in either buffer or on the way. On each new connection both sides start anew, with
buffers of any sizes, and the sender goes on after the messages which the receiver has got (`done`). -/
inductive Reconnecting (E : Encoder τ α) (sE : τ) (D : Decoder σ α) (sD : σ) (dom : α → Prop) (msgs : List α) :
    List α → Prop
  | start : Reconnecting E sE D sD dom msgs []
  | broken {done : List α} {wstore rstore : Bytes} {p : Pipe τ σ α} :
      Reconnecting E sE D sD dom msgs done → rstore.length < 2 ^ 64 →
      PipeSteps E D dom (.new sE sD wstore rstore) p → p.sent <+: msgs.drop done.length → p.closed = false →
      Reconnecting E sE D sD dom msgs (done ++ p.got)

end Bytecodec.Spec
