import Verif.Spec.Decode
/-!
# Specification: receiving and sending streams of items
-/
namespace Bytecodec.Spec

variable {σ τ α : Type}

/-! ## Receiving -/

/-- The receiver may pass the bytes `c` with the marker `ec` to `decode`: `c` comes next in the stream
after position `pos`, and `ec` is `Eos::new(false)` or the true distance to the end, given that `e` is
the marker for the end of `stream`. -/
def Offer (stream : Bytes) (e : Eos) (pos : Nat) (c : Bytes) (ec : Eos) : Prop :=
  ∃ rest, stream.drop pos = c ++ rest ∧ (ec = Eos.new false ∨ ec = eosShift e rest.length)

/-- Any run of a receiver that offers the decoder pieces of `stream`, of any sizes, each time starting
right after the bytes consumed so far, and that takes each item when the decoder is idle.
`DecRun … s pos items`: the decoder is now in state `s`, has consumed `pos` bytes and has delivered
`items`. -/
inductive DecRun (D : Decoder σ α) (stream : Bytes) (e : Eos) (s₀ : σ) : σ → Nat → List α → Prop
  | new : DecRun D stream e s₀ s₀ 0 []
  | decode {s s' : σ} {pos n : Nat} {items : List α} {c : Bytes} {ec : Eos} :
      DecRun D stream e s₀ s pos items → D.isIdle s = false → Offer stream e pos c ec →
      D.decode s c ec = (.ok n, s') → DecRun D stream e s₀ s' (pos + n) items
  | finish {s s' : σ} {pos : Nat} {items : List α} {x : α} :
      DecRun D stream e s₀ s pos items → D.isIdle s = true → D.finish s = (.ok x, s') →
      DecRun D stream e s₀ s' pos (items ++ [x])

/-- In every run the decoder delivers exactly the messages `msgs`, in order, and each message takes
`size` bytes of the stream. (What happens after the last message is left open.) -/
structure Receives (D : Decoder σ α) (s₀ : σ) (stream : Bytes) (e : Eos) (msgs : List α) (size : α → Nat) :
    Prop where
  /-- the items are the messages -/
  inOrder : ∀ {s pos items}, DecRun D stream e s₀ s pos items →
    items.take msgs.length = msgs.take items.length
  /-- an idle decoder hands out the next message, and has consumed exactly the messages up to it -/
  ready : ∀ {s pos items x more}, DecRun D stream e s₀ s pos items → msgs = items ++ x :: more →
    D.isIdle s = true → (∃ s', D.finish s = (.ok x, s')) ∧ pos = ((items ++ [x]).map size).sum
  /-- otherwise `decode` succeeds; it takes all bytes offered unless it completes the message; it
  never goes beyond the message -/
  going : ∀ {s pos items x more c ec}, DecRun D stream e s₀ s pos items → msgs = items ++ x :: more →
    D.isIdle s = false → Offer stream e pos c ec →
    ∃ n s', D.decode s c ec = (.ok n, s') ∧ n ≤ c.length ∧ (D.isIdle s' = false → n = c.length) ∧
      pos + n ≤ ((items ++ [x]).map size).sum
  /-- given the whole rest of the stream it completes the message -/
  complete : ∀ {s pos items x more}, DecRun D stream e s₀ s pos items → msgs = items ++ x :: more →
    D.isIdle s = false → D.isIdle (D.decode s (stream.drop pos) e).2 = true

/-! ## Sending -/

/-- Any run of a sender that hands items to the encoder whenever it is idle, and calls `encode` with
output buffers of any sizes. With `strict`, the end of the stream may be announced in any of these
calls. `Sends … s items out`: the encoder is now in state `s`, has accepted `items` and emitted `out`. -/
inductive Sends (strict : Bool) (E : Encoder τ α) (s₀ : τ) : τ → List α → Bytes → Prop
  | new : Sends strict E s₀ s₀ [] []
  | start {s s' : τ} {items : List α} {out : Bytes} {x : α} : Sends strict E s₀ s items out →
      E.isIdle s = true → E.start s x = (.ok (), s') → Sends strict E s₀ s' (items ++ [x]) out
  | encode {s s' : τ} {items : List α} {out bs : Bytes} {cap : Nat} {e : Eos} :
      Sends strict E s₀ s items out → (strict = true ∨ e.isReached = false) →
      E.encode s cap e = (.ok bs, s') → Sends strict E s₀ s' items (out ++ bs)

/-- Everything that is sent is received: whatever buffer sizes the sender used, and however the bytes
are cut for the receiver, it gets the messages that were handed over, in order, and each of them is
`size` bytes long.
With `delim`, anything may follow the messages in the stream; otherwise the stream ends after the
message. With `again` (and `delim`), any number of messages; otherwise at most one. -/
def RoundTrips (strict delim again : Bool) (E : Encoder τ α) (sE : τ) (D : Decoder σ α) (sD : σ)
    (dom : α → Prop) (size : α → Nat) : Prop :=
  ∀ {s msgs out}, Sends strict E sE s msgs out → E.isIdle s = true → (∀ x ∈ msgs, dom x) →
    (delim = true ∧ again = true ∨ msgs.length ≤ 1) →
    ∀ tail e, EosSane e (out ++ tail).length → (delim = true ∨ tail = [] ∧ e.isReached = true) →
      out.length = (msgs.map size).sum ∧ Receives D sD (out ++ tail) e msgs size

end Bytecodec.Spec
