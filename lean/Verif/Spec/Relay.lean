import Verif.Spec.Pipeline
/-!
# Specification: a relay between two pipes

A program that receives messages in one format from a sender, translates each of them with `f`, and sends the results in
another format to a receiver. Both sides have their own codecs, buffers and byte pipes, of any sizes and schedules. The
relay keeps no queue of its own: it takes a message from its decoder only when its encoder is ready for the next one.
-/
namespace Bytecodec.Spec

variable {τ σ α τ' σ' β : Type}

/-- The pipe from the sender to the relay, and the pipe from the relay to the receiver. -/
structure Relay (τ σ α τ' σ' β : Type) where
  up : Pipe τ σ α
  down : Pipe τ' σ' β

/-- Anything the three programs can do, in any order.
* On the way to the relay: all that can happen in a pipe (C51), except that only `forward` takes a message from the
  relay's decoder.
* On the way to the receiver: likewise, except that only `forward` hands a message to the relay's encoder.
* `forward`: the relay's decoder has a message, and its encoder is idle. -/
inductive RelayStep (E : Encoder τ α) (D : Decoder σ α) (dom : α → Prop) (E' : Encoder τ' β) (D' : Decoder σ' β)
    (dom' : β → Prop) (f : α → β) : Relay τ σ α τ' σ' β → Relay τ σ α τ' σ' β → Prop
  | up {r : Relay τ σ α τ' σ' β} {p : Pipe τ σ α} : PipeStep E D dom r.up p → p.got = r.up.got →
      RelayStep E D dom E' D' dom' f r { r with up := p }
  | down {r : Relay τ σ α τ' σ' β} {q : Pipe τ' σ' β} : PipeStep E' D' dom' r.down q → q.sent = r.down.sent →
      RelayStep E D dom E' D' dom' f r { r with down := q }
  | forward {r : Relay τ σ α τ' σ' β} {x : α} {s : σ} {t : τ'} : D.isIdle r.up.dec = true →
      r.down.closed = false → E'.isIdle r.down.enc = true → D.finish r.up.dec = (.ok x, s) → dom' (f x) →
      E'.start r.down.enc (f x) = (.ok (), t) →
      RelayStep E D dom E' D' dom' f r
        ⟨{ r.up with dec := s, got := r.up.got ++ [x] }, { r.down with enc := t, sent := r.down.sent ++ [f x] }⟩

/-- Any number of steps. -/
inductive RelaySteps (E : Encoder τ α) (D : Decoder σ α) (dom : α → Prop) (E' : Encoder τ' β) (D' : Decoder σ' β)
    (dom' : β → Prop) (f : α → β) : Relay τ σ α τ' σ' β → Relay τ σ α τ' σ' β → Prop
  | refl {r : Relay τ σ α τ' σ' β} : RelaySteps E D dom E' D' dom' f r r
  | step {r s t : Relay τ σ α τ' σ' β} : RelaySteps E D dom E' D' dom' f r s → RelayStep E D dom E' D' dom' f s t →
      RelaySteps E D dom E' D' dom' f r t

/-! ## Any number of relays -/

section

variable {τ σ α : Nat → Type}

/-- Pipes in a row, each with its own format: the pipe 0 leads from the sender to the first relay, and so on. -/
abbrev Chain (τ σ α : Nat → Type) : Type := ∀ i, Pipe (τ i) (σ i) (α i)

/-- The row with another pipe at place `i`. -/
def Chain.put (c : Chain τ σ α) (i : Nat) (p : Pipe (τ i) (σ i) (α i)) : Chain τ σ α :=
  fun j => if h : i = j then h ▸ p else c j

/-- Anything the programs along the pipes 0, …, `n` can do, in any order. At the inner places messages are taken from a
decoder and handed to the next encoder only by `forward`, which translates them with `f i`. -/
inductive ChainStep (E : ∀ i, Encoder (τ i) (α i)) (D : ∀ i, Decoder (σ i) (α i)) (dom : ∀ i, α i → Prop)
    (f : ∀ i, α i → α (i + 1)) (n : Nat) : Chain τ σ α → Chain τ σ α → Prop
  | within {c : Chain τ σ α} (i : Nat) {p : Pipe (τ i) (σ i) (α i)} : i ≤ n → PipeStep (E i) (D i) (dom i) (c i) p →
      (0 < i → p.sent = (c i).sent) → (i < n → p.got = (c i).got) → ChainStep E D dom f n c (c.put i p)
  | forward {c : Chain τ σ α} (i : Nat) {x : α i} {s : σ i} {t : τ (i + 1)} : i < n → (D i).isIdle (c i).dec = true →
      (c (i + 1)).closed = false → (E (i + 1)).isIdle (c (i + 1)).enc = true → (D i).finish (c i).dec = (.ok x, s) →
      dom (i + 1) (f i x) → (E (i + 1)).start (c (i + 1)).enc (f i x) = (.ok (), t) →
      ChainStep E D dom f n c
        ((c.put i { c i with dec := s, got := (c i).got ++ [x] }).put (i + 1)
          { c (i + 1) with enc := t, sent := (c (i + 1)).sent ++ [f i x] })

/-- Any number of steps. -/
inductive ChainSteps (E : ∀ i, Encoder (τ i) (α i)) (D : ∀ i, Decoder (σ i) (α i)) (dom : ∀ i, α i → Prop)
    (f : ∀ i, α i → α (i + 1)) (n : Nat) : Chain τ σ α → Chain τ σ α → Prop
  | refl {c : Chain τ σ α} : ChainSteps E D dom f n c c
  | step {b c d : Chain τ σ α} : ChainSteps E D dom f n b c → ChainStep E D dom f n c d → ChainSteps E D dom f n b d

/-- The first `n` translations, one after the other. -/
def translated (f : ∀ i, α i → α (i + 1)) : ∀ n, α 0 → α n
  | 0, x => x
  | n + 1, x => f n (translated f n x)

end

end Bytecodec.Spec
