import Verif.Spec.Relay
/-!
# Specification: steps of a pipe, or of a relay, that get ahead
-/
namespace Bytecodec.Spec

variable {τ σ α τ' σ' β : Type}

/-- Something got ahead in this step: a message was handed over or taken, bytes moved from the encoder to the write buffer,
to the pipe, to the read buffer or to the decoder, or the encoder or the decoder completed a message. -/
def Ahead (E : Encoder τ α) (D : Decoder σ α) (p q : Pipe τ σ α) : Prop :=
  q.sent ≠ p.sent ∨ q.wbuf.len ≠ p.wbuf.len ∨ q.wire ≠ p.wire ∨ q.rbuf.len ≠ p.rbuf.len ∨ q.got ≠ p.got ∨
  E.isIdle p.enc = false ∧ E.isIdle q.enc = true ∨ D.isIdle p.dec = false ∧ D.isIdle q.dec = true

/-- Any number of steps, at least `n` of which got ahead. -/
inductive PipeRun (E : Encoder τ α) (D : Decoder σ α) (dom : α → Prop) : Pipe τ σ α → Nat → Pipe τ σ α → Prop
  | refl {p : Pipe τ σ α} : PipeRun E D dom p 0 p
  | ahead {p q r : Pipe τ σ α} {n : Nat} : PipeRun E D dom p n q → PipeStep E D dom q r → Ahead E D q r →
      PipeRun E D dom p (n + 1) r
  | other {p q r : Pipe τ σ α} {n : Nat} : PipeRun E D dom p n q → PipeStep E D dom q r → PipeRun E D dom p n r

/-- Any number of steps of a sender, a relay, a receiver and the two pipes, with at least `n` steps in which something got
ahead in one of the pipes. -/
inductive RelayRun (E : Encoder τ α) (D : Decoder σ α) (dom : α → Prop) (E' : Encoder τ' β) (D' : Decoder σ' β)
    (dom' : β → Prop) (f : α → β) : Relay τ σ α τ' σ' β → Nat → Relay τ σ α τ' σ' β → Prop
  | refl {r : Relay τ σ α τ' σ' β} : RelayRun E D dom E' D' dom' f r 0 r
  | ahead {r s t : Relay τ σ α τ' σ' β} {n : Nat} : RelayRun E D dom E' D' dom' f r n s →
      RelayStep E D dom E' D' dom' f s t → Ahead E D s.up t.up ∨ Ahead E' D' s.down t.down →
      RelayRun E D dom E' D' dom' f r (n + 1) t
  | other {r s t : Relay τ σ α τ' σ' β} {n : Nat} : RelayRun E D dom E' D' dom' f r n s →
      RelayStep E D dom E' D' dom' f s t → RelayRun E D dom E' D' dom' f r n t

/-- Any number of steps of the programs along the pipes 0, …, `n`, with at least `k` steps in which something got ahead in
one of these pipes. -/
inductive ChainRun {τ σ α : Nat → Type} (E : ∀ i, Encoder (τ i) (α i)) (D : ∀ i, Decoder (σ i) (α i))
    (dom : ∀ i, α i → Prop) (f : ∀ i, α i → α (i + 1)) (n : Nat) : Chain τ σ α → Nat → Chain τ σ α → Prop
  | refl {c : Chain τ σ α} : ChainRun E D dom f n c 0 c
  | ahead {b c d : Chain τ σ α} {k : Nat} : ChainRun E D dom f n b k c → ChainStep E D dom f n c d →
      (∃ i ≤ n, Ahead (E i) (D i) (c i) (d i)) → ChainRun E D dom f n b (k + 1) d
  | other {b c d : Chain τ σ α} {k : Nat} : ChainRun E D dom f n b k c → ChainStep E D dom f n c d →
      ChainRun E D dom f n b k d

end Bytecodec.Spec
