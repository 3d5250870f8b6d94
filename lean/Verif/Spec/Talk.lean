import Verif.Spec.Receive
import Verif.Model.Io
/-!
# Specification: protocols in which the format of a message depends on the messages before it

The two sides keep track of the state of the protocol. Each state has a message type and a format of its own, and each
message leads to the next state. Both sides use a new encoder or decoder for each message.
-/
namespace Bytecodec.Spec

/-- A protocol: its states, and for each state the type of the message that comes next, an encoder and a decoder in the
states returned by their constructors, and the state of the protocol after a message. -/
structure Protocol where
  Phase : Type
  Msg : Phase → Type
  EncState : Phase → Type
  DecState : Phase → Type
  E : ∀ q, Encoder (EncState q) (Msg q)
  sE : ∀ q, EncState q
  D : ∀ q, Decoder (DecState q) (Msg q)
  sD : ∀ q, DecState q
  next : ∀ q, Msg q → Phase

/-- A message, together with the state of the protocol in which it is sent. -/
abbrev Protocol.Said (P : Protocol) := (q : P.Phase) × P.Msg q

/-- The messages are a conversation that starts in the given state of the protocol. -/
def Conversation (P : Protocol) : P.Phase → List P.Said → Prop
  | _, [] => True
  | q, ⟨p, x⟩ :: rest => p = q ∧ Conversation P (P.next p x) rest

/-- The bytes of a conversation, given the encoding of each format. -/
def talkBytes (P : Protocol) (enc : ∀ q, P.Msg q → Except ErrorKind Bytes) : List P.Said → Bytes
  | [] => []
  | ⟨q, x⟩ :: rest => (match enc q x with | .ok b => b | .error _ => []) ++ talkBytes P enc rest

/-- The speaker: each message is given to a new encoder, and `encode_all` writes it to a `Vec`. `none` if anything
fails. -/
def speak (P : Protocol) : List P.Said → Bytes → Option Bytes
  | [], out => some out
  | ⟨q, x⟩ :: rest, out =>
    match (P.E q).start (P.sE q) x with
    | (.ok (), s) =>
      match encodeAll (P.E q) vecWriter s out with
      | some (.ok (), _, out') => speak P rest out'
      | _ => none
    | _ => none

/-- The listener: a read buffer, the part of the stream that has not been read yet, the state of the protocol, the
decoder for this state, and a record of the messages heard so far. -/
structure Listener (P : Protocol) where
  rbuf : ReadBuf
  unread : Bytes
  phase : P.Phase
  dec : P.DecState phase
  got : List P.Said

/-- The listener at the start, with a new read buffer over the given storage. -/
def Listener.new (P : Protocol) (q : P.Phase) (store stream : Bytes) : Listener P := ⟨.new store, stream, q, P.sD q, []⟩

/-- Anything the listener can do, in any order: fill its buffer from any reader of the stream, give the buffer to the
decoder, or take a message and go on with a new decoder for the next state. The read buffer is kept. -/
inductive ListenStep (P : Protocol) : Listener P → Listener P → Prop
  | fill {t : Listener P} {ρ : Type} {R : Reader ρ} {r r' : ρ} {res : Res Unit} {b' : ReadBuf}
      {log : List ReadRes} {unread' : Bytes} : HonestReader R →
      t.rbuf.fill (loggedReader R) (r, []) = (res, b', (r', log)) → t.unread = delivered log ++ unread' →
      (.data [] ∈ log → unread' = []) → ListenStep P t { t with rbuf := b', unread := unread' }
  | decode {t : Listener P} {s' : P.DecState t.phase} {b' : ReadBuf} : (P.D t.phase).isIdle t.dec = false →
      decodeFromReadBuf (P.D t.phase) t.dec t.rbuf = (.ok (), s', b') →
      ListenStep P t { t with dec := s', rbuf := b' }
  | finish {t : Listener P} {s' : P.DecState t.phase} {x : P.Msg t.phase} : (P.D t.phase).isIdle t.dec = true →
      (P.D t.phase).finish t.dec = (.ok x, s') →
      ListenStep P t ⟨t.rbuf, t.unread, P.next t.phase x, P.sD (P.next t.phase x), t.got ++ [⟨t.phase, x⟩]⟩

/-- Any number of steps. -/
inductive ListenSteps (P : Protocol) : Listener P → Listener P → Prop
  | refl {t : Listener P} : ListenSteps P t t
  | step {t u v : Listener P} : ListenSteps P t u → ListenStep P u v → ListenSteps P t v

/-- The listener got ahead in this step: it read something, the decoder took bytes from the buffer or completed the
message, or a message was taken. -/
def Advances {P : Protocol} (t u : Listener P) : Prop :=
  u.unread ≠ t.unread ∨ u.rbuf.len < t.rbuf.len ∨ u.got ≠ t.got ∨
  (P.D t.phase).isIdle t.dec = false ∧ (P.D u.phase).isIdle u.dec = true

/-- Any number of steps, at least `n` of which got ahead. -/
inductive ListenRun (P : Protocol) : Listener P → Nat → Listener P → Prop
  | refl {t : Listener P} : ListenRun P t 0 t
  | ahead {t u v : Listener P} {n : Nat} : ListenRun P t n u → ListenStep P u v → Advances u v → ListenRun P t (n + 1) v
  | other {t u v : Listener P} {n : Nat} : ListenRun P t n u → ListenStep P u v → ListenRun P t n v

end Bytecodec.Spec
